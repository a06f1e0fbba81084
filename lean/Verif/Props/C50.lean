import Verif.Model.Vip
import Verif.Proofs.Slice
import Verif.Proofs.SweepJobs
import Verif.Props.C42
import Verif.Props.C51
/-! # C50 The bed program of SliceByPlanes -/
set_option linter.unusedSectionVars false
namespace Goosli
open Flt

variable {α : Type} [Flt α]

/-- where the bed stands: inclined by so many degrees and turned to this angle -/
structure BedAt (α : Type) where
  tilt : α
  turn : α

/-- what a command does to the bed. Both axes are driven to absolute positions. -/
def BedAt.after (b : BedAt α) : Command α → BedAt α
  | .inclineX => ⟨lit 60 0, b.turn⟩
  | .inclineXBack => ⟨lit 0 0, b.turn⟩
  | .rotateZ a => ⟨b.tilt, a⟩
  | .rotateXZ x z => ⟨x, z⟩
  | .layersMoving _ => b

/-- the groups of layers a command list prints, each with the position of the bed while it is printed -/
def printedWith : BedAt α → List (Command α) → List (BedAt α × List (Layer α))
  | _, [] => []
  | b, .layersMoving ls :: cs => (b, ls) :: printedWith b cs
  | b, c :: cs => printedWith (b.after c) cs

/-- the bed at the end of a command list -/
def bedAtEnd (b : BedAt α) (cs : List (Command α)) : BedAt α := cs.foldl BedAt.after b

/-- where the bed belongs while part `i` is printed: flat at zero for the first part, as plane `i - 1` says for the others -/
def bedOfPart (planes : List (AnalyzedPlane α)) : Nat → BedAt α
  | 0 => ⟨lit 0 0, lit 0 0⟩
  | i + 1 => match planes[i]? with
    | some p => ⟨if p.tilted then lit 60 0 else lit 0 0, p.rotz⟩
    | none => ⟨lit 0 0, lit 0 0⟩

/-- part `i` in the frame of the nozzle when the bed stands as it should -/
def partInFrame (center : Point α) (planes : List (AnalyzedPlane α)) (m : Mesh α) : Nat → Mesh α
  | 0 => m
  | i + 1 => match planes[i]? with
    | some p =>
      let t := m.rotate (rotationAroundZ p.rotz) center
      if p.tilted then t.rotate (rotationAroundX (-lit 60 0)) center else t
    | none => m

/-- the parts: the model is cut by the last plane, what is below it by the last but one, and so on -/
def CutInto (S : Sorter) (mesh : Mesh α) (planes : List (AnalyzedPlane α)) (parts : List (Mesh α)) : Prop :=
  ∃ below : Nat → Mesh α, below planes.length = mesh ∧ parts[0]? = some (below 0) ∧ parts.length = planes.length + 1 ∧
    ∀ i p, planes[i]? = some p → ∃ up, parts[i + 1]? = some up ∧ cutMesh S (some (below (i + 1))) p.plane = .ok (up, below i)

/-- skirt around the first layer -/
def withSkirt (sett : Settings α) : List (Layer α) → List (Layer α)
  | [] => []
  | l :: t => skirtPathes l sett.skirtLineCount sett.gs.lineWidth :: t

theorem printedWith_append (cs ds : List (Command α)) : ∀ b : BedAt α,
    printedWith b (cs ++ ds) = printedWith b cs ++ printedWith (bedAtEnd b cs) ds := by
  induction cs with
  | nil => intro b; rfl
  | cons c cs ih =>
    intro b
    cases c <;> simp only [List.cons_append, printedWith, bedAtEnd, List.foldl_cons, ih] <;> rfl

theorem bedAtEnd_append (b : BedAt α) (cs ds : List (Command α)) : bedAtEnd b (cs ++ ds) = bedAtEnd (bedAtEnd b cs) ds := by
  simp [bedAtEnd]

theorem cutParts_spec (S : Sorter) (mesh : Mesh α) : ∀ planes : List (AnalyzedPlane α),
    ∃ parts, cutParts S mesh planes = .ok parts ∧ CutInto S mesh planes parts := by
  intro planes
  induction planes with
  | nil => exact ⟨[mesh], rfl, fun _ => mesh, rfl, rfl, rfl, by simp⟩
  | cons p ps ih =>
    obtain ⟨parts, h, below, h1, h2, h3, h4⟩ := ih
    cases parts with
    | nil => simp at h3
    | cons low rest =>
      obtain ⟨up, down, hc⟩ := cutMesh_total S (some low) p.plane
      refine ⟨down :: up :: rest, ?_, fun | 0 => down | i + 1 => below i, by simpa using h1, rfl, by simpa using h3, ?_⟩
      · unfold cutParts
        simp only [h, go_ok_bind, hc]
        rfl
      · intro i q hq
        have hlow : low = below 0 := by simpa using h2
        cases i with
        | zero =>
          have hp : p = q := by simpa using hq
          subst hp
          exact ⟨up, rfl, by show cutMesh S (some (below 0)) p.plane = _; rw [← hlow]; exact hc⟩
        | succ i => exact h4 i q (by simpa using hq)

/-- one part after another: `rotated` tells whether the bed is inclined, `z` where it is turned to -/
theorem partsLoop_spec (S : Sorter) (A : Arrival α) (sett : Settings α) (fp : List (Plane α) × List (Plane α)) :
    ∀ (ps : List ((Bool × α) × Mesh α)) (i : Nat) (rotated : Bool) (z : α) (g g' : Gcode α),
      partsLoop S A sett fp i ps rotated g = .ok g' → (i = 0 → ∀ q, ps[0]? = some q → z = q.1.2) →
      ∃ cs, g'.cmds = g.cmds ++ cs ∧ g'.settings = g.settings ∧
        (printedWith ⟨if rotated then lit 60 0 else lit 0 0, z⟩ cs).length = ps.length ∧
        (∀ q, ps.getLast? = some q →
          bedAtEnd ⟨if rotated then lit 60 0 else lit 0 0, z⟩ cs = ⟨if q.1.1 then lit 60 0 else lit 0 0, q.1.2⟩) ∧
        ∀ (n : Nat) (q : (Bool × α) × Mesh α), ps[n]? = some q → ∃ raw out,
          sliceByVector S A (some (turnPart sett.rotationCenter (i + n) q.1 q.2)) axisZ sett = .ok raw ∧
          prepareLayers S raw sett fp.1 fp.2 = .ok out ∧
          (printedWith ⟨if rotated then lit 60 0 else lit 0 0, z⟩ cs)[n]? =
            some (⟨if q.1.1 then lit 60 0 else lit 0 0, q.1.2⟩, if i + n = 0 then withSkirt sett out else out) := by
  intro ps
  induction ps with
  | nil =>
    intro i rotated z g g' h _
    cases h
    exact ⟨[], by simp, rfl, rfl, by simp, by simp⟩
  | cons q ps ih =>
    intro i rotated z g g' h hz
    obtain ⟨⟨tilted, rotz⟩, m⟩ := q
    unfold partsLoop at h
    obtain ⟨raw, h1, h⟩ := bind_ok h
    obtain ⟨out, h2, h⟩ := bind_ok h
    obtain ⟨cs, e1, e2, e3, e4, e5⟩ := ih (i + 1) tilted rotz _ g' h (by omega)
    obtain ⟨ds, hds, hbed, hnone, hset⟩ : ∃ ds, (bedCommands i (tilted, rotz) rotated g).cmds = g.cmds ++ ds ∧
        bedAtEnd ⟨if rotated then lit 60 0 else lit 0 0, z⟩ ds = ⟨if tilted then lit 60 0 else lit 0 0, rotz⟩ ∧
        printedWith ⟨if rotated then lit 60 0 else lit 0 0, z⟩ ds = [] ∧
        (bedCommands i (tilted, rotz) rotated g).settings = g.settings := by
      unfold bedCommands Gcode.add
      by_cases hi : i = 0
      · have := hz hi ((tilted, rotz), m) rfl
        simp only at this
        subst this hi
        cases tilted <;> cases rotated
        · exact ⟨[], by simp, rfl, rfl, rfl⟩
        · exact ⟨[.inclineXBack], by simp, rfl, rfl, rfl⟩
        · exact ⟨[.inclineX], by simp, rfl, rfl, rfl⟩
        · exact ⟨[.inclineX], by simp, rfl, rfl, rfl⟩
      · rw [if_pos hi]
        cases tilted <;> cases rotated
        · exact ⟨[.rotateZ rotz], by simp, rfl, rfl, rfl⟩
        · exact ⟨[.rotateZ rotz, .inclineXBack], by simp, rfl, rfl, rfl⟩
        · exact ⟨[.rotateZ rotz, .inclineX], by simp, rfl, rfl, rfl⟩
        · exact ⟨[.rotateZ rotz, .inclineX], by simp, rfl, rfl, rfl⟩
    have hskirt : ∀ ls : List (Layer α), skirtFirst sett ls = withSkirt sett ls := by intro ls; cases ls <;> rfl
    rw [hskirt] at e1
    obtain ⟨filled, hfill⟩ : ∃ f, f = if i = 0 then withSkirt sett out else out := ⟨_, rfl⟩
    rw [← hfill] at e1
    refine ⟨ds ++ .layersMoving filled :: cs, ?_, ?_, ?_, ?_, ?_⟩
    · rw [e1]
      unfold Gcode.addLayers Gcode.add
      simp [hds]
    · rw [e2]; exact hset
    · rw [printedWith_append, hnone, hbed]
      simp [printedWith, e3]
    · intro q hq
      rw [bedAtEnd_append, hbed]
      show bedAtEnd _ cs = _
      cases ps with
      | nil =>
        have hcs : cs = [] := by
          unfold partsLoop at h
          injection h with h
          rw [← h, hskirt, ← hfill] at e1
          simpa using e1
        subst hcs
        have : ((tilted, rotz), m) = q := by simpa using hq
        subst this
        rfl
      | cons r ps => exact e4 q (by simpa using hq)
    · intro n q hq
      rw [printedWith_append, hnone, hbed]
      cases n with
      | zero =>
        have : ((tilted, rotz), m) = q := by simpa using hq
        subst this
        exact ⟨raw, out, h1, h2, by simp [printedWith, hfill]⟩
      | succ n =>
        obtain ⟨raw', out', k1, k2, k3⟩ := e5 n q (by simpa using hq)
        have : i + 1 + n = i + (n + 1) := by omega
        rw [this] at k1 k3
        exact ⟨raw', out', k1, k2, by simpa [printedWith] using k3⟩

/-- **C50.** Every program `SliceByPlanes` returns for `k` planes prints exactly `k + 1` groups of layers in order. Group `i` consists of the
layers of part `i` of the model, which is turned as the bed is; and while it is printed the bed is turned to the angle of plane `i - 1` and
inclined exactly if that plane is tilted (flat and at zero for the first group). -/
theorem C50_program (S : Sorter) (A : Arrival α) (mesh : Mesh α) (sett : Settings α) (planes : List (AnalyzedPlane α)) (g : Gcode α)
    (h : sliceByPlanes S A mesh sett planes = .ok g) :
    ∃ parts, CutInto S mesh planes parts ∧ (printedWith ⟨lit 0 0, lit 0 0⟩ g.cmds).length = planes.length + 1 ∧
      ∀ i ≤ planes.length, ∃ part raw out, parts[i]? = some part ∧
        sliceByVector S A (some (partInFrame sett.rotationCenter planes part i)) axisZ sett = .ok raw ∧
        prepareLayers S raw sett (calcFillPlanes mesh sett).1 (calcFillPlanes mesh sett).2 = .ok out ∧
        (printedWith ⟨lit 0 0, lit 0 0⟩ g.cmds)[i]? =
          some (bedOfPart planes i, if i = 0 then withSkirt sett out else out) := by
  obtain ⟨parts, hp, hcut⟩ := cutParts_spec S mesh planes
  have hlen : parts.length = planes.length + 1 := hcut.choose_spec.2.2.1
  unfold sliceByPlanes at h
  simp only [hp, go_ok_bind] at h
  obtain ⟨cs, e1, e2, e3, e4, e5⟩ := partsLoop_spec S A sett _ _ 0 false (lit 0 0) _ g h (by
    intro _ q hq
    unfold calcBedPlanes at hq
    cases parts with
    | nil => simp at hlen
    | cons a t => simp at hq; subst hq; rfl)
  have hcs : g.cmds = cs := by rw [e1]; rfl
  have hbl : (calcBedPlanes planes).length = planes.length + 1 := by simp [calcBedPlanes]
  rw [hcs]
  simp only [Bool.false_eq_true, if_false] at e3 e5
  refine ⟨parts, hcut, by rw [e3]; simp [hlen, hbl], ?_⟩
  intro i hi
  obtain ⟨part, hpart⟩ : ∃ part, parts[i]? = some part := ⟨_, List.getElem?_eq_getElem (by omega)⟩
  cases i with
  | zero =>
    obtain ⟨raw, out, k1, k2, k3⟩ := e5 0 ((false, lit 0 0), part) (by
      rw [List.getElem?_zip_eq_some]
      exact ⟨rfl, hpart⟩)
    refine ⟨part, raw, out, hpart, ?_, k2, by simpa [bedOfPart] using k3⟩
    exact k1
  | succ i =>
    obtain ⟨p, hpl⟩ : ∃ p, planes[i]? = some p := ⟨_, List.getElem?_eq_getElem (by omega)⟩
    obtain ⟨raw, out, k1, k2, k3⟩ := e5 (i + 1) ((p.tilted, p.rotz), part) (by
      rw [List.getElem?_zip_eq_some]
      exact ⟨by simp [calcBedPlanes, hpl], hpart⟩)
    refine ⟨part, raw, out, hpart, ?_, k2, by simpa [bedOfPart, hpl] using k3⟩
    rw [Nat.zero_add] at k1
    simpa [partInFrame, hpl, turnPart, tiltX] using k1

/-- The program does not bring the bed back: it ends turned to the angle of the last plane, and inclined if the last plane is tilted. -/
theorem C50_end (S : Sorter) (A : Arrival α) (mesh : Mesh α) (sett : Settings α) (planes : List (AnalyzedPlane α)) (g : Gcode α)
    (h : sliceByPlanes S A mesh sett planes = .ok g) :
    bedAtEnd ⟨lit 0 0, lit 0 0⟩ g.cmds = bedOfPart planes planes.length := by
  obtain ⟨parts, hp, hcut⟩ := cutParts_spec S mesh planes
  have hlen : parts.length = planes.length + 1 := hcut.choose_spec.2.2.1
  unfold sliceByPlanes at h
  simp only [hp, go_ok_bind] at h
  obtain ⟨cs, e1, e2, e3, e4, e5⟩ := partsLoop_spec S A sett _ _ 0 false (lit 0 0) _ g h (by
    intro _ q hq
    unfold calcBedPlanes at hq
    cases parts with
    | nil => simp at hlen
    | cons a t => simp at hq; subst hq; rfl)
  have hcs : g.cmds = cs := by rw [e1]; rfl
  have hbl : (calcBedPlanes planes).length = planes.length + 1 := by simp [calcBedPlanes]
  rw [hcs]
  simp only [Bool.false_eq_true, if_false] at e4
  have hz : ((calcBedPlanes planes).zip parts).length = planes.length + 1 := by simp [hlen, hbl]
  obtain ⟨part, hpart⟩ : ∃ part, parts[planes.length]? = some part := ⟨_, List.getElem?_eq_getElem (by omega)⟩
  cases hk : planes.length with
  | zero =>
    have hnil : planes = [] := by simpa using hk
    subst hnil
    rw [e4 ((false, lit 0 0), part)]
    · rfl
    · rw [List.getLast?_eq_getElem?, hz, List.getElem?_zip_eq_some]
      exact ⟨rfl, hpart⟩
  | succ k =>
    obtain ⟨p, hpl⟩ : ∃ p, planes[k]? = some p := ⟨_, List.getElem?_eq_getElem (by omega)⟩
    rw [e4 ((p.tilted, p.rotz), part)]
    · simp [bedOfPart, hpl]
    · rw [List.getLast?_eq_getElem?, hz, List.getElem?_zip_eq_some]
      rw [hk] at hpart ⊢
      exact ⟨by simp [calcBedPlanes, hpl], hpart⟩

theorem sliceByVector_fill (S : Sorter) (A : Arrival α) (m : Option (Mesh α)) (Z : Vec α) (sett : Settings α) (layers : List (Layer α))
    (h : sliceByVector S A m Z sett = .ok layers) : ∀ l ∈ layers, l.fill = [] ∧ l.innerPs = [] ∧ l.middlePs = [] := by
  unfold sliceByVector at h
  cases m with
  | none => cases h; simp
  | some m =>
    simp only at h
    split at h
    · cases h; simp
    · obtain ⟨jobs, h1, h⟩ := bind_ok h
      obtain ⟨results, h2, h⟩ := bind_ok h
      have hres : ∀ l ∈ results, l.fill = [] ∧ l.innerPs = [] ∧ l.middlePs = [] := by
        intro l hl
        obtain ⟨j, hj⟩ : ∃ j, runJob S j = .ok l := by
          obtain ⟨n, hn, rfl⟩ := List.mem_iff_getElem.1 hl
          have hf := mapM_mem _ _ _ h2
          exact ⟨_, (List.forall₂_iff_get.1 hf).2 n (by rw [hf.length_eq]; exact hn) hn⟩
        unfold runJob at hj
        obtain ⟨ps, _, hj⟩ := bind_ok hj
        cases hj
        exact ⟨rfl, rfl, rfl⟩
      intro l hl
      have hmem : l ∈ S.run (fun a b : Layer α => decide (a.order < b.order)) (A.run results) := by
        obtain ⟨pre, post, hk, _⟩ := trimEmpty_spec _ _ h
        rw [hk]
        simp [hl]
      exact hres l ((A.perm results).mem_iff.1 ((S.perm _ _).mem_iff.1 hmem))

theorem addWalls_fill (count : Int) (w : α) (l : Layer α) : (addWalls count w l).fill = l.fill := rfl

/-- preparing freshly sliced layers always succeeds -/
theorem prepareLayers_total (S : Sorter) (layers : List (Layer α)) (sett : Settings α) (fp ff : List (Plane α))
    (h : ∀ l ∈ layers, ∀ q ∈ l.fill, q.points ≠ []) : ∃ out, prepareLayers S layers sett fp ff = .ok out := by
  unfold prepareLayers
  obtain ⟨out, h, _⟩ := C42_fill S (if 0 < toInt (sett.wallThickness / sett.gs.lineWidth) - 1 then
    layers.map (addWalls (toInt (sett.wallThickness / sett.gs.lineWidth) - 1) sett.gs.lineWidth) else layers) fp ff sett (by
      intro l hl
      split at hl
      · obtain ⟨l', hl', rfl⟩ := List.mem_map.1 hl
        rw [addWalls_fill]
        exact h l' hl'
      · exact h l hl)
  exact ⟨out, h⟩

/-- `SliceByPlanes` can only fail where `SliceByVector` fails on one of the turned parts: cutting, walls, filling and the skirt never do. -/
theorem C50_fails_only_slicing (S : Sorter) (A : Arrival α) (mesh : Mesh α) (sett : Settings α) (planes : List (AnalyzedPlane α))
    (e : GoErr) (h : sliceByPlanes S A mesh sett planes = .error e) :
    ∃ parts i part, CutInto S mesh planes parts ∧ parts[i]? = some part ∧
      sliceByVector S A (some (partInFrame sett.rotationCenter planes part i)) axisZ sett = .error e := by
  have key : ∀ (fp : List (Plane α) × List (Plane α)) (ps : List ((Bool × α) × Mesh α)) (i : Nat) (rotated : Bool) (g : Gcode α),
      partsLoop S A sett fp i ps rotated g = .error e → ∃ (n : Nat) (q : (Bool × α) × Mesh α), ps[n]? = some q ∧
        sliceByVector S A (some (turnPart sett.rotationCenter (i + n) q.1 q.2)) axisZ sett = .error e := by
    intro fp ps
    induction ps with
    | nil => intro i rotated g h; cases h
    | cons q ps ih =>
      intro i rotated g h
      obtain ⟨bed, m⟩ := q
      unfold partsLoop at h
      cases hs : sliceByVector S A (some (turnPart sett.rotationCenter i bed m)) axisZ sett with
      | error e' =>
        rw [hs] at h
        cases h
        exact ⟨0, (bed, m), rfl, hs⟩
      | ok raw =>
        obtain ⟨out, ho⟩ := prepareLayers_total S raw sett fp.1 fp.2 (by
          intro l hl q hq
          rw [(sliceByVector_fill S A _ _ _ _ hs l hl).1] at hq
          cases hq)
        simp only [hs, go_ok_bind, ho] at h
        obtain ⟨n, q, h1, h2⟩ := ih (i + 1) _ _ h
        refine ⟨n + 1, q, by simpa using h1, ?_⟩
        have : i + (n + 1) = i + 1 + n := by omega
        rw [this]
        exact h2
  obtain ⟨parts, hp, hcut⟩ := cutParts_spec S mesh planes
  unfold sliceByPlanes at h
  simp only [hp, go_ok_bind] at h
  obtain ⟨n, q, h1, h2⟩ := key _ _ _ _ _ h
  rw [List.getElem?_zip_eq_some] at h1
  refine ⟨parts, n, q.2, hcut, h1.2, ?_⟩
  rw [Nat.zero_add] at h2
  obtain ⟨bed, part⟩ := q
  cases n with
  | zero =>
    have : bed = (false, lit 0 0) := by simpa [calcBedPlanes] using h1.1.symm
    subst this
    exact h2
  | succ n =>
    obtain ⟨p, hp', hb⟩ : ∃ p, planes[n]? = some p ∧ (p.tilted, p.rotz) = bed := by simpa [calcBedPlanes] using h1.1
    subst hb
    simpa [partInFrame, hp', turnPart, tiltX] using h2

section Examples
attribute [local instance] Toy.flt
private def planeSett : Settings Int :=
  ⟨⟨1, 1, 1, 1, true, 50, 20, 30, true, 40, 5⟩, 1, 2, 3, 20, ⟨0, 0, 0⟩, "Lines", 30, ⟨0, 0, 1⟩, false, 0, 1, 1, 0⟩

/-- an empty model and three planes, two of them tilted one after the other: the program exists, prints four groups, inclines the bed for
the second and the third and brings it back for the last -/
example : (sliceByPlanes Sorter.insertion ⟨id, fun _ => List.Perm.refl _⟩ (⟨[]⟩ : Mesh Int) planeSett
    [⟨⟨⟨0, 0, 3⟩, ⟨0, 0, 1⟩⟩, true, 90⟩, ⟨⟨⟨0, 0, 5⟩, ⟨0, 0, 1⟩⟩, true, 45⟩, ⟨⟨⟨0, 0, 9⟩, ⟨0, 0, 1⟩⟩, false, 0⟩]).map
      (fun g => (printedWith ⟨0, 0⟩ g.cmds).map fun q => (q.1.tilt, q.1.turn)) =
    .ok [(0, 0), (60, 90), (60, 45), (0, 0)] := by rfl
end Examples

end Goosli
