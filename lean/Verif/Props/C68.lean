import Verif.Props.C66
import Verif.Props.C36
import Verif.Props.C64
/-!
# C68: the flags of goosli reach the printer
-/
set_option linter.unusedSectionVars false
set_option autoImplicit false
namespace Goosli
open Flt Spec
variable {α : Type} [Flt α]

/-- the second program continues the first with the same settings; the new commands satisfy `P` -/
def Continues (P : Command α → Prop) (g g' : Gcode α) : Prop := g'.settings = g.settings ∧ ∃ cs, g'.cmds = g.cmds ++ cs ∧ ∀ c ∈ cs, P c

theorem Continues.refl {P : Command α → Prop} (g : Gcode α) : Continues P g g := ⟨rfl, [], by simp, by simp⟩

theorem Continues.trans {P : Command α → Prop} {g g' g'' : Gcode α} (h : Continues P g g') (h' : Continues P g' g'') : Continues P g g'' := by
  obtain ⟨h1, cs, h2, h3⟩ := h
  obtain ⟨h4, ds, h5, h6⟩ := h'
  refine ⟨h4.trans h1, cs ++ ds, by rw [h5, h2, List.append_assoc], ?_⟩
  intro c hc
  rcases List.mem_append.1 hc with hc | hc
  · exact h3 c hc
  · exact h6 c hc

theorem Continues.add {P : Command α → Prop} {g g' : Gcode α} {c : Command α} (h : Continues P g g') (hc : P c) :
    Continues P g (g'.add c) :=
  h.trans ⟨rfl, [c], rfl, by simpa using hc⟩

/-- layers or a turn of both axes at once -/
def LayersOrXZ (c : Command α) : Prop := (∃ ls, c = .layersMoving ls) ∨ ∃ a b, c = .rotateXZ a b

theorem profileLoop_continues (S : Sorter) (A : Arrival α) (sett : Settings α) : ∀ (qs : List (Point α × Point α)) (m : Mesh α)
    (g g' : Gcode α), profileLoop S A sett qs m g = .ok g' → Continues LayersOrXZ g g' := by
  intro qs
  induction qs with
  | nil => intro m g g' h; rw [← pure_ok h]; exact Continues.refl g
  | cons q t ih =>
    intro m g g' h
    unfold profileLoop at h
    obtain ⟨⟨up, down⟩, _, h⟩ := bind_ok h
    obtain ⟨layers, _, h⟩ := bind_ok h
    refine Continues.trans ?_ (ih _ _ _ h)
    exact ((Continues.refl g).add (Or.inr ⟨_, _, rfl⟩)).add (Or.inl ⟨_, rfl⟩)

theorem fiveTurn_continues (S : Sorter) (A : Arrival α) (sett : Settings α) (st st' : FiveSt α) (i : Nat) (pl : Plane α)
    (h : fiveTurn S A sett st i pl = .ok st') : Continues LayersOrXZ st.gcd st'.gcd := by
  unfold fiveTurn at h
  obtain ⟨g0, _, h⟩ := bind_ok h
  obtain ⟨l, _, h⟩ := bind_ok h
  obtain ⟨c, _, h⟩ := bind_ok h
  obtain ⟨c1, _, h⟩ := bind_ok h
  obtain ⟨c2, _, h⟩ := bind_ok h
  obtain ⟨c3, _, h⟩ := bind_ok h
  obtain ⟨⟨up, down⟩, hc, h⟩ := bind_ok h
  obtain ⟨low, _, h⟩ := bind_ok h
  obtain ⟨ls, _, h⟩ := bind_ok h
  obtain ⟨add, _, h⟩ := bind_ok h
  have h := pure_ok h
  subst h
  have key : Continues LayersOrXZ st.gcd ((st.gcd.addLayers g0).addLayers low) :=
    ((Continues.refl _).add (Or.inl ⟨_, rfl⟩)).add (Or.inl ⟨_, rfl⟩)
  cases hr : st.rotated
  · simp only [Bool.false_eq_true, if_false]; exact key.add (Or.inr ⟨_, _, rfl⟩)
  · simp only [if_true]; exact key.add (Or.inr ⟨_, _, rfl⟩)

theorem fiveLoop_continues (S : Sorter) (A : Arrival α) (sett : Settings α) : ∀ (k : Nat) (st : FiveSt α) (g : Gcode α),
    fiveLoop S A sett k st = .ok g → Continues LayersOrXZ st.gcd g := by
  intro k
  induction k with
  | zero => intro st g h; cases h
  | succ k ih =>
    intro st g h
    unfold fiveLoop at h
    obtain ⟨r, _, h⟩ := bind_ok h
    cases r with
    | none =>
      have h := pure_ok h
      subst h
      split
      · exact (Continues.refl _).add (Or.inl ⟨_, rfl⟩)
      · exact Continues.refl _
    | some q =>
      obtain ⟨st', h1, h⟩ := bind_ok h
      exact (fiveTurn_continues S A sett st st' q.1 q.2 h1).trans (ih st' g h)

/-- the four slicing types that the program knows -/
def slicingTypes : List String := ["3axes", "5axes_by_profile", "5axes", "vip"]

/-- C68, the commands of the three slicers that do not turn the axes one by one -/
theorem C68_commands [FltText α] (S : Sorter) (A : Arrival α) (f : List (STri α) → α → List (STri α)) (fuel : Nat)
    (planes : Option Bytes) (type : String) (ht : type ∈ ["3axes", "5axes_by_profile", "5axes"]) (m : Mesh α) (sett : Settings α)
    (g : Gcode α) (h : sliceAs S A f fuel planes type m sett = .ok g) : g.settings = sett.gs ∧ ∀ c ∈ g.cmds, LayersOrXZ c := by
  have key : Continues LayersOrXZ (Gcode.new sett.gs) g := by
    simp only [List.mem_cons, List.not_mem_nil, or_false] at ht
    rcases ht with rfl | rfl | rfl
    · unfold sliceAs at h
      rw [if_pos rfl] at h
      unfold sliceByVectorToGcode at h
      obtain ⟨l, _, h⟩ := bind_ok h
      obtain ⟨l', _, h⟩ := bind_ok h
      rw [← pure_ok h]
      exact (Continues.refl _).add (Or.inl ⟨_, rfl⟩)
    · unfold sliceAs at h
      rw [if_neg (by decide), if_pos rfl] at h
      unfold sliceByProfile at h
      obtain ⟨l, _, h⟩ := bind_ok h
      obtain ⟨l', _, h⟩ := bind_ok h
      obtain ⟨l'', _, h⟩ := bind_ok h
      exact profileLoop_continues S A sett _ _ _ _ h
    · unfold sliceAs at h
      rw [if_neg (by decide), if_neg (by decide), if_pos rfl] at h
      unfold slice5Axes at h
      split at h
      · cases h
      · obtain ⟨l, _, h⟩ := bind_ok h
        obtain ⟨l', _, h⟩ := bind_ok h
        exact fiveLoop_continues S A sett _ _ _ h
  obtain ⟨h1, cs, h2, h3⟩ := key
  refine ⟨h1, ?_⟩
  intro c hc
  rw [h2] at hc
  exact h3 c (by simpa [Gcode.new] using hc)

/-- any command -/
abbrev AnyCommand : Command α → Prop := fun _ => True

theorem partsLoop_continues (S : Sorter) (A : Arrival α) (sett : Settings α) (fp : List (Plane α) × List (Plane α)) :
    ∀ (ps : List ((Bool × α) × Mesh α)) (i : Nat) (r : Bool) (g g' : Gcode α),
      partsLoop S A sett fp i ps r g = .ok g' → Continues AnyCommand g g' := by
  intro ps
  induction ps with
  | nil => intro i r g g' h; rw [← pure_ok h]; exact Continues.refl g
  | cons p t ih =>
    intro i r g g' h
    unfold partsLoop at h
    obtain ⟨l, _, h⟩ := bind_ok h
    obtain ⟨l', _, h⟩ := bind_ok h
    refine Continues.trans (Continues.add ?_ trivial) (ih _ _ _ _ h)
    have e : Continues AnyCommand g (if i ≠ 0 then g.add (.rotateZ p.1.2) else g) := by
      split
      · exact (Continues.refl _).add trivial
      · exact Continues.refl _
    unfold bedCommands
    cases p.1.1
    · cases r
      · exact e
      · exact e.add trivial
    · exact e.add trivial

theorem sliceBridge_continues (S : Sorter) (A : Arrival α) (m : Mesh α) (sett : Settings α) (layers : List (Layer α)) (g : Gcode α)
    (h : sliceBridge S A m sett layers = .ok g) : Continues AnyCommand (Gcode.new sett.gs) g := by
  unfold sliceBridge at h
  obtain ⟨⟨i, np⟩, _, h⟩ := bind_ok h
  obtain ⟨l, _, h⟩ := bind_ok h
  obtain ⟨l1, _, h⟩ := bind_ok h
  obtain ⟨p, _, h⟩ := bind_ok h
  obtain ⟨q, _, h⟩ := bind_ok h
  cases np with
  | none => cases h
  | some pl =>
    obtain ⟨c1, _, h⟩ := bind_ok h
    obtain ⟨⟨up, down⟩, _, h⟩ := bind_ok h
    obtain ⟨leg, _, h⟩ := bind_ok h
    obtain ⟨l2, _, h⟩ := bind_ok h
    obtain ⟨rest, _, h⟩ := bind_ok h
    obtain ⟨l3, _, h⟩ := bind_ok h
    rw [← pure_ok h]
    exact (((((((Continues.refl _).add trivial).add trivial).add trivial).add trivial).add trivial).add trivial).add trivial

theorem sliceRotation_continues (S : Sorter) (A : Arrival α) (m : Mesh α) (sett : Settings α) (layers : List (Layer α)) (g : Gcode α)
    (h : sliceRotation S A m sett layers = .ok g) : Continues AnyCommand (Gcode.new sett.gs) g := by
  unfold sliceRotation at h
  obtain ⟨i, _, h⟩ := bind_ok h
  obtain ⟨l, _, h⟩ := bind_ok h
  obtain ⟨l1, _, h⟩ := bind_ok h
  obtain ⟨p, _, h⟩ := bind_ok h
  obtain ⟨q, _, h⟩ := bind_ok h
  obtain ⟨c1, _, h⟩ := bind_ok h
  obtain ⟨rest, _, h⟩ := bind_ok h
  obtain ⟨l3, _, h⟩ := bind_ok h
  rw [← pure_ok h]
  exact ((((Continues.refl _).add trivial).add trivial).add trivial).add trivial

theorem defaultTurn_continues (S : Sorter) (A : Arrival α) (sett : Settings α) (st st' : DefaultSt α) (pl : Plane α)
    (h : defaultTurn S A sett st pl = .ok st') : Continues AnyCommand st.gcd st'.gcd := by
  unfold defaultTurn at h
  obtain ⟨⟨up, down⟩, hc, h⟩ := bind_ok h
  obtain ⟨low, _, h⟩ := bind_ok h
  obtain ⟨pre, _, h⟩ := bind_ok h
  obtain ⟨ls, _, h⟩ := bind_ok h
  have h := pure_ok h
  subst h
  have key : Continues AnyCommand st.gcd (st.gcd.addLayers pre) := (Continues.refl _).add trivial
  cases hr : st.rotated
  · simp only [Bool.false_eq_true, if_false]; exact (key.add trivial).add trivial
  · simp only [if_true]; exact (key.add trivial).add trivial

theorem defaultLoop_continues (S : Sorter) (A : Arrival α) (sett : Settings α) : ∀ (k : Nat) (st : DefaultSt α) (g : Gcode α),
    defaultLoop S A sett k st = .ok g → Continues AnyCommand st.gcd g := by
  intro k
  induction k with
  | zero => intro st g h; cases h
  | succ k ih =>
    intro st g h
    unfold defaultLoop at h
    obtain ⟨r, _, h⟩ := bind_ok h
    cases r with
    | none =>
      dsimp only at h
      split at h
      · obtain ⟨l, _, h⟩ := bind_ok h
        rw [← pure_ok h]; exact (Continues.refl _).add trivial
      · rw [← pure_ok h]; exact Continues.refl _
    | some q =>
      obtain ⟨st', h1, h⟩ := bind_ok h
      exact (defaultTurn_continues S A sett st st' q.2 h1).trans (ih st' g h)

/-- C68: whatever the slicer, the program is written with the settings of the flags -/
theorem C68_settings [FltText α] (S : Sorter) (A : Arrival α) (f : List (STri α) → α → List (STri α)) (fuel : Nat)
    (planes : Option Bytes) (type : String) (m : Mesh α) (sett : Settings α) (g : Gcode α)
    (h : sliceAs S A f fuel planes type m sett = .ok g) : g.settings = sett.gs := by
  by_cases ht : type ∈ ["3axes", "5axes_by_profile", "5axes"]
  · exact (C68_commands S A f fuel planes type ht m sett g h).1
  · simp only [List.mem_cons, List.not_mem_nil, or_false, not_or] at ht
    unfold sliceAs at h
    rw [if_neg ht.1, if_neg ht.2.1, if_neg ht.2.2] at h
    split at h
    · unfold vipSlice at h
      obtain ⟨ps, _, h⟩ := bind_ok h
      have key : Continues AnyCommand (Gcode.new sett.gs) g := by
        split at h
        · unfold sliceByPlanes at h
          obtain ⟨parts, _, h⟩ := bind_ok h
          exact partsLoop_continues S A sett _ _ _ _ _ _ h
        · obtain ⟨layers, _, h⟩ := bind_ok h
          obtain ⟨l0, _, h⟩ := bind_ok h
          obtain ⟨op, _, h⟩ := bind_ok h
          split at h
          · exact sliceBridge_continues S A m sett layers g h
          · obtain ⟨p0, _, h⟩ := bind_ok h
            obtain ⟨b, _, h⟩ := bind_ok h
            split at h
            · obtain ⟨top, _, h⟩ := bind_ok h
              obtain ⟨top', _, h⟩ := bind_ok h
              obtain ⟨q0, _, h⟩ := bind_ok h
              obtain ⟨b', _, h⟩ := bind_ok h
              split at h
              · exact sliceRotation_continues S A m sett layers g h
              · exact defaultLoop_continues S A sett _ _ _ h
            · exact defaultLoop_continues S A sett _ _ _ h
      exact key.1
    · cases h

variable [FltBits α] [FltText α]

/-- C68: a slicing type that the program does not know ends it with `log.Fatal`, and nothing is written -/
theorem C68_unsupported (M : Machine α) (fuel : Nat) (read : String → Option Bytes) (templates : String → Option (List Char))
    (canWrite : String → Bool) (now : String) (fl : GoosliFlags α) (h : fl.slicingType ∉ slicingTypes) :
    NothingWritten (runGoosli M fuel read templates canWrite now fl) := by
  simp only [slicingTypes, List.mem_cons, List.not_mem_nil, or_false, not_or] at h
  by_cases hl : ∃ m : Mesh α, Loads (read fl.stl) m
  · obtain ⟨m, hm⟩ := hl
    unfold runGoosli
    simp only [loadMesh_loads hm, go_ok_bind]
    unfold sliceAs
    rw [if_neg h.1, if_neg h.2.1, if_neg h.2.2.1, if_neg h.2.2.2]
    exact ⟨rfl, rfl⟩
  · exact (C66_unreadable M.sorter M.simplify M fuel read templates canWrite now fl.stl hl).2.2.2.2 fl rfl

/-- C68, what a run that ends normally leaves: one file, which consists of the filled header, the text of a program and the filled
footer. The program was computed from the loaded mesh, shifted by the origin, and carries the settings of the flags: the three printing
speeds are multiplied by 60 (the flags are in mm/s, the feed rate is in mm/min), the retraction speed is taken as it is. -/
theorem C68_run (M : Machine α) (fuel : Nat) (read : String → Option Bytes) (templates : String → Option (List Char))
    (canWrite : String → Bool) (now : String) (fl : GoosliFlags α)
    (h : (runGoosli M fuel read templates canWrite now fl).status = .ok ()) :
    fl.slicingType ∈ slicingTypes ∧ ∃ (m : Mesh α) (g : Gcode α) (t : String) (hd ft : List Char), Loads (read fl.stl) m ∧
      sliceAs M.sorter M.arrival M.simplify fuel (read fl.planesFile) fl.slicingType (shiftLoaded m fl.origin) fl.settings = .ok g ∧
      g.text = .ok t ∧
      (runGoosli M fuel read templates canWrite now fl).files = [(fl.out, hd ++ t.toList ++ ft)] ∧
      g.settings.printSpeed = 60 * fl.printSpeed ∧ g.settings.printSpeedLayer1 = 60 * fl.printSpeedLayer1 ∧
      g.settings.printSpeedWall = 60 * fl.printSpeedWall ∧ g.settings.retractionSpeed = fl.retractionSpeed ∧
      g.settings.layerHeight = fl.layerHeight ∧ g.settings.lineWidth = fl.lineWidth ∧ g.settings.barDiameter = fl.barDiameter ∧
      g.settings.retraction = fl.retraction ∧ g.settings.retractionDistance = fl.retractionDistance ∧
      g.settings.fanOffLayer1 = fl.fanOffLayer1 := by
  constructor
  · by_contra hc
    have := (C68_unsupported M fuel read templates canWrite now fl hc).2
    rw [h] at this
    cases this
  by_cases hl : ∃ m : Mesh α, Loads (read fl.stl) m
  · obtain ⟨m, hm⟩ := hl
    unfold runGoosli at h ⊢
    simp only [loadMesh_loads hm, go_ok_bind] at h ⊢
    cases hg : sliceAs M.sorter M.arrival M.simplify fuel (read fl.planesFile) fl.slicingType (shiftLoaded m fl.origin) fl.settings with
    | error e => rw [hg] at h; cases h
    | ok g =>
      rw [hg] at h
      simp only [go_ok_bind] at h ⊢
      have hs := C68_settings _ _ _ _ _ _ _ _ _ hg
      cases ht : commandsWithTemplates (templates "data/header_template.txt") (templates "data/footer_template.txt") M.maps g
          fl.settings (fl.info now) with
      | error e => rw [ht] at h; cases h
      | ok text =>
        rw [ht] at h
        have hw : canWrite fl.out = true := by
          by_contra hc
          have e : (finish canWrite (Except.ok text >>= fun text => (pure [(fl.out, text)] : Go _))).status = .error .fatal := by
            show (writeFiles canWrite [(fl.out, text)]).status = _
            unfold writeFiles
            rw [if_neg hc]
          rw [e] at h
          cases h
        have ht0 := ht
        unfold commandsWithTemplates at ht
        obtain ⟨hd, _, ht⟩ := bind_ok ht
        obtain ⟨t, h2, ht⟩ := bind_ok ht
        obtain ⟨ft, _, ht⟩ := bind_ok ht
        have ht := pure_ok ht
        refine ⟨m, g, t, hd, ft, hm, by rw [← hg], h2, ?_, ?_⟩
        · rw [ht]
          show (writeFiles canWrite [(fl.out, text)]).files = _
          rw [writeFiles_all]
          intro f hf
          simp only [List.mem_cons, List.not_mem_nil, or_false] at hf
          rw [hf]; exact hw
        · rw [hs]
          exact ⟨Int.mul_comm _ _, Int.mul_comm _ _, Int.mul_comm _ _, rfl, rfl, rfl, rfl, rfl, rfl, rfl⟩
  · have := ((C66_unreadable M.sorter M.simplify M fuel read templates canWrite now fl.stl hl).2.2.2.2 fl rfl).2
    rw [h] at this
    cases this

/-- C68, the speed in the file: with slicing type "3axes", "5axes_by_profile" or "5axes", without retraction, every print move of the
program in the file that is written runs at 60 times the speed of the flag for its layer and section. -/
theorem C68_speed_partial [CleanText α] (M : Machine α) (fuel : Nat) (read : String → Option Bytes)
    (templates : String → Option (List Char)) (canWrite : String → Bool) (now : String) (fl : GoosliFlags α)
    (h : (runGoosli M fuel read templates canWrite now fl).status = .ok ())
    (ht : fl.slicingType ∈ ["3axes", "5axes_by_profile", "5axes"]) (hr : fl.retraction = false)
    (h1 : fl.printSpeedLayer1 ≠ 0) (h2 : fl.printSpeedWall ≠ 0) (h3 : fl.printSpeed ≠ 0) :
    ∃ (t : String) (hd ft : List Char),
      (runGoosli M fuel read templates canWrite now fl).files = [(fl.out, hd ++ t.toList ++ ft)] ∧
      ∀ (p0 : Printer), ∀ x ∈ steps p0 (parseText t), isPrintMove x.1 x.2 →
        x.1.feed = 60 * (if x.1.layer = 0 then fl.printSpeedLayer1
          else if x.1.sect = "FILL_PATHES".toList then fl.printSpeed else fl.printSpeedWall) := by
  obtain ⟨_, m, g, t, hd, ft, hm, hg, htx, hf, k1, k2, k3, _, _, _, _, k4, _⟩ := C68_run M fuel read templates canWrite now fl h
  refine ⟨t, hd, ft, hf, ?_⟩
  intro p0 x hx hp
  have hc := (C68_commands _ _ _ _ _ _ ht _ _ _ hg).2
  rw [C36_speed_partial g t htx p0 (by rw [k4]; exact hr) (by rw [k2]; omega) (by rw [k3]; omega) (by rw [k1]; omega) hc x hx hp]
  unfold configuredSpeed
  rw [k1, k2, k3]
  split
  · push_cast; rfl
  · split <;> (push_cast; rfl)

section
attribute [local instance] Toy.flt Toy.txt Toy.clean
/-- 32-bit two's complement integers as the narrow format -/
local instance bits68 : FltBits Int := ⟨fun i => BitVec.ofInt 32 i, fun b => b.toInt⟩

private def ramp : Mesh Int := ⟨[newTriangle ⟨0, 0, 0⟩ ⟨9, 0, 9⟩ ⟨0, 9, 9⟩]⟩
private def rampFlags (type : String) : GoosliFlags Int :=
  ⟨"in.stl", "out.gcode", ⟨0, 0, 0⟩, ⟨0, 0, 0⟩, 10, 2, 1, 20, 3, 3, 60, 200, 50, 30, 40, false, 1, "Lines", false, 20, 5, "planes.txt", type, 30,
    ⟨0, 0, 1⟩, false, 1, 2, 1, 3⟩
private def machine : Machine Int := ⟨Sorter.insertion, ⟨id, fun _ => List.Perm.refl _⟩, ⟨fun _ l => l, fun _ _ => List.Perm.refl _⟩,
  fun l _ => l⟩

set_option maxRecDepth 20000 in
/-- a run that ends normally with three different speeds, and one with an unknown slicing type -/
example : (runGoosli machine 10 (fun _ => some (saveSTL ramp)) (fun _ => some []) (fun _ => true) "now" (rampFlags "3axes")).status =
      .ok () ∧ (rampFlags "3axes").slicingType ∈ ["3axes", "5axes_by_profile", "5axes"] ∧ (rampFlags "3axes").retraction = false ∧
    (rampFlags "4axes").slicingType ∉ slicingTypes := by
  refine ⟨?_, by decide, rfl, by decide⟩
  have hl : Loads (some (saveSTL ramp)) ramp.via32 := ⟨_, rfl, C03_round_trip ramp (by decide)⟩
  unfold runGoosli
  simp only [loadMesh_loads hl, go_ok_bind]
  rfl
end

end Goosli
