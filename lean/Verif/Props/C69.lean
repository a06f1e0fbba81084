import Verif.Props.C50
import Verif.Props.C68
/-!
# C69: where the bed stands while a part is printed, and at the end
-/
set_option linter.unusedSectionVars false
set_option autoImplicit false
namespace Goosli
open Flt
variable {α : Type} [Flt α]

/-- the bed at rest -/
def levelBed : BedAt α := ⟨lit 0 0, lit 0 0⟩

/-- `Swings n b beds e`: from the position `b`, groups of layers are printed with the bed at `beds`, and the bed ends at `e`. The bed
swings between level and an incline of 60 degrees to some side; `n` groups are printed before each swing. -/
inductive Swings (n : Nat) : BedAt α → List (BedAt α) → BedAt α → Prop
  | stop (b : BedAt α) : Swings n b [] b
  | last (b : BedAt α) : Swings n b [b] b
  | tilt (a : α) (bs : List (BedAt α)) (e : BedAt α) : Swings n ⟨lit 60 0, a⟩ bs e →
      Swings n levelBed (List.replicate n levelBed ++ bs) e
  | back (a : α) (bs : List (BedAt α)) (e : BedAt α) : Swings n levelBed bs e →
      Swings n ⟨lit 60 0, a⟩ (List.replicate n ⟨lit 60 0, a⟩ ++ bs) e

/-- where the bed is in a state of the loops -/
def bedOf (rotated : Bool) (a : α) : BedAt α := if rotated then ⟨lit 60 0, a⟩ else levelBed

/-- the positions of the bed for the groups that are printed -/
def bedsOf (g : Gcode α) : List (BedAt α) := (printedWith levelBed g.cmds).map (·.1)

/-- the position of the bed at the end -/
def bedLeft (g : Gcode α) : BedAt α := bedAtEnd levelBed g.cmds

theorem bedsOf_addLayers (g : Gcode α) (ls : List (Layer α)) : bedsOf (g.addLayers ls) = bedsOf g ++ [bedLeft g] := by
  simp [bedsOf, bedLeft, Gcode.addLayers, Gcode.add, printedWith_append, printedWith]

theorem bedLeft_addLayers (g : Gcode α) (ls : List (Layer α)) : bedLeft (g.addLayers ls) = bedLeft g := by
  simp [bedLeft, Gcode.addLayers, Gcode.add, bedAtEnd, BedAt.after]

theorem bedLeft_add (g : Gcode α) (c : Command α) : bedLeft (g.add c) = (bedLeft g).after c := by
  simp [bedLeft, Gcode.add, bedAtEnd]

theorem bedsOf_add (g : Gcode α) (c : Command α) (hc : ∀ ls, c ≠ .layersMoving ls) : bedsOf (g.add c) = bedsOf g := by
  cases c with
  | layersMoving ls => exact absurd rfl (hc ls)
  | _ => simp [bedsOf, Gcode.add, printedWith_append, printedWith]

theorem bedsOf_new (gs : GcodeSettings α) : bedsOf (Gcode.new gs) = [] := rfl
theorem bedLeft_new (gs : GcodeSettings α) : bedLeft (Gcode.new gs) = levelBed := rfl

theorem defaultLoop_swings (S : Sorter) (A : Arrival α) (sett : Settings α) : ∀ (k : Nat) (st : DefaultSt α) (g : Gcode α),
    bedLeft st.gcd = bedOf st.rotated st.angleZ → defaultLoop S A sett k st = .ok g →
    ∃ bs, bedsOf g = bedsOf st.gcd ++ bs ∧ Swings 1 (bedOf st.rotated st.angleZ) bs (bedLeft g) := by
  intro k
  induction k with
  | zero => intro st g _ h; cases h
  | succ k ih =>
    intro st g hb h
    unfold defaultLoop at h
    obtain ⟨r, _, h⟩ := bind_ok h
    cases r with
    | none =>
      dsimp only at h
      split at h
      · obtain ⟨l, _, h⟩ := bind_ok h
        rw [← pure_ok h, bedsOf_addLayers, bedLeft_addLayers, hb]
        exact ⟨_, rfl, .last _⟩
      · rw [← pure_ok h, hb]
        exact ⟨[], by simp, .stop _⟩
    | some q =>
      obtain ⟨st', h1, h⟩ := bind_ok h
      unfold defaultTurn at h1
      obtain ⟨⟨up, down⟩, hc, h1⟩ := bind_ok h1
      obtain ⟨low, _, h1⟩ := bind_ok h1
      obtain ⟨pre, _, h1⟩ := bind_ok h1
      obtain ⟨ls, _, h1⟩ := bind_ok h1
      have h1 := pure_ok h1
      cases hr : st.rotated
      · simp only [hr, Bool.false_eq_true, if_false] at h1
        subst h1
        obtain ⟨bs, h2, h3⟩ := ih _ _ (by
          simp only [bedLeft_add, bedLeft_addLayers, hb, hr, BedAt.after]; rfl) h
        simp only [bedOf, Bool.false_eq_true, if_false, if_true] at h3 ⊢
        refine ⟨[levelBed] ++ bs, ?_, Swings.tilt _ bs _ h3⟩
        rw [h2, bedsOf_add _ _ (by simp), bedsOf_add _ _ (by simp), bedsOf_addLayers, hb, hr]
        simp [bedOf]
      · simp only [hr, if_true] at h1
        subst h1
        obtain ⟨bs, h2, h3⟩ := ih _ _ (by
          simp only [bedLeft_add, bedLeft_addLayers, hb, hr, BedAt.after]; rfl) h
        simp only [bedOf, Bool.false_eq_true, if_false, if_true] at h3 ⊢
        refine ⟨[⟨lit 60 0, st.angleZ⟩] ++ bs, ?_, Swings.back _ bs _ h3⟩
        rw [h2, bedsOf_add _ _ (by simp), bedsOf_add _ _ (by simp), bedsOf_addLayers, hb, hr]
        simp [bedOf]

/-- C69, `SliceDefault2`: the groups of layers are printed alternately on the level bed and on the bed inclined by 60 degrees. -/
theorem C69_default (S : Sorter) (A : Arrival α) (fuel : Nat) (mesh : Mesh α) (sett : Settings α) (layers : List (Layer α)) (g : Gcode α)
    (h : sliceDefault2 S A fuel mesh sett layers = .ok g) : Swings 1 levelBed (bedsOf g) (bedLeft g) := by
  unfold sliceDefault2 at h
  obtain ⟨bs, h1, h2⟩ := defaultLoop_swings S A sett fuel _ g rfl h
  rw [h1]
  exact h2

theorem fiveLoop_swings (S : Sorter) (A : Arrival α) (sett : Settings α) : ∀ (k : Nat) (st : FiveSt α) (g : Gcode α),
    bedLeft st.gcd = bedOf st.rotated st.angleZ → fiveLoop S A sett k st = .ok g →
    ∃ bs, bedsOf g = bedsOf st.gcd ++ bs ∧ Swings 2 (bedOf st.rotated st.angleZ) bs (bedLeft g) := by
  intro k
  induction k with
  | zero => intro st g _ h; cases h
  | succ k ih =>
    intro st g hb h
    unfold fiveLoop at h
    obtain ⟨r, _, h⟩ := bind_ok h
    cases r with
    | none =>
      have h := pure_ok h
      subst h
      split
      · rw [bedsOf_addLayers, bedLeft_addLayers, hb]
        exact ⟨_, rfl, .last _⟩
      · rw [hb]
        exact ⟨[], by simp, .stop _⟩
    | some q =>
      obtain ⟨st', h1, h⟩ := bind_ok h
      unfold fiveTurn at h1
      obtain ⟨g0, _, h1⟩ := bind_ok h1
      obtain ⟨l, _, h1⟩ := bind_ok h1
      obtain ⟨c, _, h1⟩ := bind_ok h1
      obtain ⟨c1, _, h1⟩ := bind_ok h1
      obtain ⟨c2, _, h1⟩ := bind_ok h1
      obtain ⟨c3, _, h1⟩ := bind_ok h1
      obtain ⟨⟨up, down⟩, hc, h1⟩ := bind_ok h1
      obtain ⟨low, _, h1⟩ := bind_ok h1
      obtain ⟨ls, _, h1⟩ := bind_ok h1
      obtain ⟨add, _, h1⟩ := bind_ok h1
      have h1 := pure_ok h1
      cases hr : st.rotated
      · simp only [hr, Bool.false_eq_true, if_false] at h1
        subst h1
        obtain ⟨bs, h2, h3⟩ := ih _ _ (by
          simp only [bedLeft_add, bedLeft_addLayers, hb, hr, BedAt.after]; rfl) h
        simp only [bedOf, Bool.false_eq_true, if_false, if_true] at h3 ⊢
        refine ⟨[levelBed, levelBed] ++ bs, ?_, Swings.tilt _ bs _ h3⟩
        rw [h2, bedsOf_add _ _ (by simp), bedsOf_addLayers, bedsOf_addLayers, bedLeft_addLayers, hb, hr]
        simp [bedOf]
      · simp only [hr, if_true] at h1
        subst h1
        obtain ⟨bs, h2, h3⟩ := ih _ _ (by
          simp only [bedLeft_add, bedLeft_addLayers, hb, hr, BedAt.after]; rfl) h
        simp only [bedOf, Bool.false_eq_true, if_false, if_true] at h3 ⊢
        refine ⟨[⟨lit 60 0, st.angleZ⟩, ⟨lit 60 0, st.angleZ⟩] ++ bs, ?_, Swings.back _ bs _ h3⟩
        rw [h2, bedsOf_add _ _ (by simp), bedsOf_addLayers, bedsOf_addLayers, bedLeft_addLayers, hb, hr]
        simp [bedOf]

/-- C69, `Slice5Axes`: the same, with two groups before each swing. -/
theorem C69_five (S : Sorter) (A : Arrival α) (f : List (STri α) → α → List (STri α)) (fuel : Nat) (mesh : Mesh α) (sett : Settings α)
    (g : Gcode α) (h : slice5Axes S A f fuel mesh sett = .ok g) : Swings 2 levelBed (bedsOf g) (bedLeft g) := by
  unfold slice5Axes at h
  split at h
  · cases h
  · obtain ⟨l, _, h⟩ := bind_ok h
    obtain ⟨l', _, h⟩ := bind_ok h
    obtain ⟨bs, h1, h2⟩ := fiveLoop_swings S A sett fuel _ g rfl h
    rw [h1]
    exact h2

/-- the position of the bed for a part that is printed along the direction `v` -/
def profileBed (v : Vec α) : BedAt α := ⟨v.angle axisZ, (v.projectOnPlane planeXY).angle axisX + lit 90 0⟩

theorem profileLoop_beds (S : Sorter) (A : Arrival α) (sett : Settings α) : ∀ (qs : List (Point α × Point α)) (m : Mesh α)
    (g g' : Gcode α), profileLoop S A sett qs m g = .ok g' →
    bedsOf g' = bedsOf g ++ qs.map (fun q => profileBed (q.1.vectorTo q.2)) ∧
    bedLeft g' = (qs.getLast?.map fun q => profileBed (q.1.vectorTo q.2)).getD (bedLeft g) := by
  intro qs
  induction qs with
  | nil => intro m g g' h; rw [← pure_ok h]; exact ⟨by simp, by simp⟩
  | cons q t ih =>
    intro m g g' h
    unfold profileLoop at h
    obtain ⟨⟨up, down⟩, _, h⟩ := bind_ok h
    obtain ⟨layers, _, h⟩ := bind_ok h
    obtain ⟨h1, h2⟩ := ih _ _ _ h
    have e : bedLeft (g.add (.rotateXZ ((q.1.vectorTo q.2).angle axisZ) (directionZ (q.1.vectorTo q.2)))) = profileBed (q.1.vectorTo q.2) := by
      rw [bedLeft_add]; rfl
    rw [bedsOf_addLayers, bedsOf_add _ _ (by simp), e] at h1
    rw [bedLeft_addLayers, e] at h2
    refine ⟨by rw [h1]; simp, ?_⟩
    rw [h2]
    cases t with
    | nil => simp
    | cons b t =>
      rw [List.getLast?_cons_cons]
      obtain ⟨x, hx⟩ : ∃ x, (b :: t).getLast? = some x := ⟨_, List.getLast?_eq_some_getLast (by simp)⟩
      rw [hx]
      simp

/-- C69, `SliceByProfile`: one group of layers for each side of the simplified profile, printed with the bed inclined by the angle between
that side and the z axis and turned to its direction. -/
theorem C69_profile (S : Sorter) (A : Arrival α) (fuel : Nat) (mesh : Mesh α) (sett : Settings α) (g : Gcode α)
    (h : sliceByProfile S A fuel mesh sett = .ok g) : ∃ (layers : List (Layer α)) (centers profile : List (Point α)),
      sliceByVector S A (some mesh) axisZ sett = .ok layers ∧ calculateCenters layers = .ok centers ∧
      simplifyLine fuel centers sett.epsilon = .ok profile ∧
      bedsOf g = (adjPairs profile).map (fun q => profileBed (q.1.vectorTo q.2)) ∧
      ∀ q, (adjPairs profile).getLast? = some q → bedLeft g = profileBed (q.1.vectorTo q.2) := by
  unfold sliceByProfile at h
  obtain ⟨layers, h1, h⟩ := bind_ok h
  obtain ⟨centers, h2, h⟩ := bind_ok h
  obtain ⟨profile, h3, h⟩ := bind_ok h
  obtain ⟨h4, h5⟩ := profileLoop_beds S A sett _ _ _ _ h
  refine ⟨layers, centers, profile, h1, h2, h3, by simpa [bedsOf_new] using h4, ?_⟩
  intro q hq
  rw [h5, hq]
  rfl

/-- C69, the part of the claim that holds: a program of "3axes" leaves the bed where it was, and a program of `SliceBridge` or
`SliceRotation` brings it back. (Full claim: every program leaves the bed level; false for the others, see below.) -/
theorem C69_home_partial (S : Sorter) (A : Arrival α) (mesh : Mesh α) (sett : Settings α) (layers : List (Layer α)) (g : Gcode α)
    (h : sliceByVectorToGcode S A mesh axisZ sett = .ok g ∨ sliceBridge S A mesh sett layers = .ok g ∨
      sliceRotation S A mesh sett layers = .ok g) : bedLeft g = levelBed := by
  rcases h with h | h | h
  · unfold sliceByVectorToGcode at h
    obtain ⟨l, _, h⟩ := bind_ok h
    obtain ⟨l', _, h⟩ := bind_ok h
    rw [← pure_ok h, bedLeft_addLayers, bedLeft_new]
  · unfold sliceBridge at h
    obtain ⟨⟨i, np⟩, _, h⟩ := bind_ok h
    obtain ⟨l, _, h⟩ := bind_ok h
    obtain ⟨l1, _, h⟩ := bind_ok h
    obtain ⟨p, _, h⟩ := bind_ok h
    obtain ⟨q, _, h⟩ := bind_ok h
    cases np with
    | none => cases h
    | some pl =>
      obtain ⟨c1, _, h⟩ := bind_ok h
      obtain ⟨⟨up, down⟩, _, h⟩ := bind_ok h
      obtain ⟨leg, _, h⟩ := bind_ok h
      obtain ⟨l2, _, h⟩ := bind_ok h
      obtain ⟨rest, _, h⟩ := bind_ok h
      obtain ⟨l3, _, h⟩ := bind_ok h
      rw [← pure_ok h]
      simp only [bedLeft_add, bedLeft_addLayers, BedAt.after]
      rfl
  · unfold sliceRotation at h
    obtain ⟨i, _, h⟩ := bind_ok h
    obtain ⟨l, _, h⟩ := bind_ok h
    obtain ⟨l1, _, h⟩ := bind_ok h
    obtain ⟨p, _, h⟩ := bind_ok h
    obtain ⟨q, _, h⟩ := bind_ok h
    obtain ⟨c1, _, h⟩ := bind_ok h
    obtain ⟨rest, _, h⟩ := bind_ok h
    obtain ⟨l3, _, h⟩ := bind_ok h
    rw [← pure_ok h]
    simp only [bedLeft_add, bedLeft_addLayers, BedAt.after, bedLeft_new]
    rfl

/-- A program of `SliceByPlanes` leaves the bed as the last plane has it. -/
theorem C69_planes (S : Sorter) (A : Arrival α) (mesh : Mesh α) (sett : Settings α) (planes : List (AnalyzedPlane α)) (p : AnalyzedPlane α)
    (g : Gcode α) (h : sliceByPlanes S A mesh sett (planes ++ [p]) = .ok g) :
    bedLeft g = ⟨if p.tilted then lit 60 0 else lit 0 0, p.rotz⟩ := by
  have := C50_end S A mesh sett _ g h
  unfold bedLeft levelBed
  simpa [bedOfPart] using this

/-- C69, the negation of the full claim, in exact arithmetic: with every sorting routine and every arrival order there is a program of
`SliceByPlanes` that leaves the bed inclined by 60 degrees. -/
theorem C69_home_violated (S : Sorter) (A : Arrival XR) (sett : Settings XR) :
    ∃ (mesh : Mesh XR) (planes : List (AnalyzedPlane XR)) (g : Gcode XR),
      sliceByPlanes S A mesh sett planes = .ok g ∧ bedLeft g ≠ levelBed := by
  let p : AnalyzedPlane XR := ⟨⟨⟨.fin 0, .fin 0, .fin 3⟩, ⟨.fin 0, .fin 0, .fin 1⟩⟩, true, .fin 90⟩
  cases h : sliceByPlanes S A ⟨[]⟩ sett [p] with
  | ok g =>
    refine ⟨_, _, g, h, ?_⟩
    rw [C69_planes S A _ sett [] p g h]
    intro e
    have := congrArg BedAt.tilt e
    simp [levelBed, p, XR.lit_def] at this
  | error e =>
    exfalso
    obtain ⟨parts, i, part, ⟨below, hb, h0, hl, hc⟩, hi, hs⟩ := C50_fails_only_slicing S A _ sett _ e h
    obtain ⟨up, hu, hcut⟩ := hc 0 p rfl
    have hb' : below 1 = ⟨[]⟩ := hb
    have hnil : joinPaths3AndMinimize S ([] : List (Path XR)) = .ok [] := by
      have hS : S.run joinLess ([] : List (SortP XR)) = [] := by simpa using (S.perm joinLess ([] : List (SortP XR)))
      unfold joinPaths3AndMinimize joinPaths3 sortPs
      rw [pure_bind]
      simp only [hS]
      rfl
    have hcut' : cutMesh S (some (⟨[]⟩ : Mesh XR)) p.plane = .ok (⟨[]⟩, ⟨[]⟩) := by
      unfold cutMesh
      simp only [List.map_nil, List.flatMap_nil, hnil, go_ok_bind]
      rfl
    rw [hb', hcut'] at hcut
    have hpair := Except.ok.inj hcut
    have hup : up = ⟨[]⟩ := (congrArg Prod.fst hpair).symm
    have hlow : below 0 = ⟨[]⟩ := (congrArg Prod.snd hpair).symm
    have hpart : part = ⟨[]⟩ := by
      match i with
      | 0 => rw [h0] at hi; exact (Option.some.inj hi).symm.trans hlow
      | 1 => rw [hu] at hi; exact (Option.some.inj hi).symm.trans hup
      | i + 2 =>
        have := (List.getElem?_eq_some_iff.1 hi).1
        simp at hl
        omega
    have : sliceByVector S A (some (partInFrame sett.rotationCenter [p] part i)) axisZ sett = .ok [] := by
      subst hpart
      match i with
      | 0 => rfl
      | 1 => rfl
      | i + 2 => rfl
    rw [this] at hs
    cases hs

section Examples
attribute [local instance] Toy.flt
private def swingSett : Settings Int :=
  ⟨⟨1, 1, 1, 1, true, 50, 20, 30, true, 40, 5⟩, 1, 2, 3, 20, ⟨0, 0, 0⟩, "Lines", 30, ⟨0, 0, 1⟩, false, 0, 1, 1, 0⟩

/-- a swing to the side and back, with one group before each turn -/
example : Swings 1 (levelBed : BedAt Int) [⟨0, 0⟩, ⟨60, 30⟩, ⟨0, 0⟩] ⟨0, 0⟩ := .tilt 30 _ _ (.back 30 _ _ (.last _))
/-- two level groups with an inclined one missing in between are no swing of `SliceDefault2` -/
example : ¬ Swings 1 (levelBed : BedAt Int) [⟨0, 0⟩, ⟨0, 0⟩] ⟨0, 0⟩ := by
  intro h
  generalize hb : (levelBed : BedAt Int) = b at h
  generalize he : [(⟨0, 0⟩ : BedAt Int), ⟨0, 0⟩] = bs at h
  cases h with
  | stop => cases he
  | last => cases he
  | tilt a bs e h =>
    simp at he
    obtain ⟨-, he⟩ := he
    subst he
    cases h
  | back a bs e h =>
    have := congrArg BedAt.tilt hb
    revert this
    show ¬ ((0 : Int) = 60)
    decide
/-- `SliceByVectorToGcode` has a program -/
example : (sliceByVectorToGcode Sorter.insertion ⟨id, fun _ => List.Perm.refl _⟩ (⟨[]⟩ : Mesh Int) axisZ swingSett).map bedLeft =
    .ok levelBed := by rfl
end Examples

end Goosli
