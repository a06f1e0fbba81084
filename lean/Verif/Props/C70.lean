import Verif.Props.C50
import Verif.Proofs.SweepJobs
import Verif.Spec.Shapes
/-!
# C70: crashes of the vip slicer
-/
set_option linter.unusedSectionVars false
set_option autoImplicit false
namespace Goosli
open Flt
variable {α : Type} [Flt α]

/-- layers as they come from `SliceByVector`: nothing but contours -/
def Bare (layers : List (Layer α)) : Prop := ∀ l ∈ layers, l.fill = []

theorem prepareLayers_bare (S : Sorter) (layers : List (Layer α)) (sett : Settings α) (fp ff : List (Plane α)) (h : Bare layers) :
    ∃ out, prepareLayers S layers sett fp ff = .ok out :=
  prepareLayers_total S layers sett fp ff fun l hl q hq => by rw [h l hl] at hq; cases hq

theorem bare_sliceByVector (S : Sorter) (A : Arrival α) (m : Option (Mesh α)) (Z : Vec α) (sett : Settings α) (layers : List (Layer α))
    (h : sliceByVector S A m Z sett = .ok layers) : Bare layers := fun l hl => (sliceByVector_fill S A m Z sett layers h l hl).1

theorem bare_take {layers : List (Layer α)} (h : Bare layers) (i : Nat) : Bare (layers.take i) :=
  fun l hl => h l (List.mem_of_mem_take hl)

theorem adjPairs_length {β : Type} (l : List β) : (adjPairs l).length = l.length - 1 := by simp [adjPairs]

/-- no layer is found to overhang the one below it -/
def NoOverhang {β : Type} (fails : Layer α → Layer α → Go (Option β)) (layers : List (Layer α)) : Prop :=
  ∀ q ∈ adjPairs layers, fails q.1 q.2 = .ok none

theorem bridgeLevel_none : ∀ (qs : List (Layer α × Layer α)) (i : Nat), (∀ q ∈ qs, failExistBridge q.1 q.2 = .ok none) →
    bridgeLevel i qs = .ok (i + qs.length, none) := by
  intro qs
  induction qs with
  | nil => intro i _; rfl
  | cons q t ih =>
    intro i h
    obtain ⟨a, b⟩ := q
    unfold bridgeLevel
    have h1 : failExistBridge a b = .ok none := h (a, b) (by simp)
    rw [h1]
    simp only [go_ok_bind]
    rw [ih (i + 1) fun q hq => h q (by simp [hq])]
    simp only [List.length_cons]
    congr 2
    omega

theorem bridgeScan_none (layers : List (Layer α)) (h : NoOverhang failExistBridge layers) :
    bridgeScan layers = .ok (layers.length, none) := by
  unfold bridgeScan
  cases layers with
  | nil => rfl
  | cons l t =>
    simp only
    rw [bridgeLevel_none _ _ h, adjPairs_length]
    simp only [List.length_cons]
    congr 2
    omega

theorem goAt_length {β : Type} (l : List β) : goAt l l.length = .error .index := by
  unfold goAt
  simp

/-- **C70.** `SliceBridge` ends with an index out of range if no layer overhangs. -/
theorem C70_bridge_no_overhang (S : Sorter) (A : Arrival α) (mesh : Mesh α) (sett : Settings α) (layers : List (Layer α)) (hb : Bare layers)
    (h : NoOverhang failExistBridge layers) : sliceBridge S A mesh sett layers = .error .index := by
  unfold sliceBridge
  obtain ⟨out, ho⟩ := prepareLayers_bare S (layers.take layers.length) sett (calcFillPlanes mesh sett).1 (calcFillPlanes mesh sett).2
    (bare_take hb _)
  simp only [bridgeScan_none layers h, go_ok_bind, ho, goAt_length]
  rfl

theorem bridgeLevel_error (e : GoErr) : ∀ (pre : List (Layer α × Layer α)) (q : Layer α × Layer α) (post : List (Layer α × Layer α)) (i : Nat),
    (∀ x ∈ pre, failExistBridge x.1 x.2 = .ok none) → failExistBridge q.1 q.2 = .error e →
    bridgeLevel i (pre ++ q :: post) = .error e := by
  intro pre
  induction pre with
  | nil =>
    intro q post i _ h
    obtain ⟨a, b⟩ := q
    show bridgeLevel i ((a, b) :: post) = _
    unfold bridgeLevel
    have h : failExistBridge a b = .error e := h
    rw [h]
    rfl
  | cons x t ih =>
    intro q post i h1 h2
    obtain ⟨a, b⟩ := x
    show bridgeLevel i ((a, b) :: (t ++ q :: post)) = _
    unfold bridgeLevel
    have h3 : failExistBridge a b = .ok none := h1 (a, b) (by simp)
    rw [h3]
    simp only [go_ok_bind]
    exact ih q post (i + 1) (fun x hx => h1 x (by simp [hx])) h2

/-- fewer than two of the contours are taken for outside contours -/
def FewerThanTwo (l : Layer α) : Prop := ∃ ps, outsidePathes l.paths = .ok ps ∧ ps.length < 2

theorem twoOutside_error (l : Layer α) (h : FewerThanTwo l) : twoOutsidePathes l = .error .index := by
  obtain ⟨ps, h1, h2⟩ := h
  unfold twoOutsidePathes
  rw [h1]
  match ps, h2 with
  | [], _ => rfl
  | [_], _ => rfl

/-- **C70.** A bridge: the legs do not overhang, and in layer `n + 1` there are no longer two outside contours, because the deck begins
there. `SliceBridge` ends with an index out of range. -/
theorem C70_bridge_deck (S : Sorter) (A : Arrival α) (mesh : Mesh α) (sett : Settings α) (layers : List (Layer α)) (n : Nat)
    (leg deck : Layer α) (hlegs : NoOverhang failExistBridge (layers.take (n + 1))) (hleg : layers[n]? = some leg)
    (hok : ∃ p q, twoOutsidePathes leg = .ok (p, q)) (hdeck : layers[n + 1]? = some deck) (htwo : FewerThanTwo deck) :
    sliceBridge S A mesh sett layers = .error .index := by
  have hfail : failExistBridge leg deck = .error .index := by
    obtain ⟨p, q, hpq⟩ := hok
    unfold failExistBridge
    simp only [hpq, go_ok_bind, twoOutside_error deck htwo]
    rfl
  have hn : n + 1 < layers.length := (List.getElem?_eq_some_iff.1 hdeck).1
  have hsplit : adjPairs layers = adjPairs (layers.take (n + 1)) ++ (leg, deck) :: (adjPairs layers).drop (n + 1) := by
    have h1 : adjPairs (layers.take (n + 1)) = (adjPairs layers).take n := by
      apply List.ext_getElem?
      intro i
      by_cases hi : i < n
      · rw [List.getElem?_take_of_lt hi]
        obtain ⟨a, ha⟩ : ∃ a, layers[i]? = some a := ⟨_, List.getElem?_eq_getElem (by omega)⟩
        obtain ⟨b, hb⟩ : ∃ b, layers[i + 1]? = some b := ⟨_, List.getElem?_eq_getElem (by omega)⟩
        have e1 : (adjPairs layers)[i]? = some (a, b) := by
          unfold adjPairs
          rw [List.getElem?_zip_eq_some, List.getElem?_tail]
          exact ⟨ha, hb⟩
        have e2 : (adjPairs (layers.take (n + 1)))[i]? = some (a, b) := by
          unfold adjPairs
          rw [List.getElem?_zip_eq_some, List.getElem?_tail, List.getElem?_take_of_lt (by omega), List.getElem?_take_of_lt (by omega)]
          exact ⟨ha, hb⟩
        rw [e1, e2]
      · rw [List.getElem?_eq_none (by rw [adjPairs_length, List.length_take]; omega), List.getElem?_eq_none (by rw [List.length_take]; omega)]
    have h2 : (adjPairs layers)[n]? = some (leg, deck) := by
      unfold adjPairs
      rw [List.getElem?_zip_eq_some, List.getElem?_tail]
      exact ⟨hleg, hdeck⟩
    obtain ⟨h3, h4⟩ := List.getElem?_eq_some_iff.1 h2
    rw [h1]
    conv_lhs => rw [← List.take_append_drop n (adjPairs layers)]
    rw [List.drop_eq_getElem_cons h3, h4]
  have hscan : bridgeScan layers = .error .index := by
    unfold bridgeScan
    cases layers with
    | nil => simp at hn
    | cons l t =>
      simp only
      rw [hsplit]
      exact bridgeLevel_error _ _ _ _ _ hlegs hfail
  unfold sliceBridge
  rw [hscan]
  rfl

theorem rotationLevel_false : ∀ (qs : List (Layer α × Layer α)) (i : Nat), (∀ q ∈ qs, failRotation q.1 q.2 = .ok false) →
    rotationLevel i qs = .ok (i + qs.length) := by
  intro qs
  induction qs with
  | nil => intro i _; rfl
  | cons q t ih =>
    intro i h
    obtain ⟨a, b⟩ := q
    unfold rotationLevel
    have h1 : failRotation a b = .ok false := h (a, b) (by simp)
    rw [h1]
    simp only [go_ok_bind, Bool.false_eq_true, if_false]
    rw [ih (i + 1) fun q hq => h q (by simp [hq])]
    simp only [List.length_cons]
    congr 1
    omega

/-- **C70.** `SliceRotation` ends with an index out of range if no layer overhangs. -/
theorem C70_rotation_no_overhang (S : Sorter) (A : Arrival α) (mesh : Mesh α) (sett : Settings α) (layers : List (Layer α)) (hb : Bare layers)
    (h : ∀ q ∈ adjPairs layers, failRotation q.1 q.2 = .ok false) : sliceRotation S A mesh sett layers = .error .index := by
  have hscan : rotationScan layers = .ok layers.length := by
    unfold rotationScan
    cases layers with
    | nil => rfl
    | cons l t =>
      simp only
      rw [rotationLevel_false _ _ h, adjPairs_length]
      simp only [List.length_cons]
      congr 1
      omega
  unfold sliceRotation
  obtain ⟨out, ho⟩ := prepareLayers_bare S (layers.take layers.length) sett (calcFillPlanes mesh sett).1 (calcFillPlanes mesh sett).2
    (bare_take hb _)
  simp only [hscan, go_ok_bind, ho, goAt_length]
  rfl

section
variable [FltText α]

/-- **C70, the crashes of `vip.Slice` without planes file.** It ends with an index out of range
* for a model without layers,
* if no contour of the first layer is taken for an outside contour,
* if the first layer has two outside contours and no layer overhangs,
* if the first and the last layer have one outside contour, both round, and no layer overhangs. -/
theorem C70_crashes (S : Sorter) (A : Arrival α) (fuel : Nat) (planes : Option Bytes) (mesh : Mesh α) (sett : Settings α)
    (layers : List (Layer α)) (hp : readPlanes planes = .ok ([] : List (AnalyzedPlane α)))
    (hl : sliceByVector S A (some mesh) axisZ sett = .ok layers) :
    (layers = [] → vipSlice S A fuel planes mesh sett = .error .index) ∧
    (∀ l t, layers = l :: t → outsidePathes l.paths = .ok [] → vipSlice S A fuel planes mesh sett = .error .index) ∧
    (∀ l t p q, layers = l :: t → outsidePathes l.paths = .ok [p, q] → NoOverhang failExistBridge layers →
      vipSlice S A fuel planes mesh sett = .error .index) ∧
    (∀ l last p q, layers.head? = some l → layers.getLast? = some last → outsidePathes l.paths = .ok [p] →
      outsidePathes last.paths = .ok [q] → isRotation p = .ok true → isRotation q = .ok true →
      (∀ q ∈ adjPairs layers, failRotation q.1 q.2 = .ok false) → vipSlice S A fuel planes mesh sett = .error .index) := by
  have hb := bare_sliceByVector S A _ _ _ _ hl
  refine ⟨?_, ?_, ?_, ?_⟩
  · rintro rfl
    unfold vipSlice
    simp only [hp, go_ok_bind, hl]
    rfl
  · rintro l t rfl ho
    unfold vipSlice
    simp only [hp, go_ok_bind, hl, goAt, List.getElem?_cons_zero, ho]
    rfl
  · rintro l t p q rfl ho hn
    have := C70_bridge_no_overhang S A mesh sett _ hb hn
    unfold vipSlice
    simp only [hp, go_ok_bind, hl, goAt, List.getElem?_cons_zero, ho]
    exact this
  · intro l last p q h1 h2 ho ho' hr hr' hn
    have := C70_rotation_no_overhang S A mesh sett _ hb hn
    cases layers with
    | nil => cases h1
    | cons x t =>
      have hx : x = l := by simpa using h1
      subst hx
      have hlast : goLast (x :: t) = .ok last := by
        unfold goLast
        rw [h2]
      unfold vipSlice
      simp only [hp, go_ok_bind, hl, goAt, List.getElem?_cons_zero, ho, hr, hlast, ho', hr', List.length_singleton]
      exact this

/-- **C70, negation** in exact arithmetic: for every planes file that contains no planes there is a model on which `vip.Slice` crashes. -/
theorem C70_violated [FltText XR] (S : Sorter) (A : Arrival XR) (fuel : Nat) (planes : Option Bytes) (sett : Settings XR)
    (hp : readPlanes planes = .ok ([] : List (AnalyzedPlane XR))) : ∃ mesh : Mesh XR, vipSlice S A fuel planes mesh sett = .error .index :=
  ⟨⟨[]⟩, (C70_crashes S A fuel planes ⟨[]⟩ sett [] hp rfl).1 rfl⟩
end

/-- **C70, the part that holds.** If an overhang is found below layer `i`, and that layer has a contour, `SliceBridge` returns a program
whenever the two parts can be sliced. (Full claim: it returns for every model; see above.) -/
theorem C70_bridge_partial (S : Sorter) (A : Arrival α) (mesh : Mesh α) (sett : Settings α) (layers : List (Layer α)) (hb : Bare layers)
    (i : Nat) (pl : Plane α) (l : Layer α) (p : Point α) (ps : List (Point α)) (qs : List (Path α))
    (hs : bridgeScan layers = .ok (i, some pl)) (hl : layers[i]? = some l) (hp : l.paths = ⟨p :: ps⟩ :: qs) :
    ∃ up low up' leg, cutMesh S (some mesh) ⟨p, axisZ⟩ = .ok (up, low) ∧ cutMesh S (some up) pl = .ok (up', leg) ∧
      ∀ a b, sliceByVector S A (some leg) axisZ sett = .ok a →
        sliceByVector S A (some (turnMesh (directionZ pl.n) tiltX up')) axisZ sett = .ok b → ∃ g, sliceBridge S A mesh sett layers = .ok g := by
  obtain ⟨up, low, h1⟩ := cutMesh_total S (some mesh) ⟨p, axisZ⟩
  obtain ⟨up', leg, h2⟩ := cutMesh_total S (some up) pl
  refine ⟨up, low, up', leg, h1, h2, ?_⟩
  intro a b ha hb'
  unfold sliceBridge
  obtain ⟨o1, ho1⟩ := prepareLayers_bare S (layers.take i) sett (calcFillPlanes mesh sett).1 (calcFillPlanes mesh sett).2 (bare_take hb _)
  obtain ⟨o2, ho2⟩ := prepareLayers_bare S a sett (calcFillPlanes mesh sett).1 (calcFillPlanes mesh sett).2 (bare_sliceByVector S A _ _ _ _ ha)
  obtain ⟨o3, ho3⟩ := prepareLayers_bare S b sett
    ((calcFillPlanes mesh sett).1.map fun p => (p.rotate (rotationAroundZ (directionZ pl.n))).rotate (rotationAroundX tiltX))
    ((calcFillPlanes mesh sett).2.map fun p => (p.rotate (rotationAroundZ (directionZ pl.n))).rotate (rotationAroundX tiltX))
    (bare_sliceByVector S A _ _ _ _ hb')
  simp only [hs, go_ok_bind, ho1, goAt, hl, hp, List.getElem?_cons_zero, h1, h2, ha, ho2, hb', ho3]
  exact ⟨_, rfl⟩

/-! ## Examples in exact rational arithmetic -/
section
open RatToy
attribute [local instance] RatToy.flt RatToy.txt

/-- two pillars: two outside contours in both layers, and no overhang -/
def pillars : Mesh Rat := ⟨tube 0 2 (corner 0 0 10) ++ tube 0 2 (corner 20 0 10)⟩
/-- two legs, one layer high, and a deck -/
def smallBridge : Mesh Rat := ⟨tube 0 1 (corner 0 0 10) ++ tube 0 1 (corner 20 0 10) ++ tube 1 2 [(0, 0), (30, 0), (0, 10)]⟩
/-- a body of rotation without overhang -/
def drum : Mesh Rat := ⟨tube 0 2 circle⟩

set_option maxRecDepth 4000
/-- the hypotheses of `C70_bridge_no_overhang` -/
example : (sliceByVector Sorter.insertion inOrder (some pillars) axisZ plain >>= fun ls =>
    (adjPairs ls).mapM fun q => (failExistBridge q.1 q.2).map Option.isSome) = .ok [false] := by decide +kernel
/-- the hypotheses of `C70_bridge_deck` -/
example : (sliceByVector Sorter.insertion inOrder (some smallBridge) axisZ plain >>= fun ls =>
    ls.mapM fun l => (outsidePathes l.paths).map List.length) = .ok [2, 1] := by decide +kernel
/-- the hypotheses of `C70_rotation_no_overhang` -/
example : (sliceByVector Sorter.insertion inOrder (some drum) axisZ plain >>= fun ls =>
    (adjPairs ls).mapM fun q => failRotation q.1 q.2) = .ok [false] := by decide +kernel
/-- the two pillars crash the whole slicer -/
example : (vipSlice Sorter.insertion inOrder 1 none pillars plain).map (fun g => g.cmds.length) = .error .index := by decide +kernel
end

end Goosli
