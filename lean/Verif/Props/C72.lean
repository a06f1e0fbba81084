import Verif.Props.C71
import Verif.Props.C69
/-!
# C72: what the programs of the five axes slicers consist of

The slicers are described here as sequences of cuts, slices and bed movements, without their loops and variables.
-/
set_option linter.unusedSectionVars false
set_option autoImplicit false
namespace Goosli
open Flt
variable {α : Type} [Flt α]

/-! ## Specification -/

/-- `i` is the number of the first layer for which the test against the layer below finds an overhang; the test answers `r` there -/
def FirstOverhang {ρ : Type} (test : Layer α → Layer α → Go ρ) (fine : ρ) (layers : List (Layer α)) (i : Nat) (r : ρ) : Prop :=
  1 ≤ i ∧ (∃ a b, layers[i - 1]? = some a ∧ layers[i]? = some b ∧ test a b = .ok r) ∧
    ∀ j a b, 1 ≤ j → j < i → layers[j - 1]? = some a → layers[j]? = some b → test a b = .ok fine

/-- the turn of the bed that belongs to a plane with normal `n`, in degrees -/
def turnFor (n : Vec α) : α := (n.projectOnPlane planeXY).angle axisX + lit 90 0

/-- the model after the bed has been turned by `a` and tilted -/
def onTiltedBed (a : α) (m : Mesh α) : Mesh α :=
  (m.rotate (rotationAroundZ a) originPoint).rotate (rotationAroundX (lit 60 0)) originPoint

/-- the model after the bed has been levelled and turned back -/
def onLevelBed (a : α) (m : Mesh α) : Mesh α :=
  (m.rotate (rotationAroundX (-lit 60 0)) originPoint).rotate (rotationAroundZ (-a)) originPoint

/-- the planes of the infill, sparse and solid, after the bed has been turned and tilted -/
def fillTilted (a : α) (fp : List (Plane α) × List (Plane α)) : List (Plane α) × List (Plane α) :=
  (fp.1.map fun p => (p.rotate (rotationAroundZ a)).rotate (rotationAroundX (lit 60 0)),
   fp.2.map fun p => (p.rotate (rotationAroundZ a)).rotate (rotationAroundX (lit 60 0)))

/-- the planes of the infill after the bed has been levelled and turned back -/
def fillBack (a : α) (fp : List (Plane α) × List (Plane α)) : List (Plane α) × List (Plane α) :=
  (fp.1.map fun p => (p.rotate (rotationAroundX (-lit 60 0))).rotate (rotationAroundZ (-a)),
   fp.2.map fun p => (p.rotate (rotationAroundX (-lit 60 0))).rotate (rotationAroundZ (-a)))

/-- `p` is the first point of the first contour of the layer -/
def StartsAt (l : Layer α) (p : Point α) : Prop := ∃ ps qs, l.paths = ⟨p :: ps⟩ :: qs

/-- `out` is what is printed of the model `m`: its horizontal layers with walls and infill -/
def Printed (S : Sorter) (A : Arrival α) (sett : Settings α) (fp : List (Plane α) × List (Plane α)) (m : Mesh α) (out : List (Layer α)) : Prop :=
  ∃ layers, sliceByVector S A (some m) axisZ sett = .ok layers ∧ prepareLayers S layers sett fp.1 fp.2 = .ok out

/-! ## SliceBridge -/

theorem adjPairs_get {β : Type} (l : List β) (j : Nat) (a b : β) :
    (adjPairs l)[j]? = some (a, b) ↔ l[j]? = some a ∧ l[j + 1]? = some b := by
  unfold adjPairs
  rw [List.getElem?_zip_eq_some, List.getElem?_tail]

theorem bridgeLevel_some : ∀ (qs : List (Layer α × Layer α)) (n i : Nat) (pl : Plane α), bridgeLevel n qs = .ok (i, some pl) →
    ∃ k, i = n + k ∧ (∃ a b, qs[k]? = some (a, b) ∧ failExistBridge a b = .ok (some pl)) ∧
      ∀ j a b, j < k → qs[j]? = some (a, b) → failExistBridge a b = .ok none := by
  intro qs
  induction qs with
  | nil => intro n i pl h; have := congrArg Prod.snd (pure_ok h); cases this
  | cons q t ih =>
    intro n i pl h
    obtain ⟨a, b⟩ := q
    unfold bridgeLevel at h
    obtain ⟨r, hr, h⟩ := bind_ok h
    cases r with
    | some pl' =>
      have h := pure_ok h
      injection h with h1 h2
      injection h2 with h2
      subst h1 h2
      exact ⟨0, rfl, ⟨a, b, rfl, hr⟩, fun j _ _ hj => absurd hj (Nat.not_lt_zero _)⟩
    | none =>
      obtain ⟨k, h1, ⟨x, y, h2, h3⟩, h4⟩ := ih (n + 1) i pl h
      refine ⟨k + 1, by omega, ⟨x, y, h2, h3⟩, ?_⟩
      intro j x y hj hq
      cases j with
      | zero =>
        injection hq with hq
        injection hq with e1 e2
        subst e1 e2
        exact hr
      | succ j => exact h4 j x y (by omega) hq

theorem bridgeScan_some (layers : List (Layer α)) (i : Nat) (pl : Plane α) (h : bridgeScan layers = .ok (i, some pl)) :
    FirstOverhang failExistBridge none layers i (some pl) := by
  unfold bridgeScan at h
  cases layers with
  | nil => have := congrArg Prod.snd (pure_ok h); cases this
  | cons l t =>
    obtain ⟨k, h1, ⟨a, b, h2, h3⟩, h4⟩ := bridgeLevel_some _ _ _ _ h
    rw [adjPairs_get] at h2
    subst h1
    refine ⟨by omega, ⟨a, b, ?_, ?_, h3⟩, ?_⟩
    · rw [show 1 + k - 1 = k by omega]; exact h2.1
    · rw [show 1 + k = k + 1 by omega]; exact h2.2
    · intro j a b h1 h2 ha hb
      obtain ⟨j, rfl⟩ : ∃ m, j = m + 1 := ⟨j - 1, by omega⟩
      exact h4 j a b (by omega) ((adjPairs_get _ _ _ _).2 ⟨ha, hb⟩)

theorem goAt_ok {β : Type} {l : List β} {i : Nat} {a : β} (h : goAt l i = .ok a) : l[i]? = some a := by
  unfold goAt at h
  cases hl : l[i]? with
  | none => rw [hl] at h; cases h
  | some b => rw [hl] at h; injection h with h; rw [h]

theorem startsAt_of {l : Layer α} {path : Path α} {p : Point α} (h1 : goAt l.paths 0 = .ok path) (h2 : goAt path.points 0 = .ok p) :
    StartsAt l p := by
  have h1 := goAt_ok h1
  have h2 := goAt_ok h2
  obtain ⟨ps⟩ := path
  cases hp : l.paths with
  | nil => rw [hp] at h1; cases h1
  | cons q qs =>
    rw [hp] at h1
    injection h1 with h1
    subst h1
    cases ps with
    | nil => cases h2
    | cons x t => injection h2 with h2; subst h2; exact ⟨_, _, hp⟩

/-- **C72, `SliceBridge`.** The layers below the first overhang are printed level. What is above that layer is cut with the plane of
the overhang; its lower part is printed level, its upper part after the bed has been turned to the plane and tilted. Then the bed is
levelled. -/
theorem C72_bridge (S : Sorter) (A : Arrival α) (mesh : Mesh α) (sett : Settings α) (layers : List (Layer α)) (g : Gcode α)
    (h : sliceBridge S A mesh sett layers = .ok g) :
    ∃ (i : Nat) (pl : Plane α) (l : Layer α) (p : Point α) (up low rest leg : Mesh α) (a b c : List (Layer α)),
      FirstOverhang failExistBridge none layers i (some pl) ∧ layers[i]? = some l ∧ StartsAt l p ∧
      cutMesh S (some mesh) ⟨p, axisZ⟩ = .ok (up, low) ∧ cutMesh S (some up) pl = .ok (rest, leg) ∧
      prepareLayers S (layers.take i) sett (calcFillPlanes mesh sett).1 (calcFillPlanes mesh sett).2 = .ok a ∧
      Printed S A sett (calcFillPlanes mesh sett) leg b ∧
      Printed S A sett (fillTilted (turnFor pl.n) (calcFillPlanes mesh sett)) (onTiltedBed (turnFor pl.n) rest) c ∧
      g.settings = sett.gs ∧
      printedWith levelBed g.cmds = [(levelBed, a), (levelBed, b), (⟨lit 60 0, turnFor pl.n⟩, c)] ∧ bedAtEnd levelBed g.cmds = levelBed := by
  unfold sliceBridge at h
  obtain ⟨⟨i, np⟩, hs, h⟩ := bind_ok h
  obtain ⟨a, ha, h⟩ := bind_ok h
  obtain ⟨l, hl, h⟩ := bind_ok h
  obtain ⟨path, hpath, h⟩ := bind_ok h
  obtain ⟨p, hp, h⟩ := bind_ok h
  cases np with
  | none => cases h
  | some pl =>
    obtain ⟨⟨up, low⟩, h1, h⟩ := bind_ok h
    obtain ⟨⟨rest, leg⟩, h2, h⟩ := bind_ok h
    obtain ⟨bl, hbl, h⟩ := bind_ok h
    obtain ⟨b, hb, h⟩ := bind_ok h
    obtain ⟨cl, hcl, h⟩ := bind_ok h
    obtain ⟨c, hc, h⟩ := bind_ok h
    have h := pure_ok h
    refine ⟨i, pl, l, p, up, low, rest, leg, a, b, c, bridgeScan_some layers i pl hs, goAt_ok hl, startsAt_of hpath hp, h1, h2, ha,
      ⟨bl, hbl, hb⟩, ⟨cl, hcl, hc⟩, by rw [← h]; rfl, by rw [← h]; rfl, by rw [← h]; rfl⟩

/-! ## SliceRotation -/

theorem rotationLevel_found : ∀ (qs : List (Layer α × Layer α)) (n i : Nat), rotationLevel n qs = .ok i →
    (i = n + qs.length ∧ ∀ q ∈ qs, failRotation q.1 q.2 = .ok false) ∨
    ∃ k, i = n + k ∧ (∃ a b, qs[k]? = some (a, b) ∧ failRotation a b = .ok true) ∧
      ∀ j a b, j < k → qs[j]? = some (a, b) → failRotation a b = .ok false := by
  intro qs
  induction qs with
  | nil => intro n i h; exact Or.inl ⟨(pure_ok h).symm, by simp⟩
  | cons q t ih =>
    intro n i h
    obtain ⟨a, b⟩ := q
    unfold rotationLevel at h
    obtain ⟨r, hr, h⟩ := bind_ok h
    cases r with
    | true =>
      have h := pure_ok h
      subst h
      exact Or.inr ⟨0, rfl, ⟨a, b, rfl, hr⟩, fun j _ _ hj => absurd hj (Nat.not_lt_zero _)⟩
    | false =>
      simp only [Bool.false_eq_true, if_false] at h
      rcases ih (n + 1) i h with ⟨h1, h2⟩ | ⟨k, h1, ⟨x, y, h2, h3⟩, h4⟩
      · refine Or.inl ⟨by simp; omega, ?_⟩
        intro q hq
        rcases List.mem_cons.1 hq with rfl | hq
        · exact hr
        · exact h2 q hq
      · refine Or.inr ⟨k + 1, by omega, ⟨x, y, h2, h3⟩, ?_⟩
        intro j x y hj hq
        cases j with
        | zero =>
          injection hq with hq
          injection hq with e1 e2
          subst e1 e2
          exact hr
        | succ j => exact h4 j x y (by omega) hq

theorem rotationScan_found (layers : List (Layer α)) (i : Nat) (l : Layer α) (h : rotationScan layers = .ok i) (hl : layers[i]? = some l) :
    FirstOverhang failRotation false layers i true := by
  have hi : i < layers.length := (List.getElem?_eq_some_iff.1 hl).1
  unfold rotationScan at h
  cases layers with
  | nil => simp at hi
  | cons l t =>
    rcases rotationLevel_found _ _ _ h with ⟨h1, _⟩ | ⟨k, h1, ⟨a, b, h2, h3⟩, h4⟩
    · rw [adjPairs_length] at h1
      simp only [List.length_cons] at h1 hi
      omega
    · rw [adjPairs_get] at h2
      subst h1
      refine ⟨by omega, ⟨a, b, ?_, ?_, h3⟩, ?_⟩
      · rw [show 1 + k - 1 = k by omega]; exact h2.1
      · rw [show 1 + k = k + 1 by omega]; exact h2.2
      · intro j a b h1 h2 ha hb
        obtain ⟨j, rfl⟩ : ∃ m, j = m + 1 := ⟨j - 1, by omega⟩
        exact h4 j a b (by omega) ((adjPairs_get _ _ _ _).2 ⟨ha, hb⟩)

/-- **C72, `SliceRotation`.** The layers below the first overhang are printed level; what is above that layer is tilted with the bed,
and is cut into layers along its own axis, which is tilted as well. -/
theorem C72_rotation (S : Sorter) (A : Arrival α) (mesh : Mesh α) (sett : Settings α) (layers : List (Layer α)) (g : Gcode α)
    (h : sliceRotation S A mesh sett layers = .ok g) :
    ∃ (i : Nat) (l : Layer α) (p : Point α) (up low : Mesh α) (a bl b : List (Layer α)),
      FirstOverhang failRotation false layers i true ∧ layers[i]? = some l ∧ StartsAt l p ∧
      cutMesh S (some mesh) ⟨p, axisZ⟩ = .ok (up, low) ∧
      prepareLayers S (layers.take i) sett (calcFillPlanes mesh sett).1 (calcFillPlanes mesh sett).2 = .ok a ∧
      sliceByVector S A (some (up.rotate (rotationAroundX (lit 60 0)) originPoint)) (axisZ.rotate (rotationAroundX (lit 60 0))) sett = .ok bl ∧
      prepareLayers S bl sett ((calcFillPlanes mesh sett).1.map fun p => p.rotate (rotationAroundX (lit 60 0)))
        ((calcFillPlanes mesh sett).2.map fun p => p.rotate (rotationAroundX (lit 60 0))) = .ok b ∧
      g.settings = sett.gs ∧
      printedWith levelBed g.cmds = [(levelBed, a), (⟨lit 60 0, lit 0 0⟩, b)] ∧ bedAtEnd levelBed g.cmds = levelBed := by
  unfold sliceRotation at h
  obtain ⟨i, hs, h⟩ := bind_ok h
  obtain ⟨a, ha, h⟩ := bind_ok h
  obtain ⟨l, hl, h⟩ := bind_ok h
  obtain ⟨path, hpath, h⟩ := bind_ok h
  obtain ⟨p, hp, h⟩ := bind_ok h
  obtain ⟨⟨up, low⟩, h1, h⟩ := bind_ok h
  obtain ⟨bl, hbl, h⟩ := bind_ok h
  obtain ⟨b, hb, h⟩ := bind_ok h
  have h := pure_ok h
  exact ⟨i, l, p, up, low, a, bl, b, rotationScan_found layers i l hs (goAt_ok hl), goAt_ok hl, startsAt_of hpath hp, h1, ha, hbl, hb,
    by rw [← h]; rfl, by rw [← h]; rfl, by rw [← h]; rfl⟩

/-! ## SliceDefault2 -/

/-- The commands of `SliceDefault2` for a model whose layers are known. `bed` is the turn of the bed if it is tilted. -/
inductive DefaultRun (S : Sorter) (A : Arrival α) (sett : Settings α) :
    Mesh α → List (Layer α) → Option α → List (Plane α) × List (Plane α) → List (Command α) → Prop
  /-- fewer than two layers: nothing -/
  | short (m layers bed fp) : layers.length < 2 → DefaultRun S A sett m layers bed fp []
  /-- no overhang: all layers -/
  | straight (m layers bed fp out) : 2 ≤ layers.length → Straight layers → prepareLayers S layers sett fp.1 fp.2 = .ok out →
      DefaultRun S A sett m layers bed fp [.layersMoving out]
  /-- an overhang while the bed is level: what is below the plane is printed, the bed is turned to the plane and tilted -/
  | tilt (m layers fp i pl up down out layers' cs) : FirstOverhang (fun a b => calculateFails a b.paths) none layers i (some pl) →
      cutMesh S (some m) pl = .ok (up, down) → Printed S A sett fp down out →
      sliceByVector S A (some (onTiltedBed (turnFor pl.n) up)) axisZ sett = .ok layers' →
      DefaultRun S A sett (onTiltedBed (turnFor pl.n) up) layers' (some (turnFor pl.n)) (fillTilted (turnFor pl.n) fp) cs →
      DefaultRun S A sett m layers none fp (.layersMoving out :: .rotateZ (turnFor pl.n) :: .inclineX :: cs)
  /-- an overhang while the bed is tilted: what is below the plane is printed, the bed is levelled and turned to zero -/
  | level (m layers fp i pl up down out layers' cs turn) : FirstOverhang (fun a b => calculateFails a b.paths) none layers i (some pl) →
      cutMesh S (some m) pl = .ok (up, down) → Printed S A sett fp down out →
      sliceByVector S A (some (onLevelBed turn up)) axisZ sett = .ok layers' →
      DefaultRun S A sett (onLevelBed turn up) layers' none (fillBack turn fp) cs →
      DefaultRun S A sett m layers (some turn) fp (.layersMoving out :: .inclineXBack :: .rotateZ (lit 0 0) :: cs)

theorem firstFail_found : ∀ (qs : List (Layer α × Layer α)) (n : Nat) (r : Option (Nat × Plane α)), firstFail n qs = .ok r →
    (r = none ∧ ∀ q ∈ qs, calculateFails q.1 q.2.paths = .ok none) ∨
    ∃ k pl, r = some (n + k, pl) ∧ (∃ a b, qs[k]? = some (a, b) ∧ calculateFails a b.paths = .ok (some pl)) ∧
      ∀ j a b, j < k → qs[j]? = some (a, b) → calculateFails a b.paths = .ok none := by
  intro qs
  induction qs with
  | nil => intro n r h; exact Or.inl ⟨(pure_ok h).symm, by simp⟩
  | cons q t ih =>
    intro n r h
    obtain ⟨a, b⟩ := q
    unfold firstFail at h
    obtain ⟨x, hx, h⟩ := bind_ok h
    cases x with
    | some pl =>
      exact Or.inr ⟨0, pl, (pure_ok h).symm, ⟨a, b, rfl, hx⟩, fun j _ _ hj => absurd hj (Nat.not_lt_zero _)⟩
    | none =>
      rcases ih (n + 1) r h with ⟨h1, h2⟩ | ⟨k, pl, h1, ⟨x, y, h2, h3⟩, h4⟩
      · refine Or.inl ⟨h1, ?_⟩
        intro q hq
        rcases List.mem_cons.1 hq with rfl | hq
        · exact hx
        · exact h2 q hq
      · refine Or.inr ⟨k + 1, pl, by rw [h1, show n + 1 + k = n + (k + 1) by omega], ⟨x, y, h2, h3⟩, ?_⟩
        intro j x y hj hq
        cases j with
        | zero =>
          injection hq with hq
          injection hq with e1 e2
          subst e1 e2
          exact hx
        | succ j => exact h4 j x y (by omega) hq

theorem firstFail_spec (layers : List (Layer α)) (r : Option (Nat × Plane α)) (h : firstFail 1 (adjPairs layers) = .ok r) :
    (r = none ∧ Straight layers) ∨
    ∃ i pl, r = some (i, pl) ∧ FirstOverhang (fun a b => calculateFails a b.paths) none layers i (some pl) := by
  rcases firstFail_found _ _ _ h with h | ⟨k, pl, h1, ⟨a, b, h2, h3⟩, h4⟩
  · exact Or.inl h
  · rw [adjPairs_get] at h2
    refine Or.inr ⟨1 + k, pl, h1, by omega, ⟨a, b, ?_, ?_, h3⟩, ?_⟩
    · rw [show 1 + k - 1 = k by omega]; exact h2.1
    · rw [show 1 + k = k + 1 by omega]; exact h2.2
    · intro j a b h1 h2 ha hb
      obtain ⟨j, rfl⟩ : ∃ m, j = m + 1 := ⟨j - 1, by omega⟩
      exact h4 j a b (by omega) ((adjPairs_get _ _ _ _).2 ⟨ha, hb⟩)

theorem defaultLoop_run (S : Sorter) (A : Arrival α) (sett : Settings α) : ∀ (k : Nat) (st : DefaultSt α) (g : Gcode α),
    defaultLoop S A sett k st = .ok g → ∃ cs, g = ⟨st.gcd.settings, st.gcd.cmds ++ cs⟩ ∧
      DefaultRun S A sett st.mesh st.layers (if st.rotated then some st.angleZ else none) (st.planes, st.fullPlanes) cs := by
  intro k
  induction k with
  | zero => intro st g h; cases h
  | succ k ih =>
    intro st g h
    unfold defaultLoop at h
    obtain ⟨r, hr, h⟩ := bind_ok h
    rcases firstFail_spec st.layers r hr with ⟨rfl, hs⟩ | ⟨i, pl, rfl, hf⟩
    · dsimp only at h
      split at h
      · rename_i h2
        obtain ⟨out, ho, h⟩ := bind_ok h
        have h := pure_ok h
        refine ⟨[.layersMoving out], by rw [← h]; rfl, .straight _ _ _ _ _ h2 hs ho⟩
      · rename_i h2
        have h := pure_ok h
        subst h
        exact ⟨[], by simp, .short _ _ _ _ (by omega)⟩
    · dsimp only at h
      obtain ⟨st', hst, h⟩ := bind_ok h
      obtain ⟨cs, h1, h2⟩ := ih st' g h
      unfold defaultTurn at hst
      obtain ⟨⟨up, down⟩, hcut, hst⟩ := bind_ok hst
      obtain ⟨add, hadd, hst⟩ := bind_ok hst
      obtain ⟨out, hout, hst⟩ := bind_ok hst
      obtain ⟨layers', hlay, hst⟩ := bind_ok hst
      have hst := pure_ok hst
      obtain ⟨m0, l0, rot, an, p1, p2, g0⟩ := st
      subst hst
      cases rot with
      | true =>
        dsimp only [if_true] at h1 h2 hlay ⊢
        refine ⟨_, ?_, .level _ _ _ _ _ _ _ _ layers' cs an hf hcut ⟨add, hadd, hout⟩ hlay h2⟩
        rw [h1]
        simp [Gcode.add, Gcode.addLayers]
      | false =>
        simp only [Bool.false_eq_true, if_false, if_true] at h1 h2 hlay ⊢
        refine ⟨_, ?_, .tilt _ _ _ _ _ _ _ _ layers' cs hf hcut ⟨add, hadd, hout⟩ hlay h2⟩
        rw [h1]
        simp [Gcode.add, Gcode.addLayers, turnFor, directionZ]

/-- **C72, `SliceDefault2`.** -/
theorem C72_default (S : Sorter) (A : Arrival α) (fuel : Nat) (mesh : Mesh α) (sett : Settings α) (layers : List (Layer α)) (g : Gcode α)
    (h : sliceDefault2 S A fuel mesh sett layers = .ok g) :
    g.settings = sett.gs ∧ DefaultRun S A sett mesh layers none (calcFillPlanes mesh sett) g.cmds := by
  unfold sliceDefault2 at h
  obtain ⟨cs, h1, h2⟩ := defaultLoop_run S A sett fuel _ g h
  rw [h1]
  exact ⟨rfl, h2⟩

/-! ## Slice5Axes -/

/-- The commands of `Slice5Axes` for a model `m` with layers `toAdd`, and a simplified model with layers `layers`, on which overhangs
are looked for. `bed` is the turn of the bed if it is tilted. -/
inductive FiveRun (S : Sorter) (A : Arrival α) (sett : Settings α) :
    Mesh α → Mesh α → List (Layer α) → List (Layer α) → Option α → List (Command α) → Prop
  | short (simp m layers toAdd bed) : layers.length < 2 → FiveRun S A sett simp m layers toAdd bed []
  | straight (simp m layers toAdd bed) : 2 ≤ layers.length → Straight layers → FiveRun S A sett simp m layers toAdd bed [.layersMoving toAdd]
  /-- an overhang: the layers below it are printed, then what is above that layer and below the plane; then the bed is moved -/
  | turn (simp m layers toAdd bed i pl l c s1 s1' m1 m1' s2 s2' m2 down add simp' m' bed' cmd layers' toAdd' cs) :
      FirstOverhang (fun a b => calculateFails a b.paths) none layers i (some pl) → i ≤ toAdd.length →
      layers[i]? = some l → calculateCenter l = .ok c →
      cutMesh S (some simp) ⟨c, axisZ⟩ = .ok (s1, s1') → cutMesh S (some m) ⟨c, axisZ⟩ = .ok (m1, m1') →
      cutMesh S (some s1) pl = .ok (s2, s2') → cutMesh S (some m1) pl = .ok (m2, down) →
      sliceByVector S A (some down) axisZ sett = .ok add →
      (match bed with
        | none => simp' = onTiltedBed (turnFor pl.n) s2 ∧ m' = onTiltedBed (turnFor pl.n) m2 ∧ bed' = some (turnFor pl.n) ∧
            cmd = .rotateXZ (lit 60 0) (turnFor pl.n)
        | some turn => simp' = onLevelBed turn s2 ∧ m' = onLevelBed turn m2 ∧ bed' = none ∧ cmd = .rotateXZ (lit 0 0) (lit 0 0)) →
      sliceByVector S A (some simp') axisZ sett = .ok layers' → sliceByVector S A (some m') axisZ sett = .ok toAdd' →
      FiveRun S A sett simp' m' layers' toAdd' bed' cs →
      FiveRun S A sett simp m layers toAdd bed (.layersMoving (toAdd.take i) :: .layersMoving add :: cmd :: cs)

theorem goTake_ok {β : Type} {l : List β} {i : Nat} {r : List β} (h : goTake l i = .ok r) : i ≤ l.length ∧ r = l.take i := by
  unfold goTake at h
  split at h
  · rename_i hi; injection h with h; exact ⟨hi, h.symm⟩
  · cases h

theorem fiveLoop_run (S : Sorter) (A : Arrival α) (sett : Settings α) : ∀ (k : Nat) (st : FiveSt α) (g : Gcode α),
    fiveLoop S A sett k st = .ok g → ∃ cs, g = ⟨st.gcd.settings, st.gcd.cmds ++ cs⟩ ∧
      FiveRun S A sett st.simp st.mesh st.layers st.toAdd (if st.rotated then some st.angleZ else none) cs := by
  intro k
  induction k with
  | zero => intro st g h; cases h
  | succ k ih =>
    intro st g h
    unfold fiveLoop at h
    obtain ⟨r, hr, h⟩ := bind_ok h
    rcases firstFail_spec st.layers r hr with ⟨rfl, hs⟩ | ⟨i, pl, rfl, hf⟩
    · have h := pure_ok h
      by_cases h2 : 2 ≤ st.layers.length
      · rw [if_pos h2] at h
        exact ⟨[.layersMoving st.toAdd], by rw [← h]; rfl, .straight _ _ _ _ _ h2 hs⟩
      · rw [if_neg h2] at h
        subst h
        exact ⟨[], by simp, .short _ _ _ _ _ (by omega)⟩
    · dsimp only at h
      obtain ⟨st', hst, h⟩ := bind_ok h
      obtain ⟨cs, h1, h2⟩ := ih st' g h
      unfold fiveTurn at hst
      obtain ⟨taken, htake, hst⟩ := bind_ok hst
      obtain ⟨l, hl, hst⟩ := bind_ok hst
      obtain ⟨c, hc, hst⟩ := bind_ok hst
      obtain ⟨⟨s1, s1'⟩, hc1, hst⟩ := bind_ok hst
      obtain ⟨⟨m1, m1'⟩, hc2, hst⟩ := bind_ok hst
      obtain ⟨⟨s2, s2'⟩, hc3, hst⟩ := bind_ok hst
      obtain ⟨⟨m2, down⟩, hc4, hst⟩ := bind_ok hst
      obtain ⟨add, hadd, hst⟩ := bind_ok hst
      obtain ⟨layers', hlay, hst⟩ := bind_ok hst
      obtain ⟨toAdd', htoAdd, hst⟩ := bind_ok hst
      have hst := pure_ok hst
      obtain ⟨hi, rfl⟩ := goTake_ok htake
      obtain ⟨simp0, m0, l0, t0, rot, an, g0⟩ := st
      subst hst
      cases rot with
      | true =>
        dsimp only [if_true] at h1 h2 hlay htoAdd ⊢
        refine ⟨_, ?_, .turn _ _ _ _ _ i pl l c s1 s1' m1 m1' s2 s2' m2 down add _ _ none _ layers' toAdd' cs hf hi (goAt_ok hl) hc hc1 hc2 hc3
          hc4 hadd ⟨rfl, rfl, rfl, rfl⟩ hlay htoAdd h2⟩
        rw [h1]
        simp [Gcode.add, Gcode.addLayers]
      | false =>
        simp only [Bool.false_eq_true, if_false, if_true] at h1 h2 hlay htoAdd ⊢
        refine ⟨_, ?_, .turn _ _ _ _ _ i pl l c s1 s1' m1 m1' s2 s2' m2 down add _ _ (some _) _ layers' toAdd' cs hf hi (goAt_ok hl) hc hc1 hc2
          hc3 hc4 hadd ⟨rfl, rfl, rfl, rfl⟩ hlay htoAdd h2⟩
        rw [h1]
        simp [Gcode.add, Gcode.addLayers, turnFor, directionZ, tiltX]

/-- **C72, `Slice5Axes`.** -/
theorem C72_five (S : Sorter) (A : Arrival α) (f : List (STri α) → α → List (STri α)) (fuel : Nat) (mesh : Mesh α) (sett : Settings α)
    (g : Gcode α) (h : slice5Axes S A f fuel mesh sett = .ok g) :
    ∃ simp layers toAdd, simplifyMesh f (some mesh) 2500 = some simp ∧ sliceByVector S A (some simp) axisZ sett = .ok layers ∧
      sliceByVector S A (some mesh) axisZ sett = .ok toAdd ∧ g.settings = sett.gs ∧ FiveRun S A sett simp mesh layers toAdd none g.cmds := by
  unfold slice5Axes at h
  split at h
  · cases h
  · rename_i simp hs
    obtain ⟨layers, hl, h⟩ := bind_ok h
    obtain ⟨toAdd, ht, h⟩ := bind_ok h
    obtain ⟨cs, h1, h2⟩ := fiveLoop_run S A sett fuel _ g h
    rw [h1]
    exact ⟨simp, layers, toAdd, hs, hl, ht, rfl, h2⟩

/-! ## SliceByProfile -/

/-- The commands of `SliceByProfile` for a model and the pieces of its profile: before each piece the bed is brought to the direction of
the piece; what is printed is the model between the two ends of the piece, the last piece takes what is left. -/
inductive ProfileRun (S : Sorter) (A : Arrival α) (sett : Settings α) : List (Point α × Point α) → Mesh α → List (Command α) → Prop
  | done (m) : ProfileRun S A sett [] m []
  | last (a b m layers) : sliceByVector S A (some (((m.rotate (rotationAroundZ (turnFor (a.vectorTo b))) originPoint).rotate
        (rotationAroundX ((a.vectorTo b).angle axisZ)) originPoint))) axisZ sett = .ok layers →
      ProfileRun S A sett [(a, b)] m [.rotateXZ ((a.vectorTo b).angle axisZ) (turnFor (a.vectorTo b)), .layersMoving layers]
  | piece (a b q t m up down layers cs) : cutMesh S (some m) ⟨b, axisZ⟩ = .ok (up, down) →
      sliceByVector S A (some (((down.rotate (rotationAroundZ (turnFor (a.vectorTo b))) originPoint).rotate
        (rotationAroundX ((a.vectorTo b).angle axisZ)) originPoint))) axisZ sett = .ok layers →
      ProfileRun S A sett (q :: t) up cs →
      ProfileRun S A sett ((a, b) :: q :: t) m
        (.rotateXZ ((a.vectorTo b).angle axisZ) (turnFor (a.vectorTo b)) :: .layersMoving layers :: cs)

theorem profileLoop_run (S : Sorter) (A : Arrival α) (sett : Settings α) : ∀ (qs : List (Point α × Point α)) (m : Mesh α) (g g' : Gcode α),
    profileLoop S A sett qs m g = .ok g' → ∃ cs, g' = ⟨g.settings, g.cmds ++ cs⟩ ∧ ProfileRun S A sett qs m cs := by
  intro qs
  induction qs with
  | nil => intro m g g' h; rw [← pure_ok h]; exact ⟨[], by simp, .done m⟩
  | cons q t ih =>
    intro m g g' h
    obtain ⟨a, b⟩ := q
    unfold profileLoop at h
    obtain ⟨⟨up, down⟩, hcut, h⟩ := bind_ok h
    obtain ⟨layers, hl, h⟩ := bind_ok h
    obtain ⟨cs, h1, h2⟩ := ih up _ g' h
    unfold profileCut at hcut
    cases t with
    | nil =>
      have hcut := pure_ok hcut
      injection hcut with e1 e2
      subst e1 e2
      cases h2
      refine ⟨_, ?_, .last a b _ layers hl⟩
      rw [h1]
      simp [Gcode.add, Gcode.addLayers, turnFor, directionZ]
    | cons q t =>
      refine ⟨_, ?_, .piece a b q t m up down layers cs hcut hl h2⟩
      rw [h1]
      simp [Gcode.add, Gcode.addLayers, turnFor, directionZ]

/-- **C72, `SliceByProfile`.** -/
theorem C72_profile (S : Sorter) (A : Arrival α) (fuel : Nat) (mesh : Mesh α) (sett : Settings α) (g : Gcode α)
    (h : sliceByProfile S A fuel mesh sett = .ok g) : ∃ layers centers profile, sliceByVector S A (some mesh) axisZ sett = .ok layers ∧
      layers.mapM calculateCenter = .ok centers ∧ simplifyLine fuel centers sett.epsilon = .ok profile ∧ g.settings = sett.gs ∧
      ProfileRun S A sett (adjPairs profile) mesh g.cmds := by
  unfold sliceByProfile at h
  obtain ⟨layers, h1, h⟩ := bind_ok h
  obtain ⟨centers, h2, h⟩ := bind_ok h
  obtain ⟨profile, h3, h⟩ := bind_ok h
  obtain ⟨cs, h4, h5⟩ := profileLoop_run S A sett _ _ _ _ h
  rw [h4]
  exact ⟨layers, centers, profile, h1, h2, h3, rfl, h5⟩

/-! ## Examples -/
section
open RatToy
attribute [local instance] RatToy.flt
set_option maxRecDepth 10000

/-- a slicer that is given the layers -/
def via (f : Mesh Rat → Settings Rat → List (Layer Rat) → Go (Gcode Rat)) (m : Mesh Rat) : Go (Gcode Rat) :=
  sliceByVector Sorter.insertion inOrder (some m) axisZ hollow >>= f m hollow

/-- two legs that lean towards each other: seven commands, so the bed is moved four times -/
def leaningLegs : Mesh Rat := ⟨frustum 0 2 (corner 0 0 4) (corner 4 0 4) ++ frustum 0 2 (corner 10 0 4) (corner 8 0 4)⟩
example : (via (sliceBridge Sorter.insertion inOrder) leaningLegs).map (fun g => g.cmds.length) = .ok 7 := by decide +kernel
/-- a funnel -/
def funnel : Mesh Rat := ⟨frustum 0 2 [(-3, -3), (3, -3), (0, 3)] [(-9, -9), (9, -9), (0, 9)]⟩
example : (via (sliceRotation Sorter.insertion inOrder) funnel).map (fun g => g.cmds.length) = .ok 4 := by decide +kernel
/-- a leaning pillar -/
def leaning : Mesh Rat := ⟨frustum 0 2 (corner 0 0 4) (corner 2 0 4)⟩
example : (via (sliceDefault2 Sorter.insertion inOrder 9) leaning).map (fun g => g.cmds.length) = .ok 10 := by decide +kernel
example : (slice5Axes Sorter.insertion inOrder (fun l _ => l) 5 leaning hollow).map (fun g => g.cmds.length) = .ok 6 := by decide +kernel
/-- its profile has one piece -/
example : (sliceByProfile Sorter.insertion inOrder 5 leaning hollow).map (fun g => g.cmds.length) = .ok 2 := by decide +kernel
end

end Goosli
