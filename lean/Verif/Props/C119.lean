import Verif.Proofs.BoxRays
import Verif.Props.C71
/-!
# C119: the default slicer does not tilt the bed for a box
-/
set_option autoImplicit false
namespace Goosli
open Flt R3 Spec

/-- neighbours in a list made from the numbers below `n` -/
theorem adjPairs_map_range {β : Type} (f : ℕ → β) : ∀ (n : ℕ) {x : β × β}, x ∈ adjPairs ((List.range n).map f) → ∃ m, m + 1 < n ∧ x = (f m, f (m + 1)) := by
  intro n
  induction n generalizing f with
  | zero => intro x hx; simp [adjPairs] at hx
  | succ n ih =>
    intro x hx
    rw [List.range_succ_eq_map, List.map_cons, List.map_map] at hx
    cases n with
    | zero => simp [adjPairs] at hx
    | succ n =>
      rw [List.range_succ_eq_map, List.map_cons] at hx
      change x ∈ (f 0, f 1) :: adjPairs ((f ∘ Nat.succ) 0 :: ((List.map Nat.succ (List.range n)).map (f ∘ Nat.succ))) at hx
      rcases List.mem_cons.1 hx with rfl | hx
      · exact ⟨0, by omega, rfl⟩
      · have hx' : x ∈ adjPairs ((List.range (n + 1)).map (f ∘ Nat.succ)) := by
          rw [List.range_succ_eq_map, List.map_cons]; exact hx
        obtain ⟨m, hm, rfl⟩ := ih (f ∘ Nat.succ) hx'
        exact ⟨m + 1, by omega, rfl⟩

/-- the layers of a box, as `SliceByVector` returns them, are straight -/
theorem box_straight {k n : ℕ} {p q : R3} {t : ℝ} (H : GoodBox k p q) (E : EvenLayers k n p.z q.z t) (hn : 2 ≤ n) (j : ℕ → ℕ) :
    Straight ((List.range n).map fun m : ℕ => rectLayer p q (p.z + (m + 1 / 2) * t) m (j m)) := by
  obtain ⟨t0, t1, -, -⟩ := even_facts H E hn
  intro x hx
  obtain ⟨m, hm, rfl⟩ := adjPairs_map_range _ n hx
  have lev : ∀ {m}, m < n → LevelOf k p q (p.z + (m + 1 / 2) * t) := fun {m} hm => by
    obtain ⟨a, b, c⟩ := even_mid E hm
    exact ⟨a, b, c⟩
  have d : p.z + ((m + 1 : ℕ) + 1 / 2) * t - (p.z + (m + 1 / 2) * t) = t := by push_cast; ring
  exact box_no_fail H (lev (by omega)) (lev hm) (j m) (j (m + 1)) (by rw [d]; exact t0) (by rw [d]; exact t1) _ rfl

/-- the default slicer on a box, from the layers -/
theorem box_flat (S : Sorter) (A : Arrival B64) (fuel : ℕ) (hf : 0 < fuel) (planes : Option Bytes)
    (hp : readPlanes planes = .ok ([] : List (AnalyzedPlane B64))) {k n : ℕ} {p q : R3} {t : ℝ} (H : GoodBox k p q) (E : EvenLayers k n p.z q.z t)
    (hn : 2 ≤ n) (sett : Settings B64) {j : ℕ → ℕ} (hj : ∀ m, j m < 4)
    (hsl : sliceByVector S A (some (fmesh (brick p q))) axisZ sett = .ok ((List.range n).map fun m : ℕ => rectLayer p q (p.z + (m + 1 / 2) * t) m (j m))) :
    ∃ (layers out : List (Layer B64)) (j : ℕ → ℕ), sliceByVector S A (some (fmesh (brick p q))) axisZ sett = .ok layers ∧
      prepareLayers S layers sett (calcFillPlanes (fmesh (brick p q)) sett).1 (calcFillPlanes (fmesh (brick p q)) sett).2 = .ok out ∧
      vipSlice S A fuel planes (fmesh (brick p q)) sett = .ok ⟨sett.gs, [.layersMoving out]⟩ ∧ out.length = n ∧ (∀ m, j m < 4) ∧
      ∀ m < n, ∃ o, out[m]? = some o ∧ o.order = m ∧ o.paths = [fpath (rectLoop p q (p.z + (m + 1 / 2) * t) (j m))] := by
  have hb := bare_sliceByVector S A _ _ _ _ hsl
  obtain ⟨out, h1, h2, h3, h4⟩ := C71_default_partial S A fuel hf (fmesh (brick p q)) sett _ hb (box_straight H E hn j) (by simpa using hn)
  refine ⟨_, out, j, hsl, h2, ?_, by simpa using h3, hj, fun m hm => ?_⟩
  · have L0 : LevelOf k p q (p.z + ((0 : ℕ) + 1 / 2) * t) := by
      obtain ⟨a, b, c⟩ := even_mid E (show 0 < n by omega)
      exact ⟨a, b, c⟩
    have first : goAt ((List.range n).map fun m : ℕ => rectLayer p q (p.z + (m + 1 / 2) * t) m (j m)) 0 =
        .ok (rectLayer p q (p.z + ((0 : ℕ) + 1 / 2) * t) 0 (j 0)) := by
      obtain ⟨n', rfl⟩ : ∃ n', n = n' + 1 := ⟨n - 1, by omega⟩
      rw [List.range_succ_eq_map]
      rfl
    have op : outsidePathes (rectLayer p q (p.z + ((0 : ℕ) + 1 / 2) * t) 0 (j 0)).paths = .ok [fpath (rectLoop p q (p.z + ((0 : ℕ) + 1 / 2) * t) (j 0))] := by
      show outsidePathes [_] = _
      unfold outsidePathes
      rw [rect_centroid H L0, go_ok_bind, rect_not_hole H L0]
      rfl
    have rot : isRotation (fpath (rectLoop p q (p.z + ((0 : ℕ) + 1 / 2) * t) (j 0))) = .ok false := by
      unfold isRotation
      rw [rect_centroid H L0]
      rfl
    unfold vipSlice
    rw [hp]
    simp only [go_ok_bind, List.isEmpty_nil, Bool.not_true, Bool.false_eq_true, if_false, hsl, first, op]
    rw [if_neg (by simp)]
    have g0 : goAt [fpath (rectLoop p q (p.z + ((0 : ℕ) + 1 / 2) * t) (j 0))] 0 = .ok (fpath (rectLoop p q (p.z + ((0 : ℕ) + 1 / 2) * t) (j 0))) := rfl
    rw [g0, go_ok_bind, rot, go_ok_bind, if_neg (by simp)]
    exact h1
  · obtain ⟨o, a, b, c⟩ := h4 m (rectLayer p q (p.z + (m + 1 / 2) * t) m (j m)) (by rw [List.getElem?_map, List.getElem?_range hm]; rfl)
    exact ⟨o, a, b, c⟩

/-- **C119, the layers.** With no planes file, whatever the walls: the default slicer makes of a box one group of layers, on the bed as it is; the
layers are numbered upwards and the contour of each is the rectangle of the box. -/
theorem C119_flat (S : Sorter) (A : Arrival B64) (fuel : ℕ) (hf : 0 < fuel) (planes : Option Bytes)
    (hp : readPlanes planes = .ok ([] : List (AnalyzedPlane B64))) {k n : ℕ} {p q : R3} {t : ℝ} (H : GoodBox k p q) (E : EvenLayers k n p.z q.z t)
    (hn : 2 ≤ n) (sett : Settings B64) (ht : sett.layerHeight = B64.of t) (hs : sett.supportsOn = false) :
    ∃ (layers out : List (Layer B64)) (j : ℕ → ℕ), sliceByVector S A (some (fmesh (brick p q))) axisZ sett = .ok layers ∧
      prepareLayers S layers sett (calcFillPlanes (fmesh (brick p q)) sett).1 (calcFillPlanes (fmesh (brick p q)) sett).2 = .ok out ∧
      vipSlice S A fuel planes (fmesh (brick p q)) sett = .ok ⟨sett.gs, [.layersMoving out]⟩ ∧ out.length = n ∧ (∀ m, j m < 4) ∧
      ∀ m < n, ∃ o, out[m]? = some o ∧ o.order = m ∧ o.paths = [fpath (rectLoop p q (p.z + (m + 1 / 2) * t) (j m))] := by
  obtain ⟨j, hj, hsl⟩ := C118_slice S A H E hn sett ht hs
  rw [← axisZ_f64] at hsl
  exact box_flat S A fuel hf planes hp H E hn sett hj hsl

/-- **C119, the same program.** If the walls are not thicker than one line the default slicer returns what `3axes` returns. -/
theorem C119_same (S : Sorter) (A : Arrival B64) (fuel : ℕ) (hf : 0 < fuel) (planes : Option Bytes)
    (hp : readPlanes planes = .ok ([] : List (AnalyzedPlane B64))) {k n : ℕ} {p q : R3} {t : ℝ} (H : GoodBox k p q) (E : EvenLayers k n p.z q.z t)
    (hn : 2 ≤ n) (sett : Settings B64) (ht : sett.layerHeight = B64.of t) (hs : sett.supportsOn = false)
    (hw : Flt.toInt (sett.wallThickness / sett.gs.lineWidth) ≤ 1) :
    vipSlice S A fuel planes (fmesh (brick p q)) sett = sliceByVectorToGcode S A (fmesh (brick p q)) axisZ sett := by
  obtain ⟨layers, out, j, h1, h2, h3, -⟩ := C119_flat S A fuel hf planes hp H E hn sett ht hs
  unfold prepareLayers at h2
  dsimp only at h2
  rw [if_neg (by omega)] at h2
  rw [h3]
  unfold sliceByVectorToGcode
  rw [h1, go_ok_bind]
  dsimp only
  rw [h2]
  rfl

/-- **C119, the run.** `goosli` with its default slicer writes of a box the same file as with `3axes`. -/
theorem C119_program (M : Machine B64) (fuel : ℕ) (hfu : 0 < fuel) (read : String → Option Bytes) (templates : String → Option (List Char))
    (canWrite : String → Bool) (now : String) (fl : GoosliFlags B64) (ts0 : List RTri) (o p q : R3) (t : ℝ) (k n : ℕ)
    (hread : Loads (read fl.stl) (fmesh ts0)) (hF : ∀ w ∈ allVerts ts0, w.isF) (ho : o.isF) (horg : fl.origin = o.f64v)
    (hts : ts0.map (RTri.movedF o) = brick p q) (hp : readPlanes (read fl.planesFile) = .ok ([] : List (AnalyzedPlane B64)))
    (H : GoodBox k p q) (E : EvenLayers k n p.z q.z t) (hn : 2 ≤ n) (ht : fl.layerHeight = B64.of t) (hs : fl.supportsOn = false)
    (hw : Flt.toInt (fl.wallThickness / fl.lineWidth) ≤ 1) :
    runGoosli M fuel read templates canWrite now { fl with slicingType := "vip" } =
      runGoosli M fuel read templates canWrite now { fl with slicingType := "3axes" } := by
  have e : ∀ ty, ({ fl with slicingType := ty } : GoosliFlags B64).settings = fl.settings := fun _ => rfl
  have e' : ∀ ty, ({ fl with slicingType := ty } : GoosliFlags B64).info now = fl.info now := fun _ => rfl
  unfold runGoosli
  simp only [e, e']
  congr 1
  rw [loadMesh_loads hread, go_ok_bind, horg, shiftLoaded_f64 ho hF, hts]
  unfold sliceAs
  simp only [reduceIte, show ("vip" : String) ≠ "3axes" by decide, show ("vip" : String) ≠ "5axes_by_profile" by decide, show ("vip" : String) ≠ "5axes" by decide]
  rw [C119_same M.sorter M.arrival fuel hfu (read fl.planesFile) hp H E hn fl.settings ht hs hw, go_ok_bind, shiftLoaded_f64 ho hF, hts]

/-- **C119, `Slice5Axes`.** A box has few triangles and is not simplified; the layers are those of the box, one group on the bed as it is. -/
theorem C119_five (S : Sorter) (A : Arrival B64) (simplify : List (STri B64) → B64 → List (STri B64)) (fuel : ℕ) (hf : 0 < fuel) {k n : ℕ} {p q : R3} {t : ℝ}
    (H : GoodBox k p q) (E : EvenLayers k n p.z q.z t) (hn : 2 ≤ n) (sett : Settings B64) (ht : sett.layerHeight = B64.of t) (hs : sett.supportsOn = false) :
    ∃ j : ℕ → ℕ, (∀ m, j m < 4) ∧ slice5Axes S A simplify fuel (fmesh (brick p q)) sett =
      .ok ⟨sett.gs, [.layersMoving ((List.range n).map fun m : ℕ => rectLayer p q (p.z + (m + 1 / 2) * t) m (j m))]⟩ := by
  obtain ⟨j, hj, hsl⟩ := C118_slice S A H E hn sett ht hs
  rw [← axisZ_f64] at hsl
  have hsi : simplifyMesh simplify (some (fmesh (brick p q))) 2500 = some (fmesh (brick p q)) := by
    unfold simplifyMesh
    have : (fmesh (brick p q)).triangles.length = 12 := by simp [fmesh, brick, boxFaces]
    dsimp only
    rw [this, if_pos (by norm_num)]
  exact ⟨j, hj, C71_five_partial S A simplify fuel hf _ _ sett _ _ hsi hsl hsl (box_straight H E hn j) (by simpa using hn)⟩

/-- **C119, the contours in the file.** The contours of a box printed by the default slicer are its rectangles. -/
theorem C119_contours (M : Machine B64) (fuel : ℕ) (hfu : 0 < fuel) (read : String → Option Bytes) (templates : String → Option (List Char))
    (canWrite : String → Bool) (now : String) (fl : GoosliFlags B64) (ts0 : List RTri) (o p q : R3) (t lw : ℝ) (k n : ℕ)
    (hread : Loads (read fl.stl) (fmesh ts0)) (hF : ∀ w ∈ allVerts ts0, w.isF) (hty : fl.slicingType = "vip") (ho : o.isF) (horg : fl.origin = o.f64v)
    (hout : canWrite fl.out = true) (htop : (templates "data/header_template.txt").isSome) (hbot : (templates "data/footer_template.txt").isSome)
    (hts : ts0.map (RTri.movedF o) = brick p q) (hp : readPlanes (read fl.planesFile) = .ok ([] : List (AnalyzedPlane B64)))
    (H : GoodBox k p q) (E : EvenLayers k n p.z q.z t) (hn : 2 ≤ n) (ht : fl.layerHeight = B64.of t) (hs : fl.supportsOn = false)
    (hw : Flt.toInt (fl.wallThickness / fl.lineWidth) ≤ 1)
    (hlw : fl.lineWidth = B64.of lw) (Flw : IsF lw) (l0 : 1 / 50 ≤ lw) (l1 : lw ≤ 10)
    (hd0 : 1 ≤ densityShare fl.fillingType fl.fillDensity) (hd1 : densityShare fl.fillingType fl.fillDensity ≤ 100) :
    ∃ (hd ft : List Char) (text : String),
      runGoosli M fuel read templates canWrite now fl = ⟨[(fl.out, hd ++ text.toList ++ ft)], .ok ()⟩ ∧
      (∀ P : Printer, P.tool = 0 → ∀ m ∈ printedMoves P (parseText text), m.layer < n) ∧
      ∀ i < n, ∃ j < 4, ∀ P : Printer, P.tool = 0 →
        rimMovesOf i (printedMoves P (parseText text)) = rectMoves p q (thousandth (p.z + (i + 1 / 2) * t)) i j := by
  have e : fl = { fl with slicingType := "vip" } := by cases fl; cases hty; rfl
  have h := C119_program M fuel hfu read templates canWrite now fl ts0 o p q t k n hread hF ho horg hts hp H E hn ht hs hw
  rw [← e] at h
  rw [h]
  exact C118_program M fuel read templates canWrite now { fl with slicingType := "3axes" } ts0 o p q t lw k n hread hF rfl ho horg hout htop hbot hts H E hn ht hs
    hlw Flw l0 l1 hd0 hd1

/-! ## Non-vacuity -/

/-- flags for the default slicer, layers of a quarter of a millimetre and walls of one line -/
private noncomputable def exFlags : GoosliFlags B64 :=
  ⟨"in.stl", "out.gcode", (⟨0, 0, 0⟩ : R3).f64v, (⟨0, 0, 0⟩ : R3).f64, B64.of 10, B64.of (1 / 4), B64.of (1 / 2), 20, 1, 1, 60, 200, 50, 30, 40, false,
    B64.of (1 / 2), "Squares", false, 20, B64.of 5, "planes.txt", "vip", B64.of 30, zUp.f64v, false, B64.of 1, B64.of 2, B64.of 1, 3⟩

/-- every box of whole sides with a height of at most 12 mm, sliced by default: each of its layers of a quarter of a millimetre has the rectangle of
the box as contour -/
example (M : Machine B64) (fuel : ℕ) (hfu : 0 < fuel) (now : String) (p q : R3) (c : ℕ) (c0 : 1 ≤ c) (c1 : c ≤ 12) (hc : q.z - p.z = c) (H : GoodBox 3 p q) :
    ∃ (hd ft : List Char) (text : String),
    runGoosli M fuel (fun f => if f = "in.stl" then some (saveSTL (fmesh (brick p q))) else none) (fun _ => some []) (fun _ => true) now exFlags =
      ⟨[("out.gcode", hd ++ text.toList ++ ft)], .ok ()⟩ ∧
    ∀ i < 4 * c, ∃ j < 4, ∀ P : Printer, P.tool = 0 →
        rimMovesOf i (printedMoves P (parseText text)) = rectMoves p q (thousandth (p.z + (i + 1 / 2) * (1 / 4))) i j := by
  have em := movedF_zero (ts := brick p q) (box_isF H)
  have step : rd (((4 * c : ℕ) : ℝ) * (1 / 4) * rd (1 / ((4 * c : ℕ) : ℝ))) = 1 / 4 := by
    have := even_upto48 (n := 4 * c) (by omega) (by omega) (b := -2) (by norm_num)
    have e : (2 : ℝ) ^ (-2 : ℤ) = 1 / 4 := by norm_num
    rwa [e] at this
  have E : EvenLayers 3 (4 * c) p.z q.z (1 / 4) :=
    ⟨H.pz.mono (by norm_num), ⟨1, by norm_num⟩, by norm_num, by rw [hc]; push_cast; ring, H.pr.2.2, H.qr.2.2, step⟩
  have one : Flt.toInt (exFlags.wallThickness / exFlags.lineWidth) ≤ 1 := by
    show Flt.toInt (B64.of (1 / 2) / B64.of (1 / 2)) ≤ 1
    rw [B64.div_of isF_half isF_half (by norm_num), div_self (by norm_num), rd_of_rep isF_one.1, B64.toInt_of isF_one]
    simp [XR.toInt]
  have noplanes : readPlanes (if exFlags.planesFile = "in.stl" then some (saveSTL (fmesh (brick p q))) else none) = .ok ([] : List (AnalyzedPlane B64)) := by
    rw [if_neg (by decide : ¬ exFlags.planesFile = "in.stl")]
    rfl
  obtain ⟨hd, ft, text, h1, -, h2⟩ :=
    C119_contours M fuel hfu (fun f => if f = "in.stl" then some (saveSTL (fmesh (brick p q))) else none) (fun _ => some []) (fun _ => true) now exFlags (brick p q) ⟨0, 0, 0⟩ p q (1 / 4)
      (1 / 2) 3 (4 * c) (by exact box_loads H) (box_isF H) rfl ⟨isF_zero, isF_zero, isF_zero⟩ rfl rfl rfl rfl em noplanes H E (by omega) rfl rfl one rfl isF_half
      (by norm_num) (by norm_num) (by decide) (by decide)
  exact ⟨hd, ft, text, h1, h2⟩

end Goosli
