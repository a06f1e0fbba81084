import Verif.Proofs.FillPlanes
/-! # C45 Infill spacing -/
set_option linter.unusedSectionVars false
namespace Goosli
open Flt

/-- C45, spacing: the planes for a direction `u` all have normal `u`, are at consecutive integer multiples of the step, and
reach from below `-r` (first one at most `-r + s`) to at least `r`, where `r` bounds the coordinates of all vertices -/
theorem C45_grid {ts : List RTri} {s M : ℝ} (h : FillBounds ts s M) (u : R3) :
    ∃ (k₀ : ℤ) (n : ℕ) (r : ℝ), (∀ w ∈ allVerts ts, |w.x| ≤ r ∧ |w.y| ≤ r) ∧
      calcFillPlanesCommon (rmesh ts) u.vec (XR.fin s) =
        (List.range n).map (fun i : Nat => Plane.mk ((((k₀ : ℝ) + i) * s) • u).pt u.vec) ∧
      k₀ * s ≤ -r + s ∧ r ≤ (k₀ + n - 1) * s := by
  obtain ⟨ax, bx, ay, b_y, hx, hy, hc, hr⟩ := h.extents
  obtain ⟨r, hrdef⟩ : ∃ r, r = cornerRadius ax bx ay b_y := ⟨_, rfl⟩
  have hr0 : 0 ≤ r := hrdef ▸ cornerRadius_nonneg _ _ _ _
  have h0 : 0 ≤ r / s := div_nonneg hr0 h.step.le
  have h1 : (0 : Int) ≤ ⌈r / s⌉ := Int.ceil_nonneg h0
  have hle : r / s ≤ (⌈r / s⌉ : ℝ) := Int.le_ceil _
  have hle' : r ≤ (⌈r / s⌉ : ℝ) * s := by rwa [div_le_iff₀ h.step] at hle
  refine ⟨1 - ⌈r / s⌉, (2 * ⌈r / s⌉).toNat, r, ?_, ?_, ?_, ?_⟩
  · intro w hw
    rw [hrdef]
    have e1 : w.dot R3.ex = w.x := by simp [R3.dot, R3.ex]
    have e2 : w.dot R3.ey = w.y := by simp [R3.dot, R3.ey]
    exact ⟨abs_le_cornerRadius (hx.1.2 ⟨w, hw, e1⟩) (hx.2.2 ⟨w, hw, e1⟩),
      abs_le_cornerRadius' (hy.1.2 ⟨w, hw, e2⟩) (hy.2.2 ⟨w, hw, e2⟩)⟩
  · rw [calcFillPlanesCommon_eq hx hy hr u h.step hc, ← hrdef]
    apply List.map_congr_left
    intro i _
    congr 3
    push_cast; ring
  · push_cast
    nlinarith
  · have : (((2 * ⌈r / s⌉).toNat : ℕ) : ℝ) = 2 * (⌈r / s⌉ : ℝ) := by
      have : (((2 * ⌈r / s⌉).toNat : ℤ)) = 2 * ⌈r / s⌉ := Int.toNat_of_nonneg (by omega)
      exact_mod_cast this
    rw [this]
    push_cast
    nlinarith

/-- C45, coverage of the Lines pattern: every abscissa of the model (between those of two vertices) is within one step of an
infill plane, if the model is not entirely on the axis -/
theorem C45_lines_cover {ts : List RTri} {d : ℤ} {lw M : ℝ} (sett : Settings XR) (hty : sett.fillingType = "Lines")
    (hd : sett.fillDensity = d) (hlw : sett.gs.lineWidth = XR.fin lw) (h : FillBounds ts (100 / d * lw) M) (hd0 : d ≠ 0)
    (hpos : ∃ w ∈ allVerts ts, w.x ≠ 0 ∨ w.y ≠ 0) (x : ℝ)
    (hx : ∃ v₁ ∈ allVerts ts, ∃ v₂ ∈ allVerts ts, v₁.x ≤ x ∧ x ≤ v₂.x) :
    ∃ p : R3, Plane.mk p.pt (R3.mk 1 0 0).vec ∈ (calcFillPlanes (rmesh ts) sett).1 ∧ |x - p.x| ≤ 100 / d * lw := by
  obtain ⟨s, hs⟩ : ∃ s, s = 100 / (d : ℝ) * lw := ⟨_, rfl⟩
  rw [← hs] at h ⊢
  have hs0 := h.step
  have hstep : fillStep sett.fillDensity sett.gs.lineWidth = XR.fin s := by
    unfold fillStep
    rw [hd, hlw, XR.lit_def, XR.ofInt_def, XR.fin_div (by exact_mod_cast hd0), XR.fin_mul, hs]
    norm_num
  obtain ⟨k₀, n, r, hv, he, hlo, hhi⟩ := C45_grid h R3.ex
  have hpl : (calcFillPlanes (rmesh ts) sett).1 =
      (List.range n).map (fun i : Nat => Plane.mk ((((k₀ : ℝ) + i) * s) • R3.ex).pt R3.ex.vec) := by
    simp only [calcFillPlanes, hty, if_true]
    unfold calcFillPlanesLines
    rw [hstep, axisX_vec, he]
  rw [hpl]
  obtain ⟨v₁, hv₁, v₂, hv₂, hx1, hx2⟩ := hx
  have hxr1 : -r ≤ x := (neg_le_of_abs_le (hv v₁ hv₁).1).trans hx1
  have hxr2 : x ≤ r := hx2.trans (le_of_abs_le (hv v₂ hv₂).1)
  have hrpos : 0 < r := by
    obtain ⟨w, hw, hne⟩ := hpos
    rcases hne with hne | hne
    · exact lt_of_lt_of_le (abs_pos.2 hne) (hv w hw).1
    · exact lt_of_lt_of_le (abs_pos.2 hne) (hv w hw).2
  -- a plane index
  have hn : 1 ≤ n := by
    by_contra hn
    have : n = 0 := by omega
    subst this
    have : (k₀ : ℝ) * s = k₀ * s := rfl
    push_cast at hhi
    nlinarith
  have mem : ∀ i : ℕ, i < n → Plane.mk ((((k₀ : ℝ) + i) * s) • R3.ex).pt (R3.mk 1 0 0).vec ∈
      (List.range n).map (fun i : Nat => Plane.mk ((((k₀ : ℝ) + i) * s) • R3.ex).pt R3.ex.vec) := fun i hi =>
    List.mem_map.2 ⟨i, List.mem_range.2 hi, rfl⟩
  have px : ∀ i : ℕ, ((((k₀ : ℝ) + i) * s) • R3.ex).x = ((k₀ : ℝ) + i) * s := fun i => by simp [R3.ex]
  by_cases hlow : x < k₀ * s
  · refine ⟨_, mem 0 (by omega), ?_⟩
    rw [px]
    push_cast
    rw [abs_le]
    constructor <;> nlinarith
  · have hlow : (k₀ : ℝ) * s ≤ x := not_lt.1 hlow
    obtain ⟨j, hj⟩ : ∃ j : ℕ, (j : ℤ) = ⌊x / s⌋ - k₀ := by
      refine ⟨(⌊x / s⌋ - k₀).toNat, Int.toNat_of_nonneg ?_⟩
      have : k₀ ≤ ⌊x / s⌋ := Int.le_floor.2 (by rw [le_div_iff₀ hs0]; exact hlow)
      omega
    have hjr : (j : ℝ) = (⌊x / s⌋ : ℝ) - k₀ := by exact_mod_cast hj
    have f1 : (⌊x / s⌋ : ℝ) * s ≤ x := by
      have := Int.floor_le (x / s); rwa [le_div_iff₀ hs0] at this
    have f2 : x < ((⌊x / s⌋ : ℝ) + 1) * s := by
      have := Int.lt_floor_add_one (x / s); rwa [div_lt_iff₀ hs0] at this
    refine ⟨_, mem j ?_, ?_⟩
    · have hlt : (j : ℝ) ≤ (n : ℝ) - 1 := by
        have : (⌊x / s⌋ : ℝ) * s ≤ ((k₀ : ℝ) + n - 1) * s := f1.trans (hxr2.trans hhi)
        have := le_of_mul_le_mul_right this hs0
        rw [hjr]; linarith
      have : (j : ℝ) < (n : ℝ) := by linarith
      exact_mod_cast this
    · rw [px, hjr]
      rw [abs_le]
      constructor <;> nlinarith

/-- a cube-like model between `-10` and `10` -/
private def exTs : List RTri := [⟨⟨-10, -10, 0⟩, ⟨10, -10, 0⟩, ⟨10, 10, 5⟩⟩]

/-- density 20 with line width 0.4: step 2, within the bounds -/
example : FillBounds exTs (100 / (20 : ℤ) * (4 / 10)) 10 ∧ (∃ w ∈ allVerts exTs, w.x ≠ 0 ∨ w.y ≠ 0) := by
  refine ⟨⟨by simp [exTs], ?_, ?_, by norm_num, by norm_num⟩, ⟨⟨10, 10, 5⟩, by simp [exTs, allVerts, RTri.verts], by norm_num⟩⟩
  · intro w hw
    simp only [exTs, allVerts, RTri.verts, List.flatMap_cons, List.flatMap_nil, List.append_nil, List.mem_cons,
      List.not_mem_nil, or_false] at hw
    rcases hw with rfl | rfl | rfl <;> norm_num
  · exact le_trans (by norm_num) million_le_maxF64R

/-- the extent of the model used against the diagonal patterns -/
private def exDiag : List RTri := [⟨⟨-100, 0, 0⟩, ⟨0, 0, 0⟩, ⟨-100, 100, 0⟩⟩]

private theorem exDiag_extents : Extent exDiag R3.ex (-100) 0 ∧ Extent exDiag R3.ey 0 100 := by
  have hv : allVerts exDiag = [⟨-100, 0, 0⟩, ⟨0, 0, 0⟩, ⟨-100, 100, 0⟩] := rfl
  refine ⟨⟨⟨⟨⟨-100, 0, 0⟩, by simp [hv], by simp [R3.dot, R3.ex]⟩, ?_⟩, ⟨⟨⟨0, 0, 0⟩, by simp [hv], by simp [R3.dot, R3.ex]⟩, ?_⟩⟩,
    ⟨⟨⟨⟨-100, 0, 0⟩, by simp [hv], by simp [R3.dot, R3.ey]⟩, ?_⟩, ⟨⟨⟨-100, 100, 0⟩, by simp [hv], by simp [R3.dot, R3.ey]⟩, ?_⟩⟩⟩ <;>
    (rintro x ⟨w, hw, rfl⟩; rw [hv] at hw; simp at hw; rcases hw with rfl | rfl | rfl <;> simp [R3.dot, R3.ex, R3.ey])

/-- C45, the diagonal directions are not covered: the bound is computed from the corners (minX,minY) and (maxX,maxY) only.  For
a model in `[-100,0]×[0,100]` and the second direction of the Squares pattern with density 40 and line width 0.4 (step 2),
the vertex (-100,100) is more than 39 mm away from every infill plane. -/
theorem C45_diagonal_uncovered :
    ∃ w ∈ allVerts exDiag, ∀ p ∈ calcFillPlanesCommon (rmesh exDiag) (R3.mk (-7071067812 / 10 ^ 10) (7071067812 / 10 ^ 10) 0).vec (XR.fin 2),
      ∀ P N : R3, p = Plane.mk P.pt N.vec → N.normSq ≤ 1.0001 ∧ 40 < R3.dot (w - P) N := by
  refine ⟨⟨-100, 100, 0⟩, by simp [exDiag, allVerts, RTri.verts], ?_⟩
  obtain ⟨hx, hy⟩ := exDiag_extents
  have hrad : cornerRadius (-100) 0 0 100 = 100 := by
    unfold cornerRadius
    rw [show ((-100 : ℝ) * -100 + 0 * 0) = 100 ^ 2 by norm_num, show ((0 : ℝ) * 0 + 100 * 100) = 100 ^ 2 by norm_num,
      Real.sqrt_sq (by norm_num)]
    simp
  have hmax : (100 : ℝ) ≤ XR.maxF64R := le_trans (by norm_num) million_le_maxF64R
  have hr : ∀ w ∈ allVerts exDiag, |w.x| ≤ XR.maxF64R ∧ |w.y| ≤ XR.maxF64R := by
    intro w hw
    simp only [exDiag, allVerts, RTri.verts, List.flatMap_cons, List.flatMap_nil, List.append_nil, List.mem_cons,
      List.not_mem_nil, or_false] at hw
    have h0 : (0 : ℝ) ≤ XR.maxF64R := by linarith
    rcases hw with rfl | rfl | rfl <;> norm_num <;> first | exact ⟨hmax, h0⟩ | exact h0 | exact hmax
  intro p hp P N hpe
  rw [calcFillPlanesCommon_eq hx hy hr _ (by norm_num) (by rw [hrad]; norm_num), hrad] at hp
  obtain ⟨i, hi, rfl⟩ := List.mem_map.1 hp
  have hc : ⌈(100 : ℝ) / 2⌉ = 50 := by
    rw [show (100 : ℝ) / 2 = ((50 : ℤ) : ℝ) by norm_num]; exact Int.ceil_intCast 50
  rw [hc] at hi hpe
  have hi' : i ≤ 99 := by
    have := List.mem_range.1 hi
    norm_num at this; omega
  have hir : (i : ℝ) ≤ 99 := by exact_mod_cast hi'
  obtain ⟨e1, e2⟩ := Plane.mk.inj hpe
  have e1 := R3.pt_inj e1
  have e2 := R3.vec_inj e2
  subst e1 e2
  constructor
  · simp only [R3.normSq, R3.dot]; norm_num
  · simp only [R3.dot, R3.sub_x, R3.sub_y, R3.sub_z, R3.smul_x, R3.smul_y, R3.smul_z]
    norm_num
    nlinarith

end Goosli
