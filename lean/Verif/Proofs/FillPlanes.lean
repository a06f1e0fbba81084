import Verif.Model.Fill
import Verif.Proofs.SweepJobs
import Verif.Proofs.Norms
/-!
# The planes of the infill on real meshes
-/
set_option linter.unusedSectionVars false
namespace Goosli
open Flt

/-- unit vector along X -/
def R3.ex : R3 := ⟨1, 0, 0⟩
/-- unit vector along Y -/
def R3.ey : R3 := ⟨0, 1, 0⟩

theorem axisX_vec : (axisX : Vec XR) = R3.ex.vec := by simp [axisX, V, R3.ex, R3.vec]
theorem axisY_vec : (axisY : Vec XR) = R3.ey.vec := by simp [axisY, V, R3.ey, R3.vec]

/-- distance from the axis of the two corners the code looks at -/
noncomputable def cornerRadius (ax bx ay b_y : ℝ) : ℝ :=
  max (Real.sqrt (ax * ax + ay * ay)) (Real.sqrt (bx * bx + b_y * b_y))

theorem cornerRadius_nonneg (ax bx ay b_y : ℝ) : 0 ≤ cornerRadius ax bx ay b_y :=
  le_max_of_le_left (Real.sqrt_nonneg _)

theorem abs_le_cornerRadius {ax bx ay b_y x : ℝ} (h1 : ax ≤ x) (h2 : x ≤ bx) : |x| ≤ cornerRadius ax bx ay b_y := by
  have l1 : |ax| ≤ Real.sqrt (ax * ax + ay * ay) := Real.abs_le_sqrt (by nlinarith [mul_self_nonneg ay])
  have l2 : |bx| ≤ Real.sqrt (bx * bx + b_y * b_y) := Real.abs_le_sqrt (by nlinarith [mul_self_nonneg b_y])
  have l3 : |x| ≤ max |ax| |bx| := abs_le_max_abs_abs h1 h2
  exact l3.trans (max_le_max l1 l2)

theorem abs_le_cornerRadius' {ax bx ay b_y y : ℝ} (h1 : ay ≤ y) (h2 : y ≤ b_y) : |y| ≤ cornerRadius ax bx ay b_y := by
  have l1 : |ay| ≤ Real.sqrt (ax * ax + ay * ay) := Real.abs_le_sqrt (by nlinarith [mul_self_nonneg ax])
  have l2 : |b_y| ≤ Real.sqrt (bx * bx + b_y * b_y) := Real.abs_le_sqrt (by nlinarith [mul_self_nonneg bx])
  have l3 : |y| ≤ max |ay| |b_y| := abs_le_max_abs_abs h1 h2
  exact l3.trans (max_le_max l1 l2)

theorem fillRadius_eq {ts : List RTri} {ax bx ay b_y : ℝ} (hx : Extent ts R3.ex ax bx) (hy : Extent ts R3.ey ay b_y)
    (hr : ∀ w ∈ allVerts ts, |w.x| ≤ XR.maxF64R ∧ |w.y| ≤ XR.maxF64R) :
    fillRadius (rmesh ts) = XR.fin (cornerRadius ax bx ay b_y) := by
  unfold fillRadius
  rw [axisX_vec, axisY_vec, minMaxZ_extent hx (fun w hw => by simpa [R3.dot, R3.ex] using (hr w hw).1),
    minMaxZ_extent hy (fun w hw => by simpa [R3.dot, R3.ey] using (hr w hw).2)]
  simp only [XR.fin_mul, XR.fin_add]
  rw [XR.fin_sqrt (by nlinarith [mul_self_nonneg ax, mul_self_nonneg ay]),
    XR.fin_sqrt (by nlinarith [mul_self_nonneg bx, mul_self_nonneg b_y])]
  rfl

theorem fillStart_eq (r : ℝ) {s : ℝ} (hs : 0 < s) : fillStart (XR.fin r) (XR.fin s) = XR.fin (-(⌈r / s⌉ : ℝ) * s) := by
  unfold fillStart
  rw [XR.fin_neg, XR.fin_div hs.ne', XR.fin_floor, XR.fin_mul, neg_div, Int.floor_neg]
  push_cast
  rfl

theorem fillCount_eq (r : ℝ) {s : ℝ} (hr : 0 ≤ r) (hs : 0 < s) (hb : r / s ≤ 10 ^ 18) :
    fillCount (XR.fin r) (XR.fin s) = 2 * ⌈r / s⌉ := by
  unfold fillCount
  rw [fillStart_eq r hs, XR.fin_sub, XR.fin_div hs.ne', XR.fin_ceil, XR.toInt_def]
  have e : (r - -(⌈r / s⌉ : ℝ) * s) / s = r / s + (⌈r / s⌉ : ℝ) := by field_simp; ring
  have h0 : 0 ≤ r / s := div_nonneg hr hs.le
  have h1 : (0 : Int) ≤ ⌈r / s⌉ := Int.ceil_nonneg h0
  have h2 : ⌈r / s⌉ ≤ 10 ^ 18 := Int.ceil_le.2 (by exact_mod_cast hb)
  rw [e, Int.ceil_add_intCast]
  have e2 : ⌈r / s⌉ + ⌈r / s⌉ = 2 * ⌈r / s⌉ := by ring
  rw [e2]
  unfold XR.toInt
  have h3 : (0 : ℝ) ≤ ((2 * ⌈r / s⌉ : ℤ) : ℝ) := by exact_mod_cast (by omega)
  simp only [if_pos h3, Int.floor_intCast]
  rw [if_pos ⟨by omega, by omega⟩]

theorem fillPlanesFrom_eq (u : R3) (s : ℝ) (k : Nat) (p : R3) :
    fillPlanesFrom u.vec (XR.fin s) k p.pt =
      (List.range k).map fun i : Nat => Plane.mk (p + (((i : ℝ) + 1) * s) • u).pt u.vec := by
  induction k generalizing p with
  | zero => rfl
  | succ k ih =>
    rw [List.range_succ_eq_map, List.map_cons, List.map_map]
    simp only [fillPlanesFrom, mulScalar_vec, shift_pt]
    rw [ih]
    congr 1
    · congr 3; simp
    · apply List.map_congr_left
      intro i _
      simp only [Function.comp_apply]
      congr 2
      apply R3.ext <;> simp <;> ring

/-- the planes for a direction `u` and a step `s`: the multiples `1-c .. c` of the step, where `c = ⌈r/s⌉` -/
theorem calcFillPlanesCommon_eq {ts : List RTri} {ax bx ay b_y : ℝ} (hx : Extent ts R3.ex ax bx)
    (hy : Extent ts R3.ey ay b_y) (hr : ∀ w ∈ allVerts ts, |w.x| ≤ XR.maxF64R ∧ |w.y| ≤ XR.maxF64R) (u : R3) {s : ℝ}
    (hs : 0 < s) (hb : cornerRadius ax bx ay b_y / s ≤ 10 ^ 18) :
    calcFillPlanesCommon (rmesh ts) u.vec (XR.fin s) =
      (List.range (2 * ⌈cornerRadius ax bx ay b_y / s⌉).toNat).map fun i : Nat =>
        Plane.mk ((((i : ℝ) + 1 - ⌈cornerRadius ax bx ay b_y / s⌉) * s) • u).pt u.vec := by
  unfold calcFillPlanesCommon
  rw [fillRadius_eq hx hy hr]
  dsimp only
  rw [fillCount_eq _ (cornerRadius_nonneg _ _ _ _) hs hb, fillStart_eq _ hs, mulScalar_vec, toPoint_vec, fillPlanesFrom_eq]
  apply List.map_congr_left
  intro i _
  congr 2
  apply R3.ext <;> simp <;> ring

end Goosli

namespace Goosli
open Flt

theorem million_le_maxF64R : (10 : ℝ) ^ 6 ≤ XR.maxF64R := by
  unfold XR.maxF64R
  have h1 : (1 : ℝ) ≤ 2 ^ 1003 := one_le_pow₀ (by norm_num)
  have e : (2 : ℝ) ^ 1023 = 2 ^ 1003 * 2 ^ 20 := by rw [← pow_add]
  rw [e]
  have h2 : (1 : ℝ) ≤ 2 - 2⁻¹ ^ 52 := by norm_num
  generalize (2 : ℝ) ^ 1003 = y at h1
  generalize (2 : ℝ) - 2⁻¹ ^ 52 = z at h2
  have h3 : 1 ≤ z * y := by nlinarith
  nlinarith

/-- all vertices within `M` of the axis planes, and `M` not so large that the number of planes overflows -/
structure FillBounds (ts : List RTri) (s M : ℝ) : Prop where
  ne : ts ≠ []
  abs : ∀ w ∈ allVerts ts, |w.x| ≤ M ∧ |w.y| ≤ M
  fits : M ≤ XR.maxF64R
  step : 0 < s
  count : 2 * M ≤ 10 ^ 18 * s

theorem FillBounds.extents {ts : List RTri} {s M : ℝ} (h : FillBounds ts s M) :
    ∃ ax bx ay b_y, Extent ts R3.ex ax bx ∧ Extent ts R3.ey ay b_y ∧ cornerRadius ax bx ay b_y / s ≤ 10 ^ 18 ∧
      (∀ w ∈ allVerts ts, |w.x| ≤ XR.maxF64R ∧ |w.y| ≤ XR.maxF64R) := by
  have hr : ∀ w ∈ allVerts ts, |w.x| ≤ XR.maxF64R ∧ |w.y| ≤ XR.maxF64R := fun w hw =>
    ⟨(h.abs w hw).1.trans h.fits, (h.abs w hw).2.trans h.fits⟩
  obtain ⟨ax, bx, hx⟩ := exists_extent (u := R3.ex) h.ne (fun w hw => by simpa [R3.dot, R3.ex] using (hr w hw).1)
  obtain ⟨ay, b_y, hy⟩ := exists_extent (u := R3.ey) h.ne (fun w hw => by simpa [R3.dot, R3.ey] using (hr w hw).2)
  refine ⟨ax, bx, ay, b_y, hx, hy, ?_, hr⟩
  have hb : ∀ w ∈ allVerts ts, |w.dot R3.ex| ≤ M ∧ |w.dot R3.ey| ≤ M := fun w hw => by
    simpa [R3.dot, R3.ex, R3.ey] using h.abs w hw
  have b1 : |ax| ≤ M := by obtain ⟨w, hw, e⟩ := hx.1.1; rw [← e]; exact (hb w hw).1
  have b2 : |bx| ≤ M := by obtain ⟨w, hw, e⟩ := hx.2.1; rw [← e]; exact (hb w hw).1
  have b3 : |ay| ≤ M := by obtain ⟨w, hw, e⟩ := hy.1.1; rw [← e]; exact (hb w hw).2
  have b4 : |b_y| ≤ M := by obtain ⟨w, hw, e⟩ := hy.2.1; rw [← e]; exact (hb w hw).2
  have hM : 0 ≤ M := (abs_nonneg _).trans b1
  have key : ∀ p q : ℝ, |p| ≤ M → |q| ≤ M → Real.sqrt (p * p + q * q) ≤ 2 * M := by
    intro p q hp hq
    rw [Real.sqrt_le_left (by linarith)]
    obtain ⟨p1, p2⟩ := abs_le.1 hp
    obtain ⟨q1, q2⟩ := abs_le.1 hq
    nlinarith
  rw [div_le_iff₀ h.step]
  exact (max_le (key _ _ b1 b3) (key _ _ b2 b4)).trans h.count

end Goosli
