import Verif.Proofs.Geom
import Mathlib.Tactic.FieldSimp
/-!
# The model's vector operations on real vectors
-/
set_option linter.unusedSectionVars false
namespace Goosli
open Flt

theorem lit00 : (lit 0 0 : XR) = XR.fin 0 := by simp
theorem lit10 : (lit 1 0 : XR) = XR.fin 1 := by simp

@[simp] theorem toVector_pt (a : R3) : a.pt.toVector = a.vec := rfl
@[simp] theorem toPoint_vec (a : R3) : a.vec.toPoint = a.pt := rfl
@[simp] theorem vectorTo_pt (a b : R3) : a.pt.vectorTo b.pt = (b - a).vec := by
  simp [Point.vectorTo, V, R3.pt, R3.vec]
@[simp] theorem toVector2_pt (a b : R3) : toVector a.pt b.pt = (b - a).vec := by
  simp [toVector, V, R3.pt, R3.vec]
@[simp] theorem line_toVector (a b : R3) : (Line.mk a.pt b.pt).toVector = (b - a).vec := by
  simp [Line.toVector, V, R3.pt, R3.vec]
@[simp] theorem dot_vec (a b : R3) : a.vec.dot b.vec = XR.fin (a.dot b) := by
  simp [Vec.dot, R3.vec, R3.dot]
@[simp] theorem cross_vec (a b : R3) : a.vec.cross b.vec = (a.cross b).vec := by
  simp [Vec.cross, V, R3.vec, R3.cross]
@[simp] theorem add_vec (a b : R3) : a.vec.add b.vec = (a + b).vec := by simp [Vec.add, V, R3.vec]
@[simp] theorem sub_vec (a b : R3) : a.vec.sub b.vec = (a - b).vec := by simp [Vec.sub, V, R3.vec]
@[simp] theorem reverse_vec (a : R3) : a.vec.reverse = (-a).vec := by simp [Vec.reverse, V, R3.vec]
@[simp] theorem mulScalar_vec (a : R3) (t : ℝ) : a.vec.mulScalar (XR.fin t) = (t • a).vec := by
  simp [Vec.mulScalar, R3.vec, mul_comm]
@[simp] theorem shift_pt (a b : R3) : a.pt.shift b.vec = (a + b).pt := by simp [Point.shift, R3.vec, R3.pt]
@[simp] theorem lengthSquare_vec (a : R3) : a.vec.lengthSquare = XR.fin a.normSq := by
  simp [Vec.lengthSquare, R3.vec, R3.normSq, R3.dot]
@[simp] theorem length_vec (a : R3) : a.vec.length = XR.fin a.norm := by
  simp [Vec.length, R3.norm, XR.fin_sqrt a.normSq_nonneg]
@[simp] theorem distanceTo_pt (a b : R3) : a.pt.distanceTo b.pt = XR.fin (R3.dist a b) := by
  simp only [Point.distanceTo, R3.pt, XR.fin_sub, XR.fin_pow2, XR.fin_add]
  rw [XR.fin_sqrt (by positivity)]
  simp only [R3.dist, R3.norm, R3.normSq, R3.dot, R3.sub_x, R3.sub_y, R3.sub_z]
  congr 2; ring
@[simp] theorem len_pt (a b : R3) : (Line.mk a.pt b.pt).len = XR.fin (R3.dist a b) := by
  simp only [Line.len, R3.pt, XR.fin_sub, XR.fin_pow2, XR.fin_add]
  rw [XR.fin_sqrt (by positivity)]
  simp only [R3.dist, R3.norm, R3.normSq, R3.dot, R3.sub_x, R3.sub_y, R3.sub_z]
  congr 2; ring
@[simp] theorem codirected_vec (a b : R3) : a.vec.codirectedWith b.vec = decide (0 ≤ a.dot b) := by
  simp [Vec.codirectedWith]

theorem R3.norm_eq_zero {a : R3} : a.norm = 0 ↔ a = 0 := by
  unfold R3.norm
  rw [Real.sqrt_eq_zero a.normSq_nonneg]
  constructor
  · intro h
    unfold R3.normSq R3.dot at h
    have h1 : a.x = 0 := by nlinarith [mul_self_nonneg a.x, mul_self_nonneg a.y, mul_self_nonneg a.z]
    have h2 : a.y = 0 := by nlinarith [mul_self_nonneg a.x, mul_self_nonneg a.y, mul_self_nonneg a.z]
    have h3 : a.z = 0 := by nlinarith [mul_self_nonneg a.x, mul_self_nonneg a.y, mul_self_nonneg a.z]
    exact R3.ext h1 h2 h3
  · rintro rfl; simp [R3.normSq, R3.dot]

theorem R3.normSq_eq_zero {a : R3} : a.normSq = 0 ↔ a = 0 := by
  rw [← R3.norm_eq_zero, R3.norm, Real.sqrt_eq_zero a.normSq_nonneg]

theorem R3.norm_sq (a : R3) : a.norm * a.norm = a.normSq := Real.mul_self_sqrt a.normSq_nonneg

theorem R3.norm_pos {a : R3} (h : a ≠ 0) : 0 < a.norm :=
  lt_of_le_of_ne a.norm_nonneg fun e => h (R3.norm_eq_zero.1 e.symm)

theorem R3.normSq_pos {a : R3} (h : a ≠ 0) : 0 < a.normSq :=
  lt_of_le_of_ne a.normSq_nonneg fun e => h (R3.normSq_eq_zero.1 e.symm)

/-- the unit vector in a direction; zero for zero -/
noncomputable def R3.unit (a : R3) : R3 := (1 / a.norm) • a

theorem R3.unit_zero : (0 : R3).unit = 0 := by
  apply R3.ext <;> simp [R3.unit]

@[simp] theorem normalize_vec (a : R3) : a.vec.normalize = a.unit.vec := by
  simp only [Vec.normalize, length_vec, lit00, XR.fin_eq]
  by_cases h : a.norm = 0
  · have := R3.norm_eq_zero.1 h
    subst this
    simp [h, R3.unit_zero]
  · rw [if_neg (by simpa using h)]
    simp [R3.unit, R3.vec, V, XR.fin_div h]
    refine ⟨?_, ?_, ?_⟩ <;> field_simp

@[simp] theorem projectOn_vec (a b : R3) : a.vec.projectOn b.vec = ((b.dot a / b.normSq) • b).vec := by
  simp only [Vec.projectOn, lengthSquare_vec, lit00, XR.fin_eq, dot_vec]
  by_cases h : b.normSq = 0
  · have := R3.normSq_eq_zero.1 h
    subst this
    simp [h]
    apply congrArg R3.vec; apply R3.ext <;> simp
  · rw [if_neg (by simpa using h), XR.fin_div h, mulScalar_vec]

/-- a triangle as built by the constructors -/
theorem newTriangle_pt (a b c : R3) :
    newTriangle a.pt b.pt c.pt = ⟨((b - a).cross (c - a)).vec, a.pt, b.pt, c.pt⟩ := by
  simp [newTriangle, normal]

end Goosli
