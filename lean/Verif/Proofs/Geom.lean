import Verif.Proofs.Base
import Verif.Spec.R3
import Mathlib.Algebra.Order.Group.Unbundled.Abs
import Mathlib.Tactic.Linarith
import Mathlib.Tactic.NormNum
import Mathlib.Algebra.Order.Floor.Ring
/-!
# The model's primitives on real points
-/
set_option linter.unusedSectionVars false
namespace Goosli
open Flt

/-- the tolerance of the code, `1e-6` -/
noncomputable def tol : ℝ := 1 / 10 ^ 6

theorem tol_pos : 0 < tol := by unfold tol; norm_num

@[simp] theorem almostZero_fin (x : ℝ) : almostZero (XR.fin x) = decide (|x| < tol) := by
  have : (almostZeroNumber : XR) = XR.fin tol := by simp [almostZeroNumber, tol]
  simp only [almostZero, this, XR.fin_neg, XR.fin_lt, abs_lt]
  simp

/-- real meaning of `Point.Equal` -/
def R3.near (a b : R3) : Prop := |a.x - b.x| < tol ∧ |a.y - b.y| < tol ∧ |a.z - b.z| < tol

theorem equal_pt (a b : R3) : (a.pt.equal b.pt = true) ↔ a.near b := by
  simp [Point.equal, R3.pt, R3.near, and_assoc]

theorem R3.near_refl (a : R3) : a.near a := by simp [R3.near, tol_pos]

/-! ## rounding to 8 decimals -/

/-- rounding to the nearest multiple of 1e-8, halves away from zero -/
noncomputable def r8 (x : ℝ) : ℝ :=
  (if x < 0 then (⌈x * 10 ^ 8 - 1 / 2⌉ : ℝ) else ⌊x * 10 ^ 8 + 1 / 2⌋) / 10 ^ 8

/-- range in which the conversion to `int` inside `RoundPlaces(8)` does not overflow -/
noncomputable def roundLimit : ℝ := 9 * 10 ^ 10

theorem toInt_intCast (k : Int) (h : |k| < 2 ^ 63) : XR.toInt (XR.fin k) = k := by
  obtain ⟨h1, h2⟩ := abs_lt.1 h
  simp only [XR.toInt, Int.floor_intCast, Int.ceil_intCast, ite_self]
  rw [if_pos ⟨by omega, h2⟩]

theorem r8_bounds (x : ℝ) : |r8 x - x| ≤ 1 / 2 / 10 ^ 8 := by
  unfold r8
  have h8 : (0:ℝ) < 10 ^ 8 := by norm_num
  rw [show x = x * 10 ^ 8 / 10 ^ 8 by field_simp]
  split_ifs with h
  · have e : x * 10 ^ 8 / 10 ^ 8 * 10 ^ 8 = x * 10 ^ 8 := by field_simp
    rw [e, ← sub_div, abs_div, abs_of_pos h8]
    apply div_le_div_of_nonneg_right _ h8.le
    rw [abs_le]
    have h1 := Int.le_ceil (x * 10 ^ 8 - 1 / 2)
    have h2 := Int.ceil_lt_add_one (x * 10 ^ 8 - 1 / 2)
    constructor <;> linarith
  · have e : x * 10 ^ 8 / 10 ^ 8 * 10 ^ 8 = x * 10 ^ 8 := by field_simp
    rw [e, ← sub_div, abs_div, abs_of_pos h8]
    apply div_le_div_of_nonneg_right _ h8.le
    rw [abs_le]
    have h1 := Int.floor_le (x * 10 ^ 8 + 1 / 2)
    have h2 := Int.lt_floor_add_one (x * 10 ^ 8 + 1 / 2)
    constructor <;> linarith

theorem roundPlaces8 (x : ℝ) (h : |x| ≤ roundLimit) : roundPlaces (XR.fin x) 8 = XR.fin (r8 x) := by
  unfold roundLimit at h
  obtain ⟨h1, h2⟩ := abs_le.1 h
  have e8 : (powersOfTen 8 : XR) = XR.fin (10 ^ 8) := by simp [powersOfTen]; norm_num
  have e5 : (Flt.lit 5 1 : XR) = XR.fin (1 / 2) := by simp; norm_num
  have e0 : (Flt.lit 0 0 : XR) = XR.fin 0 := by simp
  have key : ((round (XR.fin x * powersOfTen 8 : XR) : Int) : ℝ) =
      if x < 0 then (⌈x * 10 ^ 8 - 1 / 2⌉ : ℝ) else ⌊x * 10 ^ 8 + 1 / 2⌋ := by
    simp only [round, e8, XR.fin_mul, e5, e0, XR.fin_lt, XR.fin_sub, XR.fin_add, XR.fin_ceil, XR.fin_floor, XR.toInt_def]
    by_cases hx : x < 0
    · have hx' : x * 10 ^ 8 < 0 := by nlinarith
      simp only [hx', decide_true, if_true, hx]
      rw [toInt_intCast]
      rw [abs_lt]
      constructor
      · have := Int.le_ceil (x * 10 ^ 8 - 1 / 2)
        have h3 : (-(2 ^ 63) : ℝ) < ⌈x * 10 ^ 8 - 1 / 2⌉ := by
          refine lt_of_lt_of_le ?_ this; norm_num; nlinarith
        exact_mod_cast h3
      · have := Int.ceil_lt_add_one (x * 10 ^ 8 - 1 / 2)
        have h3 : (⌈x * 10 ^ 8 - 1 / 2⌉ : ℝ) < 2 ^ 63 := by
          refine this.trans ?_; norm_num; nlinarith
        exact_mod_cast h3
    · have hx' : ¬ x * 10 ^ 8 < 0 := by push Not at hx ⊢; positivity
      simp only [hx', decide_false, hx, if_false]
      rw [if_neg (by simp), toInt_intCast]
      rw [abs_lt]
      constructor
      · have := Int.lt_floor_add_one (x * 10 ^ 8 + 1 / 2)
        have h3 : (-(2 ^ 63) : ℝ) < ⌊x * 10 ^ 8 + 1 / 2⌋ := by
          have : x * 10 ^ 8 + 1 / 2 - 1 < ⌊x * 10 ^ 8 + 1 / 2⌋ := by linarith
          refine lt_trans ?_ this; norm_num; nlinarith
        exact_mod_cast h3
      · have := Int.floor_le (x * 10 ^ 8 + 1 / 2)
        have h3 : (⌊x * 10 ^ 8 + 1 / 2⌋ : ℝ) < 2 ^ 63 := by
          refine lt_of_le_of_lt this ?_; norm_num; nlinarith
        exact_mod_cast h3
  simp only [roundPlaces, XR.ofInt_def]
  rw [key, e8, XR.fin_div (by norm_num)]
  rfl

theorem r8_grid (k : Int) : r8 ((k : ℝ) / 10 ^ 8) = (k : ℝ) / 10 ^ 8 := by
  unfold r8
  have e : (k : ℝ) / 10 ^ 8 * 10 ^ 8 = k := by field_simp
  rw [e]
  have e1 : ⌈(k : ℝ) - 1 / 2⌉ = k := by rw [Int.ceil_eq_iff]; constructor <;> linarith
  have e2 : ⌊(k : ℝ) + 1 / 2⌋ = k := by rw [Int.floor_eq_iff]; constructor <;> linarith
  rw [e1, e2]; simp

/-- componentwise rounding -/
noncomputable def R3.round8 (a : R3) : R3 := ⟨r8 a.x, r8 a.y, r8 a.z⟩

/-- coordinates in the range where rounding does not overflow -/
def R3.small (a : R3) : Prop := |a.x| ≤ roundLimit ∧ |a.y| ≤ roundLimit ∧ |a.z| ≤ roundLimit

theorem roundPlaces_pt (a : R3) (h : a.small) : a.pt.roundPlaces 8 = a.round8.pt := by
  simp [Point.roundPlaces, R3.pt, R3.round8, roundPlaces8 _ h.1, roundPlaces8 _ h.2.1, roundPlaces8 _ h.2.2]

theorem mapKey_pt (a : R3) (h : a.small) : a.pt.mapKey = a.round8.pt := roundPlaces_pt a h

theorem r8_int (k : Int) : r8 k = k := by
  have := r8_grid (k * 10 ^ 8)
  push_cast at this
  rwa [show (k : ℝ) * 100000000 / 10 ^ 8 = k by norm_num] at this

end Goosli
