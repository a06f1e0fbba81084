import Verif.Model.B64
import Verif.Spec.Binary32
/-!
# `float32` in files

How `float64(math.Float32frombits(w))` (primitives/stl.go:86-88) and `float32(x)` written by `binary.Write`
(primitives/stl.go:127-140) act on binary64 numbers.  Left out, as in `B64`: the sign of zero (the word of `-0` is read as
zero, zero and everything that is rounded to zero is written as `+0`) and the payload of NaN.
-/
set_option autoImplicit false
namespace Goosli
noncomputable section
open Classical

/-- primitives/stl.go:86-88, the eight bits of exponent of a word -/
def wordExp (w : BitVec 32) : ℕ := w.toNat / 8388608 % 256

/-- primitives/stl.go:86-88, the 23 bits of fraction of a word -/
def wordFrac (w : BitVec 32) : ℕ := w.toNat % 8388608

/-- primitives/stl.go:86-88, the sign bit of a word -/
def wordNeg (w : BitVec 32) : Bool := 2147483648 ≤ w.toNat

/-- primitives/stl.go:86-88, the magnitude of a number with exponent bits `e` and fraction bits `m` -/
def magVal (e m : ℕ) : ℝ := if e = 0 then (m : ℝ) * 2 ^ (-149 : ℤ) else ((8388608 + m : ℕ) : ℝ) * 2 ^ ((e : ℤ) - 150)

/-- primitives/stl.go:86-88, the IEEE-754 value of a word -/
def wordVal (w : BitVec 32) : XR :=
  if wordExp w = 255 then (if wordFrac w ≠ 0 then .nan else if wordNeg w then .ninf else .pinf)
  else .fin (if wordNeg w then -magVal (wordExp w) (wordFrac w) else magVal (wordExp w) (wordFrac w))

/-- primitives/stl.go:127-140, the magnitude bits of a finite number of binary32 -/
def wordMag (y : ℝ) : ℕ :=
  let m := ⌊|y| / 2 ^ lastExp32 y⌋.toNat
  if (2 : ℝ) ^ 128 ≤ |y| then 2139095040
  else if m < 8388608 then m
  else (lastExp32 y + 150).toNat * 8388608 + (m - 8388608)

/-- primitives/stl.go:127-140, the word of `float32(x)` -/
def wordOf : XR → BitVec 32
  | .nan => BitVec.ofNat 32 0x7fc00000
  | .pinf => BitVec.ofNat 32 (2139095040)
  | .ninf => BitVec.ofNat 32 (2147483648 + 2139095040)
  | .fin x => BitVec.ofNat 32 ((if rd32 x < 0 then 2147483648 else 0) + wordMag (rd32 x))

theorem pow128_le_max : (2 : ℝ) ^ 128 ≤ XR.maxF64R := by
  rw [maxF64R_eq, show (971 : ℤ) = ((971 : ℕ) : ℤ) from rfl, zpow_natCast]
  have h : (2 : ℝ) ^ 971 = 2 ^ 128 * 2 ^ 843 := by rw [← pow_add]
  rw [h]
  have h1 : (1 : ℝ) ≤ 2 ^ 843 := one_le_pow₀ (by norm_num)
  generalize (2 : ℝ) ^ 843 = b at *
  push_cast
  have h2 : (1 : ℝ) ≤ 9007199254740991 := by norm_num
  have h3 : (0 : ℝ) ≤ 2 ^ 128 := by positivity
  generalize (2 : ℝ) ^ 128 = c at *
  have h4 : c ≤ c * b := le_mul_of_one_le_right h3 h1
  have h5 : c * b ≤ 9007199254740991 * (c * b) := le_mul_of_one_le_left (h3.trans h4) h2
  exact h4.trans h5

theorem wordFrac_lt (w : BitVec 32) : wordFrac w < 8388608 := Nat.mod_lt _ (by norm_num)

theorem wordExp_lt (w : BitVec 32) : wordExp w < 256 := Nat.mod_lt _ (by norm_num)

theorem magVal_nonneg (e m : ℕ) : 0 ≤ magVal e m := by unfold magVal; split_ifs <;> positivity

theorem magVal_rep {e m : ℕ} (hm : m < 8388608) : Rep32 (magVal e m) := by
  unfold magVal
  split_ifs with h0
  · refine ⟨m, -149, ?_, le_rfl, by push_cast; rfl⟩
    rw [abs_of_nonneg (by omega)]; norm_num; omega
  · refine ⟨((8388608 + m : ℕ) : ℤ), (e : ℤ) - 150, ?_, by omega, by push_cast; rfl⟩
    rw [abs_of_nonneg (by omega)]; norm_num; omega

theorem magVal_lt {e m : ℕ} (he : e < 255) (hm : m < 8388608) : magVal e m < 2 ^ 128 := by
  unfold magVal
  split_ifs with h0
  · have h1 : (m : ℝ) ≤ 8388608 := by exact_mod_cast hm.le
    have h2 : (2 : ℝ) ^ (-149 : ℤ) ≤ 1 := by
      rw [zpow_neg]; exact inv_le_one_of_one_le₀ (one_le_zpow₀ (by norm_num) (by norm_num))
    have h3 : (m : ℝ) * 2 ^ (-149 : ℤ) ≤ 8388608 * 1 := mul_le_mul h1 h2 (by positivity) (by positivity)
    have : (8388608 : ℝ) * 1 < 2 ^ 128 := by norm_num
    linarith
  · have h1 : ((8388608 + m : ℕ) : ℝ) < 2 ^ (24 : ℤ) := by
      have : 8388608 + m < 2 ^ 24 := by omega
      exact_mod_cast this
    have h2 : (2 : ℝ) ^ ((e : ℤ) - 150) ≤ 2 ^ (104 : ℤ) := zpow_le_zpow_right₀ (by norm_num) (by omega)
    calc _ < (2 : ℝ) ^ (24 : ℤ) * 2 ^ ((e : ℤ) - 150) := mul_lt_mul_of_pos_right h1 (two_zpow_pos _)
      _ ≤ (2 : ℝ) ^ (24 : ℤ) * 2 ^ (104 : ℤ) := mul_le_mul_of_nonneg_left h2 (by positivity)
      _ = 2 ^ 128 := by rw [← zpow_add₀ (by norm_num)]; norm_cast

/-- a word whose exponent is not 255 is a finite number of binary32 -/
theorem word_finite (w : BitVec 32) (h : wordExp w ≠ 255) : ∃ x : ℝ, wordVal w = .fin x ∧ Rep32 x ∧ |x| < 2 ^ 128 := by
  have h1 := magVal_rep (e := wordExp w) (wordFrac_lt w)
  have h2 := magVal_lt (by have := wordExp_lt w; omega : wordExp w < 255) (wordFrac_lt w)
  have h3 := magVal_nonneg (wordExp w) (wordFrac w)
  unfold wordVal
  rw [if_neg h]
  split_ifs
  · exact ⟨_, rfl, h1.neg, by rwa [abs_neg, abs_of_nonneg h3]⟩
  · exact ⟨_, rfl, h1, by rwa [abs_of_nonneg h3]⟩

theorem wordVal_is (w : BitVec 32) : (wordVal w).isB64 := by
  by_cases h : wordExp w = 255
  · unfold wordVal
    rw [if_pos h]
    split_ifs <;> trivial
  · obtain ⟨x, h1, h2, h3⟩ := word_finite w h
    rw [h1]
    exact ⟨h2.rep, h3.le.trans pow128_le_max⟩

/-- primitives/stl.go:86-88, 127-140 on binary64 numbers -/
instance : FltBits B64 where
  toBits a := wordOf a.1
  ofBits w := ⟨wordVal w, wordVal_is w⟩

end
end Goosli
