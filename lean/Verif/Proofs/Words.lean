import Verif.Model.B64Bits
/-!
# Words of binary32 and their values
-/
set_option autoImplicit false
namespace Goosli
noncomputable section
open Classical

/-- the word with given sign, exponent and fraction bits -/
theorem word_fields (neg : Bool) {e m : ℕ} (he : e < 256) (hm : m < 8388608) :
    wordNeg (BitVec.ofNat 32 ((if neg then 2147483648 else 0) + (e * 8388608 + m))) = neg ∧
      wordExp (BitVec.ofNat 32 ((if neg then 2147483648 else 0) + (e * 8388608 + m))) = e ∧
      wordFrac (BitVec.ofNat 32 ((if neg then 2147483648 else 0) + (e * 8388608 + m))) = m := by
  unfold wordNeg wordExp wordFrac
  rw [BitVec.toNat_ofNat]
  cases neg
  · simp only [Bool.false_eq_true, if_false, Nat.zero_add]
    rw [Nat.mod_eq_of_lt (by norm_num; omega)]
    refine ⟨?_, by omega, by omega⟩
    rw [decide_eq_false_iff_not]; omega
  · simp only [if_true]
    rw [Nat.mod_eq_of_lt (by norm_num; omega)]
    refine ⟨?_, by omega, by omega⟩
    rw [decide_eq_true_iff]; omega

/-- a word is its three fields -/
theorem word_eq (w : BitVec 32) :
    w = BitVec.ofNat 32 ((if wordNeg w then 2147483648 else 0) + (wordExp w * 8388608 + wordFrac w)) := by
  apply BitVec.eq_of_toNat_eq
  have hw : w.toNat < 4294967296 := w.isLt
  rw [BitVec.toNat_ofNat]
  unfold wordNeg wordExp wordFrac
  by_cases h : 2147483648 ≤ w.toNat
  · simp only [h, decide_true, if_true]
    rw [Nat.mod_eq_of_lt (by norm_num; omega)]; omega
  · simp only [h, decide_false, Bool.false_eq_true, if_false]
    rw [Nat.mod_eq_of_lt (by norm_num; omega)]; omega

theorem Rep32.abs {x : ℝ} (h : Rep32 x) : Rep32 |x| := by
  rcases abs_choice x with e | e
  · rwa [e]
  · rw [e]; exact h.neg

theorem lastExp32_abs (x : ℝ) : lastExp32 |x| = lastExp32 x := by unfold lastExp32; rw [abs_abs]

/-- the bits of a magnitude below `2^128` -/
theorem wordMag_spec {y : ℝ} (hy : Rep32 y) (h : |y| < 2 ^ 128) :
    ∃ e m : ℕ, e < 255 ∧ m < 8388608 ∧ wordMag y = e * 8388608 + m ∧ magVal e m = |y| := by
  obtain ⟨k, hk⟩ := hy.abs.lastExp_int
  rw [lastExp32_abs] at hk
  have hp := two_zpow_pos (lastExp32 y)
  have hk0 : 0 ≤ k := by
    have : (0 : ℝ) ≤ k := by rw [← hk]; positivity
    exact_mod_cast this
  have hyk : |y| = k * 2 ^ lastExp32 y := by rw [← hk]; field_simp
  obtain ⟨n, rfl⟩ := Int.eq_ofNat_of_zero_le hk0
  have hn24 : n < 16777216 := by
    have h1 := abs_lt_last32 y
    rw [hyk, add_comm, zpow_add₀ (by norm_num), mul_lt_mul_iff_left₀ hp] at h1
    have : (n : ℝ) < 16777216 := by
      have e : (2 : ℝ) ^ (24 : ℤ) = 16777216 := by norm_num
      rw [← e]; exact_mod_cast h1
    exact_mod_cast this
  have hmag : wordMag y = if n < 8388608 then n else (lastExp32 y + 150).toNat * 8388608 + (n - 8388608) := by
    unfold wordMag
    rw [if_neg (not_le.2 h), hk]
    simp
  rw [hmag]
  by_cases hn : n < 8388608
  · rw [if_pos hn]
    refine ⟨0, n, by norm_num, hn, by simp, ?_⟩
    unfold magVal
    rw [if_pos rfl, hyk]
    by_cases hy0 : y = 0
    · have : (n : ℝ) = 0 := by
        have h2 := hyk
        rw [hy0, abs_zero] at h2
        have := mul_eq_zero.1 h2.symm
        rcases this with h3 | h3
        · exact_mod_cast h3
        · exact absurd h3 (two_zpow_pos _).ne'
      simp [this]
    · have he : lastExp32 y = -149 := by
        rcases (lastExp32_ge y).eq_or_lt with he | he
        · exact he.symm
        · have h1 := last32_le_abs hy0 he
          rw [hyk, add_comm, zpow_add₀ (by norm_num), mul_le_mul_iff_left₀ hp] at h1
          have : (8388608 : ℝ) ≤ n := by
            have e : (2 : ℝ) ^ (23 : ℤ) = 8388608 := by norm_num
            rw [← e]; exact_mod_cast h1
          have : 8388608 ≤ n := by exact_mod_cast this
          omega
      rw [he]; simp
  · rw [if_neg hn]
    have hg := lastExp32_ge y
    have hlt : lastExp32 y < 105 := by
      have h1 : (2 : ℝ) ^ (lastExp32 y + 23) < 2 ^ (128 : ℤ) := by
        calc (2 : ℝ) ^ (lastExp32 y + 23) = 8388608 * 2 ^ lastExp32 y := by
              rw [add_comm, zpow_add₀ (by norm_num)]; norm_num
          _ ≤ n * 2 ^ lastExp32 y := mul_le_mul_of_nonneg_right (by exact_mod_cast not_lt.1 hn) hp.le
          _ = |y| := by rw [hyk]; simp
          _ < 2 ^ 128 := h
          _ = 2 ^ (128 : ℤ) := by norm_cast
      have := (zpow_lt_zpow_iff_right₀ (by norm_num : (1 : ℝ) < 2)).1 h1
      omega
    refine ⟨(lastExp32 y + 150).toNat, n - 8388608, by omega, by omega, rfl, ?_⟩
    unfold magVal
    rw [if_neg (by omega), hyk]
    have e1 : 8388608 + (n - 8388608) = n := by omega
    have e2 : (((lastExp32 y + 150).toNat : ℕ) : ℤ) - 150 = lastExp32 y := by omega
    rw [e1, e2]; simp

/-- what is written and read again is the nearest number of binary32 -/
theorem wordVal_wordOf {x : ℝ} (h : |rd32 x| < 2 ^ 128) : wordVal (wordOf (.fin x)) = .fin (rd32 x) := by
  obtain ⟨e, m, he, hm, h1, h2⟩ := wordMag_spec (rep32_rd32 x) h
  have hw : wordOf (.fin x) =
      BitVec.ofNat 32 ((if decide (rd32 x < 0) = true then 2147483648 else 0) + (e * 8388608 + m)) := by
    unfold wordOf
    dsimp only
    rw [h1]
    simp only [decide_eq_true_eq]
  obtain ⟨a, b, c⟩ := word_fields (decide (rd32 x < 0)) (by omega : e < 256) hm
  rw [← hw] at a b c
  unfold wordVal
  rw [a, b, c, if_neg (by omega), h2]
  simp only [decide_eq_true_eq]
  split_ifs with h0
  · rw [abs_of_neg h0, neg_neg]
  · rw [abs_of_nonneg (not_lt.1 h0)]

/-- too large a number is written as an infinity -/
theorem wordVal_overflow {x : ℝ} (h : 2 ^ 128 ≤ |rd32 x|) :
    wordVal (wordOf (.fin x)) = if rd32 x < 0 then .ninf else .pinf := by
  have hw : wordOf (.fin x) =
      BitVec.ofNat 32 ((if decide (rd32 x < 0) = true then 2147483648 else 0) + (255 * 8388608 + 0)) := by
    unfold wordOf wordMag
    dsimp only
    rw [if_pos h]
    simp only [decide_eq_true_eq]
  obtain ⟨a, b, c⟩ := word_fields (decide (rd32 x < 0)) (by norm_num : 255 < 256) (by norm_num : 0 < 8388608)
  rw [← hw] at a b c
  unfold wordVal
  rw [a, b, c]
  simp

theorem wordVal_nan : wordVal (wordOf .nan) = .nan := by
  obtain ⟨a, b, c⟩ := word_fields false (by norm_num : 255 < 256) (by norm_num : 4194304 < 8388608)
  unfold wordVal wordOf
  simp only [Bool.false_eq_true, if_false] at a b c
  norm_num at a b c ⊢
  rw [b, c]; simp

theorem wordVal_pinf : wordVal (wordOf .pinf) = .pinf := by
  obtain ⟨a, b, c⟩ := word_fields false (by norm_num : 255 < 256) (by norm_num : 0 < 8388608)
  unfold wordVal wordOf
  simp only [Bool.false_eq_true, if_false] at a b c
  norm_num at a b c ⊢
  rw [a, b, c]; simp

theorem wordVal_ninf : wordVal (wordOf .ninf) = .ninf := by
  obtain ⟨a, b, c⟩ := word_fields true (by norm_num : 255 < 256) (by norm_num : 0 < 8388608)
  unfold wordVal wordOf
  simp only [if_true] at a b c
  norm_num at a b c ⊢
  rw [a, b, c]; simp

/-- reading what was written twice changes nothing after the first time -/
theorem wordVal_idem (a : XR) : wordVal (wordOf (wordVal (wordOf a))) = wordVal (wordOf a) := by
  cases a with
  | nan => simp only [wordVal_nan]
  | pinf => simp only [wordVal_pinf]
  | ninf => simp only [wordVal_ninf]
  | fin x =>
    rcases lt_or_ge |rd32 x| (2 ^ 128) with h | h
    · rw [wordVal_wordOf h, wordVal_wordOf (by rwa [rd32_rd32]), rd32_rd32]
    · rw [wordVal_overflow h]
      split_ifs
      · exact wordVal_ninf
      · exact wordVal_pinf

theorem magVal_lastExp {e m : ℕ} (he : e ≠ 0) (hm : m < 8388608) : lastExp32 (magVal e m) = (e : ℤ) - 150 := by
  unfold magVal
  rw [if_neg he]
  exact lastExp32_normal (by omega) (by omega) (by omega)

/-- the bits of a magnitude are unique -/
theorem wordMag_magVal {e m : ℕ} (he : e < 255) (hm : m < 8388608) : wordMag (magVal e m) = e * 8388608 + m := by
  have hlt := magVal_lt he hm
  have h0 := magVal_nonneg e m
  unfold wordMag
  rw [abs_of_nonneg h0, if_neg (not_le.2 hlt)]
  by_cases h : e = 0
  · subst h
    by_cases hm0 : m = 0
    · subst hm0
      have : magVal 0 0 = 0 := by simp [magVal]
      rw [this]; simp
    · have hv : magVal 0 m = m * 2 ^ (-149 : ℤ) := by simp [magVal]
      have hle : lastExp32 (magVal 0 m) = -149 := by
        refine le_antisymm (lastExp32_le le_rfl ?_ ?_) (lastExp32_ge _)
        · rw [hv]
          have : (m : ℝ) ≠ 0 := by exact_mod_cast hm0
          exact mul_ne_zero this (two_zpow_pos _).ne'
        · rw [abs_of_nonneg h0, hv, add_comm, zpow_add₀ (by norm_num)]
          refine mul_lt_mul_of_pos_right ?_ (two_zpow_pos _)
          have : (m : ℝ) < 8388608 := by exact_mod_cast hm
          norm_num; linarith
      rw [hle, hv, mul_div_assoc, div_self (two_zpow_pos _).ne', mul_one]
      simp [hm]
  · rw [magVal_lastExp h hm]
    have hv : magVal e m = ((8388608 + m : ℕ) : ℝ) * 2 ^ ((e : ℤ) - 150) := by simp [magVal, h]
    have hq : magVal e m / 2 ^ ((e : ℤ) - 150) = ((8388608 + m : ℕ) : ℝ) := by
      rw [hv, mul_div_assoc, div_self (two_zpow_pos _).ne', mul_one]
    rw [hq]
    simp only [Int.floor_natCast, Int.toNat_natCast]
    rw [if_neg (by omega)]
    have : ((e : ℤ) - 150 + 150).toNat = e := by omega
    rw [this]; omega

theorem magVal_eq_zero {e m : ℕ} : magVal e m = 0 ↔ e = 0 ∧ m = 0 := by
  unfold magVal
  split_ifs with h
  · have := (two_zpow_pos (-149)).ne'
    simp [h]
  · have : ((8388608 + m : ℕ) : ℝ) ≠ 0 := by exact_mod_cast (by omega)
    have h2 := (two_zpow_pos ((e : ℤ) - 150)).ne'
    simp only [mul_eq_zero, this, h2, or_self, h, false_and]

/-- every word but the NaNs and `-0` is written as it was read -/
theorem wordOf_wordVal (w : BitVec 32) (h1 : wordVal w ≠ .nan) (h2 : w ≠ BitVec.ofNat 32 2147483648) :
    wordOf (wordVal w) = w := by
  have hm := wordFrac_lt w
  have he := wordExp_lt w
  have hw := word_eq w
  by_cases h : wordExp w = 255
  · unfold wordVal at h1 ⊢
    rw [if_pos h] at h1 ⊢
    by_cases hf : wordFrac w = 0
    · rw [if_neg (not_not.2 hf)]
      rw [h, hf] at hw
      cases hn : wordNeg w
      · rw [hn] at hw
        simp only [Bool.false_eq_true, if_false] at hw ⊢
        rw [hw]; rfl
      · rw [hn] at hw
        simp only [if_true] at hw ⊢
        rw [hw]; rfl
    · rw [if_pos hf] at h1; exact absurd rfl h1
  · have hr := magVal_rep (e := wordExp w) hm
    have hz := magVal_nonneg (wordExp w) (wordFrac w)
    have hg := wordMag_magVal (e := wordExp w) (by omega) hm
    unfold wordVal
    rw [if_neg h]
    cases hn : wordNeg w
    · rw [hn] at hw
      simp only [Bool.false_eq_true, if_false] at hw ⊢
      unfold wordOf
      dsimp only
      rw [rd32_of_rep hr, if_neg (not_lt.2 hz), hg]
      exact hw.symm
    · rw [hn] at hw
      simp only [if_true] at hw ⊢
      have hne : magVal (wordExp w) (wordFrac w) ≠ 0 := by
        rw [Ne, magVal_eq_zero]
        rintro ⟨a, b⟩
        rw [a, b] at hw
        exact h2 hw
      have hpos := lt_of_le_of_ne hz hne.symm
      have hgn : wordMag (-magVal (wordExp w) (wordFrac w)) = wordMag (magVal (wordExp w) (wordFrac w)) := by
        unfold wordMag
        rw [abs_neg, lastExp32_neg]
      unfold wordOf
      dsimp only
      rw [rd32_of_rep hr.neg, if_pos (by linarith), hgn, hg]
      exact hw.symm

end
end Goosli
