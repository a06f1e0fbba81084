import Verif.Spec.Binary64
/-!
# IEEE-754 binary32

`rd32 x` is the real number `x` rounded to the nearest number with a significand of 24 bits and an exponent of at least
`-149`, ties to even.  `wordVal` is the value of a 32 bit word, `wordOf` the word of a value.
-/
set_option autoImplicit false
namespace Goosli
noncomputable section
open Classical

/-- the exponent of the last place of `x` in binary32 -/
def lastExp32 (x : ℝ) : ℤ := max (Int.log 2 |x| - 23) (-149)

/-- rounding to binary32, without overflow -/
def rd32 (x : ℝ) : ℝ := roundEven (x / 2 ^ lastExp32 x) * 2 ^ lastExp32 x

/-- the finite numbers of binary32, if the exponent were not limited above -/
def Rep32 (x : ℝ) : Prop := ∃ m e : ℤ, |m| ≤ 2 ^ 24 ∧ -149 ≤ e ∧ x = m * 2 ^ e

theorem lastExp32_ge (x : ℝ) : -149 ≤ lastExp32 x := le_max_right _ _

theorem lastExp32_neg (x : ℝ) : lastExp32 (-x) = lastExp32 x := by unfold lastExp32; rw [abs_neg]

theorem abs_lt_last32 (x : ℝ) : |x| < 2 ^ (lastExp32 x + 24) := by
  have h := Int.lt_zpow_succ_log_self (b := 2) (by norm_num) |x|
  refine lt_of_lt_of_le (by exact_mod_cast h) ?_
  apply zpow_le_zpow_right₀ (by norm_num)
  have : Int.log 2 |x| - 23 ≤ lastExp32 x := le_max_left _ _
  omega

theorem last32_le_abs {x : ℝ} (hx : x ≠ 0) (h : -149 < lastExp32 x) : (2 : ℝ) ^ (lastExp32 x + 23) ≤ |x| := by
  have he : lastExp32 x = Int.log 2 |x| - 23 := by unfold lastExp32 at h ⊢; omega
  have h1 := Int.zpow_log_le_self (b := 2) (by norm_num) (abs_pos.2 hx)
  rw [he]
  have : Int.log 2 |x| - 23 + 23 = Int.log 2 |x| := by ring
  rw [this]
  exact_mod_cast h1

theorem lastExp32_le {x : ℝ} {e : ℤ} (he : -149 ≤ e) (hx : x ≠ 0) (h : |x| < 2 ^ (e + 24)) : lastExp32 x ≤ e := by
  have h1 : Int.log 2 |x| < e + 24 := (Int.lt_zpow_iff_log_lt (by norm_num) (abs_pos.2 hx)).1 (by exact_mod_cast h)
  unfold lastExp32
  omega

theorem lastExp32_mono {x y : ℝ} (hx : x ≠ 0) (h : |x| ≤ |y|) : lastExp32 x ≤ lastExp32 y := by
  have := Int.log_mono_right (b := 2) (abs_pos.2 hx) h
  unfold lastExp32
  omega

/-- the exponent of a significand of 24 bits -/
theorem lastExp32_normal {m : ℕ} {e : ℤ} (h1 : 2 ^ 23 ≤ m) (h2 : m < 2 ^ 24) (he : -149 ≤ e) :
    lastExp32 ((m : ℝ) * 2 ^ e) = e := by
  have hp := two_zpow_pos e
  have hm : (0 : ℝ) < m := by exact_mod_cast (by omega : 0 < m)
  have ha : |(m : ℝ) * 2 ^ e| = m * 2 ^ e := abs_of_pos (mul_pos hm hp)
  refine le_antisymm (lastExp32_le he (mul_pos hm hp).ne' ?_) ?_
  · rw [ha, add_comm, zpow_add₀ (by norm_num)]
    refine mul_lt_mul_of_pos_right ?_ hp
    exact_mod_cast h2
  · have h3 : (2 : ℝ) ^ (e + 23) ≤ |(m : ℝ) * 2 ^ e| := by
      rw [ha, add_comm, zpow_add₀ (by norm_num)]
      refine mul_le_mul_of_nonneg_right ?_ hp.le
      exact_mod_cast h1
    have h4 : e + 23 ≤ Int.log 2 |(m : ℝ) * 2 ^ e| := by
      rw [← Int.zpow_le_iff_le_log (by norm_num) (by rw [ha]; exact mul_pos hm hp)]
      exact_mod_cast h3
    unfold lastExp32
    omega

theorem Rep32.rep {x : ℝ} (h : Rep32 x) : Rep x := by
  obtain ⟨m, e, h1, h2, h3⟩ := h
  exact ⟨m, e, h1.trans (by norm_num), by omega, h3⟩

theorem Rep32.neg {x : ℝ} (h : Rep32 x) : Rep32 (-x) := by
  obtain ⟨m, e, h1, h2, rfl⟩ := h
  exact ⟨-m, e, by rwa [abs_neg], h2, by push_cast; ring⟩

theorem rep32_zero : Rep32 0 := ⟨0, 0, by norm_num, by norm_num, by simp⟩

theorem rep32_int {n : ℤ} (h : |n| ≤ 2 ^ 24) : Rep32 n := ⟨n, 0, h, by norm_num, by simp⟩

theorem rep32_zpow {e : ℤ} (h : -149 ≤ e) : Rep32 (2 ^ e) := ⟨1, e, by norm_num, h, by simp⟩

theorem Rep32.canon {x : ℝ} (h : Rep32 x) : ∃ m e : ℤ, |m| < 2 ^ 24 ∧ -149 ≤ e ∧ x = m * 2 ^ e := by
  obtain ⟨m, e, h1, h2, rfl⟩ := h
  rcases h1.lt_or_eq with h1 | h1
  · exact ⟨m, e, h1, h2, rfl⟩
  · have hd : ∃ m' : ℤ, m = 2 * m' ∧ |m'| < 2 ^ 24 := by
      rcases abs_choice m with h3 | h3
      · exact ⟨2 ^ 23, by rw [h3] at h1; rw [h1]; norm_num, by norm_num⟩
      · exact ⟨-2 ^ 23, by rw [h3] at h1; have : m = -2 ^ 24 := by omega
                           rw [this]; norm_num, by norm_num⟩
    obtain ⟨m', rfl, hm⟩ := hd
    refine ⟨m', e + 1, hm, by omega, ?_⟩
    rw [zpow_add₀ (by norm_num)]; push_cast; ring

theorem Rep32.lastExp_int {x : ℝ} (h : Rep32 x) : ∃ k : ℤ, x / 2 ^ lastExp32 x = k := by
  obtain ⟨m, e, h1, h2, rfl⟩ := h.canon
  by_cases hx : (m : ℝ) * 2 ^ e = 0
  · exact ⟨0, by rw [hx]; simp⟩
  · refine zpow_int m (lastExp32_le h2 hx ?_)
    rw [abs_mul, abs_of_pos (two_zpow_pos e), add_comm, zpow_add₀ (by norm_num)]
    refine mul_lt_mul_of_pos_right ?_ (two_zpow_pos e)
    exact_mod_cast h1

theorem rd32_of_rep {x : ℝ} (h : Rep32 x) : rd32 x = x := by
  obtain ⟨k, hk⟩ := h.lastExp_int
  unfold rd32
  rw [hk, roundEven_int, ← hk]
  have := (two_zpow_pos (lastExp32 x)).ne'
  field_simp

theorem rep32_rd32 (x : ℝ) : Rep32 (rd32 x) := by
  refine ⟨roundEven (x / 2 ^ lastExp32 x), lastExp32 x, ?_, lastExp32_ge x, rfl⟩
  have h := abs_lt_last32 x
  rw [add_comm, zpow_add₀ (by norm_num)] at h
  have h2 : |x / 2 ^ lastExp32 x| ≤ 2 ^ 24 := by
    rw [abs_div, abs_of_pos (two_zpow_pos _), div_le_iff₀ (two_zpow_pos _)]
    exact h.le
  rw [abs_le] at h2 ⊢
  exact ⟨le_roundEven (by push_cast; linarith [h2.1]), roundEven_le (by push_cast; linarith [h2.2])⟩

theorem rd32_rd32 (x : ℝ) : rd32 (rd32 x) = rd32 x := rd32_of_rep (rep32_rd32 x)

theorem rd32_neg (x : ℝ) : rd32 (-x) = -rd32 x := by
  unfold rd32
  rw [lastExp32_neg, neg_div, roundEven_neg]
  push_cast
  ring

@[simp] theorem rd32_zero : rd32 0 = 0 := rd32_of_rep rep32_zero

theorem rd32_half (x : ℝ) : |rd32 x - x| ≤ 2 ^ lastExp32 x / 2 := by
  have hp := two_zpow_pos (lastExp32 x)
  have h := roundEven_near (x / 2 ^ lastExp32 x)
  have e : rd32 x - x = (roundEven (x / 2 ^ lastExp32 x) - x / 2 ^ lastExp32 x) * 2 ^ lastExp32 x := by
    unfold rd32; field_simp
  rw [e, abs_mul, abs_of_pos hp]
  nlinarith

/-- the error of rounding to binary32 -/
theorem rd32_error (x : ℝ) : |rd32 x - x| ≤ |x| / 2 ^ 24 + 1 / 2 ^ 150 := by
  by_cases hx : x = 0
  · rw [hx, rd32_zero]; simp
  have h := rd32_half x
  rcases (lastExp32_ge x).eq_or_lt with he | he
  · rw [← he] at h
    have e1 : (2 : ℝ) ^ (-149 : ℤ) / 2 = 1 / 2 ^ 150 := by
      rw [zpow_neg, show (149 : ℤ) = ((149 : ℕ) : ℤ) from rfl, zpow_natCast, pow_succ (n := 149)]; field_simp
    rw [e1] at h
    have : 0 ≤ |x| / 2 ^ 24 := by positivity
    linarith
  · have h1 := last32_le_abs hx he
    rw [zpow_add₀ (by norm_num)] at h1
    have h2 : (2 : ℝ) ^ lastExp32 x / 2 ≤ |x| / 2 ^ 24 := by
      rw [le_div_iff₀ (by positivity)]
      have : (2 : ℝ) ^ (23 : ℤ) = 2 ^ 23 := by norm_cast
      rw [this] at h1
      have : (2 : ℝ) ^ 24 = 2 * 2 ^ 23 := by norm_num
      rw [this]
      linarith
    have : (0 : ℝ) ≤ 1 / 2 ^ 150 := by positivity
    linarith

/-- between `x` and a number of binary32 there is an integral multiple of the last place of `x` -/
theorem last32_between {x v : ℝ} (hx0 : x ≠ 0) (hv : Rep32 v) (h : x ≤ v) :
    ∃ k : ℤ, x ≤ k * 2 ^ lastExp32 x ∧ (k : ℝ) * 2 ^ lastExp32 x ≤ v := by
  have hp := two_zpow_pos (lastExp32 x)
  by_cases hv0 : v = 0
  · exact ⟨0, by simpa [hv0] using h, by simp [hv0]⟩
  by_cases he : lastExp32 x ≤ lastExp32 v
  · obtain ⟨k, hk⟩ := hv.lastExp_int
    obtain ⟨k', hk'⟩ := zpow_int k he
    have : (k : ℝ) * 2 ^ lastExp32 v = v := by rw [← hk]; have := (two_zpow_pos (lastExp32 v)).ne'; field_simp
    rw [this, div_eq_iff hp.ne'] at hk'
    exact ⟨k', by rw [← hk']; exact h, hk'.symm.le⟩
  · push Not at he
    have h1 := last32_le_abs hx0 (lt_of_le_of_lt (lastExp32_ge v) he)
    have h2 : |v| < 2 ^ (lastExp32 x + 23) := by
      refine lt_of_lt_of_le (abs_lt_last32 v) (zpow_le_zpow_right₀ (by norm_num) (by omega))
    have hxn : x < 0 := by
      by_contra hc
      rw [abs_of_nonneg (not_lt.1 hc)] at h1
      linarith [le_abs_self v]
    rw [abs_of_neg hxn] at h1
    have e23 : (2 : ℝ) ^ (23 : ℤ) = 2 ^ 23 := by norm_cast
    refine ⟨-2 ^ 23, ?_, ?_⟩
    · push_cast
      rw [zpow_add₀ (by norm_num), e23] at h1
      linarith
    · push_cast
      rw [zpow_add₀ (by norm_num), e23] at h2
      linarith [neg_abs_le v]

theorem rd32_le {x v : ℝ} (hv : Rep32 v) (h : x ≤ v) : rd32 x ≤ v := by
  by_cases hx0 : x = 0
  · rw [hx0, rd32_zero, ← hx0]; exact h
  have hp := two_zpow_pos (lastExp32 x)
  obtain ⟨k, h1, h2⟩ := last32_between hx0 hv h
  refine le_trans ?_ h2
  unfold rd32
  refine mul_le_mul_of_nonneg_right ?_ hp.le
  exact_mod_cast roundEven_le (by rw [div_le_iff₀ hp]; exact h1)

theorem le_rd32 {x v : ℝ} (hv : Rep32 v) (h : v ≤ x) : v ≤ rd32 x := by
  have := rd32_le hv.neg (neg_le_neg h)
  rw [rd32_neg] at this
  linarith

/-- no number of binary32 is nearer -/
theorem rd32_nearest (x : ℝ) {v : ℝ} (hv : Rep32 v) : |rd32 x - x| ≤ |v - x| := by
  have main : ∀ x v : ℝ, Rep32 v → x ≤ v → |rd32 x - x| ≤ |v - x| := by
    intro x v hv h
    by_cases hx0 : x = 0
    · rw [hx0, rd32_zero]; simp
    have hp := two_zpow_pos (lastExp32 x)
    obtain ⟨k, h1, h2⟩ := last32_between hx0 hv h
    have h3 : |rd32 x - x| ≤ |k * 2 ^ lastExp32 x - x| := by
      have e1 : rd32 x - x = (roundEven (x / 2 ^ lastExp32 x) - x / 2 ^ lastExp32 x) * 2 ^ lastExp32 x := by
        unfold rd32; field_simp
      have e2 : k * 2 ^ lastExp32 x - x = (k - x / 2 ^ lastExp32 x) * 2 ^ lastExp32 x := by field_simp
      rw [e1, e2, abs_mul, abs_mul]
      exact mul_le_mul_of_nonneg_right (roundEven_nearest _ _) (abs_nonneg _)
    refine h3.trans ?_
    rw [abs_of_nonneg (by linarith), abs_of_nonneg (by linarith)]
    linarith
  rcases le_total x v with h | h
  · exact main x v hv h
  · have := main (-x) (-v) hv.neg (neg_le_neg h)
    rw [rd32_neg] at this
    rw [show rd32 x - x = -(-rd32 x - -x) by ring, abs_neg, show v - x = -(-v - -x) by ring, abs_neg]
    exact this

end
end Goosli
