import Verif.Spec.Binary64
/-!
# `n * (1 / n)` in `float64`
-/
set_option autoImplicit false
namespace Goosli

theorem roundEven_of_lt {y : ℝ} {n : ℤ} (h : |n - y| < 1 / 2) : roundEven y = n := by
  have h1 := roundEven_near y
  have h2 : |((roundEven y - n : ℤ) : ℝ)| < 1 := by
    have e : ((roundEven y - n : ℤ) : ℝ) = (roundEven y - y) - (n - y) := by push_cast; ring
    rw [e]
    have := abs_sub ((roundEven y : ℝ) - y) (n - y)
    linarith
  rw [← Int.cast_abs] at h2
  have h3 : |roundEven y - n| < 1 := by exact_mod_cast h2
  have := Int.abs_lt_one_iff.1 h3
  omega

theorem roundEven_of_even {y : ℝ} {n : ℤ} (he : Even n) (h : |n - y| ≤ 1 / 2) : roundEven y = n := by
  rcases h.lt_or_eq with h | h
  · exact roundEven_of_lt h
  rcases abs_eq (by norm_num : (0 : ℝ) ≤ 1 / 2) |>.1 h with h | h
  · have hf : ⌊y⌋ = n - 1 := by
      rw [Int.floor_eq_iff]; push_cast; constructor <;> linarith
    unfold roundEven
    rw [hf, if_neg (by push_cast; linarith), if_neg (by push_cast; linarith), if_neg (by simpa [Int.even_sub, he] using he)]
    ring
  · have hf : ⌊y⌋ = n := by
      rw [Int.floor_eq_iff]; constructor <;> linarith
    unfold roundEven
    rw [hf, if_neg (by linarith), if_neg (by linarith), if_pos he]

/-- rounding with a known exponent -/
theorem rd_at {x : ℝ} {e : ℤ} (he : -1074 ≤ e) (h1 : 2 ^ (e + 52) ≤ x) (h2 : x < 2 ^ (e + 53)) :
    rd x = roundEven (x / 2 ^ e) * 2 ^ e := by
  have x0 : 0 < x := lt_of_lt_of_le (two_zpow_pos _) h1
  have hl : lastExp x = e := by
    unfold lastExp
    have : Int.log 2 |x| = e + 52 := by
      rw [abs_of_pos x0]
      refine le_antisymm ?_ ?_
      · have : Int.log 2 x < e + 53 := by
          rw [← Int.lt_zpow_iff_log_lt (by norm_num) x0]; exact_mod_cast h2
        omega
      · rw [← Int.zpow_le_iff_le_log (by norm_num) x0]; exact_mod_cast h1
    rw [this]
    omega
  unfold rd
  rw [hl]

/-- the numbers `n` with `n * (1 / n) = 1` in `float64`, in terms of integers: `m / 2 ^ P` is the nearest number to `1 / n` -/
def InvExact (n m P : ℕ) : Prop :=
  2 ^ 52 * n ≤ 2 ^ P ∧ 2 ^ P < 2 ^ 53 * n ∧ 2 * (n * m) < 2 * 2 ^ P + n ∧ 2 * 2 ^ P < 2 * (n * m) + n ∧
    2 ^ P * 2 ^ 54 ≤ n * m * 2 ^ 54 + 2 ^ P ∧ n * m * 2 ^ 53 ≤ 2 ^ P * 2 ^ 53 + 2 ^ P

instance (n m P : ℕ) : Decidable (InvExact n m P) := by unfold InvExact; infer_instance

theorem inv_rd {n m P : ℕ} (h : InvExact n m P) (hP : P ≤ 1000) : rd (1 / (n : ℝ)) = (m : ℝ) / 2 ^ P := by
  obtain ⟨h1, h2, h3, h4, -, -⟩ := h
  have n0 : 0 < n := by
    rcases Nat.eq_zero_or_pos n with rfl | h
    · simp at h2
    · exact h
  have nr : (0 : ℝ) < n := by exact_mod_cast n0
  have a1 : (2 : ℝ) ^ 52 * n ≤ 2 ^ P := by exact_mod_cast h1
  have a2 : (2 : ℝ) ^ P < 2 ^ 53 * n := by exact_mod_cast h2
  have a3 : 2 * ((n : ℝ) * m) < 2 * 2 ^ P + n := by exact_mod_cast h3
  have a4 : 2 * (2 : ℝ) ^ P < 2 * (n * m) + n := by exact_mod_cast h4
  have p0 : (0 : ℝ) < 2 ^ P := by positivity
  have z : ∀ i : ℕ, (2 : ℝ) ^ (-(P : ℤ) + i) = 2 ^ i / 2 ^ P := by
    intro i
    rw [zpow_add₀ (by norm_num), zpow_neg, zpow_natCast, zpow_natCast]
    field_simp
  rw [rd_at (e := -(P : ℤ)) (by omega) ?_ ?_]
  · rw [roundEven_of_lt (n := (m : ℤ)) ?_]
    · rw [zpow_neg, zpow_natCast]; push_cast; rw [div_eq_mul_inv]
    · rw [zpow_neg, zpow_natCast, abs_lt]
      push_cast
      have e : 1 / (n : ℝ) / (2 ^ P)⁻¹ = 2 ^ P / n := by field_simp
      rw [e]
      constructor
      · rw [← sub_pos]
        have : (m : ℝ) - 2 ^ P / n - -(1 / 2) = (2 * (n * m) + n - 2 * 2 ^ P) / (2 * n) := by field_simp; ring
        rw [this]; exact div_pos (by linarith) (by linarith)
      · rw [← sub_pos]
        have : 1 / 2 - ((m : ℝ) - 2 ^ P / n) = (2 * 2 ^ P + n - 2 * (n * m)) / (2 * n) := by field_simp; ring
        rw [this]; exact div_pos (by linarith) (by linarith)
  · have := z 52
    push_cast at this
    rw [this, div_le_div_iff₀ p0 nr]; linarith
  · have := z 53
    push_cast at this
    rw [this, div_lt_div_iff₀ nr p0]; linarith

/-- for such `n` and layers of a power of two, the step is exact -/
theorem even_inv {n m P : ℕ} (h : InvExact n m P) (hP : P ≤ 1000) {b : ℤ} (hb : -1000 ≤ b) :
    rd ((n : ℝ) * 2 ^ b * rd (1 / (n : ℝ))) = 2 ^ b := by
  rw [inv_rd h hP]
  obtain ⟨h1, h2, h3, h4, h5, h6⟩ := h
  have a5 : (2 : ℝ) ^ P * 2 ^ 54 ≤ n * m * 2 ^ 54 + 2 ^ P := by exact_mod_cast h5
  have a6 : (n : ℝ) * m * 2 ^ 53 ≤ 2 ^ P * 2 ^ 53 + 2 ^ P := by exact_mod_cast h6
  have p0 : (0 : ℝ) < 2 ^ P := by positivity
  have b0 := two_zpow_pos b
  have z : ∀ i : ℤ, (2 : ℝ) ^ (b + i) = 2 ^ b * 2 ^ i := fun i => zpow_add₀ (by norm_num) _ _
  set q : ℝ := n * m / 2 ^ P with hq
  have e : (n : ℝ) * 2 ^ b * (m / 2 ^ P) = 2 ^ b * q := by rw [hq]; ring
  have q1 : (1 - q) * 2 ^ 54 ≤ 1 := by
    rw [hq, sub_mul, div_mul_eq_mul_div, one_mul, sub_le_iff_le_add, ← sub_le_iff_le_add', le_div_iff₀ p0]
    linarith
  have q2 : (q - 1) * 2 ^ 53 ≤ 1 := by
    rw [hq, sub_mul, div_mul_eq_mul_div, one_mul, sub_le_iff_le_add, div_le_iff₀ p0]
    linarith
  rw [e]
  rcases le_or_gt 1 q with h | h
  · rw [rd_at (e := b - 52) (by omega) ?_ ?_]
    · have e52 : (2 : ℝ) ^ (b - 52) = 2 ^ b / 2 ^ 52 := by
        rw [zpow_sub₀ (by norm_num), show (52 : ℤ) = ((52 : ℕ) : ℤ) from rfl, zpow_natCast]
      rw [roundEven_of_even (n := 2 ^ 52) ⟨2 ^ 51, by norm_num⟩ ?_, e52]
      · push_cast; field_simp; norm_num
      · have : (2 : ℝ) ^ b * q / 2 ^ (b - 52) = q * 2 ^ 52 := by rw [e52]; field_simp
        rw [this]
        push_cast
        rw [abs_le]
        constructor <;> nlinarith
    · have : b - 52 + 52 = b := by ring
      rw [this]; nlinarith
    · have : b - 52 + 53 = b + 1 := by ring
      rw [this, z]
      have : q < 2 := by nlinarith
      rw [zpow_one]
      exact mul_lt_mul_of_pos_left this b0
  · rw [rd_at (e := b - 53) (by omega) ?_ ?_]
    · have e53 : (2 : ℝ) ^ (b - 53) = 2 ^ b / 2 ^ 53 := by
        rw [zpow_sub₀ (by norm_num), show (53 : ℤ) = ((53 : ℕ) : ℤ) from rfl, zpow_natCast]
      rw [roundEven_of_even (n := 2 ^ 53) ⟨2 ^ 52, by norm_num⟩ ?_, e53]
      · push_cast; field_simp; norm_num
      · have : (2 : ℝ) ^ b * q / 2 ^ (b - 53) = q * 2 ^ 53 := by rw [e53]; field_simp
        rw [this]
        push_cast
        rw [abs_le]
        constructor <;> nlinarith
    · have : b - 53 + 52 = b + -1 := by ring
      rw [this, z]
      have : 1 / 2 ≤ q := by nlinarith
      norm_num
      nlinarith
    · have : b - 53 + 53 = b := by ring
      rw [this]; nlinarith

/-- the nearest number to `1 / n` -/
def invAt (n : ℕ) : ℕ × ℕ := let P := 52 + Nat.clog 2 n; ((2 * 2 ^ P + n) / (2 * n), P)

/-- up to 48 layers the division is exact in this sense; with 49 it is not -/
theorem inv_upto48 : ∀ n : ℕ, n < 49 → 1 ≤ n → InvExact n (invAt n).1 (invAt n).2 ∧ (invAt n).2 ≤ 1000 := by
  decide

theorem even_upto48 {n : ℕ} (h1 : 1 ≤ n) (h2 : n ≤ 48) {b : ℤ} (hb : -1000 ≤ b) :
    rd ((n : ℝ) * 2 ^ b * rd (1 / (n : ℝ))) = 2 ^ b :=
  even_inv (inv_upto48 n (by omega) h1).1 (inv_upto48 n (by omega) h1).2 hb

end Goosli
