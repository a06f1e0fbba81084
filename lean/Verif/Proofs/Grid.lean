import Verif.Props.C94
import Verif.Proofs.B64Sweep
import Mathlib.Tactic.FieldSimp
/-!
# Fractions with small denominators keep the distances that rounding needs
-/
set_option autoImplicit false
namespace Goosli
open Flt

/-- a fraction with a denominator of at most 500 is not near the middle between two multiples of `1e-8`: `2 * 10 ^ 8` has nine factors two -/
theorem clearOfHalf_frac {p : ℤ} {q : ℕ} (q0 : 0 < q) (q1 : q ≤ 500) : clearOfHalf ((p : ℝ) / q) := by
  intro k
  have qr : (0 : ℝ) < q := by exact_mod_cast q0
  have key : 200000000 * p - (2 * k + 1) * (q : ℤ) ≠ 0 := by
    intro h
    have h1 : ((512 : ℕ) : ℤ) ∣ (2 * k + 1) * (q : ℤ) := ⟨390625 * p, by push_cast; omega⟩
    have h2 : IsCoprime ((512 : ℕ) : ℤ) (2 * k + 1) := by
      have : IsCoprime (2 : ℤ) (2 * k + 1) := ⟨-k, 1, by ring⟩
      have h := this.pow_left (m := 9)
      norm_num at h ⊢
      exact h
    have h3 := h2.dvd_of_dvd_mul_left h1
    have h4 := Nat.le_of_dvd q0 (Int.natCast_dvd_natCast.1 h3)
    omega
  have h1 : (1 : ℝ) ≤ |((200000000 * p - (2 * k + 1) * (q : ℤ) : ℤ) : ℝ)| := by
    rw [← Int.cast_abs]; exact_mod_cast Int.one_le_abs key
  have e : (p : ℝ) / q - (k + 1 / 2) / 10 ^ 8 = ((200000000 * p - (2 * k + 1) * (q : ℤ) : ℤ) : ℝ) / (200000000 * q) := by
    push_cast
    field_simp
    ring
  rw [e, abs_div, abs_of_pos (a := 200000000 * (q : ℝ)) (by positivity), le_div_iff₀ (by positivity)]
  have : (q : ℝ) ≤ 500 := by exact_mod_cast q1
  linarith

theorem plainlyApart_frac {p p' : ℤ} {q q' : ℕ} (q0 : 0 < q) (q1 : q ≤ 500) (r0 : 0 < q') (r1 : q' ≤ 500) :
    plainlyApart ((p : ℝ) / q) ((p' : ℝ) / q') := by
  have qr : (0 : ℝ) < q := by exact_mod_cast q0
  have rr : (0 : ℝ) < q' := by exact_mod_cast r0
  by_cases h : (p : ℝ) / q = (p' : ℝ) / q'
  · exact Or.inl h
  right
  have e : (p : ℝ) / q - (p' : ℝ) / q' = ((p * q' - p' * q : ℤ) : ℝ) / (q * q') := by
    push_cast
    field_simp
  have key : p * q' - p' * q ≠ 0 := by
    intro h0
    apply h
    have : (p : ℝ) / q - (p' : ℝ) / q' = 0 := by rw [e, h0]; simp
    linarith
  have h1 : (1 : ℝ) ≤ |((p * q' - p' * q : ℤ) : ℝ)| := by
    rw [← Int.cast_abs]; exact_mod_cast Int.one_le_abs key
  rw [e, abs_div, abs_of_pos (a := (q : ℝ) * q') (by positivity), le_div_iff₀ (by positivity)]
  have a : (q : ℝ) ≤ 500 := by exact_mod_cast q1
  have b : (q' : ℝ) ≤ 500 := by exact_mod_cast r1
  have : (q : ℝ) * q' ≤ 500 * 500 := mul_le_mul a b rr.le (by norm_num)
  linarith

/-- a fraction with a denominator that is a small power of two is a `float64` number -/
theorem rep_grid {p : ℤ} {k : ℕ} (hk : k ≤ 8) (h : |(p : ℝ) / 2 ^ k| ≤ 10 ^ 6) : Rep ((p : ℝ) / 2 ^ k) := by
  refine ⟨p, -(k : ℤ), ?_, by omega, ?_⟩
  · rw [abs_div, abs_of_pos (a := (2 : ℝ) ^ k) (by positivity), div_le_iff₀ (by positivity)] at h
    have h2 : (2 : ℝ) ^ k ≤ 2 ^ 8 := pow_le_pow_right₀ (by norm_num) hk
    have h3 : |(p : ℝ)| ≤ ((2 ^ 53 : ℤ) : ℝ) := by push_cast; nlinarith
    rw [← Int.cast_abs] at h3
    exact_mod_cast h3
  · rw [zpow_neg, zpow_natCast, div_eq_mul_inv]

theorem isF_grid {p : ℤ} {k : ℕ} (hk : k ≤ 8) (h : |(p : ℝ) / 2 ^ k| ≤ 10 ^ 6) : IsF ((p : ℝ) / 2 ^ k) :=
  isF_rep (rep_grid hk h) (h.trans (by norm_num))

/-! ## crossing points -/

/-- the crossing coordinate of an edge with grid ends and a grid level is a fraction with denominator `2^j * 2^k * |Δz|` -/
theorem cross_frac {j k : ℕ} (hjk : j ≤ k) {A B X1 X2 H : ℤ} (hne : A ≠ B) :
    ∃ (p : ℤ) (q : ℕ), 0 < q ∧ (q : ℝ) = 2 ^ j * 2 ^ k * |(A : ℝ) / 2 ^ j - B / 2 ^ j| ∧
      (X1 : ℝ) / 2 ^ j + ((H : ℝ) / 2 ^ k - A / 2 ^ j) / ((B : ℝ) / 2 ^ j - A / 2 ^ j) * ((X2 : ℝ) / 2 ^ j - X1 / 2 ^ j) = (p : ℝ) / q := by
  obtain ⟨i, rfl⟩ := Nat.exists_eq_add_of_le hjk
  have hq : (2 : ℝ) ^ j * 2 ^ (j + i) * |(A : ℝ) / 2 ^ j - B / 2 ^ j| = 2 ^ (j + i) * |(A : ℝ) - B| := by
    rw [← sub_div, abs_div, abs_of_pos (a := (2 : ℝ) ^ j) (by positivity)]
    field_simp
  have hBA : (B : ℝ) - A ≠ 0 := sub_ne_zero.2 (by exact_mod_cast hne.symm)
  have hn : 0 < (A - B).natAbs := Int.natAbs_pos.2 (sub_ne_zero.2 hne)
  have hcast : (((A - B).natAbs : ℕ) : ℝ) = |(A : ℝ) - B| := by
    rw [Nat.cast_natAbs]; push_cast; rfl
  rcases lt_or_gt_of_ne hne with h | h
  · refine ⟨2 ^ i * (X1 * (B - A)) + (H - 2 ^ i * A) * (X2 - X1), 2 ^ (j + i) * (A - B).natAbs, by positivity, by rw [hq]; push_cast; rw [← hcast], ?_⟩
    have ha : |(A : ℝ) - B| = B - A := by rw [abs_of_neg (sub_neg.2 (by exact_mod_cast h))]; ring
    push_cast
    rw [hcast, ha, pow_add]
    field_simp
  · refine ⟨-(2 ^ i * (X1 * (B - A)) + (H - 2 ^ i * A) * (X2 - X1)), 2 ^ (j + i) * (A - B).natAbs, by positivity, by rw [hq]; push_cast; rw [← hcast], ?_⟩
    have ha : |(A : ℝ) - B| = -(B - A) := by rw [abs_of_pos (sub_pos.2 (by exact_mod_cast h))]; ring
    push_cast
    rw [hcast, ha, pow_add]
    field_simp

end Goosli
