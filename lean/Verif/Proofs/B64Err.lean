import Verif.Model.B64
import Verif.Proofs.Geom
/-!
# Rounding errors of the operations in the range of a printer
-/
set_option autoImplicit false
namespace Goosli

/-- the smallest numbers do not matter -/
theorem tiny_le : (1 : ℝ) / 2 ^ 1075 ≤ 1 / 10 ^ 28 := by
  apply div_le_div_of_nonneg_left (by norm_num) (by norm_num)
  calc (10 : ℝ) ^ 28 ≤ 2 ^ 100 := by norm_num
    _ ≤ 2 ^ 1075 := pow_le_pow_right₀ (by norm_num) (by norm_num)

/-- the error of a result of size at most `M` -/
theorem rd_err {x M : ℝ} (hM : 1 / 10 ^ 10 ≤ M) (h : |x| ≤ M) : |rd x - x| ≤ M * (12 / 10 ^ 17) := by
  have h1 := rd_error x
  have h2 : |x| / 2 ^ 53 ≤ M / 2 ^ 53 := div_le_div_of_nonneg_right h (by norm_num)
  have h3 := tiny_le
  generalize (1 : ℝ) / 2 ^ 1075 = t at *
  norm_num at *
  linarith

theorem rd_bound {x M : ℝ} (hM : 1 / 10 ^ 10 ≤ M) (h : |x| ≤ M) : |rd x| ≤ M * (1 + 12 / 10 ^ 17) := by
  have h1 := rd_err hM h
  have h2 := abs_sub_abs_le_abs_sub (rd x) x
  linarith

theorem abs_mul_sub_mul (a b a' b' : ℝ) : |a' * b' - a * b| ≤ |a' - a| * |b'| + |a| * |b' - b| := by
  have e : a' * b' - a * b = (a' - a) * b' + a * (b' - b) := by ring
  rw [e, ← abs_mul, ← abs_mul]
  exact abs_add_le _ _

theorem abs_sub_range {a b M : ℝ} (ha : |a| ≤ M) (hb : |b| ≤ M) : |a - b| ≤ 2 * M := by
  rw [abs_le] at *
  constructor <;> linarith [ha.1, ha.2, hb.1, hb.2]

/-- the parameter of a crossing at height `h` of an edge from height `a` to height `b`, as it is computed -/
noncomputable def paramF (h a b : ℝ) : ℝ := rd (rd (h - a) / rd (b - a))

/-- quotients of rounded differences -/
theorem quot_err {n d : ℝ} (hn : OnGrid n) (hd : OnGrid d) (h0 : d ≠ 0) : |rd n / rd d - n / d| ≤ |n / d| * (23 / 10 ^ 17) := by
  have e1 := rd_error_grid hn
  have e2 := rd_error_grid hd
  have hd' : rd d ≠ 0 := fun h => h0 ((rd_eq_zero hd).1 h)
  have hdp := abs_pos.2 h0
  have e3 : |d| * (1 - 1 / 2 ^ 53) ≤ |rd d| := by
    have := abs_sub_abs_le_abs_sub d (rd d)
    rw [abs_sub_comm] at this
    have : |d| / 2 ^ 53 = |d| * (1 / 2 ^ 53) := by ring
    linarith
  have e : rd n / rd d - n / d = ((rd n - n) * d - n * (rd d - d)) / (rd d * d) := by field_simp; ring
  rw [e, abs_div, abs_mul, abs_div]
  have h1 : |(rd n - n) * d - n * (rd d - d)| ≤ 2 * |n| * |d| / 2 ^ 53 := by
    have a1 := abs_sub ((rd n - n) * d) (n * (rd d - d))
    rw [abs_mul, abs_mul] at a1
    have a2 := mul_le_mul_of_nonneg_right e1 (abs_nonneg d)
    have a3 := mul_le_mul_of_nonneg_left e2 (abs_nonneg n)
    have a4 : |n| / 2 ^ 53 * |d| + |n| * (|d| / 2 ^ 53) = 2 * |n| * |d| / 2 ^ 53 := by ring
    linarith
  have h2 : 0 < |rd d| * |d| := mul_pos (abs_pos.2 hd') hdp
  rw [div_le_iff₀ h2]
  have h3 : |d| * (1 - 1 / 2 ^ 53) * |d| ≤ |rd d| * |d| := mul_le_mul_of_nonneg_right e3 hdp.le
  have h4 : |n| / |d| * (23 / 10 ^ 17) * (|d| * (1 - 1 / 2 ^ 53) * |d|) = |n| * |d| * ((23 / 10 ^ 17) * (1 - 1 / 2 ^ 53)) := by
    field_simp
  have h5 : |n| / |d| * (23 / 10 ^ 17) * (|d| * (1 - 1 / 2 ^ 53) * |d|) ≤ |n| / |d| * (23 / 10 ^ 17) * (|rd d| * |d|) :=
    mul_le_mul_of_nonneg_left h3 (by positivity)
  refine h1.trans (le_trans ?_ h5)
  rw [h4]
  have : 0 ≤ |n| * |d| := by positivity
  norm_num
  nlinarith

theorem param_err {h a b : ℝ} (hh : Rep h) (ha : Rep a) (hb : Rep b) (hc : (a < h ∧ h < b) ∨ (b < h ∧ h < a)) :
    |paramF h a b - (h - a) / (b - a)| ≤ 4 / 10 ^ 16 ∧ 0 ≤ (h - a) / (b - a) ∧ (h - a) / (b - a) ≤ 1 := by
  have h0 : 0 ≤ (h - a) / (b - a) := by
    rcases hc with ⟨h1, h2⟩ | ⟨h1, h2⟩
    · exact div_nonneg (by linarith) (by linarith)
    · exact div_nonneg_of_nonpos (by linarith) (by linarith)
  have h1 : (h - a) / (b - a) ≤ 1 := by
    rcases hc with ⟨h1, h2⟩ | ⟨h1, h2⟩
    · rw [div_le_one (by linarith)]; linarith
    · rw [div_le_one_of_neg (by linarith)]; linarith
  refine ⟨?_, h0, h1⟩
  have hne : b - a ≠ 0 := by
    rcases hc with ⟨h1, h2⟩ | ⟨h1, h2⟩
    · exact (by linarith : 0 < b - a).ne'
    · exact (by linarith : b - a < 0).ne
  have e1 := quot_err (hh.onGrid.sub ha.onGrid) (hb.onGrid.sub ha.onGrid) hne
  rw [abs_of_nonneg h0] at e1
  have e2 : |rd (h - a) / rd (b - a)| ≤ 2 := by
    have := abs_sub_abs_le_abs_sub (rd (h - a) / rd (b - a)) ((h - a) / (b - a))
    rw [abs_of_nonneg h0] at this
    norm_num at e1
    linarith
  have e4 : |rd (h - a) / rd (b - a)| ≤ 1 + 1 / 10 := by
    have := abs_sub_abs_le_abs_sub (rd (h - a) / rd (b - a)) ((h - a) / (b - a))
    rw [abs_of_nonneg h0] at this
    norm_num at e1
    linarith
  have e3 := rd_err (by norm_num) e4
  unfold paramF
  have := abs_add_le (rd (rd (h - a) / rd (b - a)) - rd (h - a) / rd (b - a)) (rd (h - a) / rd (b - a) - (h - a) / (b - a))
  rw [sub_add_sub_cancel] at this
  norm_num at *
  linarith

/-- a coordinate of the crossing, as it is computed -/
noncomputable def coordF (t x1 x2 : ℝ) : ℝ := rd (x1 + rd (rd (x2 - x1) * t))

theorem coord_err {t τ x1 x2 : ℝ} (h1 : |x1| ≤ 1000) (h2 : |x2| ≤ 1000) (ht : |t - τ| ≤ 4 / 10 ^ 16) (t0 : 0 ≤ τ) (t1 : τ ≤ 1) :
    |coordF t x1 x2 - (x1 + τ * (x2 - x1))| ≤ 2 / 10 ^ 12 ∧ |rd (x2 - x1) * t| ≤ 2001 ∧
      |x1 + rd (rd (x2 - x1) * t)| ≤ 1001 := by
  have hD := abs_sub_range h2 h1
  norm_num at hD
  have e1 := rd_err (M := 2000) (by norm_num) hD
  have ht1 : |t| ≤ 1 + 4 / 10 ^ 16 := by
    have := abs_sub_abs_le_abs_sub t τ
    rw [abs_of_nonneg t0] at this
    linarith
  have e2 := abs_mul_sub_mul (x2 - x1) τ (rd (x2 - x1)) t
  have e3 : |rd (x2 - x1) * t - (x2 - x1) * τ| ≤ 12 / 10 ^ 13 := by
    have a1 : |rd (x2 - x1) - (x2 - x1)| * |t| ≤ 2000 * (12 / 10 ^ 17) * (1 + 4 / 10 ^ 16) :=
      mul_le_mul e1 ht1 (abs_nonneg _) (by norm_num)
    have a2 : |x2 - x1| * |t - τ| ≤ 2000 * (4 / 10 ^ 16) := mul_le_mul hD ht (abs_nonneg _) (by norm_num)
    norm_num at *
    linarith
  have hDt : |(x2 - x1) * τ| ≤ 2000 := by
    rw [abs_mul, abs_of_nonneg t0]
    calc |x2 - x1| * τ ≤ 2000 * 1 := mul_le_mul hD t1 t0 (by norm_num)
      _ = 2000 := by norm_num
  have e4 : |rd (x2 - x1) * t| ≤ 2001 := by
    have := abs_sub_abs_le_abs_sub (rd (x2 - x1) * t) ((x2 - x1) * τ)
    norm_num at *
    linarith
  have e5 := rd_err (M := 2001) (by norm_num) e4
  have hX : |x1 + τ * (x2 - x1)| ≤ 1000 := by
    rw [abs_le] at *
    constructor <;> nlinarith
  have e6 : |x1 + rd (rd (x2 - x1) * t) - (x1 + τ * (x2 - x1))| ≤ 15 / 10 ^ 13 := by
    have e : x1 + rd (rd (x2 - x1) * t) - (x1 + τ * (x2 - x1)) =
        (rd (rd (x2 - x1) * t) - rd (x2 - x1) * t) + (rd (x2 - x1) * t - (x2 - x1) * τ) := by ring
    rw [e]
    have := abs_add_le (rd (rd (x2 - x1) * t) - rd (x2 - x1) * t) (rd (x2 - x1) * t - (x2 - x1) * τ)
    norm_num at *
    linarith
  have e7 : |x1 + rd (rd (x2 - x1) * t)| ≤ 1001 := by
    have := abs_sub_abs_le_abs_sub (x1 + rd (rd (x2 - x1) * t)) (x1 + τ * (x2 - x1))
    norm_num at *
    linarith
  refine ⟨?_, e4, e7⟩
  have e8 := rd_err (M := 1001) (by norm_num) e7
  unfold coordF
  have := abs_add_le (rd (x1 + rd (rd (x2 - x1) * t)) - (x1 + rd (rd (x2 - x1) * t)))
    (x1 + rd (rd (x2 - x1) * t) - (x1 + τ * (x2 - x1)))
  rw [sub_add_sub_cancel] at this
  norm_num at *
  linarith

end Goosli
