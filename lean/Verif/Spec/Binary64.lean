import Mathlib.Data.Int.Log
import Mathlib.Algebra.Order.Archimedean.Real.Basic
import Mathlib.Algebra.Order.Floor.Ring
import Mathlib.Tactic.Ring
import Mathlib.Tactic.Linarith
import Mathlib.Tactic.FieldSimp
import Mathlib.Tactic.Positivity
import Mathlib.Tactic.NormNum
import Mathlib.Algebra.Ring.Int.Parity
/-!
# IEEE-754 binary64 rounding

`rd x` is the real number `x` rounded to the nearest number with a significand of 53 bits and an exponent of at least
`-1074`, ties to even.  Overflow is treated where the arithmetic is defined (`Verif.Model.B64`).
-/
set_option autoImplicit false
namespace Goosli
noncomputable section
open Classical

/-- the nearest integer, ties to the even one -/
def roundEven (y : ℝ) : ℤ :=
  if y - ⌊y⌋ < 1 / 2 then ⌊y⌋ else if 1 / 2 < y - ⌊y⌋ then ⌊y⌋ + 1 else if Even ⌊y⌋ then ⌊y⌋ else ⌊y⌋ + 1

/-- the exponent of the last place of `x` -/
def lastExp (x : ℝ) : ℤ := max (Int.log 2 |x| - 52) (-1074)

/-- rounding to binary64, without overflow -/
def rd (x : ℝ) : ℝ := roundEven (x / 2 ^ lastExp x) * 2 ^ lastExp x

/-- the finite numbers of binary64, if the exponent were not limited above -/
def Rep (x : ℝ) : Prop := ∃ m e : ℤ, |m| ≤ 2 ^ 53 ∧ -1074 ≤ e ∧ x = m * 2 ^ e

/-! ## rounding to integers -/

theorem roundEven_int (n : ℤ) : roundEven n = n := by
  unfold roundEven; simp

theorem roundEven_near (y : ℝ) : |roundEven y - y| ≤ 1 / 2 := by
  have h0 := Int.floor_le y
  have h1 := Int.lt_floor_add_one y
  unfold roundEven
  split_ifs with a b c
  · rw [abs_le]; constructor <;> linarith
  · push_cast; rw [abs_le]; constructor <;> linarith
  · rw [abs_le]; constructor <;> linarith
  · push_cast; rw [abs_le]; constructor <;> linarith

theorem roundEven_mono {y z : ℝ} (h : y ≤ z) : roundEven y ≤ roundEven z := by
  have hy0 := Int.floor_le y
  have hy1 := Int.lt_floor_add_one y
  have hz0 := Int.floor_le z
  have hz1 := Int.lt_floor_add_one z
  have hf : ⌊y⌋ ≤ ⌊z⌋ := Int.floor_le_floor h
  rcases hf.eq_or_lt with hf | hf
  · unfold roundEven
    rw [← hf]
    rw [← hf] at hz0 hz1
    split_ifs <;> first | omega | (exfalso; linarith)
  · have h1 : roundEven y ≤ ⌊y⌋ + 1 := by unfold roundEven; split_ifs <;> omega
    have h2 : ⌊z⌋ ≤ roundEven z := by unfold roundEven; split_ifs <;> omega
    omega

theorem roundEven_le {y : ℝ} {n : ℤ} (h : y ≤ n) : roundEven y ≤ n := by
  have := roundEven_mono h; rwa [roundEven_int] at this

theorem le_roundEven {y : ℝ} {n : ℤ} (h : (n : ℝ) ≤ y) : n ≤ roundEven y := by
  have := roundEven_mono h; rwa [roundEven_int] at this

theorem roundEven_neg (y : ℝ) : roundEven (-y) = -roundEven y := by
  by_cases hi : ∃ n : ℤ, y = n
  · obtain ⟨n, rfl⟩ := hi
    have : (-(n : ℝ)) = ((-n : ℤ) : ℝ) := by push_cast; ring
    rw [this, roundEven_int, roundEven_int]
  · have h0 : (⌊y⌋ : ℝ) < y := lt_of_le_of_ne (Int.floor_le y) (fun h => hi ⟨_, h.symm⟩)
    have h1 := Int.lt_floor_add_one y
    have hf : ⌊-y⌋ = -⌊y⌋ - 1 := by
      rw [Int.floor_eq_iff]; push_cast; constructor <;> linarith
    unfold roundEven
    rw [hf]
    push_cast
    have he : Even (-⌊y⌋ - 1) ↔ ¬ Even ⌊y⌋ := by
      rw [Int.even_sub_one, even_neg]
    simp only [he]
    split_ifs <;> first | omega | (exfalso; linarith)

/-! ## the last place -/

theorem two_zpow_pos (e : ℤ) : (0 : ℝ) < 2 ^ e := zpow_pos (by norm_num) e

theorem lastExp_ge (x : ℝ) : -1074 ≤ lastExp x := le_max_right _ _

theorem lastExp_neg (x : ℝ) : lastExp (-x) = lastExp x := by unfold lastExp; rw [abs_neg]

/-- `x` has at most 53 bits above its last place -/
theorem abs_lt_last (x : ℝ) : |x| < 2 ^ (lastExp x + 53) := by
  have h := Int.lt_zpow_succ_log_self (b := 2) (by norm_num) |x|
  refine lt_of_lt_of_le (by exact_mod_cast h) ?_
  apply zpow_le_zpow_right₀ (by norm_num)
  have : Int.log 2 |x| - 52 ≤ lastExp x := le_max_left _ _
  omega

theorem last_le_abs {x : ℝ} (hx : x ≠ 0) (h : -1074 < lastExp x) : (2 : ℝ) ^ (lastExp x + 52) ≤ |x| := by
  have he : lastExp x = Int.log 2 |x| - 52 := by unfold lastExp at h ⊢; omega
  have h1 := Int.zpow_log_le_self (b := 2) (by norm_num) (abs_pos.2 hx)
  rw [he]
  have : Int.log 2 |x| - 52 + 52 = Int.log 2 |x| := by ring
  rw [this]
  exact_mod_cast h1

theorem lastExp_le {x : ℝ} {e : ℤ} (he : -1074 ≤ e) (hx : x ≠ 0) (h : |x| < 2 ^ (e + 53)) : lastExp x ≤ e := by
  have h1 : Int.log 2 |x| < e + 53 := (Int.lt_zpow_iff_log_lt (by norm_num) (abs_pos.2 hx)).1 (by exact_mod_cast h)
  unfold lastExp
  omega

theorem lastExp_mono {x y : ℝ} (hx : x ≠ 0) (h : |x| ≤ |y|) : lastExp x ≤ lastExp y := by
  have := Int.log_mono_right (b := 2) (abs_pos.2 hx) h
  unfold lastExp
  omega

/-- a product with a power of two that is an integer -/
theorem zpow_int {a b : ℤ} (m : ℤ) (h : a ≤ b) : ∃ k : ℤ, (m : ℝ) * 2 ^ b / 2 ^ a = k := by
  refine ⟨m * 2 ^ (b - a).toNat, ?_⟩
  have : (2 : ℝ) ^ b = 2 ^ (b - a).toNat * 2 ^ a := by
    rw [← zpow_natCast, ← zpow_add₀ (by norm_num)]
    congr 1
    omega
  rw [this]
  push_cast
  have := (two_zpow_pos a).ne'
  field_simp

/-! ## representable numbers -/

theorem Rep.neg {x : ℝ} (h : Rep x) : Rep (-x) := by
  obtain ⟨m, e, h1, h2, rfl⟩ := h
  exact ⟨-m, e, by rwa [abs_neg], h2, by push_cast; ring⟩

theorem rep_zero : Rep 0 := ⟨0, 0, by norm_num, by norm_num, by simp⟩

theorem rep_int {n : ℤ} (h : |n| ≤ 2 ^ 53) : Rep n := ⟨n, 0, h, by norm_num, by simp⟩

theorem rep_zpow {e : ℤ} (h : -1074 ≤ e) : Rep (2 ^ e) := ⟨1, e, by norm_num, h, by simp⟩

/-- the significand can be chosen below `2^53` -/
theorem Rep.canon {x : ℝ} (h : Rep x) : ∃ m e : ℤ, |m| < 2 ^ 53 ∧ -1074 ≤ e ∧ x = m * 2 ^ e := by
  obtain ⟨m, e, h1, h2, rfl⟩ := h
  rcases h1.lt_or_eq with h1 | h1
  · exact ⟨m, e, h1, h2, rfl⟩
  · have hd : ∃ m' : ℤ, m = 2 * m' ∧ |m'| < 2 ^ 53 := by
      rcases abs_choice m with h3 | h3
      · exact ⟨2 ^ 52, by rw [h3] at h1; rw [h1]; norm_num, by norm_num⟩
      · exact ⟨-2 ^ 52, by rw [h3] at h1; have : m = -2 ^ 53 := by omega
                           rw [this]; norm_num, by norm_num⟩
    obtain ⟨m', rfl, hm⟩ := hd
    refine ⟨m', e + 1, hm, by omega, ?_⟩
    rw [zpow_add₀ (by norm_num)]; push_cast; ring

theorem Rep.lastExp_int {x : ℝ} (h : Rep x) : ∃ k : ℤ, x / 2 ^ lastExp x = k := by
  obtain ⟨m, e, h1, h2, rfl⟩ := h.canon
  by_cases hx : (m : ℝ) * 2 ^ e = 0
  · exact ⟨0, by rw [hx]; simp⟩
  · refine zpow_int m (lastExp_le h2 hx ?_)
    rw [abs_mul, abs_of_pos (two_zpow_pos e), add_comm, zpow_add₀ (by norm_num)]
    refine mul_lt_mul_of_pos_right ?_ (two_zpow_pos e)
    exact_mod_cast h1

theorem rd_of_rep {x : ℝ} (h : Rep x) : rd x = x := by
  obtain ⟨k, hk⟩ := h.lastExp_int
  unfold rd
  rw [hk, roundEven_int, ← hk]
  have := (two_zpow_pos (lastExp x)).ne'
  field_simp

theorem rep_rd (x : ℝ) : Rep (rd x) := by
  refine ⟨roundEven (x / 2 ^ lastExp x), lastExp x, ?_, lastExp_ge x, rfl⟩
  have h := abs_lt_last x
  rw [add_comm, zpow_add₀ (by norm_num)] at h
  have h2 : |x / 2 ^ lastExp x| ≤ 2 ^ 53 := by
    rw [abs_div, abs_of_pos (two_zpow_pos _), div_le_iff₀ (two_zpow_pos _)]
    exact h.le
  rw [abs_le] at h2 ⊢
  exact ⟨le_roundEven (by push_cast; linarith [h2.1]), roundEven_le (by push_cast; linarith [h2.2])⟩

theorem rd_rd (x : ℝ) : rd (rd x) = rd x := rd_of_rep (rep_rd x)

theorem rd_neg (x : ℝ) : rd (-x) = -rd x := by
  unfold rd
  rw [lastExp_neg, neg_div, roundEven_neg]
  push_cast
  ring

@[simp] theorem rd_zero : rd 0 = 0 := rd_of_rep rep_zero

/-- half a unit in the last place -/
theorem rd_half (x : ℝ) : |rd x - x| ≤ 2 ^ lastExp x / 2 := by
  have hp := two_zpow_pos (lastExp x)
  have h := roundEven_near (x / 2 ^ lastExp x)
  have e : rd x - x = (roundEven (x / 2 ^ lastExp x) - x / 2 ^ lastExp x) * 2 ^ lastExp x := by
    unfold rd; field_simp
  rw [e, abs_mul, abs_of_pos hp]
  nlinarith

/-- the relative error of a result that is not subnormal, the absolute one of any result -/
theorem rd_error (x : ℝ) : |rd x - x| ≤ |x| / 2 ^ 53 + 1 / 2 ^ 1075 := by
  by_cases hx : x = 0
  · rw [hx, rd_zero]; simp
  have h := rd_half x
  rcases (lastExp_ge x).eq_or_lt with he | he
  · rw [← he] at h
    have e1 : (2 : ℝ) ^ (-1074 : ℤ) / 2 = 1 / 2 ^ 1075 := by
      rw [zpow_neg, show (1074 : ℤ) = ((1074 : ℕ) : ℤ) from rfl, zpow_natCast, pow_succ (n := 1074)]; field_simp
    rw [e1] at h
    have : 0 ≤ |x| / 2 ^ 53 := by positivity
    linarith
  · have h1 := last_le_abs hx he
    rw [zpow_add₀ (by norm_num)] at h1
    have h2 : (2 : ℝ) ^ lastExp x / 2 ≤ |x| / 2 ^ 53 := by
      rw [le_div_iff₀ (by positivity)]
      have : (2 : ℝ) ^ (52 : ℤ) = 2 ^ 52 := by norm_cast
      rw [this] at h1
      have : (2 : ℝ) ^ 53 = 2 * 2 ^ 52 := by norm_num
      rw [this]
      linarith
    have : (0 : ℝ) ≤ 1 / 2 ^ 1075 := by positivity
    linarith

/-- between `x` and a representable number there is an integral multiple of the last place of `x` -/
theorem last_between {x v : ℝ} (hx0 : x ≠ 0) (hv : Rep v) (h : x ≤ v) :
    ∃ k : ℤ, x ≤ k * 2 ^ lastExp x ∧ (k : ℝ) * 2 ^ lastExp x ≤ v := by
  have hp := two_zpow_pos (lastExp x)
  by_cases hv0 : v = 0
  · exact ⟨0, by simpa [hv0] using h, by simp [hv0]⟩
  by_cases he : lastExp x ≤ lastExp v
  · obtain ⟨k, hk⟩ := hv.lastExp_int
    obtain ⟨k', hk'⟩ := zpow_int k he
    have : (k : ℝ) * 2 ^ lastExp v = v := by rw [← hk]; have := (two_zpow_pos (lastExp v)).ne'; field_simp
    rw [this, div_eq_iff hp.ne'] at hk'
    exact ⟨k', by rw [← hk']; exact h, hk'.symm.le⟩
  · push Not at he
    have h1 := last_le_abs hx0 (lt_of_le_of_lt (lastExp_ge v) he)
    have h2 : |v| < 2 ^ (lastExp x + 52) := by
      refine lt_of_lt_of_le (abs_lt_last v) (zpow_le_zpow_right₀ (by norm_num) (by omega))
    have hxn : x < 0 := by
      by_contra hc
      rw [abs_of_nonneg (not_lt.1 hc)] at h1
      linarith [le_abs_self v]
    rw [abs_of_neg hxn] at h1
    refine ⟨-2 ^ 52, ?_, ?_⟩
    · push_cast
      rw [zpow_add₀ (by norm_num)] at h1
      have : (2 : ℝ) ^ (52 : ℤ) = 2 ^ 52 := by norm_cast
      rw [this] at h1
      linarith
    · push_cast
      rw [zpow_add₀ (by norm_num)] at h2
      have : (2 : ℝ) ^ (52 : ℤ) = 2 ^ 52 := by norm_cast
      rw [this] at h2
      linarith [neg_abs_le v]

theorem rd_le {x v : ℝ} (hv : Rep v) (h : x ≤ v) : rd x ≤ v := by
  by_cases hx0 : x = 0
  · rw [hx0, rd_zero, ← hx0]; exact h
  have hp := two_zpow_pos (lastExp x)
  obtain ⟨k, h1, h2⟩ := last_between hx0 hv h
  refine le_trans ?_ h2
  unfold rd
  refine mul_le_mul_of_nonneg_right ?_ hp.le
  exact_mod_cast roundEven_le (by rw [div_le_iff₀ hp]; exact h1)

theorem roundEven_nearest (y : ℝ) (n : ℤ) : |roundEven y - y| ≤ |n - y| := by
  have h := roundEven_near y
  by_cases hn : n = roundEven y
  · rw [hn]
  · have h1 : (1 : ℝ) ≤ |(n : ℝ) - roundEven y| := by exact_mod_cast Int.one_le_abs (sub_ne_zero.2 hn)
    have h2 : |(n : ℝ) - roundEven y| ≤ |n - y| + |roundEven y - y| := by
      have := abs_sub_abs_le_abs_sub ((n : ℝ) - y) ((roundEven y : ℝ) - y)
      have h3 := abs_sub (( n : ℝ) - y) ((roundEven y : ℝ) - y)
      have e : (n : ℝ) - y - (roundEven y - y) = n - roundEven y := by ring
      rw [e] at h3
      exact h3
    linarith

/-- no representable number is nearer -/
theorem rd_nearest (x : ℝ) {v : ℝ} (hv : Rep v) : |rd x - x| ≤ |v - x| := by
  have main : ∀ x v : ℝ, Rep v → x ≤ v → |rd x - x| ≤ |v - x| := by
    intro x v hv h
    by_cases hx0 : x = 0
    · rw [hx0, rd_zero]; simp
    have hp := two_zpow_pos (lastExp x)
    obtain ⟨k, h1, h2⟩ := last_between hx0 hv h
    have h3 : |rd x - x| ≤ |k * 2 ^ lastExp x - x| := by
      have e1 : rd x - x = (roundEven (x / 2 ^ lastExp x) - x / 2 ^ lastExp x) * 2 ^ lastExp x := by
        unfold rd; field_simp
      have e2 : k * 2 ^ lastExp x - x = (k - x / 2 ^ lastExp x) * 2 ^ lastExp x := by field_simp
      rw [e1, e2, abs_mul, abs_mul]
      exact mul_le_mul_of_nonneg_right (roundEven_nearest _ _) (abs_nonneg _)
    refine h3.trans ?_
    rw [abs_of_nonneg (by linarith), abs_of_nonneg (by linarith)]
    linarith
  rcases le_total x v with h | h
  · exact main x v hv h
  · have := main (-x) (-v) hv.neg (neg_le_neg h)
    rw [rd_neg] at this
    rw [show rd x - x = -(-rd x - -x) by ring, abs_neg, show v - x = -(-v - -x) by ring, abs_neg]
    exact this

theorem le_rd {x v : ℝ} (hv : Rep v) (h : v ≤ x) : v ≤ rd x := by
  have := rd_le hv.neg (neg_le_neg h)
  rw [rd_neg] at this
  linarith

theorem rd_mono {x y : ℝ} (h : x ≤ y) : rd x ≤ rd y := by
  by_cases hv : ∃ v, Rep v ∧ x ≤ v ∧ v ≤ y
  · obtain ⟨v, hv, h1, h2⟩ := hv
    exact (rd_le hv h1).trans (le_rd hv h2)
  -- otherwise the last places agree
  · have hx0 : x ≠ 0 := fun h0 => hv ⟨0, rep_zero, h0.le, h0 ▸ h⟩
    have hy0 : y ≠ 0 := fun h0 => hv ⟨0, rep_zero, h0 ▸ h, h0.ge⟩
    -- a step of the exponent is a representable number between
    have step : ∀ a b : ℝ, a ≠ 0 → b ≠ 0 → 0 < a → a ≤ b → (¬ ∃ v, Rep v ∧ a ≤ v ∧ v ≤ b) → lastExp a = lastExp b := by
      intro a b ha hb hpos hab hno
      refine le_antisymm (lastExp_mono ha (by rw [abs_of_pos hpos, abs_of_pos (hpos.trans_le hab)]; exact hab)) ?_
      by_contra hc
      push Not at hc
      have h1 := last_le_abs hb (lt_of_le_of_lt (lastExp_ge a) hc)
      have h2 : |a| < 2 ^ (lastExp b + 52) :=
        lt_of_lt_of_le (abs_lt_last a) (zpow_le_zpow_right₀ (by norm_num) (by omega))
      rw [abs_of_pos (hpos.trans_le hab)] at h1
      rw [abs_of_pos hpos] at h2
      exact hno ⟨_, rep_zpow (by have := lastExp_ge b; omega), h2.le, h1⟩
    have he : lastExp x = lastExp y := by
      rcases lt_or_gt_of_ne hx0 with hx | hx
      · have hy : y < 0 := by
          by_contra hc; exact hv ⟨0, rep_zero, hx.le, not_lt.1 hc⟩
        have := step (-y) (-x) (neg_ne_zero.2 hy0) (neg_ne_zero.2 hx0) (by linarith) (by linarith) (by
          rintro ⟨v, h1, h2, h3⟩; exact hv ⟨-v, h1.neg, by linarith, by linarith⟩)
        rw [lastExp_neg, lastExp_neg] at this
        exact this.symm
      · exact step x y hx0 hy0 hx h hv
    unfold rd
    rw [he]
    have hp := two_zpow_pos (lastExp y)
    refine mul_le_mul_of_nonneg_right ?_ hp.le
    exact_mod_cast roundEven_mono (div_le_div_of_nonneg_right h hp.le)

/-! ## sums never underflow -/

/-- a multiple of the smallest positive number -/
def OnGrid (x : ℝ) : Prop := ∃ k : ℤ, x = k * 2 ^ (-1074 : ℤ)

theorem Rep.onGrid {x : ℝ} (h : Rep x) : OnGrid x := by
  obtain ⟨m, e, _, h2, rfl⟩ := h
  obtain ⟨k, hk⟩ := zpow_int m h2
  refine ⟨k, ?_⟩
  rw [← hk]
  have := (two_zpow_pos (-1074)).ne'
  field_simp

theorem OnGrid.add {x y : ℝ} (hx : OnGrid x) (hy : OnGrid y) : OnGrid (x + y) := by
  obtain ⟨a, rfl⟩ := hx
  obtain ⟨b, rfl⟩ := hy
  exact ⟨a + b, by push_cast; ring⟩

theorem OnGrid.sub {x y : ℝ} (hx : OnGrid x) (hy : OnGrid y) : OnGrid (x - y) := by
  obtain ⟨a, rfl⟩ := hx
  obtain ⟨b, rfl⟩ := hy
  exact ⟨a - b, by push_cast; ring⟩

/-- numbers of the grid are rounded with a relative error only -/
theorem rd_error_grid {x : ℝ} (h : OnGrid x) : |rd x - x| ≤ |x| / 2 ^ 53 := by
  by_cases hx : x = 0
  · rw [hx, rd_zero]; simp
  rcases (lastExp_ge x).eq_or_lt with he | he
  · have hr : Rep x := by
      obtain ⟨k, hk⟩ := h
      refine ⟨k, -1074, ?_, le_rfl, hk⟩
      have h1 := abs_lt_last x
      rw [← he, hk, abs_mul, abs_of_pos (two_zpow_pos _), add_comm, zpow_add₀ (by norm_num),
        mul_lt_mul_iff_left₀ (two_zpow_pos _)] at h1
      have h2 : (|k| : ℝ) < 2 ^ 53 := by exact_mod_cast h1
      exact_mod_cast h2.le
    rw [rd_of_rep hr]
    simp; positivity
  · have h1 := last_le_abs hx he
    rw [zpow_add₀ (by norm_num)] at h1
    refine (rd_half x).trans ?_
    rw [le_div_iff₀ (by positivity)]
    have : (2 : ℝ) ^ (52 : ℤ) = 2 ^ 52 := by norm_cast
    rw [this] at h1
    have : (2 : ℝ) ^ 53 = 2 * 2 ^ 52 := by norm_num
    rw [this]
    linarith

/-- rounding keeps the sign of numbers of the grid -/
theorem rd_pos {x : ℝ} (h : OnGrid x) (hx : 0 < x) : 0 < rd x := by
  have := rd_error_grid h
  rw [abs_of_pos hx] at this
  have h2 := (abs_le.1 this).1
  have : x / 2 ^ 53 ≤ x / 2 := by
    apply div_le_div_of_nonneg_left hx.le <;> norm_num
  linarith

theorem rd_nonneg {x : ℝ} (hx : 0 ≤ x) : 0 ≤ rd x := le_rd rep_zero hx
theorem rd_nonpos {x : ℝ} (hx : x ≤ 0) : rd x ≤ 0 := rd_le rep_zero hx

theorem rd_eq_zero {x : ℝ} (h : OnGrid x) : rd x = 0 ↔ x = 0 := by
  constructor
  · intro h0
    by_contra hx
    rcases lt_or_gt_of_ne hx with h1 | h1
    · have := rd_pos (x := -x) (by obtain ⟨k, rfl⟩ := h; exact ⟨-k, by push_cast; ring⟩) (by linarith)
      rw [rd_neg] at this; linarith
    · have := rd_pos h h1; linarith
  · rintro rfl; exact rd_zero

theorem rd_neg_iff {x : ℝ} (h : OnGrid x) : rd x < 0 ↔ x < 0 := by
  constructor
  · intro h1; by_contra hc; linarith [rd_nonneg (not_lt.1 hc)]
  · intro h1
    exact lt_of_le_of_ne (rd_nonpos h1.le) (fun h0 => by rw [rd_eq_zero h] at h0; linarith)

theorem rd_abs_le {x v : ℝ} (hv : Rep v) (h : |x| ≤ v) : |rd x| ≤ v := by
  rw [abs_le] at h ⊢
  exact ⟨le_rd hv.neg h.1, rd_le hv h.2⟩

end
end Goosli
