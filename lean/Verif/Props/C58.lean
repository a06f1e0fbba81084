import Verif.Proofs.Space
/-!
# C58: rounding helpers
-/
set_option linter.unusedSectionVars false
namespace Goosli
open Flt

/-- rounding to the nearest integer, halves away from zero -/
noncomputable def rnd (x : ℝ) : ℤ := if x < 0 then ⌈x - 1 / 2⌉ else ⌊x + 1 / 2⌋

theorem rnd_near (x : ℝ) : |(rnd x : ℝ) - x| ≤ 1 / 2 := by
  unfold rnd
  rw [abs_le]
  split_ifs
  · have h1 := Int.le_ceil (x - 1 / 2); have h2 := Int.ceil_lt_add_one (x - 1 / 2)
    constructor <;> linarith
  · have h1 := Int.floor_le (x + 1 / 2); have h2 := Int.lt_floor_add_one (x + 1 / 2)
    constructor <;> linarith

theorem rnd_neg (x : ℝ) : rnd (-x) = - rnd x := by
  unfold rnd
  rcases lt_trichotomy x 0 with h | h | h
  · rw [if_neg (by linarith), if_pos h, ← Int.floor_neg]; congr 1; ring
  · subst h; norm_num
  · rw [if_pos (by linarith), if_neg (by linarith), ← Int.ceil_neg]; congr 1; ring

theorem rnd_mono {x y : ℝ} (h : x ≤ y) : rnd x ≤ rnd y := by
  unfold rnd
  split_ifs with h1 h2 h2
  · exact Int.ceil_le_ceil (by linarith)
  · have e1 : ⌈x - 1 / 2⌉ ≤ 0 := Int.ceil_le.2 (by push_cast; linarith)
    have e2 : 0 ≤ ⌊y + 1 / 2⌋ := Int.le_floor.2 (by push_cast; linarith)
    exact e1.trans e2
  · linarith
  · exact Int.floor_le_floor (by linarith)

theorem rnd_int (k : ℤ) : rnd k = k := by
  unfold rnd
  split_ifs
  · rw [Int.ceil_eq_iff]; constructor <;> linarith
  · rw [Int.floor_eq_iff]; constructor <;> linarith

/-- the numbers `a` for which `a*10^n` fits an `int64` -/
def fits (n : Nat) (a : ℝ) : Prop := |a * 10 ^ n| < 2 ^ 63 - 1

theorem roundPlaces_fin (a : ℝ) (n : Nat) (h : fits n a) :
    roundPlaces (XR.fin a) n = XR.fin (rnd (a * 10 ^ n) / 10 ^ n) := by
  have ep : (powersOfTen n : XR) = XR.fin (10 ^ n) := by simp [powersOfTen]
  have e5 : (Flt.lit 5 1 : XR) = XR.fin (1 / 2) := by simp; norm_num
  have hn : (10 : ℝ) ^ n ≠ 0 := by positivity
  have key : round (XR.fin a * powersOfTen n : XR) = rnd (a * 10 ^ n) := by
    have hb := rnd_near (a * 10 ^ n)
    rw [abs_le] at hb
    unfold fits at h
    rw [abs_lt] at h
    have hlt : |rnd (a * 10 ^ n)| < 2 ^ 63 := by
      have h1 : -(2 ^ 63 : ℝ) < rnd (a * 10 ^ n) := by linarith [hb.1, h.1]
      have h2 : (rnd (a * 10 ^ n) : ℝ) < 2 ^ 63 := by linarith [hb.2, h.2]
      rw [abs_lt]
      constructor
      · exact_mod_cast h1
      · exact_mod_cast h2
    simp only [round, ep, XR.fin_mul, e5, lit00, XR.fin_lt, XR.fin_sub, XR.fin_add, XR.fin_ceil, XR.fin_floor, XR.toInt_def]
    unfold rnd at hlt ⊢
    by_cases hx : a * 10 ^ n < 0
    · simp only [hx, decide_true, if_true] at hlt ⊢
      exact toInt_intCast _ hlt
    · simp only [hx, decide_false, if_false, Bool.false_eq_true] at hlt ⊢
      exact toInt_intCast _ hlt
  rw [roundPlaces, key, ep, XR.ofInt_def, XR.fin_div hn]

/-- **C58 (rounding).** While `a*10^n` fits an `int64`, `RoundPlaces(a,n)` is a multiple of `10^-n` within half a unit of
the last place of `a`; it is odd, monotone and idempotent. -/
theorem C58_round (n : Nat) (a : ℝ) (h : fits n a) :
    ∃ r : ℝ, roundPlaces (XR.fin a) n = XR.fin r ∧ (∃ k : ℤ, r = k / 10 ^ n) ∧ |r - a| ≤ 1 / 2 / 10 ^ n ∧
      roundPlaces (XR.fin (-a)) n = XR.fin (-r) ∧
      (∀ b : ℝ, fits n b → a ≤ b → ∃ s, roundPlaces (XR.fin b) n = XR.fin s ∧ r ≤ s) ∧
      (fits n r → roundPlaces (XR.fin r) n = XR.fin r) := by
  have hn : (0 : ℝ) < 10 ^ n := by positivity
  refine ⟨_, roundPlaces_fin a n h, ⟨_, rfl⟩, ?_, ?_, ?_, ?_⟩
  · have := rnd_near (a * 10 ^ n)
    have e : (rnd (a * 10 ^ n) : ℝ) / 10 ^ n - a = (rnd (a * 10 ^ n) - a * 10 ^ n) / 10 ^ n := by field_simp
    rw [e, abs_div, abs_of_pos hn]
    exact div_le_div_of_nonneg_right this hn.le
  · rw [roundPlaces_fin (-a) n (by unfold fits; rw [neg_mul, abs_neg]; exact h), neg_mul, rnd_neg]
    push_cast; rw [neg_div]
  · intro b hb hab
    refine ⟨_, roundPlaces_fin b n hb, ?_⟩
    apply div_le_div_of_nonneg_right _ hn.le
    exact_mod_cast rnd_mono (mul_le_mul_of_nonneg_right hab hn.le)
  · intro hr
    rw [roundPlaces_fin _ n hr]
    have e : (rnd (a * 10 ^ n) : ℝ) / 10 ^ n * 10 ^ n = rnd (a * 10 ^ n) := by field_simp
    rw [e, rnd_int]

/-- **C58 (overflow).** Outside that range the result is wrong: every `a` with `a*10^n ≥ 2^63` is rounded to the same
negative number. -/
theorem C58_overflow (n : Nat) (a : ℝ) (h : 2 ^ 63 ≤ a * 10 ^ n) :
    roundPlaces (XR.fin a) n = XR.fin (-(2 ^ 63) / 10 ^ n) := by
  have ep : (powersOfTen n : XR) = XR.fin (10 ^ n) := by simp [powersOfTen]
  have e5 : (Flt.lit 5 1 : XR) = XR.fin (1 / 2) := by simp; norm_num
  have hn : (10 : ℝ) ^ n ≠ 0 := by positivity
  have hx : ¬ a * 10 ^ n < 0 := by have : (0:ℝ) < 2 ^ 63 := by norm_num
                                   linarith
  have hf : (2 ^ 63 : ℤ) ≤ ⌊a * 10 ^ n + 1 / 2⌋ := Int.le_floor.2 (by push_cast; linarith)
  simp only [roundPlaces, round, ep, XR.fin_mul, e5, lit00, XR.fin_lt, XR.fin_add, XR.fin_floor, XR.toInt_def, hx,
    decide_false, if_false, Bool.false_eq_true, XR.toInt, Int.floor_intCast, Int.ceil_intCast, ite_self]
  rw [if_neg (by omega), XR.ofInt_def, XR.fin_div hn]
  norm_num

/-- **C58 (point equality).** `Equal` is reflexive and symmetric on points with finite coordinates, but not transitive. -/
theorem C58_equal (a b : R3) :
    a.pt.equal a.pt = true ∧ a.pt.equal b.pt = b.pt.equal a.pt ∧
      ∃ p q r : R3, p.pt.equal q.pt = true ∧ q.pt.equal r.pt = true ∧ p.pt.equal r.pt = false := by
  refine ⟨(equal_pt a a).2 (R3.near_refl a), ?_, ⟨0, 0, 0⟩, ⟨6 / 10 ^ 7, 0, 0⟩, ⟨12 / 10 ^ 7, 0, 0⟩, ?_, ?_, ?_⟩
  · rw [Bool.eq_iff_iff, equal_pt, equal_pt]
    unfold R3.near
    rw [abs_sub_comm a.x, abs_sub_comm a.y, abs_sub_comm a.z]
  · rw [equal_pt]; simp [R3.near, tol, abs_lt]; norm_num
  · rw [equal_pt]; simp [R3.near, tol, abs_lt]; norm_num
  · rw [← Bool.not_eq_true, equal_pt]; simp [R3.near, tol, abs_lt]; norm_num

/-- 1.25 rounded to one place -/
example : fits 1 (125 / 100) ∧ roundPlaces (XR.fin (125 / 100)) 1 = XR.fin (13 / 10) := by
  have h : fits 1 (125 / 100) := by unfold fits; rw [abs_of_pos] <;> norm_num
  refine ⟨h, ?_⟩
  rw [roundPlaces_fin _ _ h]
  have : rnd (125 / 100 * 10 ^ 1) = 13 := by
    unfold rnd; rw [if_neg (by norm_num), Int.floor_eq_iff]; norm_num
  rw [this]; norm_num

end Goosli
