import Verif.Model.XR
import Verif.Spec.Binary64
/-!
# The arithmetic of the program: binary64

`B64` is Go's `float64`: the numbers are exactly the finite numbers of IEEE-754 binary64, the infinities and NaN, and
every operation is the exact operation of `XR` followed by rounding to nearest, ties to even, with overflow to an
infinity.  Left out: the sign of zero (as in `XR`).  Assumed of the platform: products and sums are not fused (true for
Go on amd64), `math.Sqrt` is correctly rounded, and `math.Pow(x, 2)` is the rounded square (its loop multiplies the
significand with itself once; not so for subnormal squares).  `Cos`, `Sin` and `Acos` are correctly rounded here, which the Go library does
not promise; no theorem about `B64` uses them.
-/
set_option autoImplicit false
namespace Goosli
noncomputable section
open Classical

/-- the finite values of a Go `float64` -/
def IsF (x : ℝ) : Prop := Rep x ∧ |x| ≤ XR.maxF64R

/-- the values of a Go `float64` -/
def XR.isB64 : XR → Prop
  | .fin x => IsF x
  | _ => True

/-- Go's `float64` -/
def B64 : Type := {a : XR // a.isB64}

namespace B64

/-- rounding of an exact result, with overflow -/
def rndVal : XR → XR
  | .fin x => if |rd x| ≤ XR.maxF64R then .fin (rd x) else if 0 < x then .pinf else .ninf
  | a => a

theorem rndVal_is (a : XR) : (rndVal a).isB64 := by
  cases a with
  | fin x =>
    unfold rndVal
    dsimp only
    split_ifs with h
    · exact ⟨rep_rd x, h⟩
    · trivial
    · trivial
  | _ => trivial

/-- rounding of an exact result, with overflow -/
def rnd (a : XR) : B64 := ⟨rndVal a, rndVal_is a⟩

/-- the `float64` nearest to a real number -/
def of (x : ℝ) : B64 := rnd (.fin x)

instance : Flt B64 where
  add a b := rnd (a.1 + b.1)
  sub a b := rnd (a.1 - b.1)
  mul a b := rnd (a.1 * b.1)
  div a b := rnd (a.1 / b.1)
  neg a := rnd (-a.1)
  lit m e := rnd (Flt.lit m e)
  lt a b := a.1 <? b.1
  le a b := a.1 ≤? b.1
  eq a b := a.1 =? b.1
  isNaN a := Flt.isNaN a.1
  fmax a b := rnd (Flt.fmax a.1 b.1)
  fmin a b := rnd (Flt.fmin a.1 b.1)
  abs a := rnd (Flt.abs a.1)
  sqrt a := rnd (Flt.sqrt a.1)
  pow2 a := rnd (Flt.pow2 a.1)
  floor a := rnd (Flt.floor a.1)
  ceil a := rnd (Flt.ceil a.1)
  cos a := rnd (Flt.cos a.1)
  sin a := rnd (Flt.sin a.1)
  acos a := rnd (Flt.acos a.1)
  pi := rnd Flt.pi
  maxF64 := rnd Flt.maxF64
  maxF32 := rnd Flt.maxF32
  toInt a := Flt.toInt a.1
  ofInt i := rnd (Flt.ofInt i)

end B64

/-! ## the finite values -/

theorem maxF64R_eq : XR.maxF64R = ((2 ^ 53 - 1 : ℤ) : ℝ) * 2 ^ (971 : ℤ) := by
  unfold XR.maxF64R
  have h : (2 : ℝ) ^ 1023 = 2 ^ 52 * 2 ^ 971 := by rw [← pow_add]
  rw [h, show (971 : ℤ) = ((971 : ℕ) : ℤ) from rfl, zpow_natCast]
  generalize (2 : ℝ) ^ 971 = b
  norm_num
  ring

theorem isF_max : IsF XR.maxF64R := by
  refine ⟨⟨2 ^ 53 - 1, 971, by norm_num, by norm_num, maxF64R_eq⟩, ?_⟩
  rw [abs_of_nonneg]
  rw [maxF64R_eq]
  positivity

theorem IsF.rd {x : ℝ} (h : |x| ≤ XR.maxF64R) : IsF (rd x) := ⟨rep_rd x, rd_abs_le isF_max.1 h⟩

theorem IsF.neg {x : ℝ} (h : IsF x) : IsF (-x) := ⟨h.1.neg, by rw [abs_neg]; exact h.2⟩

theorem big_le_max : (2 : ℝ) ^ 100 ≤ XR.maxF64R := by
  rw [maxF64R_eq, show (971 : ℤ) = ((971 : ℕ) : ℤ) from rfl, zpow_natCast]
  have h : (2 : ℝ) ^ 971 = 2 ^ 100 * 2 ^ 871 := by rw [← pow_add]
  rw [h]
  have h1 : (1 : ℝ) ≤ 2 ^ 871 := one_le_pow₀ (by norm_num)
  generalize (2 : ℝ) ^ 871 = b at *
  push_cast
  have h2 : (1 : ℝ) ≤ 9007199254740991 := by norm_num
  have h3 : (0 : ℝ) ≤ 2 ^ 100 := by positivity
  generalize (2 : ℝ) ^ 100 = c at *
  have h4 : c ≤ c * b := le_mul_of_one_le_right h3 h1
  have h5 : c * b ≤ 9007199254740991 * (c * b) := le_mul_of_one_le_left (h3.trans h4) h2
  exact h4.trans h5

theorem le_max {x : ℝ} (h : |x| ≤ 2 ^ 100) : |x| ≤ XR.maxF64R := h.trans big_le_max

namespace B64

theorem of_val {x : ℝ} (h : IsF x) : (of x).1 = .fin x := by
  show (if |rd x| ≤ XR.maxF64R then XR.fin (rd x) else if 0 < x then .pinf else .ninf) = .fin x
  rw [rd_of_rep h.1, if_pos h.2]

theorem of_rd (x : ℝ) : of (rd x) = of x := by
  apply Subtype.ext
  show (if |rd (rd x)| ≤ XR.maxF64R then XR.fin (rd (rd x)) else if 0 < rd x then .pinf else .ninf) =
    (if |rd x| ≤ XR.maxF64R then XR.fin (rd x) else if 0 < x then .pinf else .ninf)
  rw [rd_rd]
  by_cases h : |rd x| ≤ XR.maxF64R
  · rw [if_pos h, if_pos h]
  · rw [if_neg h, if_neg h]
    have hm : 0 < |rd x| := lt_of_le_of_lt ((abs_nonneg _).trans isF_max.2) (not_le.1 h)
    have h0 : rd x ≠ 0 := abs_pos.1 hm
    have : (0 < rd x) ↔ 0 < x := by
      constructor
      · intro h1; by_contra hc; linarith [rd_nonpos (not_lt.1 hc)]
      · intro h1; exact lt_of_le_of_ne (rd_nonneg h1.le) h0.symm
    simp only [this]

theorem rnd_fin (x : ℝ) : rnd (.fin x) = of (rd x) := (of_rd x).symm

theorem of_inj {x y : ℝ} (hx : IsF x) (hy : IsF y) : of x = of y ↔ x = y := by
  constructor
  · intro h
    have := congrArg Subtype.val h
    rw [of_val hx, of_val hy] at this
    exact XR.fin_inj.1 this
  · rintro rfl; rfl

variable {x y : ℝ}

theorem add_of (hx : IsF x) (hy : IsF y) : of x + of y = of (rd (x + y)) := by
  show rnd ((of x).1 + (of y).1) = _
  rw [of_val hx, of_val hy, XR.fin_add, rnd_fin]

theorem sub_of (hx : IsF x) (hy : IsF y) : of x - of y = of (rd (x - y)) := by
  show rnd ((of x).1 - (of y).1) = _
  rw [of_val hx, of_val hy, XR.fin_sub, rnd_fin]

theorem mul_of (hx : IsF x) (hy : IsF y) : of x * of y = of (rd (x * y)) := by
  show rnd ((of x).1 * (of y).1) = _
  rw [of_val hx, of_val hy, XR.fin_mul, rnd_fin]

theorem div_of (hx : IsF x) (hy : IsF y) (h : y ≠ 0) : of x / of y = of (rd (x / y)) := by
  show rnd ((of x).1 / (of y).1) = _
  rw [of_val hx, of_val hy, XR.fin_div h, rnd_fin]

theorem neg_of (hx : IsF x) : -of x = of (-x) := by
  show rnd (-(of x).1) = _
  rw [of_val hx, XR.fin_neg]; rfl

theorem lt_of (hx : IsF x) (hy : IsF y) : (of x <? of y) = decide (x < y) := by
  show ((of x).1 <? (of y).1) = _
  rw [of_val hx, of_val hy, XR.fin_lt]

theorem le_of (hx : IsF x) (hy : IsF y) : (of x ≤? of y) = decide (x ≤ y) := by
  show ((of x).1 ≤? (of y).1) = _
  rw [of_val hx, of_val hy, XR.fin_le]

theorem eq_of (hx : IsF x) (hy : IsF y) : (of x =? of y) = decide (x = y) := by
  show ((of x).1 =? (of y).1) = _
  rw [of_val hx, of_val hy, XR.fin_eq]

theorem fmax_of (hx : IsF x) (hy : IsF y) : Flt.fmax (of x) (of y) = of (max x y) := by
  show rnd (Flt.fmax (of x).1 (of y).1) = _
  rw [of_val hx, of_val hy, XR.fin_fmax]; rfl

theorem fmin_of (hx : IsF x) (hy : IsF y) : Flt.fmin (of x) (of y) = of (min x y) := by
  show rnd (Flt.fmin (of x).1 (of y).1) = _
  rw [of_val hx, of_val hy, XR.fin_fmin]; rfl

theorem floor_of (hx : IsF x) : Flt.floor (of x) = of (⌊x⌋ : ℝ) := by
  show rnd (Flt.floor (of x).1) = _
  rw [of_val hx, XR.fin_floor]; rfl

theorem ceil_of (hx : IsF x) : Flt.ceil (of x) = of (⌈x⌉ : ℝ) := by
  show rnd (Flt.ceil (of x).1) = _
  rw [of_val hx, XR.fin_ceil]; rfl

theorem sqrt_of (hx : IsF x) (h : 0 ≤ x) : Flt.sqrt (of x) = of (rd (Real.sqrt x)) := by
  show rnd (Flt.sqrt (of x).1) = _
  rw [of_val hx, XR.fin_sqrt h, rnd_fin]

theorem pow2_of (hx : IsF x) : Flt.pow2 (of x) = of (rd (x ^ 2)) := by
  show rnd (Flt.pow2 (of x).1) = _
  rw [of_val hx, XR.fin_pow2, rnd_fin]

theorem lit_of (m : Int) (e : Nat) : (Flt.lit m e : B64) = of ((m : ℝ) / 10 ^ e) := rfl

theorem ofInt_of (i : Int) : (Flt.ofInt i : B64) = of i := rfl

theorem toInt_of (hx : IsF x) : Flt.toInt (of x) = XR.toInt (.fin x) := by
  show Flt.toInt (of x).1 = _
  rw [of_val hx]; rfl

end B64

end
end Goosli
