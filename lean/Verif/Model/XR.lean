import Verif.Model.Prim
import Mathlib.Analysis.Real.Sqrt
import Mathlib.Analysis.SpecialFunctions.Trigonometric.Inverse
import Mathlib.Algebra.Order.Floor.Ring
/-!
# The arithmetic of the geometric theorems

`XR` is `float64` without rounding: exact reals plus `NaN`, `+Inf`, `-Inf`, with the IEEE-754 rules for the special
values.  Left out: rounding, overflow of finite results, the sign of zero (`x / 0` takes the sign of `x`; a zero is
treated as `+0`).
-/
namespace Goosli
noncomputable section
open Classical

/-- exact reals extended with the IEEE special values -/
inductive XR where
  | nan
  | pinf
  | ninf
  | fin (x : ℝ)

namespace XR

/-- IEEE addition -/
def add : XR → XR → XR
  | nan, _ => nan
  | _, nan => nan
  | pinf, ninf => nan
  | ninf, pinf => nan
  | pinf, _ => pinf
  | _, pinf => pinf
  | ninf, _ => ninf
  | _, ninf => ninf
  | fin x, fin y => fin (x + y)

/-- IEEE negation -/
def neg : XR → XR
  | nan => nan
  | pinf => ninf
  | ninf => pinf
  | fin x => fin (-x)

/-- an infinity with the sign of `x`; `NaN` for `0` -/
def infSign (x : ℝ) : XR := if 0 < x then pinf else if x < 0 then ninf else nan

/-- IEEE multiplication (`0 * Inf = NaN`) -/
def mul : XR → XR → XR
  | nan, _ => nan
  | _, nan => nan
  | fin x, fin y => fin (x * y)
  | pinf, pinf => pinf
  | pinf, ninf => ninf
  | ninf, pinf => ninf
  | ninf, ninf => pinf
  | pinf, fin y => infSign y
  | ninf, fin y => infSign (-y)
  | fin x, pinf => infSign x
  | fin x, ninf => infSign (-x)

/-- IEEE division (`0/0 = NaN`, `x/0 = ±Inf`, `x/Inf = 0`, `Inf/Inf = NaN`) -/
def div : XR → XR → XR
  | nan, _ => nan
  | _, nan => nan
  | fin x, fin y => if y = 0 then infSign x else fin (x / y)
  | fin _, pinf => fin 0
  | fin _, ninf => fin 0
  | pinf, fin y => if y = 0 then pinf else infSign y
  | ninf, fin y => if y = 0 then ninf else infSign (-y)
  | pinf, pinf => nan
  | pinf, ninf => nan
  | ninf, pinf => nan
  | ninf, ninf => nan

/-- `<` -/
def lt : XR → XR → Bool
  | nan, _ => false
  | _, nan => false
  | fin x, fin y => decide (x < y)
  | ninf, ninf => false
  | ninf, _ => true
  | _, ninf => false
  | pinf, _ => false
  | _, pinf => true

/-- `==` -/
def eq : XR → XR → Bool
  | fin x, fin y => decide (x = y)
  | pinf, pinf => true
  | ninf, ninf => true
  | _, _ => false

/-- `<=` -/
def le (a b : XR) : Bool := lt a b || eq a b

/-- `math.Max`: `+Inf` wins over NaN -/
def fmax : XR → XR → XR
  | pinf, _ => pinf
  | _, pinf => pinf
  | nan, _ => nan
  | _, nan => nan
  | ninf, b => b
  | a, ninf => a
  | fin x, fin y => fin (max x y)

/-- `math.Min`: `-Inf` wins over NaN -/
def fmin : XR → XR → XR
  | ninf, _ => ninf
  | _, ninf => ninf
  | nan, _ => nan
  | _, nan => nan
  | pinf, b => b
  | a, pinf => a
  | fin x, fin y => fin (min x y)

/-- apply a real function; the special values are given explicitly -/
def lift (f : ℝ → XR) (p n : XR) : XR → XR
  | nan => nan
  | pinf => p
  | ninf => n
  | fin x => f x

/-- `int(x)`: truncation; NaN, infinities and values outside `int64` give `-2^63` (amd64 behaviour) -/
def toInt : XR → Int
  | fin x =>
    let t : Int := if 0 ≤ x then ⌊x⌋ else ⌈x⌉
    if -(2 ^ 63) ≤ t ∧ t < 2 ^ 63 then t else -(2 ^ 63)
  | _ => -(2 ^ 63)

/-- `math.MaxFloat64 = (2 - 2^-52) * 2^1023` -/
def maxF64R : ℝ := (2 - 2⁻¹ ^ 52) * 2 ^ 1023

/-- `math.MaxFloat32 = (2 - 2^-23) * 2^127` -/
def maxF32R : ℝ := (2 - 2⁻¹ ^ 23) * 2 ^ 127

instance : Flt XR where
  add := add
  sub a b := add a (neg b)
  mul := mul
  div := div
  neg := neg
  lit m e := fin ((m : ℝ) / 10 ^ e)
  lt := lt
  le := le
  eq := eq
  isNaN a := match a with | nan => true | _ => false
  fmax := fmax
  fmin := fmin
  abs := lift (fun x => fin |x|) pinf pinf
  sqrt := lift (fun x => if x < 0 then nan else fin (Real.sqrt x)) pinf nan
  pow2 := lift (fun x => fin (x ^ 2)) pinf pinf
  floor := lift (fun x => fin ⌊x⌋) pinf ninf
  ceil := lift (fun x => fin ⌈x⌉) pinf ninf
  cos := lift (fun x => fin (Real.cos x)) nan nan
  sin := lift (fun x => fin (Real.sin x)) nan nan
  acos := lift (fun x => if x < -1 ∨ 1 < x then nan else fin (Real.arccos x)) nan nan
  pi := fin Real.pi
  maxF64 := fin maxF64R
  maxF32 := fin maxF32R
  toInt := toInt
  ofInt i := fin i

/-! ### Computation rules on finite values -/

@[simp] theorem fin_add (x y : ℝ) : (fin x + fin y : XR) = fin (x + y) := rfl
@[simp] theorem fin_neg (x : ℝ) : (-fin x : XR) = fin (-x) := rfl
@[simp] theorem fin_sub (x y : ℝ) : (fin x - fin y : XR) = fin (x - y) := rfl
@[simp] theorem fin_mul (x y : ℝ) : (fin x * fin y : XR) = fin (x * y) := rfl
theorem fin_div' (x y : ℝ) : (fin x / fin y : XR) = if y = 0 then infSign x else fin (x / y) := rfl
theorem fin_div {x y : ℝ} (h : y ≠ 0) : (fin x / fin y : XR) = fin (x / y) := by
  rw [fin_div', if_neg h]
@[simp] theorem lit_def (m : Int) (e : Nat) : (Flt.lit m e : XR) = fin ((m : ℝ) / 10 ^ e) := rfl
@[simp] theorem fin_lt (x y : ℝ) : (fin x <? fin y) = decide (x < y) := rfl
@[simp] theorem fin_eq (x y : ℝ) : (fin x =? fin y) = decide (x = y) := rfl
@[simp] theorem fin_le (x y : ℝ) : (fin x ≤? fin y) = decide (x ≤ y) := by
  show (decide (x < y) || decide (x = y)) = _
  rw [← Bool.decide_or, decide_eq_decide, le_iff_lt_or_eq]
@[simp] theorem fin_isNaN (x : ℝ) : Flt.isNaN (fin x) = false := rfl
@[simp] theorem nan_isNaN : Flt.isNaN (nan) = true := rfl
@[simp] theorem fin_fmax (x y : ℝ) : Flt.fmax (fin x) (fin y) = fin (max x y) := rfl
@[simp] theorem fin_fmin (x y : ℝ) : Flt.fmin (fin x) (fin y) = fin (min x y) := rfl
@[simp] theorem fin_abs (x : ℝ) : Flt.abs (fin x) = fin |x| := rfl
theorem fin_sqrt' (x : ℝ) : Flt.sqrt (fin x) = if x < 0 then nan else fin (Real.sqrt x) := rfl
theorem fin_sqrt {x : ℝ} (h : 0 ≤ x) : Flt.sqrt (fin x) = fin (Real.sqrt x) := by
  rw [fin_sqrt', if_neg (not_lt.mpr h)]
@[simp] theorem fin_pow2 (x : ℝ) : Flt.pow2 (fin x) = fin (x ^ 2) := rfl
@[simp] theorem fin_floor (x : ℝ) : Flt.floor (fin x) = fin ⌊x⌋ := rfl
@[simp] theorem fin_ceil (x : ℝ) : Flt.ceil (fin x) = fin ⌈x⌉ := rfl
@[simp] theorem fin_cos (x : ℝ) : Flt.cos (fin x) = fin (Real.cos x) := rfl
@[simp] theorem fin_sin (x : ℝ) : Flt.sin (fin x) = fin (Real.sin x) := rfl
theorem fin_acos' (x : ℝ) : Flt.acos (fin x) = if x < -1 ∨ 1 < x then nan else fin (Real.arccos x) := rfl
@[simp] theorem pi_def : (Flt.pi : XR) = fin Real.pi := rfl
@[simp] theorem maxF64_def : (Flt.maxF64 : XR) = fin maxF64R := rfl
@[simp] theorem maxF32_def : (Flt.maxF32 : XR) = fin maxF32R := rfl
@[simp] theorem ofInt_def (i : Int) : (Flt.ofInt i : XR) = fin i := rfl
@[simp] theorem toInt_def (x : XR) : Flt.toInt x = toInt x := rfl
@[simp] theorem fin_inj {x y : ℝ} : (fin x = fin y) ↔ x = y := ⟨fun h => by injection h, fun h => by rw [h]⟩

end XR

/-! ### Finite points and vectors -/

/-- A real 3-vector: the specification-level point/vector of the geometric theorems. -/
@[ext] structure R3 where
  x : ℝ
  y : ℝ
  z : ℝ

/-- a point with finite coordinates -/
def R3.pt (a : R3) : Point XR := ⟨.fin a.x, .fin a.y, .fin a.z⟩
/-- a vector with finite coordinates -/
def R3.vec (a : R3) : Vec XR := ⟨.fin a.x, .fin a.y, .fin a.z⟩

end
end Goosli
