import Verif.Model.Num
/-!
# A computable arithmetic on the rationals

Only for the examples beside the theorems that hold in every arithmetic: field operations and comparisons are exact, square roots are
rounded to four decimals, angles are in degrees with the exact values of the cosine at multiples of 60 and 90 and a straight line in between.
No theorem depends on it.
-/
set_option autoImplicit false
namespace Goosli.RatToy

/-- square root, rounded down to four decimals -/
def sqrt (q : Rat) : Rat := mkRat (Nat.sqrt ((q * 100000000).floor.toNat)) 10000

/-- a broken line through the values of the cosine at 0, 60, 90 and 180 degrees -/
def cosUp (d : Rat) : Rat :=
  if d ≤ 60 then 1 - d / 120 else if d ≤ 90 then 1 / 2 - (d - 60) / 60 else if d ≤ 120 then -((d - 90) / 60) else -(1 / 2) - (d - 120) / 120

/-- cosine of degrees -/
def cosDeg (d : Rat) : Rat :=
  let r := d - 360 * (d / 360).floor
  if r ≤ 180 then cosUp r else cosUp (360 - r)

/-- the inverse of `cosUp` -/
def acosDeg (c : Rat) : Rat :=
  if 1 / 2 ≤ c then (1 - c) * 120 else if 0 ≤ c then 60 + (1 / 2 - c) * 60 else if -(1 / 2) ≤ c then 90 - c * 60 else 120 - (c + 1 / 2) * 120

/-- truncation towards zero -/
def trunc (q : Rat) : Int := if 0 ≤ q then q.floor else -((-q).floor)

/-- rational numbers as the arithmetic of the model; degrees and radians are the same, so `pi` is 180 -/
@[reducible] def flt : Flt Rat where
  lit m e := mkRat m (10 ^ e)
  lt a b := decide (a < b)
  le a b := decide (a ≤ b)
  eq a b := decide (a = b)
  isNaN _ := false
  fmax a b := if a ≤ b then b else a
  fmin a b := if a ≤ b then a else b
  abs a := if 0 ≤ a then a else -a
  sqrt := sqrt
  pow2 a := a * a
  floor a := a.floor
  ceil a := -((-a).floor : Int)
  cos := cosDeg
  sin a := cosDeg (a - 90)
  acos := acosDeg
  pi := 180
  maxF64 := 10 ^ 300
  maxF32 := 10 ^ 38
  toInt := trunc
  ofInt a := a

/-- text of a rational number -/
@[reducible] def txt : FltText Rat where
  fmt3 q := toString (trunc q) ++ ".000"
  parse32 s := ((String.ofList (s.map (fun c => Char.ofNat c.toNat))).toInt?).getD 0

end Goosli.RatToy
