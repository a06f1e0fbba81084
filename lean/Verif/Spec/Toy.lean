import Verif.Model.Num
/-!
# A computable toy arithmetic

Used only in `example`s, to exhibit concrete instances of theorems that hold for *every* arithmetic.  Integers with
truncating operations.
-/
namespace Goosli.Toy

/-- integer toy arithmetic -/
@[reducible] def flt : Flt Int where
  lit m e := m / 10 ^ e
  lt a b := decide (a < b)
  le a b := decide (a ≤ b)
  eq a b := decide (a = b)
  isNaN _ := false
  fmax := max
  fmin := min
  abs a := a.natAbs
  sqrt a := a
  pow2 a := a * a
  floor a := a
  ceil a := a
  cos a := a
  sin a := a
  acos a := a
  pi := 3
  maxF64 := 10 ^ 300
  maxF32 := 10 ^ 38
  toInt a := a
  ofInt a := a

/-- text of a toy number -/
@[reducible] def txt : FltText Int where
  fmt3 i := toString i ++ ".000"
  parse32 s := ((String.ofList (s.map (fun c => Char.ofNat c.toNat))).toInt?).getD 0

end Goosli.Toy
