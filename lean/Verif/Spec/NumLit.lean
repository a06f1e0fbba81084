import Verif.Model.Stl
import Mathlib.Data.Real.Basic
import Mathlib.Algebra.Order.Field.Power
/-!
# Number literals

The floating-point literals of the Go language with a sign, as they may appear in a text file: decimal or hexadecimal, with
point, exponent and underscores between digits.  Independent of the reader in `Model/B64Text.lean`.
-/
set_option autoImplicit false
namespace Goosli
namespace Spec

/-- 0 to 9 -/
def IsDec (c : UInt8) : Prop := 48 ≤ c.toNat ∧ c.toNat ≤ 57

/-- 0 to 9, a to f, A to F -/
def IsHex (c : UInt8) : Prop := IsDec c ∨ (97 ≤ c.toNat ∧ c.toNat ≤ 102) ∨ (65 ≤ c.toNat ∧ c.toNat ≤ 70)

/-- a digit of a decimal or of a hexadecimal literal -/
def IsDigitOf (hex : Bool) (c : UInt8) : Prop := if hex then IsHex c else IsDec c

/-- the number of a digit -/
def digitNumber (c : UInt8) : ℕ :=
  if c.toNat ≤ 57 then c.toNat - 48 else if c.toNat ≤ 70 then c.toNat - 55 else c.toNat - 87

/-- the number of a list of digits -/
def digitsNumber (base : ℕ) (ds : Bytes) : ℕ := ds.foldl (fun n c => n * base + digitNumber c) 0

/-- a literal without underscores -/
structure NumLit where
  /-- no sign, plus (`true`) or minus (`false`) -/
  sign : Option Bool
  /-- decimal, or hexadecimal with `0X` (`true`) or `0x` (`false`) -/
  hex : Option Bool
  int : Bytes
  /-- the digits after the point, if there is a point -/
  frac : Option Bytes
  /-- letter of the exponent (`true` is a capital), its sign and its digits -/
  exp : Option (Bool × Option Bool × Bytes)

/-- plus is `true` -/
def signText : Option Bool → Bytes
  | none => []
  | some true => [43]
  | some false => [45]

/-- `0x` or `0X` -/
def hexText : Option Bool → Bytes
  | none => []
  | some false => [48, 120]
  | some true => [48, 88]

/-- `.` and digits -/
def fracText : Option Bytes → Bytes
  | none => []
  | some f => 46 :: f

/-- `e`, `E`, and for hexadecimal literals `p`, `P` -/
def expLetter (hex big : Bool) : UInt8 := match hex, big with
  | false, false => 101
  | false, true => 69
  | true, false => 112
  | true, true => 80

/-- letter, sign and digits -/
def expText (hex : Bool) : Option (Bool × Option Bool × Bytes) → Bytes
  | none => []
  | some (big, s, x) => expLetter hex big :: (signText s ++ x)

/-- the text of a literal -/
def NumLit.text (l : NumLit) : Bytes :=
  signText l.sign ++ (hexText l.hex ++ (l.int ++ (fracText l.frac ++ expText l.hex.isSome l.exp)))

/-- digits where digits belong, at least one before the exponent; hexadecimal literals have an exponent -/
structure NumLit.Ok (l : NumLit) : Prop where
  int : ∀ c ∈ l.int, IsDigitOf l.hex.isSome c
  frac : ∀ c ∈ l.frac.getD [], IsDigitOf l.hex.isSome c
  some : l.int ≠ [] ∨ l.frac.getD [] ≠ []
  exp : ∀ q ∈ l.exp, q.2.2 ≠ [] ∧ ∀ c ∈ q.2.2, IsDec c
  power : l.hex.isSome = true → l.exp.isSome = true

/-- 16 or 10 -/
def NumLit.base (l : NumLit) : ℕ := if l.hex.isSome then 16 else 10

/-- the exponent without its sign -/
def NumLit.expMag (l : NumLit) : ℕ := match l.exp with
  | none => 0
  | some (_, _, x) => digitsNumber 10 x

/-- the exponent -/
def NumLit.expVal (l : NumLit) : ℤ := match l.exp with
  | some (_, some false, _) => -(l.expMag : ℤ)
  | _ => l.expMag

/-- the number denoted: an exponent counts powers of ten, of two in hexadecimal literals -/
noncomputable def NumLit.value (l : NumLit) : ℝ :=
  (if l.sign = some false then -1 else 1) *
    (((digitsNumber l.base l.int : ℕ) : ℝ) + ((digitsNumber l.base (l.frac.getD []) : ℕ) : ℝ) / (l.base : ℝ) ^ (l.frac.getD []).length) *
    (if l.hex.isSome then 2 else 10 : ℝ) ^ l.expVal

/-- the text without its underscores -/
def strip (s : Bytes) : Bytes := s.filter (fun c => c ≠ 95)

/-- every underscore stands between two digits, or between `0x` (at the start, after the sign) and a digit -/
def Separating (sign : Option Bool) (hex : Bool) (s : Bytes) : Prop :=
  ∀ a b : Bytes, s = a ++ 95 :: b →
    ((∃ a' c, a = a' ++ [c] ∧ IsDigitOf hex c) ∨ (hex = true ∧ ∃ big, a = signText sign ++ hexText (some big))) ∧
    ∃ c b', b = c :: b' ∧ IsDigitOf hex c

/-- the text is the literal `l`, perhaps with underscores -/
def Writes (s : Bytes) (l : NumLit) : Prop := l.Ok ∧ strip s = l.text ∧ Separating l.sign l.hex.isSome s

/-- a letter, in either case -/
def EitherCase (c : Char) (b : UInt8) : Prop := b = UInt8.ofNat c.toNat ∨ b = UInt8.ofNat c.toUpper.toNat

/-- the text is this word, in any case -/
def SpelledAs (w : String) (s : Bytes) : Prop := List.Forall₂ EitherCase w.toList s

/-- the text is a name of infinity -/
def NamesInf (s : Bytes) : Prop := SpelledAs "inf" s ∨ SpelledAs "infinity" s

end Spec
end Goosli
