import Verif.Model.B64Bits
import Verif.Model.Stl
/-!
# Numbers as text

`strconv.FormatFloat(f, 'f', 3, 64)` (primitives/utils.go:91-93) and `strconv.ParseFloat(s, 32)` (primitives/utils.go:99-105)
on binary64 numbers, after the documentation and source of package `strconv` (Go 1.13 and later).  Left out, as in `B64`: the
sign of zero.  The significand is not cut off after 19 digits, as `strconv` then continues with all of them.
-/
set_option autoImplicit false
namespace Goosli
noncomputable section
open Classical

/-! ## printing -/

/-- the last three of the digits of a number -/
def lastThree (k : ℕ) : List Char :=
  [Nat.digitChar (k / 100 % 10), Nat.digitChar (k / 10 % 10), Nat.digitChar (k % 10)]

/-- primitives/utils.go:91-93: sign, integral part, point, three decimals; the exact value is rounded to the nearest, ties to
even -/
def fmtFixed3 : XR → String
  | .nan => "NaN"
  | .pinf => "+Inf"
  | .ninf => "-Inf"
  | .fin x =>
    let k := (roundEven (1000 * |x|)).toNat
    String.ofList ((if x < 0 then ['-'] else []) ++ (Nat.toDigits 10 (k / 1000) ++ '.' :: lastThree k))

/-! ## reading -/

/-- the letters A to Z made small (`commonPrefixLenIgnoreCase` of strconv) -/
def smallLetter (c : UInt8) : UInt8 := if 65 ≤ c ∧ c ≤ 90 then c + 32 else c

/-- `lower` of strconv -/
def lowerCase (c : UInt8) : UInt8 := c ||| 32

/-- `special` of strconv for a whole text: the spellings of NaN and of the infinities -/
def specialVal (s : Bytes) : Option XR :=
  let inf (t : Bytes) : Bool := t.map smallLetter = [105, 110, 102] ∨ t.map smallLetter = [105, 110, 102, 105, 110, 105, 116, 121]
  if s.map smallLetter = [110, 97, 110] then some .nan
  else match s with
    | 43 :: t => if inf t then some .pinf else none
    | 45 :: t => if inf t then some .ninf else none
    | t => if inf t then some .pinf else none

/-- the value of a digit, `none` if it is none in this base (`readFloat` of strconv) -/
def digitVal (hex : Bool) (c : UInt8) : Option ℕ :=
  if 48 ≤ c ∧ c ≤ 57 then some (c.toNat - 48)
  else if hex ∧ 97 ≤ lowerCase c ∧ lowerCase c ≤ 102 then some ((lowerCase c).toNat - 87)
  else none

/-- what `readFloat` knows of the significand -/
structure Signif where
  /-- the digits as a number -/
  mant : ℕ
  /-- how many of them are after the point -/
  frac : ℕ
  /-- a point was read -/
  dot : Bool
  /-- a digit was read -/
  digits : Bool
  /-- an underscore was read -/
  under : Bool

/-- the loop over the significand in `readFloat` of strconv: what was read and what is left -/
def readSignif (hex : Bool) : Signif → Bytes → Signif × Bytes
  | g, [] => (g, [])
  | g, c :: t =>
    if c = 95 then readSignif hex { g with under := true } t
    else if c = 46 then
      if g.dot then (g, c :: t) else readSignif hex { g with dot := true } t
    else match digitVal hex c with
      | some d => readSignif hex { g with mant := g.mant * (if hex then 16 else 10) + d
                                          frac := if g.dot then g.frac + 1 else g.frac
                                          digits := true } t
      | none => (g, c :: t)

/-- the loop over the digits of the exponent in `readFloat` of strconv, which stops counting at 10000 -/
def readExpDigits : ℕ → Bool → Bytes → ℕ × Bool × Bytes
  | e, u, [] => (e, u, [])
  | e, u, c :: t =>
    if c = 95 then readExpDigits e true t
    else match digitVal false c with
      | some d => readExpDigits (if e < 10000 then e * 10 + d else e) u t
      | none => (e, u, c :: t)

/-- the exponent after its letter in `readFloat` of strconv: sign and at least one digit -/
def readExp (u : Bool) (s : Bytes) : Option (ℤ × Bool × Bytes) :=
  let signed (neg : Bool) (t : Bytes) : Option (ℤ × Bool × Bytes) :=
    match t with
    | [] => none
    | c :: _ =>
      if 48 ≤ c ∧ c ≤ 57 then
        let r := readExpDigits 0 u t
        some (if neg then -(r.1 : ℤ) else r.1, r.2.1, r.2.2)
      else none
  match s with
  | 43 :: t => signed false t
  | 45 :: t => signed true t
  | t => signed false t

/-- the loop of `underscoreOK` of strconv; `saw` is the last thing seen: a digit (`some true`), an underscore (`some false`),
something else -/
def underscoresFrom (hex : Bool) : Option Bool → Bytes → Bool
  | saw, [] => saw ≠ some false
  | saw, c :: t =>
    if (48 ≤ c ∧ c ≤ 57) ∨ (hex ∧ 97 ≤ lowerCase c ∧ lowerCase c ≤ 102) then underscoresFrom hex (some true) t
    else if c = 95 then (if saw = some true then underscoresFrom hex (some false) t else false)
    else if saw = some false then false else underscoresFrom hex none t

/-- `underscoreOK` of strconv -/
def underscoreOK (s : Bytes) : Bool :=
  let body (t : Bytes) : Bool :=
    match t with
    | 48 :: c :: r =>
      if lowerCase c = 98 ∨ lowerCase c = 111 ∨ lowerCase c = 120 then underscoresFrom (lowerCase c = 120) (some true) r
      else underscoresFrom false none t
    | _ => underscoresFrom false none t
  match s with
  | 43 :: t => body t
  | 45 :: t => body t
  | t => body t

/-- `readFloat` of the standard library: hexadecimal after `0x` followed by something, decimal otherwise -/
def hexStart (s : Bytes) : Bool × Bytes :=
  match s with
  | 48 :: c :: d :: t => if lowerCase c = 120 then (true, d :: t) else (false, s)
  | _ => (false, s)

/-- `readFloat` of strconv after the sign, for a whole text: the exact value; `none` is a syntax error -/
def readMagnitude (whole s : Bytes) : Option ℝ :=
  let start := hexStart s
  let hex := start.1
  let r := readSignif hex ⟨0, 0, false, false, false⟩ start.2
  let value (e : ℤ) : ℝ := (r.1.mant : ℝ) / (if hex then 16 else 10) ^ r.1.frac * (if hex then 2 else 10) ^ e
  let done (e : ℤ) (u : Bool) (rest : Bytes) : Option ℝ :=
    if rest = [] ∧ (u = true → underscoreOK whole = true) then some (value e) else none
  if r.1.digits = false then none
  else match r.2 with
    | [] => if hex then none else done 0 r.1.under []
    | c :: t =>
      if lowerCase c = (if hex then 112 else 101) then
        match readExp r.1.under t with
        | some (e, u, rest) => done e u rest
        | none => none
      else none

/-- `strconv.ParseFloat(s, 32)` before rounding: the exact value of a well-formed number -/
def readNumber (s : Bytes) : Option ℝ :=
  match s with
  | 43 :: t => readMagnitude s t
  | 45 :: t => (readMagnitude s t).map Neg.neg
  | t => readMagnitude s t

/-- rounding to `float32`, with overflow -/
def single (x : ℝ) : XR := if |rd32 x| < 2 ^ 128 then .fin (rd32 x) else if 0 < x then .pinf else .ninf

/-- primitives/utils.go:99-105: the nearest `float32`, widened; zero for a text that is no number (the error is printed), an
infinity if the number is too large -/
def parseFloat32 (s : Bytes) : XR :=
  match specialVal s with
  | some v => v
  | none => match readNumber s with
    | some x => single x
    | none => .fin 0

theorem single_is (x : ℝ) : (single x).isB64 := by
  unfold single
  split_ifs with h
  · exact ⟨(rep32_rd32 x).rep, h.le.trans pow128_le_max⟩
  · trivial
  · trivial

theorem parseFloat32_is (s : Bytes) : (parseFloat32 s).isB64 := by
  unfold parseFloat32
  split
  · rename_i v hv
    unfold specialVal at hv
    dsimp only at hv
    split_ifs at hv
    · injection hv with hv; subst hv; trivial
    · split at hv <;> split_ifs at hv <;> (injection hv with hv; subst hv; trivial)
  · split
    · exact single_is _
    · exact ⟨rep_zero, by rw [abs_zero]; exact (abs_nonneg _).trans isF_max.2⟩

/-- primitives/utils.go:91-93, 99-105 on binary64 numbers -/
instance : FltText B64 where
  fmt3 a := fmtFixed3 a.1
  parse32 s := ⟨parseFloat32 s, parseFloat32_is s⟩

end
end Goosli
