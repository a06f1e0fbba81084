/-!
# Numbers and Go run-time errors

Every function of the model is generic in the number type.  `Flt α` lists the `float64` operations used in
`/repo`; it carries **no laws**, so a theorem proved for every `Flt α` holds for every arithmetic, in
particular IEEE-754 with rounding, NaN and infinities.
-/
namespace Goosli

/-- The `float64` operations the code uses.  Comparisons are `Bool`-valued because with NaN they are not an order. -/
class Flt (α : Type) extends Add α, Sub α, Mul α, Div α, Neg α where
  /-- decimal literal `m * 10^(-e)` in the source, e.g. `1e-6 = lit 1 6` -/
  lit : Int → Nat → α
  /-- Go `a < b` -/
  lt : α → α → Bool
  /-- Go `a <= b` -/
  le : α → α → Bool
  /-- Go `a == b` -/
  eq : α → α → Bool
  /-- `math.IsNaN` -/
  isNaN : α → Bool
  /-- `math.Max` -/
  fmax : α → α → α
  /-- `math.Min` -/
  fmin : α → α → α
  /-- `math.Abs` -/
  abs : α → α
  /-- `math.Sqrt` -/
  sqrt : α → α
  /-- `math.Pow(x, 2)` -/
  pow2 : α → α
  /-- `math.Floor` -/
  floor : α → α
  /-- `math.Ceil` -/
  ceil : α → α
  /-- `math.Cos` -/
  cos : α → α
  /-- `math.Sin` -/
  sin : α → α
  /-- `math.Acos` -/
  acos : α → α
  /-- `math.Pi` -/
  pi : α
  /-- `math.MaxFloat64` -/
  maxF64 : α
  /-- `math.MaxFloat32` -/
  maxF32 : α
  /-- Go conversion `int(x)` -/
  toInt : α → Int
  /-- Go conversion `float64(i)` -/
  ofInt : Int → α

/-- Text conversions: `strconv.FormatFloat(f, 'f', 3, 64)` and `strconv.ParseFloat(s, 32)` widened to `float64`
(primitives/utils.go:91-93 `StrF`, 99-105 `ParseFloat`; a parse error is only printed, the value is still used). -/
class FltText (α : Type) where
  fmt3 : α → String
  parse32 : List UInt8 → α

/-- `float32(x)` as its bit pattern and back (primitives/stl.go:86-88, 129-140). -/
class FltBits (α : Type) where
  toBits : α → BitVec 32
  ofBits : BitVec 32 → α

infix:50 " <? " => Flt.lt
infix:50 " ≤? " => Flt.le
infix:50 " =? " => Flt.eq

/-- Go run-time failures and exits. -/
inductive GoErr where
  /-- index out of range -/
  | index
  /-- slice bounds out of range -/
  | slice
  /-- `make(chan/slice, n)` with a negative or huge size -/
  | makeSize
  /-- integer division by zero -/
  | divZero
  /-- `log.Fatal` -/
  | fatal
  /-- explicit `panic(err)` -/
  | panic
  /-- fuel exhausted: stands for a loop or recursion that does not end -/
  | diverges
  deriving DecidableEq, Repr

/-- Result of a Go function that may crash. -/
abbrev Go (β : Type) := Except GoErr β

/-- `l[i]` with Go bounds check. -/
def goAt {β : Type} (l : List β) (i : Nat) : Go β :=
  match l[i]? with
  | some a => .ok a
  | none => .error .index

/-- `l[len(l)-1]` with Go bounds check. -/
def goLast {β : Type} (l : List β) : Go β :=
  match l.getLast? with
  | some a => .ok a
  | none => .error .index

/-- `l[1:]` with Go bounds check. -/
def goTail {β : Type} (l : List β) : Go (List β) :=
  match l with
  | [] => .error .slice
  | _ :: t => .ok t

/-- `l[:len(l)-1]` with Go bounds check. -/
def goInit {β : Type} (l : List β) : Go (List β) :=
  match l with
  | [] => .error .slice
  | _ :: _ => .ok l.dropLast

/-- A comparator is a strict weak order on the elements of a list. -/
structure StrictWeakOn {β : Type} (less : β → β → Bool) (l : List β) : Prop where
  irrefl : ∀ a ∈ l, less a a = false
  trans : ∀ a ∈ l, ∀ b ∈ l, ∀ c ∈ l, less a b = true → less b c = true → less a c = true
  incomp : ∀ a ∈ l, ∀ b ∈ l, ∀ c ∈ l, less a b = false → less b a = false → less b c = false → less c b = false →
    less a c = false ∧ less c a = false

/-- Contract of Go's `sort.Slice`: the result is a permutation, and if the comparator is a strict weak order on the
elements the result is ordered (no later element is less than an earlier one).  Nothing is assumed about ties, and
nothing but "permutation" for an inconsistent comparator. -/
structure Sorter where
  run : {β : Type} → (β → β → Bool) → List β → List β
  perm : ∀ {β : Type} (less : β → β → Bool) (l : List β), (run less l).Perm l
  sorted : ∀ {β : Type} (less : β → β → Bool) (l : List β), StrictWeakOn less l →
    (run less l).Pairwise (fun a b => less b a = false)

end Goosli
