import Verif.Proofs.PrinterLines
import Verif.Proofs.ToyText
import Verif.Model.XR
/-!
# Three-decimal text

`DecimalText` is the contract of `StrF` (primitives/utils.go:28-30, `strconv.FormatFloat(x, 'f', 3, 64)`) on finite
numbers: the text is a multiple of 1/1000, correctly rounded, hence monotone.  `XR.text` satisfies it.
-/
set_option linter.unusedSectionVars false
namespace Goosli
open Flt Spec

/-- the printed zero and sixty are read back as zero and sixty -/
class PrintsConstants (α : Type) [Flt α] [FltText α] : Prop where
  zero : readDec (FltText.fmt3 (lit 0 0 : α)).toList = 0
  sixty : readDec (FltText.fmt3 (lit 60 0 : α)).toList = 60

/-- contract of three-decimal printing on the finite numbers -/
class DecimalText [FltText XR] : Prop where
  grid : ∀ x : ℝ, ∃ k : ℤ, readDec (FltText.fmt3 (XR.fin x)).toList = k / 1000
  near : ∀ x : ℝ, |readDec (FltText.fmt3 (XR.fin x)).toList - x| ≤ 1 / 2000
  mono : ∀ x y : ℝ, x ≤ y → readDec (FltText.fmt3 (XR.fin x)).toList ≤ readDec (FltText.fmt3 (XR.fin y)).toList

/-- numbers on the grid are printed exactly -/
theorem DecimalText.exact [FltText XR] [DecimalText] (k : ℤ) : val (XR.fin (k / 1000)) = k / 1000 := by
  obtain ⟨n, hn⟩ := DecimalText.grid ((k : ℝ) / 1000)
  have h := DecimalText.near ((k : ℝ) / 1000)
  rw [hn] at h
  have : |(n : ℝ) - k| < 1 := by
    rw [← sub_div, abs_div, abs_of_pos (show (0:ℝ) < 1000 by norm_num)] at h
    rw [div_le_iff₀ (by norm_num)] at h
    linarith
  have : n = k := by
    have h' : |n - k| < 1 := by exact_mod_cast this
    rw [Int.abs_lt_one_iff] at h'; omega
  rw [val, hn, this]

theorem DecimalText.zero [FltText XR] [DecimalText] : val (XR.fin 0) = 0 := by
  have := DecimalText.exact 0; simpa using this

instance [FltText XR] [DecimalText] : PrintsConstants XR where
  zero := by have := DecimalText.zero; simpa [val] using this
  sixty := by
    have := DecimalText.exact 60000
    norm_num [val] at this
    simpa using this

/-! ## reading a decimal -/

theorem readUnsigned_frac (n : Nat) (f : List Char) :
    readUnsigned (Nat.toDigits 10 n ++ '.' :: f) = n + (Nat.ofDigitChars 10 f 0 : ℝ) / 10 ^ f.length := by
  have hd : ∀ c ∈ Nat.toDigits 10 n, c.isDigit = true := fun c hc =>
    Nat.isDigit_of_mem_toDigits (by decide) (by decide) hc
  have hne : ∀ c ∈ Nat.toDigits 10 n, c ≠ '.' := by
    intro c hc
    have := hd c hc
    rintro rfl; revert this; decide
  unfold readUnsigned
  have h1 : ∀ l : List Char, (∀ c ∈ l, c ≠ '.') → (l ++ '.' :: f).takeWhile (· ≠ '.') = l := by
    intro l hl
    induction l with
    | nil => simp
    | cons a t ih =>
      have := hl a (by simp)
      simp [this] at ih ⊢
      exact ih (fun c hc => hl c (by simp [hc]))
  have h2 : ∀ l : List Char, (∀ c ∈ l, c ≠ '.') → (l ++ '.' :: f).dropWhile (· ≠ '.') = '.' :: f := by
    intro l hl
    induction l with
    | nil => simp
    | cons a t ih =>
      have := hl a (by simp)
      simp [this] at ih ⊢
      exact ih (fun c hc => hl c (by simp [hc]))
  rw [h1 _ hne, h2 _ hne]
  simp [Nat.ofDigitChars_ten_toDigits]

theorem readDec_digits (n : Nat) (f : List Char) :
    readDec (Nat.toDigits 10 n ++ '.' :: f) = readUnsigned (Nat.toDigits 10 n ++ '.' :: f) := by
  have hd : ∀ c ∈ Nat.toDigits 10 n, c.isDigit = true := fun c hc =>
    Nat.isDigit_of_mem_toDigits (by decide) (by decide) hc
  generalize Nat.toDigits 10 n = l at hd
  cases l with
  | nil => rfl
  | cons c t =>
    have hc : c ≠ '-' := by
      rintro rfl; have := hd '-' (by simp); revert this; decide
    unfold readDec
    split
    · rename_i heq; simp at heq; exact absurd heq.1 hc
    · rfl

/-- three digits of a number below 1000 -/
def digits3 (m : Nat) : List Char :=
  [Nat.digitChar (m / 100), Nat.digitChar (m / 10 % 10), Nat.digitChar (m % 10)]

theorem ofDigitChars_digits3 : ∀ m < 1000, Nat.ofDigitChars 10 (digits3 m) 0 = m := by
  intro m hm
  have hc : ∀ d < 10, (Nat.digitChar d).toNat - '0'.toNat = d := by decide
  simp only [digits3, Nat.ofDigitChars, List.foldl]
  rw [hc _ (by omega), hc _ (by omega), hc _ (by omega)]
  omega

/-- text of `k/1000` with three decimals -/
def decText (k : ℤ) : String :=
  String.ofList ((if k < 0 then ['-'] else []) ++
    (Nat.toDigits 10 (k.natAbs / 1000) ++ '.' :: digits3 (k.natAbs % 1000)))

theorem readDec_decText (k : ℤ) : readDec (decText k).toList = k / 1000 := by
  have hm : ∀ n : Nat, ((n / 1000 : Nat) : ℝ) + ((n % 1000 : Nat) : ℝ) / 10 ^ 3 = n / 1000 := by
    intro n
    have := Nat.div_add_mod n 1000
    have h : (1000 : ℝ) * ((n / 1000 : Nat) : ℝ) + ((n % 1000 : Nat) : ℝ) = n := by exact_mod_cast this
    rw [← h]; ring
  have hl : (digits3 (k.natAbs % 1000)).length = 3 := rfl
  have hv : readUnsigned (Nat.toDigits 10 (k.natAbs / 1000) ++ '.' :: digits3 (k.natAbs % 1000)) = k.natAbs / 1000 := by
    rw [readUnsigned_frac, ofDigitChars_digits3 _ (Nat.mod_lt _ (by norm_num)), hl, hm]
  rw [decText, String.toList_ofList]
  split
  · rename_i h
    have e : (k.natAbs : ℝ) = -k := by
      rw [Nat.cast_natAbs]; push_cast; exact abs_of_neg (by exact_mod_cast h)
    simp only [List.cons_append, List.nil_append, readDec, hv, e]; ring
  · rename_i h
    have e : (k.natAbs : ℝ) = k := by
      rw [Nat.cast_natAbs]; push_cast; exact abs_of_nonneg (by exact_mod_cast (not_lt.1 h))
    rw [List.nil_append, readDec_digits, hv, e]

theorem clean_decText (k : ℤ) : CleanChars (decText k).toList := by
  intro c hc
  rw [decText, String.toList_ofList] at hc
  rcases List.mem_append.1 hc with hc | hc
  · split at hc <;> simp at hc
    subst hc; decide
  · rcases List.mem_append.1 hc with hc | hc
    · exact isDigit_clean (Nat.isDigit_of_mem_toDigits (by decide) (by decide) hc)
    · have hd : ∀ d < 10, (Nat.digitChar d) ≠ ' ' ∧ Nat.digitChar d ≠ '\n' ∧ Nat.digitChar d ≠ ';' := by decide
      rcases List.mem_cons.1 hc with rfl | hc
      · decide
      · simp [digits3] at hc
        rcases hc with rfl | rfl | rfl <;> apply hd <;> omega

/-- a three-decimal format on `XR` (an example of the contract; not a global instance) -/
@[reducible] noncomputable def XR.text : FltText XR where
  fmt3 x := match x with
    | .fin x => decText ⌊1000 * x + 1 / 2⌋
    | .nan => "NaN"
    | .pinf => "+Inf"
    | .ninf => "-Inf"
  parse32 _ := .fin 0

theorem XR.text_clean : @CleanText XR XR.text :=
  letI := XR.text
  { clean := by
      intro x
      cases x with
      | fin x => exact clean_decText _
      | nan => simp only [FltText.fmt3]; decide
      | pinf => simp only [FltText.fmt3]; decide
      | ninf => simp only [FltText.fmt3]; decide }

theorem XR.text_decimal : @DecimalText XR.text :=
  letI := XR.text
  { grid := fun x => ⟨_, readDec_decText _⟩
    near := by
      intro x
      simp only [FltText.fmt3, readDec_decText]
      have h1 := Int.floor_le (1000 * x + 1 / 2)
      have h2 := Int.lt_floor_add_one (1000 * x + 1 / 2)
      rw [abs_le]; constructor <;> linarith
    mono := by
      intro x y h
      simp only [FltText.fmt3, readDec_decText]
      have : ⌊1000 * x + 1 / 2⌋ ≤ ⌊1000 * y + 1 / 2⌋ := Int.floor_le_floor (by linarith)
      have : ((⌊1000 * x + 1 / 2⌋ : ℤ) : ℝ) ≤ (⌊1000 * y + 1 / 2⌋ : ℤ) := by exact_mod_cast this
      linarith }

attribute [local instance] Toy.flt Toy.txt in
theorem Toy.constants : PrintsConstants Int := by
  have h : ∀ n : Nat, readDec (FltText.fmt3 (n : Int)).toList = n := by
    intro n
    have e : (FltText.fmt3 (n : Int)).toList = Nat.toDigits 10 n ++ '.' :: "000".toList := by
      have := int_toString_toList (n : Int)
      rw [if_neg (by omega)] at this
      have h2 : (FltText.fmt3 (n : Int)).toList = (toString (n : Int)).toList ++ ".000".toList := by
        simp [FltText.fmt3]
      rw [h2, this]; simp
    rw [e, readDec_digits, readUnsigned_frac]
    have : Nat.ofDigitChars 10 "000".toList 0 = 0 := by decide
    rw [this]; simp
  exact ⟨by have := h 0; simpa [lit] using this, by have := h 60; simpa [lit] using this⟩

end Goosli
