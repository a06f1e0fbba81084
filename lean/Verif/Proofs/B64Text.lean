import Verif.Model.B64Text
import Verif.Proofs.Decimal
/-!
# Numbers as text: what is printed and what is read
-/
set_option autoImplicit false
namespace Goosli
noncomputable section
open Classical Spec

/-! ## printing -/

theorem lastThree_eq (k : ℕ) : lastThree k = digits3 (k % 1000) := by
  unfold lastThree digits3
  have h1 : k / 100 % 10 = k % 1000 / 100 := by omega
  have h2 : k / 10 % 10 = k % 1000 / 10 % 10 := by omega
  have h3 : k % 10 = k % 1000 % 10 := by omega
  rw [h1, h2, h3]

theorem readUnsigned_thousandths (k : ℕ) : readUnsigned (Nat.toDigits 10 (k / 1000) ++ '.' :: lastThree k) = k / 1000 := by
  have hl : (digits3 (k % 1000)).length = 3 := rfl
  rw [lastThree_eq, readUnsigned_frac, ofDigitChars_digits3 _ (Nat.mod_lt _ (by norm_num)), hl]
  have := Nat.div_add_mod k 1000
  have h : (1000 : ℝ) * ((k / 1000 : ℕ) : ℝ) + ((k % 1000 : ℕ) : ℝ) = k := by exact_mod_cast this
  rw [← h]; ring

theorem roundEven_nonneg {y : ℝ} (h : 0 ≤ y) : 0 ≤ roundEven y := le_roundEven (by exact_mod_cast h)

/-- the number of thousandths printed -/
theorem thousandths_abs (x : ℝ) : ((roundEven (1000 * |x|)).toNat : ℝ) = |(roundEven (1000 * x) : ℝ)| := by
  have h0 : 0 ≤ roundEven (1000 * |x|) := roundEven_nonneg (by positivity)
  have h1 : (((roundEven (1000 * |x|)).toNat : ℤ) : ℝ) = roundEven (1000 * |x|) := by rw [Int.toNat_of_nonneg h0]
  rw [← Int.cast_natCast, h1]
  rcases le_or_gt 0 x with h | h
  · rw [abs_of_nonneg h, abs_of_nonneg]
    exact_mod_cast roundEven_nonneg (by positivity)
  · rw [abs_of_neg h, show 1000 * -x = -(1000 * x) by ring, roundEven_neg]
    push_cast
    rw [abs_of_nonpos]
    have := roundEven_le (y := 1000 * x) (n := 0) (by push_cast; linarith)
    exact_mod_cast this

/-- the printed text denotes the nearest thousandth, ties to even -/
theorem readDec_fmtFixed3 (x : ℝ) : readDec (fmtFixed3 (.fin x)).toList = roundEven (1000 * x) / 1000 := by
  have hu := readUnsigned_thousandths (roundEven (1000 * |x|)).toNat
  rw [thousandths_abs] at hu
  unfold fmtFixed3
  dsimp only
  rw [String.toList_ofList]
  split_ifs with h
  · simp only [List.cons_append, List.nil_append, readDec, hu]
    have : roundEven (1000 * x) ≤ 0 := roundEven_le (by push_cast; linarith)
    rw [abs_of_nonpos (by exact_mod_cast this)]
    ring
  · rw [List.nil_append, readDec_digits, hu, abs_of_nonneg]
    exact_mod_cast roundEven_nonneg (by linarith)

/-- what a printed number is made of -/
theorem fmtFixed3_chars (x : ℝ) : ∀ c ∈ (fmtFixed3 (.fin x)).toList, c = '-' ∨ c = '.' ∨ c.isDigit = true := by
  intro c hc
  unfold fmtFixed3 at hc
  dsimp only at hc
  rw [String.toList_ofList] at hc
  rcases List.mem_append.1 hc with hc | hc
  · split_ifs at hc <;> simp at hc
    exact Or.inl hc
  · rcases List.mem_append.1 hc with hc | hc
    · exact Or.inr (Or.inr (Nat.isDigit_of_mem_toDigits (by decide) (by decide) hc))
    · rcases List.mem_cons.1 hc with hc | hc
      · exact Or.inr (Or.inl hc)
      · have hd : ∀ d < 10, (Nat.digitChar d).isDigit = true := by decide
        right; right
        simp only [lastThree, List.mem_cons, List.not_mem_nil, or_false] at hc
        rcases hc with rfl | rfl | rfl <;> apply hd <;> omega

/-- printing respects the order -/
theorem fmtFixed3_mono {x y : ℝ} (h : x ≤ y) : readDec (fmtFixed3 (.fin x)).toList ≤ readDec (fmtFixed3 (.fin y)).toList := by
  rw [readDec_fmtFixed3, readDec_fmtFixed3]
  have : (roundEven (1000 * x) : ℝ) ≤ roundEven (1000 * y) := by exact_mod_cast roundEven_mono (by linarith)
  linarith

theorem fmtFixed3_near (x : ℝ) : |readDec (fmtFixed3 (.fin x)).toList - x| ≤ 1 / 2000 := by
  rw [readDec_fmtFixed3]
  have h := roundEven_near (1000 * x)
  have e : (roundEven (1000 * x) : ℝ) / 1000 - x = (roundEven (1000 * x) - 1000 * x) / 1000 := by ring
  rw [e, abs_div, abs_of_pos (by norm_num : (0 : ℝ) < 1000)]
  linarith

/-! ## reading -/

/-- a decimal digit -/
def DigitByte (c : UInt8) : Prop := 48 ≤ c ∧ c ≤ 57

/-- the digits `ds` appended to the digits of `n` -/
def decVal (n : ℕ) (ds : Bytes) : ℕ := ds.foldl (fun n c => n * 10 + (c.toNat - 48)) n

theorem decVal_nil (n : ℕ) : decVal n [] = n := rfl

theorem decVal_cons (n : ℕ) (c : UInt8) (t : Bytes) : decVal n (c :: t) = decVal (n * 10 + (c.toNat - 48)) t := by
  unfold decVal; rw [List.foldl_cons]

theorem decVal_append (n : ℕ) (a b : Bytes) : decVal n (a ++ b) = decVal (decVal n a) b := by
  unfold decVal; rw [List.foldl_append]

theorem digitVal_digit {c : UInt8} (h : DigitByte c) : digitVal false c = some (c.toNat - 48) := by
  unfold digitVal
  rw [if_pos (show 48 ≤ c ∧ c ≤ 57 from h)]

theorem digit_ne {c : UInt8} (h : DigitByte c) : c ≠ 95 ∧ c ≠ 46 ∧ c ≠ 43 ∧ c ≠ 45 := by
  obtain ⟨h1, h2⟩ := h
  rw [UInt8.le_iff_toNat_le] at h1 h2
  refine ⟨?_, ?_, ?_, ?_⟩ <;> (rintro rfl; revert h1 h2; decide)

theorem lowerCase_digit {c : UInt8} (h : DigitByte c) : lowerCase c = c := by
  obtain ⟨h1, h2⟩ := h
  rw [UInt8.le_iff_toNat_le] at h1 h2
  have : ∀ n : ℕ, n < 58 → 48 ≤ n → UInt8.ofNat n ||| 32 = UInt8.ofNat n := by decide
  have h3 := this c.toNat (by change c.toNat ≤ 57 at h2; omega) h1
  rw [UInt8.ofNat_toNat] at h3
  exact h3

theorem readSignif_digits (ds r : Bytes) (hd : ∀ c ∈ ds, DigitByte c) : ∀ g : Signif,
    readSignif false g (ds ++ r) = readSignif false
      ⟨decVal g.mant ds, if g.dot then g.frac + ds.length else g.frac, g.dot, g.digits || !ds.isEmpty, g.under⟩ r := by
  induction ds with
  | nil => intro g; simp [decVal_nil, decVal_cons]
  | cons c t ih =>
    intro g
    have hc := hd c (by simp)
    have hn := digit_ne hc
    have e : readSignif false g (c :: t ++ r) = readSignif false
        ⟨g.mant * 10 + (c.toNat - 48), if g.dot then g.frac + 1 else g.frac, g.dot, true, g.under⟩ (t ++ r) := by
      rw [List.cons_append, readSignif, if_neg hn.1, if_neg hn.2.1, digitVal_digit hc]
      rfl
    rw [e, ih (fun c hc => hd c (by simp [hc]))]
    cases hdot : g.dot
    · simp [decVal_nil, decVal_cons]
    · simp only [decVal_cons, if_true, List.length_cons]
      have : g.frac + 1 + t.length = g.frac + (t.length + 1) := by omega
      rw [this]
      simp

theorem readExpDigits_digits (ds : Bytes) (hd : ∀ c ∈ ds, DigitByte c) (u : Bool) : ∀ e : ℕ, decVal e ds < 10000 →
    readExpDigits e u ds = (decVal e ds, u, []) := by
  induction ds with
  | nil => intro e _; rfl
  | cons c t ih =>
    intro e he
    have hc := hd c (by simp)
    have hn := digit_ne hc
    have mono : ∀ (t : Bytes) (n : ℕ), n ≤ decVal n t := by
      intro t
      induction t with
      | nil => intro n; exact le_rfl
      | cons c t ih => intro n; rw [decVal_cons]; exact le_trans (by omega) (ih (n * 10 + (c.toNat - 48)))
    have h1 : e < 10000 := by
      have := mono t (e * 10 + (c.toNat - 48))
      rw [decVal_cons] at he
      omega
    rw [readExpDigits, if_neg hn.1, digitVal_digit hc]
    dsimp only
    rw [if_pos h1, ih (fun c hc => hd c (by simp [hc])) _ he]
    rfl

/-- a decimal number as text: sign, digits, point and digits, exponent -/
structure DecimalText32 where
  /-- no sign, plus or minus -/
  sign : Option Bool
  int : Bytes
  frac : Option Bytes
  /-- sign and digits of the exponent; the letter is `e` or `E` -/
  exp : Option (Bool × Option Bool × Bytes)

/-- plus is `some true` -/
def signBytes : Option Bool → Bytes
  | none => []
  | some true => [43]
  | some false => [45]

/-- the part after the sign and before the exponent -/
def DecimalText32.body (d : DecimalText32) : Bytes := d.int ++ (match d.frac with | none => [] | some f => 46 :: f)

/-- the exponent -/
def DecimalText32.tail (d : DecimalText32) : Bytes :=
  match d.exp with
  | none => []
  | some (big, s, x) => (if big then 69 else 101) :: (signBytes s ++ x)

/-- the text -/
def DecimalText32.bytes (d : DecimalText32) : Bytes := signBytes d.sign ++ (d.body ++ d.tail)

/-- the digits after the point -/
def DecimalText32.fracDigits (d : DecimalText32) : Bytes := d.frac.getD []

/-- digits only, at least one before the exponent, an exponent below 10000 -/
structure DecimalText32.Ok (d : DecimalText32) : Prop where
  int : ∀ c ∈ d.int, DigitByte c
  frac : ∀ c ∈ d.fracDigits, DigitByte c
  some : d.int ++ d.fracDigits ≠ []
  exp : ∀ q ∈ d.exp, q.2.2 ≠ [] ∧ (∀ c ∈ q.2.2, DigitByte c) ∧ decVal 0 q.2.2 < 10000

/-- the exponent as a number -/
def DecimalText32.expVal (d : DecimalText32) : ℤ :=
  match d.exp with
  | none => 0
  | some (_, some false, x) => -(decVal 0 x : ℤ)
  | some (_, _, x) => decVal 0 x

/-- the number denoted -/
def DecimalText32.value (d : DecimalText32) : ℝ :=
  (if d.sign = some false then -1 else 1) * ((decVal 0 d.int : ℝ) + (decVal 0 d.fracDigits : ℝ) / 10 ^ d.fracDigits.length) *
    10 ^ d.expVal

theorem decVal_split (n : ℕ) (f : Bytes) : decVal n f = n * 10 ^ f.length + decVal 0 f := by
  induction f generalizing n with
  | nil => simp [decVal_nil, decVal_cons]
  | cons c t ih =>
    rw [decVal_cons, decVal_cons, List.length_cons, ih (n * 10 + (c.toNat - 48)), ih (0 * 10 + (c.toNat - 48))]
    ring

theorem signed_exp (u : Bool) (s : Option Bool) (x : Bytes) (hne : x ≠ []) (hx : ∀ c ∈ x, DigitByte c) (h4 : decVal 0 x < 10000) :
    readExp u (signBytes s ++ x) = some (if s = some false then -(decVal 0 x : ℤ) else decVal 0 x, u, []) := by
  have hr := readExpDigits_digits x hx u 0 h4
  cases x with
  | nil => exact absurd rfl hne
  | cons c t =>
    have hc := hx c (by simp)
    have hn := digit_ne hc
    have h1 : (48 ≤ c ∧ c ≤ 57) := hc
    cases s with
    | none =>
      unfold readExp signBytes
      simp only [List.nil_append]
      split
      · rename_i heq; injection heq with a _; exact absurd a hn.2.2.1
      · rename_i heq; injection heq with a _; exact absurd a hn.2.2.2
      · simp [h1, hr]
    | some b =>
      cases b <;> simp [readExp, signBytes, h1, hr]

theorem readMagnitude_decimal (d : DecimalText32) (h : d.Ok) (whole : Bytes) :
    readMagnitude whole (d.body ++ d.tail) =
      some (((decVal 0 d.int : ℝ) + (decVal 0 d.fracDigits : ℝ) / 10 ^ d.fracDigits.length) * 10 ^ d.expVal) := by
  -- not hexadecimal
  have hlow : ∀ c, DigitByte c → lowerCase c ≠ 120 := by
    intro c hc; rw [lowerCase_digit hc]; rintro rfl; exact absurd hc.2 (by decide)
  have hstart : hexStart (d.body ++ d.tail) = (false, d.body ++ d.tail) := by
    unfold hexStart
    split
    · rename_i c x t heq
      have hc : lowerCase c ≠ 120 := by
        unfold DecimalText32.body DecimalText32.tail at heq
        have h2 := h.frac
        unfold DecimalText32.fracDigits at h2
        rcases hi : d.int with _ | ⟨a, _ | ⟨b, ds⟩⟩
        · rw [hi] at heq
          cases hf : d.frac with
          | none =>
            have := h.some
            unfold DecimalText32.fracDigits at this
            rw [hi, hf] at this
            exact absurd rfl this
          | some f =>
            rw [hf] at heq
            simp at heq
        · rw [hi] at heq
          cases hf : d.frac with
          | none =>
            rw [hf] at heq
            cases he : d.exp with
            | none => rw [he] at heq; simp at heq
            | some q =>
              obtain ⟨big, s, y⟩ := q
              rw [he] at heq
              cases big <;> simp at heq <;> rw [← heq.2.1] <;> decide
          | some f =>
            rw [hf] at heq
            simp at heq
            rw [← heq.2.1]; decide
        · have := h.int b (by rw [hi]; simp)
          rw [hi] at heq
          simp at heq
          rw [← heq.2.1]
          exact hlow b this
      rw [if_neg hc]
    · rfl
  -- the significand
  have hne : (!d.int.isEmpty || !d.fracDigits.isEmpty) = true := by
    have := h.some
    cases hi : d.int with
    | cons => rfl
    | nil =>
      cases hf : d.fracDigits with
      | cons => rfl
      | nil => rw [hi, hf] at this; exact absurd rfl this
  have hstop : ∀ g : Signif, readSignif false g d.tail = (g, d.tail) := by
    intro g
    unfold DecimalText32.tail
    cases d.exp with
    | none => rfl
    | some q =>
      obtain ⟨big, s, y⟩ := q
      cases big <;> rfl
  have hsig : readSignif false ⟨0, 0, false, false, false⟩ (d.body ++ d.tail) =
      (⟨decVal 0 (d.int ++ d.fracDigits), d.fracDigits.length, d.frac.isSome, true, false⟩, d.tail) := by
    unfold DecimalText32.body
    rw [List.append_assoc, readSignif_digits _ _ h.int]
    have h2 := h.frac
    have hn2 := hne
    unfold DecimalText32.fracDigits at h2 hn2 ⊢
    cases hf : d.frac with
    | none =>
      rw [hf] at hn2
      simp only [List.nil_append, Option.getD_none, List.append_nil, List.length_nil, Option.isSome_none]
      rw [hstop]
      simp at hn2
      simp [hn2]
    | some f =>
      rw [hf] at h2 hn2
      simp only [Option.getD_some] at h2 hn2 ⊢
      have e : readSignif false ⟨decVal 0 d.int, 0, false, !d.int.isEmpty, false⟩ (46 :: f ++ d.tail) =
          readSignif false ⟨decVal 0 d.int, 0, true, !d.int.isEmpty, false⟩ (f ++ d.tail) := by
        rw [List.cons_append, readSignif]
        simp
      simp only [Bool.false_eq_true, if_false, Bool.false_or]
      rw [e, readSignif_digits _ _ h2, hstop, decVal_append]
      simp [hn2]
  have hval : ((decVal 0 (d.int ++ d.fracDigits) : ℕ) : ℝ) / 10 ^ d.fracDigits.length =
      (decVal 0 d.int : ℝ) + (decVal 0 d.fracDigits : ℝ) / 10 ^ d.fracDigits.length := by
    rw [decVal_append, decVal_split]
    push_cast
    have : (10 : ℝ) ^ d.fracDigits.length ≠ 0 := by positivity
    field_simp
  unfold readMagnitude
  dsimp only
  rw [hstart]
  dsimp only
  rw [hsig]
  dsimp only
  simp only [Bool.false_eq_true, if_false, Bool.true_eq_false]
  have hv := hval
  unfold DecimalText32.expVal DecimalText32.tail
  have hexp := h.exp
  cases he : d.exp with
  | none =>
    simp only [true_and, false_imp_iff, if_true]
    rw [hv]
  | some q =>
    obtain ⟨big, s, y⟩ := q
    rw [he] at hexp
    obtain ⟨h1, h2, h3⟩ := hexp _ rfl
    have hl : lowerCase (if big = true then 69 else 101) = 101 := by cases big <;> decide
    simp only [hl, if_true]
    rw [signed_exp false s y h1 h2 h3]
    simp only [true_and, Bool.false_eq_true, false_imp_iff, if_true]
    rw [hv]
    cases s with
    | none => simp
    | some b => cases b <;> simp

/-- a decimal number is read as the `float32` nearest to the number it denotes -/
theorem parse_decimal (d : DecimalText32) (h : d.Ok) : parseFloat32 d.bytes = single d.value := by
  -- the first byte after the sign is a digit or the point
  have hhead : ∃ c t, d.body ++ d.tail = c :: t ∧ (DigitByte c ∨ c = 46) := by
    have h1 := h.some
    unfold DecimalText32.body
    unfold DecimalText32.fracDigits at h1
    cases hi : d.int with
    | cons c t => exact ⟨c, _, rfl, Or.inl (h.int c (by rw [hi]; simp))⟩
    | nil =>
      cases hf : d.frac with
      | some f => exact ⟨46, _, rfl, Or.inr rfl⟩
      | none => rw [hi, hf] at h1; exact absurd rfl h1
  have hsmall : ∀ c : UInt8, DigitByte c ∨ c = 46 → smallLetter c ≠ 105 ∧ smallLetter c ≠ 110 := by
    intro c hc
    have hs : smallLetter c = c := by
      unfold smallLetter
      rw [if_neg]
      rcases hc with hc | rfl
      · intro h1
        have a := UInt8.le_iff_toNat_le.1 h1.1
        have b := UInt8.le_iff_toNat_le.1 hc.2
        change 65 ≤ c.toNat at a
        change c.toNat ≤ 57 at b
        omega
      · decide
    rw [hs]
    constructor
    · rintro rfl; rcases hc with hc | hc
      · exact absurd hc.2 (by decide)
      · exact absurd hc (by decide)
    · rintro rfl; rcases hc with hc | hc
      · exact absurd hc.2 (by decide)
      · exact absurd hc (by decide)
  obtain ⟨c0, t0, e0, hc0⟩ := hhead
  have hs0 := hsmall c0 hc0
  have hc0n : c0 ≠ 43 ∧ c0 ≠ 45 := by
    rcases hc0 with hc | rfl
    · exact ⟨(digit_ne hc).2.2.1, (digit_ne hc).2.2.2⟩
    · decide
  have hmag := readMagnitude_decimal d h
  have hspecial : specialVal d.bytes = none := by
    unfold DecimalText32.bytes
    rw [e0]
    cases hsg : d.sign with
    | none =>
      simp only [signBytes, List.nil_append, specialVal, List.map_cons, List.cons.injEq, hs0.1, hs0.2, false_and, if_false,
        or_self, decide_false, Bool.false_eq_true]
      split
      · rename_i heq; injection heq with a _; exact absurd a hc0n.1
      · rename_i heq; injection heq with a _; exact absurd a hc0n.2
      · simp [hs0.1]
    | some b =>
      cases b <;>
      simp only [signBytes, List.cons_append, List.nil_append, specialVal, List.map_cons, List.cons.injEq, hs0.1, false_and,
        if_false, or_self, decide_false, Bool.false_eq_true] <;>
      simp [smallLetter]
  have hnum : readNumber d.bytes = some d.value := by
    unfold DecimalText32.bytes DecimalText32.value
    cases hsg : d.sign with
    | none =>
      have hm := hmag (d.body ++ d.tail)
      rw [e0] at hm
      simp only [signBytes, List.nil_append]
      rw [e0]
      unfold readNumber
      split
      · rename_i heq; injection heq with a _; exact absurd a hc0n.1
      · rename_i heq; injection heq with a _; exact absurd a hc0n.2
      · rw [hm]; simp
    | some b =>
      cases b
      · simp only [signBytes, List.cons_append, List.nil_append, readNumber]
        rw [hmag]; simp; ring
      · simp only [signBytes, List.cons_append, List.nil_append, readNumber]
        rw [hmag]; simp
  unfold parseFloat32
  rw [hspecial, hnum]

end
end Goosli
