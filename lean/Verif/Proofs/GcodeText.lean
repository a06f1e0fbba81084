import Verif.Proofs.Base
import Verif.Model.Gcode
import Verif.Spec.Printer
/-!
# From the written text to statements
-/
namespace Goosli
open Spec

/-- `StrF` writes no blank, newline or semicolon (true of every output of `strconv.FormatFloat`, including `NaN`
and `+Inf`). -/
class CleanText (α : Type) [FltText α] : Prop where
  clean : ∀ (x : α), ∀ c ∈ (FltText.fmt3 x).toList, c ≠ ' ' ∧ c ≠ '\n' ∧ c ≠ ';'

/-- characters allowed inside a word -/
def CleanChars (cs : List Char) : Prop := ∀ c ∈ cs, c ≠ ' ' ∧ c ≠ '\n' ∧ c ≠ ';'

theorem isDigit_clean {c : Char} (h : c.isDigit = true) : c ≠ ' ' ∧ c ≠ '\n' ∧ c ≠ ';' := by
  refine ⟨?_, ?_, ?_⟩ <;> (rintro rfl; revert h; decide)

theorem nat_toString_toList (n : Nat) : (toString n).toList = Nat.toDigits 10 n := by
  show (Nat.repr n).toList = _
  simp [Nat.repr]

theorem clean_nat (n : Nat) : CleanChars (toString n).toList := by
  intro c hc
  rw [nat_toString_toList] at hc
  exact isDigit_clean (Nat.isDigit_of_mem_toDigits (by decide) (by decide) hc)

theorem int_toString_toList (i : Int) :
    (toString i).toList = if i < 0 then '-' :: Nat.toDigits 10 i.natAbs else Nat.toDigits 10 i.natAbs := by
  cases i with
  | ofNat n =>
    have h : ¬ (Int.ofNat n < 0) := by simp
    rw [if_neg h]; exact nat_toString_toList n
  | negSucc n =>
    have h : (Int.negSucc n < 0) := Int.negSucc_lt_zero n
    rw [if_pos h]
    show ("-" ++ Nat.repr (n + 1)).toList = _
    simp [Nat.repr]

theorem clean_int (i : Int) : CleanChars (toString i).toList := by
  intro c hc
  rw [int_toString_toList] at hc
  have key : ∀ c ∈ Nat.toDigits 10 i.natAbs, c ≠ ' ' ∧ c ≠ '\n' ∧ c ≠ ';' := fun c hc =>
    isDigit_clean (Nat.isDigit_of_mem_toDigits (by decide) (by decide) hc)
  split at hc
  · rcases List.mem_cons.1 hc with rfl | hc
    · decide
    · exact key c hc
  · exact key c hc

theorem readInt_int (i : Int) : readInt (toString i).toList = i := by
  rw [int_toString_toList]
  split
  · simp only [readInt, Nat.ofDigitChars_ten_toDigits]; omega
  · rename_i h
    have hd : ∀ c ∈ Nat.toDigits 10 i.natAbs, c.isDigit = true := fun c hc =>
      Nat.isDigit_of_mem_toDigits (by decide) (by decide) hc
    have : readInt (Nat.toDigits 10 i.natAbs) = (Nat.ofDigitChars 10 (Nat.toDigits 10 i.natAbs) 0 : Int) := by
      generalize Nat.toDigits 10 i.natAbs = l at hd
      cases l with
      | nil => rfl
      | cons c t =>
        have hc : c ≠ '-' := by
          rintro rfl; have := hd '-' (by simp); revert this; decide
        unfold readInt
        split
        · rename_i heq; simp at heq; exact absurd heq.1 hc
        · rfl
    rw [this, Nat.ofDigitChars_ten_toDigits]; omega

/-- reading an unsigned integer text as a decimal -/
theorem readUnsigned_digits (n : Nat) : readUnsigned (Nat.toDigits 10 n) = n := by
  have hd : ∀ c ∈ Nat.toDigits 10 n, c.isDigit = true := fun c hc =>
    Nat.isDigit_of_mem_toDigits (by decide) (by decide) hc
  have hne : ∀ c ∈ Nat.toDigits 10 n, (decide (c ≠ '.')) = true := by
    intro c hc
    have := hd c hc
    simp only [decide_eq_true_eq]
    rintro rfl; revert this; decide
  unfold readUnsigned
  have h1 : (Nat.toDigits 10 n).takeWhile (· ≠ '.') = Nat.toDigits 10 n := by
    rw [List.takeWhile_eq_self_iff]; simpa using hne
  have h2 : (Nat.toDigits 10 n).dropWhile (· ≠ '.') = [] := by
    rw [List.dropWhile_eq_nil_iff]; simpa using hne
  simp only [h1, h2, List.drop_nil, Nat.ofDigitChars_ten_toDigits]
  simp

theorem readDec_int (i : Int) : readDec (toString i).toList = i := by
  rw [int_toString_toList]
  split
  · rename_i h
    simp only [readDec, readUnsigned_digits]
    have : (i.natAbs : ℝ) = ((i.natAbs : Int) : ℝ) := by simp
    rw [this]; have : (i.natAbs : Int) = -i := by omega
    rw [this]; push_cast; ring
  · rename_i h
    have hd : ∀ c ∈ Nat.toDigits 10 i.natAbs, c.isDigit = true := fun c hc =>
      Nat.isDigit_of_mem_toDigits (by decide) (by decide) hc
    have : readDec (Nat.toDigits 10 i.natAbs) = readUnsigned (Nat.toDigits 10 i.natAbs) := by
      generalize Nat.toDigits 10 i.natAbs = l at hd
      cases l with
      | nil => rfl
      | cons c t =>
        have hc : c ≠ '-' := by
          rintro rfl; have := hd '-' (by simp); revert this; decide
        unfold readDec
        split
        · rename_i heq; simp at heq; exact absurd heq.1 hc
        · rfl
    rw [this, readUnsigned_digits]
    have : (i.natAbs : ℝ) = ((i.natAbs : Int) : ℝ) := by simp
    rw [this]; have : (i.natAbs : Int) = i := by omega
    rw [this]

theorem readDec_nat (n : Nat) : readDec (toString n).toList = n := by
  have h := readDec_int (n : Int)
  rw [int_toString_toList, if_neg (by omega)] at h
  rw [nat_toString_toList]
  simpa using h

/-! ## splitting -/

theorem splitAtChar_clean {sep : Char} {w : List Char} (h : ∀ c ∈ w, c ≠ sep) :
    splitAtChar sep w = [w] := by
  induction w with
  | nil => rfl
  | cons c t ih =>
    have hc := h c (by simp)
    simp [splitAtChar, hc, ih (fun c hc => h c (by simp [hc]))]

theorem splitAtChar_append {sep : Char} {w : List Char} (h : ∀ c ∈ w, c ≠ sep) (r : List Char) :
    splitAtChar sep (w ++ sep :: r) = w :: splitAtChar sep r := by
  induction w with
  | nil => simp [splitAtChar]
  | cons c t ih =>
    have hc := h c (by simp)
    simp [splitAtChar, hc, ih (fun c hc => h c (by simp [hc]))]

theorem wordsOf_nil : wordsOf [] = [] := rfl

theorem wordsOf_blank (r : List Char) : wordsOf (' ' :: r) = wordsOf r := by
  simp [wordsOf, splitAtChar]

theorem takeWhile_append_clean {w : List Char} (h : ∀ c ∈ w, c ≠ ';') (r : List Char) :
    (w ++ r).takeWhile (· ≠ ';') = w ++ r.takeWhile (· ≠ ';') := by
  rw [List.takeWhile_append_of_pos]
  intro c hc; simpa using h c hc

theorem wordsOf_word {c : Char} {t : List Char} (h : CleanChars (c :: t)) : wordsOf (c :: t) = [(c, t)] := by
  have h1 : (c :: t).takeWhile (· ≠ ';') = c :: t := by
    have := takeWhile_append_clean (w := c :: t) (fun x hx => (h x hx).2.2) []
    simpa using this
  simp only [wordsOf, h1]
  rw [splitAtChar_clean (fun x hx => (h x hx).1)]
  rfl

theorem wordsOf_word_blank {c : Char} {t : List Char} (h : CleanChars (c :: t)) (r : List Char) :
    wordsOf (c :: t ++ ' ' :: r) = (c, t) :: wordsOf r := by
  simp only [wordsOf]
  rw [takeWhile_append_clean (fun x hx => (h x hx).2.2)]
  rw [List.takeWhile_cons_of_pos (by decide)]
  rw [splitAtChar_append (fun x hx => (h x hx).1)]
  rfl

section
variable {α : Type} [FltText α]

/-- word with a formatted number -/
def numW (c : Char) (x : α) : Char × List Char := (c, (FltText.fmt3 x).toList)
/-- word with an integer -/
def intW (c : Char) (i : Int) : Char × List Char := (c, (toString i).toList)
/-- word with a natural number -/
def natW (c : Char) (i : Nat) : Char × List Char := (c, (toString i).toList)

/-- the statement a written line parses to (`render_parse` proves that it does) -/
def GLine.stmt : GLine α → Stmt
  | .layer i => .comment ("LAYER:".toList ++ (toString i).toList)
  | .comment c => .comment c.toList
  | .fanOff => .words [('M', ['1', '0', '7'])]
  | .fanOn => .words [('M', ['1', '0', '6'])]
  | .feed f => .words [('G', ['0']), intW 'F' f]
  | .park => .words [('G', ['0']), ('X', ['0']), ('Y', ['0']), ('Z', ['2', '0', '0'])]
  | .tool k => .words [natW 'T' k]
  | .setE e _ => .words [('G', ['9', '2']), numW 'E' e]
  | .setE0 _ => .words [('G', ['9', '2']), ('E', ['0'])]
  | .axisLit k => .words [('G', ['1']), ('F', ['3', '0', '0']), natW 'E' k]
  | .axisTo e => .words [('G', ['1']), ('F', ['3', '0', '0']), numW 'E' e]
  | .rotXZ a b => .words [('G', ['6', '2']), numW 'X' a, numW 'Z' b]
  | .travelZ z => .words [('G', ['0']), numW 'Z' z]
  | .travel x y z => .words [('G', ['0']), numW 'X' x, numW 'Y' y, numW 'Z' z]
  | .retract f e => .words [('G', ['1']), intW 'F' f, numW 'E' e]
  | .extrude x y z e =>
    .words ([('G', ['1'])] ++ (x.map (numW 'X')).toList ++ (y.map (numW 'Y')).toList ++
      (z.map (numW 'Z')).toList ++ [numW 'E' e])

/-- comments written by the program contain no newline -/
def GLine.Plain : GLine α → Prop
  | .comment c => '\n' ∉ c.toList ∧ ¬ ("LAYER:".toList.isPrefixOf c.toList)
  | _ => True

theorem clean_fmt [CleanText α] (c : Char) (hc : c ≠ ' ' ∧ c ≠ '\n' ∧ c ≠ ';') (x : α) :
    CleanChars (c :: (FltText.fmt3 x).toList) := by
  intro d hd
  rcases List.mem_cons.1 hd with rfl | hd
  · exact hc
  · exact CleanText.clean x d hd

theorem clean_cons {c : Char} {t : List Char} (hc : c ≠ ' ' ∧ c ≠ '\n' ∧ c ≠ ';') (ht : CleanChars t) :
    CleanChars (c :: t) := by
  intro d hd
  rcases List.mem_cons.1 hd with rfl | hd
  · exact hc
  · exact ht d hd

/-- `t` is a clean text that parses to the words `ws` -/
def ParsesTo (t : List Char) (ws : List (Char × List Char)) : Prop :=
  '\n' ∉ t ∧ wordsOf t = ws

theorem parses_nil : ParsesTo [] [] := ⟨by simp, rfl⟩

theorem parses_blank {r ws} (h : ParsesTo r ws) : ParsesTo (' ' :: r) ws :=
  ⟨by simpa using h.1, by rw [wordsOf_blank]; exact h.2⟩

theorem parses_end {c : Char} {t : List Char} (h : CleanChars (c :: t)) : ParsesTo (c :: t) [(c, t)] :=
  ⟨fun hn => (h _ hn).2.1 rfl, wordsOf_word h⟩

theorem parses_word {c : Char} {t r : List Char} {ws} (h : CleanChars (c :: t)) (hr : ParsesTo r ws) :
    ParsesTo (c :: (t ++ ' ' :: r)) ((c, t) :: ws) := by
  refine ⟨?_, ?_⟩
  · intro hn
    rw [← List.cons_append, List.mem_append] at hn
    rcases hn with hn | hn
    · exact (h _ hn).2.1 rfl
    · rcases List.mem_cons.1 hn with hn | hn
      · exact absurd hn (by decide)
      · exact hr.1 hn
  · rw [← List.cons_append, wordsOf_word_blank h, hr.2]

/-- Each written line is a text without newline, followed by a newline, and parses to `stmt`. -/
theorem render_parse [CleanText α] (l : GLine α) (hl : l.Plain) :
    ∃ body : List Char, l.render.toList = body ++ ['\n'] ∧ '\n' ∉ body ∧ parseLine body = l.stmt := by
  have fin : ∀ (body : List Char) (ws), body.head? ≠ some ';' → l.render.toList = body ++ ['\n'] →
      ParsesTo body ws → l.stmt = .words ws →
      ∃ body : List Char, l.render.toList = body ++ ['\n'] ∧ '\n' ∉ body ∧ parseLine body = l.stmt := by
    intro body ws h0 h1 h2 h3
    refine ⟨body, h1, h2.1, ?_⟩
    rw [h3]
    unfold parseLine
    split
    · simp at h0
    · rw [h2.2]
  have cE : ∀ (c : Char) (x : α), c ≠ ' ' ∧ c ≠ '\n' ∧ c ≠ ';' → CleanChars (c :: (FltText.fmt3 x).toList) :=
    fun c x h => clean_fmt c h x
  have cG : ∀ t : List Char, (∀ d ∈ t, d ≠ ' ' ∧ d ≠ '\n' ∧ d ≠ ';') → CleanChars t := fun t h => h
  cases l with
  | layer i =>
    refine ⟨';' :: ("LAYER:".toList ++ (toString i).toList), ?_, ?_, ?_⟩
    · simp [GLine.render]
    · intro h
      rcases List.mem_cons.1 h with h | h
      · exact absurd h (by decide)
      · rcases List.mem_append.1 h with h | h
        · revert h; decide
        · exact (clean_int i _ h).2.1 rfl
    · rfl
  | comment c =>
    refine ⟨';' :: c.toList, ?_, ?_, rfl⟩
    · simp [GLine.render]
    · intro h
      rcases List.mem_cons.1 h with h | h
      · exact absurd h (by decide)
      · exact hl.1 h
  | fanOff =>
    exact fin ['M', '1', '0', '7'] _ (by decide) (by simp [GLine.render]) (parses_end (cG _ (by decide))) rfl
  | fanOn =>
    exact fin ['M', '1', '0', '6'] _ (by decide) (by simp [GLine.render]) (parses_end (cG _ (by decide))) rfl
  | feed f =>
    refine fin ('G' :: (['0'] ++ ' ' :: ('F' :: (toString f).toList))) _ (by simp) ?_
      (parses_word (cG _ (by decide)) (parses_end (clean_cons (by decide) (clean_int f)))) rfl
    simp [GLine.render]
  | park =>
    exact fin ('G' :: (['0'] ++ ' ' :: ('X' :: (['0'] ++ ' ' :: ('Y' :: (['0'] ++ ' ' ::
      ('Z' :: (['2', '0', '0'] ++ ' ' :: [])))))))) _ (by decide) (by simp [GLine.render])
      (parses_word (cG _ (by decide)) (parses_word (cG _ (by decide)) (parses_word (cG _ (by decide))
        (parses_word (cG _ (by decide)) parses_nil)))) rfl
  | tool k =>
    refine fin ('T' :: ((toString k).toList ++ ' ' :: [])) _ (by simp) ?_
      (parses_word (clean_cons (by decide) (clean_nat k)) parses_nil) rfl
    simp [GLine.render]
  | setE e sp =>
    cases sp with
    | true =>
      refine fin ('G' :: (['9', '2'] ++ ' ' :: ('E' :: ((FltText.fmt3 e).toList ++ ' ' :: [])))) _ (by simp) ?_
        (parses_word (cG _ (by decide)) (parses_word (cE _ _ (by decide)) parses_nil)) rfl
      simp [GLine.render]
    | false =>
      refine fin ('G' :: (['9', '2'] ++ ' ' :: ('E' :: ((FltText.fmt3 e).toList)))) _ (by simp) ?_
        (parses_word (cG _ (by decide)) (parses_end (cE _ _ (by decide)))) rfl
      simp [GLine.render]
  | setE0 sp =>
    cases sp with
    | true =>
      exact fin ('G' :: (['9', '2'] ++ ' ' :: ('E' :: (['0'] ++ ' ' :: [])))) _ (by decide) (by simp [GLine.render])
        (parses_word (cG _ (by decide)) (parses_word (cG _ (by decide)) parses_nil)) rfl
    | false =>
      exact fin ('G' :: (['9', '2'] ++ ' ' :: ('E' :: (['0'])))) _ (by decide) (by simp [GLine.render])
        (parses_word (cG _ (by decide)) (parses_end (cG _ (by decide)))) rfl
  | axisLit k =>
    refine fin ('G' :: (['1'] ++ ' ' :: ('F' :: (['3', '0', '0'] ++ ' ' :: ('E' :: ((toString k).toList ++ ' ' :: []))))))
      _ (by simp) ?_ (parses_word (cG _ (by decide)) (parses_word (cG _ (by decide))
        (parses_word (clean_cons (by decide) (clean_nat k)) parses_nil))) rfl
    simp [GLine.render]
  | axisTo e =>
    refine fin ('G' :: (['1'] ++ ' ' :: ('F' :: (['3', '0', '0'] ++ ' ' :: ('E' :: ((FltText.fmt3 e).toList ++ ' ' :: []))))))
      _ (by simp) ?_ (parses_word (cG _ (by decide)) (parses_word (cG _ (by decide))
        (parses_word (cE _ _ (by decide)) parses_nil))) rfl
    simp [GLine.render]
  | rotXZ a b =>
    refine fin ('G' :: (['6', '2'] ++ ' ' :: ('X' :: ((FltText.fmt3 a).toList ++ ' ' :: ('Z' :: (FltText.fmt3 b).toList)))))
      _ (by simp) ?_ (parses_word (cG _ (by decide)) (parses_word (cE _ _ (by decide))
        (parses_end (cE _ _ (by decide))))) rfl
    simp [GLine.render]
  | travelZ z =>
    refine fin ('G' :: (['0'] ++ ' ' :: ('Z' :: (FltText.fmt3 z).toList))) _ (by simp) ?_
      (parses_word (cG _ (by decide)) (parses_end (cE _ _ (by decide)))) rfl
    simp [GLine.render]
  | travel x y z =>
    refine fin ('G' :: (['0'] ++ ' ' :: ('X' :: ((FltText.fmt3 x).toList ++ ' ' ::
      ('Y' :: ((FltText.fmt3 y).toList ++ ' ' :: ('Z' :: (FltText.fmt3 z).toList))))))) _ (by simp) ?_
      (parses_word (cG _ (by decide)) (parses_word (cE _ _ (by decide)) (parses_word (cE _ _ (by decide))
        (parses_end (cE _ _ (by decide)))))) rfl
    simp [GLine.render]
  | retract f e =>
    refine fin ('G' :: (['1'] ++ ' ' :: ('F' :: ((toString f).toList ++ ' ' :: ('E' :: (FltText.fmt3 e).toList)))))
      _ (by simp) ?_ (parses_word (cG _ (by decide)) (parses_word (clean_cons (by decide) (clean_int f))
        (parses_end (cE _ _ (by decide))))) rfl
    simp [GLine.render]
  | extrude x y z e =>
    have hE : ParsesTo (' ' :: 'E' :: (FltText.fmt3 e).toList) [numW 'E' e] :=
      parses_blank (parses_end (cE _ _ (by decide)))
    have hZ : ∃ r, ParsesTo r ((z.map (numW 'Z')).toList ++ [numW 'E' e]) ∧
        r = (match z with | some v => 'Z' :: (FltText.fmt3 v).toList | none => []) ++
          ' ' :: 'E' :: (FltText.fmt3 e).toList := by
      cases z with
      | none => exact ⟨_, hE, rfl⟩
      | some v =>
        refine ⟨_, ?_, rfl⟩
        exact parses_word (cE _ v (by decide)) (parses_end (cE _ _ (by decide)))
    obtain ⟨rz, hrz, ez⟩ := hZ
    have hY : ∃ r, ParsesTo r ((y.map (numW 'Y')).toList ++ ((z.map (numW 'Z')).toList ++ [numW 'E' e])) ∧
        r = (match y with | some v => 'Y' :: ((FltText.fmt3 v).toList ++ [' ']) | none => []) ++ rz := by
      cases y with
      | none => exact ⟨_, hrz, rfl⟩
      | some v =>
        refine ⟨_, ?_, rfl⟩
        have := parses_word (cE 'Y' v (by decide)) hrz
        simpa [numW] using this
    obtain ⟨ry, hry, ey⟩ := hY
    have hX : ∃ r, ParsesTo r ((x.map (numW 'X')).toList ++ ((y.map (numW 'Y')).toList ++
        ((z.map (numW 'Z')).toList ++ [numW 'E' e]))) ∧
        r = (match x with | some v => 'X' :: ((FltText.fmt3 v).toList ++ [' ']) | none => []) ++ ry := by
      cases x with
      | none => exact ⟨_, hry, rfl⟩
      | some v =>
        refine ⟨_, ?_, rfl⟩
        have := parses_word (cE 'X' v (by decide)) hry
        simpa [numW] using this
    obtain ⟨rx, hrx, ex⟩ := hX
    refine fin ('G' :: (['1'] ++ ' ' :: rx)) _ (by simp) ?_ (parses_word (cG _ (by decide)) hrx) ?_
    · subst ex ey ez
      cases x <;> cases y <;> cases z <;> simp [GLine.render]
    · simp [GLine.stmt]

/-- the text of a list of lines -/
def renderAll (ls : List (GLine α)) : String := ls.foldl (fun s l => s ++ l.render) ""

theorem renderAll_toList (ls : List (GLine α)) : (renderAll ls).toList = ls.flatMap fun l => l.render.toList := by
  have : ∀ (s : String), (ls.foldl (fun s l => s ++ l.render) s).toList =
      s.toList ++ ls.flatMap fun l => l.render.toList := by
    induction ls with
    | nil => intro s; simp
    | cons a t ih => intro s; simp [ih]
  simpa [renderAll] using this ""

/-- The whole text parses to the statements of its lines (and the empty rest after the last newline). -/
theorem parseText_renderAll [CleanText α] (ls : List (GLine α)) (h : ∀ l ∈ ls, l.Plain) :
    parseText (renderAll ls) = ls.map GLine.stmt ++ [.words []] := by
  unfold parseText
  rw [renderAll_toList]
  induction ls with
  | nil => rfl
  | cons a t ih =>
    obtain ⟨b, h1, h2, h3⟩ := render_parse a (h a (by simp))
    rw [List.flatMap_cons, h1, List.append_assoc, List.singleton_append,
      splitAtChar_append (by intro c hc hcn; subst hcn; exact h2 hc), List.map_cons, h3,
      ih (fun l hl => h l (by simp [hl]))]
    rfl

end
end Goosli
