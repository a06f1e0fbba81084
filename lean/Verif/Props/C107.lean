import Verif.Proofs.NumLit
import Verif.Props.C98
/-!
# C107: what is read as a number

`ParseFloat` (primitives/utils.go:99-105) on every text: the literals of the Go language, decimal and hexadecimal, are read as the
nearest number of binary32, or as infinity beyond it; the words for infinity and not-a-number are read as such; everything else is
read as zero.
-/
set_option autoImplicit false
namespace Goosli
open Flt Spec

/-! ## words -/

set_option maxRecDepth 8192 in
theorem smallLetter_is (b : UInt8) : (smallLetter b = 110 ↔ b = 110 ∨ b = 78) ∧ (smallLetter b = 97 ↔ b = 97 ∨ b = 65) ∧
    (smallLetter b = 105 ↔ b = 105 ∨ b = 73) ∧ (smallLetter b = 102 ↔ b = 102 ∨ b = 70) ∧ (smallLetter b = 116 ↔ b = 116 ∨ b = 84) ∧
    (smallLetter b = 121 ↔ b = 121 ∨ b = 89) := by
  revert b
  apply byte_all
  decide

theorem word_iff (w : String) (cs : Bytes) (h : List.Forall₂ (fun c v => ∀ b, smallLetter b = v ↔ EitherCase c b) w.toList cs) (s : Bytes) :
    s.map smallLetter = cs ↔ SpelledAs w s := by
  unfold SpelledAs
  generalize w.toList = l at h ⊢
  induction h generalizing s with
  | nil => simp
  | cons hv _ ih =>
    cases s with
    | nil => simp
    | cons b t =>
      simp only [List.map_cons, List.cons.injEq, List.forall₂_cons]
      rw [hv b, ih t]

theorem word_nan (s : Bytes) : s.map smallLetter = [110, 97, 110] ↔ SpelledAs "nan" s := by
  refine word_iff "nan" _ (.cons ?_ (.cons ?_ (.cons ?_ .nil))) s
  · exact fun b => (smallLetter_is b).1
  · exact fun b => (smallLetter_is b).2.1
  · exact fun b => (smallLetter_is b).1

theorem word_inf (s : Bytes) : s.map smallLetter = [105, 110, 102] ↔ SpelledAs "inf" s := by
  refine word_iff "inf" _ (.cons ?_ (.cons ?_ (.cons ?_ .nil))) s
  · exact fun b => (smallLetter_is b).2.2.1
  · exact fun b => (smallLetter_is b).1
  · exact fun b => (smallLetter_is b).2.2.2.1

theorem word_infinity (s : Bytes) : s.map smallLetter = [105, 110, 102, 105, 110, 105, 116, 121] ↔ SpelledAs "infinity" s := by
  refine word_iff "infinity" _ (.cons ?_ (.cons ?_ (.cons ?_ (.cons ?_ (.cons ?_ (.cons ?_ (.cons ?_ (.cons ?_ .nil)))))))) s
  · exact fun b => (smallLetter_is b).2.2.1
  · exact fun b => (smallLetter_is b).1
  · exact fun b => (smallLetter_is b).2.2.2.1
  · exact fun b => (smallLetter_is b).2.2.1
  · exact fun b => (smallLetter_is b).1
  · exact fun b => (smallLetter_is b).2.2.1
  · exact fun b => (smallLetter_is b).2.2.2.2.1
  · exact fun b => (smallLetter_is b).2.2.2.2.2

/-- infinity, with or without a sign -/
def InfText (sign : Option Bool) (s : Bytes) : Prop := ∃ t, s = signText sign ++ t ∧ NamesInf t

theorem isInf_head {t : Bytes} (h : NamesInf t) : ∀ q, t ≠ 43 :: q ∧ t ≠ 45 :: q := by
  have key : ∀ {w : String} {t : Bytes} {ws : List Char}, w.toList = 'i' :: ws → SpelledAs w t → ∀ q, t ≠ 43 :: q ∧ t ≠ 45 :: q := by
    intro w t ws hw h q
    unfold SpelledAs at h
    rw [hw] at h
    cases h with
    | cons h _ =>
      constructor <;> (intro e; injection e with e _; subst e; revert h; unfold EitherCase; decide)
  rcases h with h | h
  · exact key (ws := ['n', 'f']) rfl h
  · exact key (ws := ['n', 'f', 'i', 'n', 'i', 't', 'y']) rfl h

theorem isNan_not_sign {s : Bytes} (h : SpelledAs "nan" s) (sg : Option Bool) (t : Bytes) (hi : NamesInf t) : s ≠ signText sg ++ t := by
  rintro rfl
  rw [← word_nan] at h
  rw [NamesInf, ← word_inf, ← word_infinity] at hi
  rcases sg with _ | _ | _
  · simp only [signText, List.nil_append] at h
    rw [h] at hi
    revert hi; decide
  · simp [signText] at h
    exact absurd h.1 (by decide)
  · simp [signText] at h
    exact absurd h.1 (by decide)

open Classical in
/-- the words that `special` knows -/
theorem specialVal_iff (s : Bytes) : (specialVal s = some .nan ↔ SpelledAs "nan" s) ∧
    (specialVal s = some .pinf ↔ InfText none s ∨ InfText (some true) s) ∧ (specialVal s = some .ninf ↔ InfText (some false) s) ∧
    ∀ x, specialVal s ≠ some (.fin x) := by
  obtain ⟨sg, t, rfl, hsg⟩ := split_sign s
  have hinf : ∀ u : Bytes, (u.map smallLetter = [105, 110, 102] ∨ u.map smallLetter = [105, 110, 102, 105, 110, 105, 116, 121]) ↔ NamesInf u := by
    intro u; rw [word_inf, word_infinity]; rfl
  have htext : ∀ g, InfText g (signText sg ++ t) ↔ g = sg ∧ NamesInf t := by
    intro g
    constructor
    · rintro ⟨u, e, hu⟩
      rcases sign_cancel (isInf_head hu) hsg e.symm with ⟨h1, h2, h3⟩ | ⟨_, h2, h3⟩
      · exact ⟨by rw [h1, h2], h3 ▸ hu⟩
      · exact ⟨h2, h3 ▸ hu⟩
    · rintro ⟨rfl, h⟩; exact ⟨t, rfl, h⟩
  rw [htext, htext, htext]
  by_cases hn : SpelledAs "nan" (signText sg ++ t)
  · have e : specialVal (signText sg ++ t) = some .nan := by
      unfold specialVal
      dsimp only
      rw [if_pos ((word_nan _).2 hn)]
    have hi : ¬ NamesInf t := fun hi => isNan_not_sign hn sg t hi rfl
    rw [e]
    simp [hn, hi]
  · have e : specialVal (signText sg ++ t) = if NamesInf t then some (if sg = some false then .ninf else .pinf) else none := by
      unfold specialVal
      dsimp only
      rw [if_neg (fun h => hn ((word_nan _).1 h))]
      simp only [decide_eq_true_eq, hinf]
      rcases sg with _ | _ | _
      · have h' := hsg rfl
        simp only [signText, List.nil_append]
        split
        · rename_i q; exact absurd rfl (h' q).1
        · rename_i q; exact absurd rfl (h' q).2
        · simp
      · simp [signText]
      · simp [signText]
    rw [e]
    by_cases hi : NamesInf t
    · rw [if_pos hi]
      rcases sg with _ | _ | _ <;> simp [hi, hn]
    · rw [if_neg hi]
      simp [hi, hn]

/-- every word has the letter n -/
theorem special_letter (s : Bytes) (v : XR) (h : specialVal s = some v) : ∃ c ∈ s, c = 110 ∨ c = 78 := by
  obtain ⟨h1, h2, h3, h4⟩ := specialVal_iff s
  have hmem : ∀ (u : Bytes) (cs : Bytes), u.map smallLetter = cs → 110 ∈ cs → ∃ c ∈ u, c = 110 ∨ c = 78 := by
    rintro u cs rfl hc
    obtain ⟨c, hc, e⟩ := List.mem_map.1 hc
    exact ⟨c, hc, (smallLetter_is c).1.1 e⟩
  have hinf : ∀ sg, InfText sg s → ∃ c ∈ s, c = 110 ∨ c = 78 := by
    rintro sg ⟨t, rfl, ht⟩
    have : ∃ c ∈ t, c = 110 ∨ c = 78 := by
      rcases ht with ht | ht
      · exact hmem t _ ((word_inf t).2 ht) (by decide)
      · exact hmem t _ ((word_infinity t).2 ht) (by decide)
    obtain ⟨c, hc, h⟩ := this
    exact ⟨c, List.mem_append_right _ hc, h⟩
  cases v with
  | nan => exact hmem s _ ((word_nan s).2 (h1.1 h)) (by decide)
  | pinf =>
    rcases h2.1 h with h | h
    · exact hinf _ h
    · exact hinf _ h
  | ninf => exact hinf _ (h3.1 h)
  | fin x => exact absurd h (h4 x)

/-! ## the characters of a literal -/

/-- a character that appears in literals -/
def LiteralChar (c : UInt8) : Prop := IsHex c ∨ c ∈ [43, 45, 46, 69, 80, 88, 95, 101, 112, 120]

instance (c : UInt8) : Decidable (LiteralChar c) := by unfold LiteralChar; infer_instance

theorem literal_chars (s : Bytes) (l : NumLit) (h : Writes s l) : ∀ c ∈ s, LiteralChar c := by
  obtain ⟨hok, ht, _⟩ := h
  obtain ⟨sg, hex, i, f, x⟩ := l
  have hdig : ∀ (b : Bool) (c : UInt8), IsDigitOf b c → LiteralChar c := by
    intro b c hc
    cases b
    · exact Or.inl (Or.inl hc)
    · exact Or.inl hc
  have hsign : ∀ g, ∀ c ∈ signText g, LiteralChar c := by
    intro g c hc
    rcases g with _ | _ | _
    · simp [signText] at hc
    · simp [signText] at hc; subst hc; decide
    · simp [signText] at hc; subst hc; decide
  intro c hc
  by_cases hu : c = 95
  · subst hu; decide
  have hm : c ∈ strip s := by
    unfold strip
    rw [List.mem_filter]
    exact ⟨hc, by simpa using hu⟩
  rw [ht] at hm
  unfold NumLit.text at hm
  simp only [List.mem_append] at hm
  rcases hm with hm | hm | hm | hm | hm
  · exact hsign _ c hm
  · rcases hex with _ | _ | _
    · simp [hexText] at hm
    · simp [hexText] at hm; rcases hm with rfl | rfl <;> decide
    · simp [hexText] at hm; rcases hm with rfl | rfl <;> decide
  · exact hdig _ c (hok.int c hm)
  · cases f with
    | none => simp [fracText] at hm
    | some f =>
      simp only [fracText, List.mem_cons] at hm
      rcases hm with rfl | hm
      · decide
      · exact hdig _ c (hok.frac c hm)
  · cases x with
    | none => simp [expText] at hm
    | some q =>
      obtain ⟨b, g, y⟩ := q
      simp only [expText, List.mem_cons, List.mem_append] at hm
      rcases hm with rfl | hm | hm
      · cases hex.isSome <;> cases b <;> decide
      · exact hsign _ c hm
      · exact hdig false c ((hok.exp _ rfl).2 c hm)

theorem literal_not_special (s : Bytes) (l : NumLit) (h : Writes s l) : specialVal s = none := by
  cases hs : specialVal s with
  | none => rfl
  | some v =>
    exfalso
    obtain ⟨c, hc, h2⟩ := special_letter s v hs
    have := literal_chars s l h c hc
    rcases h2 with rfl | rfl <;> revert this <;> decide

/-! ## overflow -/

/-- the numbers below the half way to `2^128` are rounded into the range of binary32, the others are not -/
theorem rd32_overflow (x : ℝ) : |rd32 x| < 2 ^ 128 ↔ |x| < 2 ^ 128 - 2 ^ 103 := by
  have key : ∀ x : ℝ, 0 ≤ x → (|rd32 x| < 2 ^ 128 ↔ x < 2 ^ 128 - 2 ^ 103) := by
    intro x hx
    have hr0 : 0 ≤ rd32 x := le_rd32 rep32_zero hx
    rw [abs_of_nonneg hr0]
    constructor
    · intro h
      by_contra hc
      rw [not_lt] at hc
      by_cases h128 : (2 : ℝ) ^ 128 ≤ x
      · have : (2 : ℝ) ^ 128 ≤ rd32 x := le_rd32 (by have := rep32_zpow (e := 128) (by norm_num); exact_mod_cast this) h128
        linarith
      · rw [not_le] at h128
        have hx0 : x ≠ 0 := by
          intro e; rw [e] at hc; norm_num at hc
        have hlog : Int.log 2 |x| = 127 := by
          rw [abs_of_nonneg hx]
          have h1 : (2 : ℝ) ^ (127 : ℤ) ≤ x := by
            have : (2 : ℝ) ^ (127 : ℤ) = 2 ^ 127 := by norm_cast
            rw [this]
            have : (2 : ℝ) ^ 127 ≤ 2 ^ 128 - 2 ^ 103 := by norm_num
            linarith
          have hpos : 0 < x := lt_of_le_of_ne hx (Ne.symm hx0)
          apply le_antisymm
          · have := (Int.lt_zpow_iff_log_lt (b := 2) (x := 128) (r := x) (by norm_num) hpos).1 (by
              have : ((2 : ℕ) : ℝ) ^ (128 : ℤ) = 2 ^ 128 := by norm_cast
              rw [this]; exact h128)
            omega
          · exact (Int.zpow_le_iff_le_log (b := 2) (by norm_num) hpos).1 (by exact_mod_cast h1)
        have hlast : lastExp32 x = 104 := by unfold lastExp32; rw [hlog]; norm_num
        have hr : rd32 x = roundEven (x / 2 ^ (104 : ℤ)) * 2 ^ (104 : ℤ) := by unfold rd32; rw [hlast]
        have hz : ((2 : ℝ) ^ (104 : ℤ)) = 2 ^ 104 := by norm_cast
        rw [hz] at hr
        have hy1 : (2 : ℝ) ^ 24 - 1 / 2 ≤ x / 2 ^ 104 := by
          rw [le_div_iff₀ (by positivity)]
          calc ((2 : ℝ) ^ 24 - 1 / 2) * 2 ^ 104 = 2 ^ 128 - 2 ^ 103 := by norm_num
            _ ≤ x := hc
        have hy2 : x / 2 ^ 104 < (2 : ℝ) ^ 24 := by
          rw [div_lt_iff₀ (by positivity)]
          calc x < 2 ^ 128 := h128
            _ = (2 : ℝ) ^ 24 * 2 ^ 104 := by norm_num
        have hfl : ⌊x / 2 ^ 104⌋ = 2 ^ 24 - 1 := by
          rw [Int.floor_eq_iff]
          push_cast
          constructor
          · linarith
          · linarith
        have hround : roundEven (x / 2 ^ 104) = 2 ^ 24 := by
          unfold roundEven
          rw [hfl]
          rw [if_neg (by push_cast; linarith)]
          split_ifs with h1 h2
          · norm_num
          · exfalso; revert h2; decide
          · norm_num
        rw [hround] at hr
        rw [hr] at h
        norm_num at h
    · intro h
      by_contra hc
      rw [not_lt] at hc
      have hv : Rep32 ((2 : ℝ) ^ 128 - 2 ^ 104) := by
        refine ⟨2 ^ 24 - 1, 104, by norm_num, by norm_num, ?_⟩
        have hz : ((2 : ℝ) ^ (104 : ℤ)) = 2 ^ 104 := by norm_cast
        rw [hz]; norm_num
      by_cases hle : x ≤ 2 ^ 128 - 2 ^ 104
      · have := rd32_le hv hle
        have h2 : (0 : ℝ) < 2 ^ 104 := by positivity
        linarith
      · rw [not_le] at hle
        have hn := rd32_nearest x hv
        have e1 : (2 : ℝ) ^ 104 = 2 * 2 ^ 103 := by norm_num
        have hp : (0 : ℝ) < 2 ^ 103 := by positivity
        rw [abs_of_nonneg (by linarith), abs_of_neg (by linarith)] at hn
        linarith
  rcases le_total 0 x with h | h
  · rw [abs_of_nonneg h]; exact key x h
  · have := key (-x) (by linarith)
    rw [rd32_neg, abs_neg] at this
    rw [abs_of_nonpos h]; exact this

/-! ## what is read -/

/-- **C107 (literals).** A text that writes a literal, in any of its forms, is read as the number of binary32 nearest to the
number denoted. -/
theorem C107_literal (s : Bytes) (l : NumLit) (h : Writes s l) (he : l.expMag < 10000) (hb : |l.value| < 2 ^ 128 - 2 ^ 103) :
    ∃ y : ℝ, (FltText.parse32 s : B64) = B64.of y ∧ NearestSingle l.value y ∧ IsF y := by
  have h2 : |rd32 l.value| < 2 ^ 128 := (rd32_overflow _).2 hb
  have hF : IsF (rd32 l.value) := ⟨(rep32_rd32 _).rep, h2.le.trans pow128_le_max⟩
  refine ⟨rd32 l.value, ?_, nearest_rd32 _, hF⟩
  apply Subtype.ext
  show parseFloat32 s = (B64.of _).1
  unfold parseFloat32
  rw [literal_not_special s l h, (readNumber_iff s l.value).2 ⟨l, h, (numLit_readVal_eq l he).symm⟩, B64.of_val hF]
  dsimp only
  unfold single
  rw [if_pos h2]

/-- **C107 (overflow).** A literal beyond the range of binary32 is read as the infinity of its sign. -/
theorem C107_overflow (s : Bytes) (l : NumLit) (h : Writes s l) (he : l.expMag < 10000) (hb : 2 ^ 128 - 2 ^ 103 ≤ |l.value|) :
    (FltText.parse32 s : B64).1 = if 0 < l.value then .pinf else .ninf := by
  show parseFloat32 s = _
  unfold parseFloat32
  rw [literal_not_special s l h, (readNumber_iff s l.value).2 ⟨l, h, (numLit_readVal_eq l he).symm⟩]
  dsimp only
  unfold single
  rw [if_neg (fun hc => absurd ((rd32_overflow _).1 hc) (not_lt.2 hb))]

/-- **C107 (words).** `nan`, `inf` and `infinity`, in any case, the latter two with or without a sign. -/
theorem C107_words (s : Bytes) : (SpelledAs "nan" s → (FltText.parse32 s : B64).1 = .nan) ∧
    (InfText none s ∨ InfText (some true) s → (FltText.parse32 s : B64).1 = .pinf) ∧
    (InfText (some false) s → (FltText.parse32 s : B64).1 = .ninf) := by
  obtain ⟨h1, h2, h3, _⟩ := specialVal_iff s
  refine ⟨?_, ?_, ?_⟩
  · intro h
    show parseFloat32 s = _
    unfold parseFloat32
    rw [h1.2 h]
  · intro h
    show parseFloat32 s = _
    unfold parseFloat32
    rw [h2.2 h]
  · intro h
    show parseFloat32 s = _
    unfold parseFloat32
    rw [h3.2 h]

/-- the text is none of the words -/
def NoWord (s : Bytes) : Prop := ¬ SpelledAs "nan" s ∧ ∀ g, ¬ InfText g s

/-- the text is neither a literal nor a word -/
def NotNumber (s : Bytes) : Prop := NoWord s ∧ ∀ l, ¬ Writes s l

/-- **C107 (everything else).** A text that is neither is read as zero. -/
theorem C107_other (s : Bytes) (h : NotNumber s) : (FltText.parse32 s : B64) = B64.of 0 := by
  obtain ⟨⟨hn, hi⟩, hl⟩ := h
  obtain ⟨h1, h2, h3, h4⟩ := specialVal_iff s
  have hs : specialVal s = none := by
    cases hs : specialVal s with
    | none => rfl
    | some v =>
      exfalso
      cases v with
      | nan => exact hn (h1.1 hs)
      | pinf =>
        rcases h2.1 hs with h | h
        · exact hi _ h
        · exact hi _ h
      | ninf => exact hi _ (h3.1 hs)
      | fin x => exact h4 x hs
  have hr : readNumber s = none := by
    cases hr : readNumber s with
    | none => rfl
    | some v =>
      obtain ⟨l, h, _⟩ := (readNumber_iff s v).1 hr
      exact absurd h (hl l)
  have hF : IsF 0 := ⟨rep_zero, by rw [abs_zero]; exact (abs_nonneg _).trans isF_max.2⟩
  apply Subtype.ext
  show parseFloat32 s = (B64.of _).1
  unfold parseFloat32
  rw [hs, hr, B64.of_val hF]

/-- a text with a character that no literal and no word has -/
theorem notNumber_char (s : Bytes) (c : UInt8) (hc : c ∈ s) (h : ¬ LiteralChar c) (hw : smallLetter c ∉ [110, 97, 105, 102, 116, 121]) :
    NotNumber s := by
  have hword : ∀ (u cs : Bytes), u.map smallLetter = cs → c ∈ u → (∀ b ∈ cs, b ∈ [110, 97, 105, 102, 116, 121]) → False := by
    rintro u cs rfl hu hcs
    exact hw (hcs _ (List.mem_map.2 ⟨c, hu, rfl⟩))
  refine ⟨⟨?_, ?_⟩, ?_⟩
  · intro hn
    exact hword s _ ((word_nan s).2 hn) hc (by decide)
  · rintro g ⟨t, rfl, ht⟩
    rcases List.mem_append.1 hc with hc | hc
    · apply h
      rcases g with _ | _ | _
      · simp [signText] at hc
      · simp [signText] at hc; subst hc; decide
      · simp [signText] at hc; subst hc; decide
    · rcases ht with ht | ht
      · exact hword t _ ((word_inf t).2 ht) hc (by decide)
      · exact hword t _ ((word_infinity t).2 ht) hc (by decide)
  · intro l hl
    exact h (literal_chars s l hl c hc)

/-- **C107 (decimal comma).** Every text with a comma is read as zero. -/
theorem C107_comma (s : Bytes) (h : 44 ∈ s) : (FltText.parse32 s : B64) = B64.of 0 :=
  C107_other s (notNumber_char s 44 h (by decide) (by decide))

/-! ## the hypotheses are met -/

/-- `-0x1.8p1`, written with an underscore -/
def exHex : NumLit := ⟨some false, some false, [49], some [56], some (false, none, [49])⟩

theorem exHex_writes : Writes (asciiBytes "-0x_1.8p1") exHex := by
  refine ⟨⟨?_, ?_, Or.inl (by decide), ?_, fun _ => rfl⟩, by decide, ?_⟩
  · intro c hc
    simp only [exHex, List.mem_singleton] at hc
    subst hc; decide
  · intro c hc
    simp only [exHex, Option.getD_some, List.mem_singleton] at hc
    subst hc; decide
  · intro q hq
    simp only [exHex, Option.mem_def, Option.some.injEq] at hq
    subst hq
    refine ⟨by decide, ?_⟩
    intro c hc
    simp only [List.mem_singleton] at hc
    subst hc; decide
  · have e : asciiBytes "-0x_1.8p1" = [45, 48, 120] ++ [95, 49, 46, 56, 112, 49] := by decide
    rw [e]
    unfold Separating
    rw [under_shift [45, 48, 120] _ (by decide)]
    intro a b h
    have : a = [] := by
      cases a with
      | nil => rfl
      | cons d a =>
        exfalso
        simp only [List.cons_append, List.cons.injEq] at h
        have : (95 : UInt8) ∈ [49, 46, 56, 112, 49] := by rw [h.2]; simp
        revert this; decide
    subst this
    simp only [List.nil_append, List.cons.injEq, true_and] at h
    rw [← h]
    exact ⟨Or.inr ⟨rfl, false, by decide⟩, 49, _, rfl, by decide⟩

theorem exHex_value : exHex.value = -3 := by
  have h1 : digitsNumber 16 [49] = 1 := by decide
  have h2 : digitsNumber 16 [56] = 8 := by decide
  have h3 : digitsNumber 10 [49] = 1 := by decide
  simp only [exHex, NumLit.value, NumLit.base, NumLit.expVal, NumLit.expMag, Option.getD_some, Option.isSome_some, if_true, h1, h2, h3]
  norm_num

/-- the text `-0x_1.8p1` is read as the number -3 -/
example : (FltText.parse32 (asciiBytes "-0x_1.8p1") : B64) = B64.of (-3) := by
  have h3 : digitsNumber 10 [49] = 1 := by decide
  obtain ⟨y, h1, h2, -⟩ := C107_literal _ exHex exHex_writes (by simp [exHex, NumLit.expMag, h3]) (by rw [exHex_value]; norm_num)
  rw [h1]
  congr 1
  have h3 := h2.2.1 (-3) (by have := rep32_int (n := -3) (by norm_num); exact_mod_cast this)
  rw [exHex_value] at h3
  simp at h3
  linarith

/-- `-InF` is read as infinity, `1,5` as zero -/
example : (FltText.parse32 (asciiBytes "-InF") : B64).1 = .ninf ∧ (FltText.parse32 (asciiBytes "1,5") : B64) = B64.of 0 := by
  refine ⟨(C107_words _).2.2 ⟨[73, 110, 70], by decide, Or.inl ?_⟩, C107_comma _ (by decide)⟩
  rw [← word_inf]; decide

/-- underscores at the end or in pairs make no number -/
example : NotNumber (asciiBytes "1_") := by
  refine ⟨⟨?_, ?_⟩, ?_⟩
  · rw [← word_nan]; decide
  · rintro g ⟨t, e, ht⟩
    rw [NamesInf, ← word_inf, ← word_infinity] at ht
    have hm : ∀ c ∈ t, c ∈ asciiBytes "1_" := fun c hc => by rw [e]; exact List.mem_append_right _ hc
    have : (110 : UInt8) ∈ t.map smallLetter := by
      rcases ht with ht | ht <;> rw [ht] <;> decide
    obtain ⟨c, hc, e2⟩ := List.mem_map.1 this
    have h3 := hm c hc
    have h4 : asciiBytes "1_" = [49, 95] := by decide
    rw [h4] at h3
    simp at h3
    rcases h3 with rfl | rfl <;> revert e2 <;> decide
  · rintro l ⟨_, _, h⟩
    obtain ⟨_, c, b, h, _⟩ := h [49] [] (by decide)
    exact absurd h (by simp)

end Goosli
