import Verif.Proofs.B64Text
import Verif.Spec.NumLit
/-!
# Reading number literals

The reader of `Model/B64Text.lean` accepts the literals of `Spec/NumLit.lean` and nothing else.
-/
set_option autoImplicit false
namespace Goosli
open Spec

/-! ## bytes -/

instance (c : UInt8) : Decidable (IsDec c) := by unfold IsDec; infer_instance
instance (c : UInt8) : Decidable (IsHex c) := by unfold IsHex; infer_instance
instance (h : Bool) (c : UInt8) : Decidable (IsDigitOf h c) := by unfold IsDigitOf; infer_instance

theorem byte_all {P : UInt8 → Prop} (h : ∀ n, n < 256 → P (UInt8.ofNat n)) (c : UInt8) : P c := by
  have := h c.toNat c.toNat_lt
  rwa [UInt8.ofNat_toNat] at this

set_option maxRecDepth 8192 in
theorem digitVal_spec (hex : Bool) (c : UInt8) : digitVal hex c = if IsDigitOf hex c then some (digitNumber c) else none := by
  revert c
  apply byte_all
  cases hex <;> decide

set_option maxRecDepth 8192 in
theorem digitOf_ne (hex : Bool) (c : UInt8) : IsDigitOf hex c → c ≠ 95 ∧ c ≠ 46 ∧ c ≠ 43 ∧ c ≠ 45 ∧ c ≠ expLetter hex true ∨
    (hex = false ∧ c ≠ 95 ∧ c ≠ 46 ∧ c ≠ 43 ∧ c ≠ 45) := by
  revert c
  apply byte_all
  cases hex <;> decide

set_option maxRecDepth 8192 in
theorem lowerCase_exp (hex : Bool) (c : UInt8) :
    lowerCase c = (if hex then 112 else 101) ↔ (c = expLetter hex false ∨ c = expLetter hex true) := by
  revert c
  apply byte_all
  cases hex <;> decide

set_option maxRecDepth 8192 in
theorem lowerCase_x (c : UInt8) : lowerCase c = 120 ↔ (c = 120 ∨ c = 88) := by
  revert c
  apply byte_all
  decide

set_option maxRecDepth 8192 in
theorem okDigit_iff (hex : Bool) (c : UInt8) :
    ((48 ≤ c ∧ c ≤ 57) ∨ (hex = true ∧ 97 ≤ lowerCase c ∧ lowerCase c ≤ 102)) ↔ IsDigitOf hex c := by
  revert c
  apply byte_all
  cases hex <;> decide

theorem isDec_iff (c : UInt8) : IsDec c ↔ (48 ≤ c ∧ c ≤ 57) := by
  rw [UInt8.le_iff_toNat_le, UInt8.le_iff_toNat_le]; rfl

theorem digit_not (hex : Bool) {c : UInt8} (h : IsDigitOf hex c) : c ≠ 95 ∧ c ≠ 46 ∧ c ≠ 43 ∧ c ≠ 45 := by
  rcases digitOf_ne hex c h with h | h
  · exact ⟨h.1, h.2.1, h.2.2.1, h.2.2.2.1⟩
  · exact h.2

/-! ## the significand -/

/-- the digits as a number, going on from `n` -/
def numFrom (base n : ℕ) (ds : Bytes) : ℕ := ds.foldl (fun n c => n * base + digitNumber c) n

theorem numFrom_cons (base n : ℕ) (c : UInt8) (t : Bytes) : numFrom base n (c :: t) = numFrom base (n * base + digitNumber c) t := rfl

theorem numFrom_append (base n : ℕ) (a b : Bytes) : numFrom base n (a ++ b) = numFrom base (numFrom base n a) b := by
  unfold numFrom; rw [List.foldl_append]

theorem numFrom_zero (base : ℕ) (ds : Bytes) : numFrom base 0 ds = digitsNumber base ds := rfl

theorem numFrom_split (base n : ℕ) (ds : Bytes) : numFrom base n ds = n * base ^ ds.length + digitsNumber base ds := by
  rw [← numFrom_zero]
  induction ds generalizing n with
  | nil => simp [numFrom]
  | cons c t ih =>
    rw [numFrom_cons, numFrom_cons, List.length_cons, ih (n * base + digitNumber c), ih (0 * base + digitNumber c)]
    ring

/-- the digits at the beginning of a text -/
theorem split_digits (hex : Bool) (s : Bytes) :
    ∃ i r : Bytes, s = i ++ r ∧ (∀ c ∈ i, IsDigitOf hex c) ∧ ∀ c t, r = c :: t → ¬ IsDigitOf hex c := by
  induction s with
  | nil => exact ⟨[], [], rfl, by simp, by simp⟩
  | cons c t ih =>
    by_cases h : IsDigitOf hex c
    · obtain ⟨i, r, e, h1, h2⟩ := ih
      refine ⟨c :: i, r, by rw [e]; rfl, ?_, h2⟩
      intro d hd
      rcases List.mem_cons.1 hd with rfl | hd
      · exact h
      · exact h1 d hd
    · refine ⟨[], c :: t, rfl, by simp, ?_⟩
      intro d u e
      injection e with e _
      rw [← e]; exact h

theorem readSignif_span (hex : Bool) (ds r : Bytes) (hd : ∀ c ∈ ds, IsDigitOf hex c) : ∀ g : Signif,
    readSignif hex g (ds ++ r) = readSignif hex
      ⟨numFrom (if hex then 16 else 10) g.mant ds, if g.dot then g.frac + ds.length else g.frac, g.dot,
        g.digits || !ds.isEmpty, g.under⟩ r := by
  induction ds with
  | nil => intro g; simp [numFrom]
  | cons c t ih =>
    intro g
    have hc := hd c (by simp)
    have hn := digit_not hex hc
    have e : readSignif hex g (c :: t ++ r) = readSignif hex
        ⟨g.mant * (if hex then 16 else 10) + digitNumber c, if g.dot then g.frac + 1 else g.frac, g.dot, true, g.under⟩ (t ++ r) := by
      rw [List.cons_append, readSignif, if_neg hn.1, if_neg hn.2.1, digitVal_spec, if_pos hc]
    rw [e, ih (fun c hc => hd c (by simp [hc]))]
    cases hdot : g.dot
    · simp [numFrom_cons]
    · simp only [numFrom_cons, if_true, List.length_cons]
      have : g.frac + 1 + t.length = g.frac + (t.length + 1) := by omega
      rw [this]
      simp

/-- the text after the digits: no digit, no underscore; a point only after a point -/
def Stops (hex dot : Bool) (r : Bytes) : Prop := ∀ c t, r = c :: t → ¬ IsDigitOf hex c ∧ c ≠ 95 ∧ (c = 46 → dot = true)

theorem readSignif_stop (hex : Bool) (g : Signif) (r : Bytes) (h : Stops hex g.dot r) : readSignif hex g r = (g, r) := by
  cases r with
  | nil => rfl
  | cons c t =>
    obtain ⟨h1, h2, h3⟩ := h c t rfl
    rw [readSignif, if_neg h2]
    by_cases hc : c = 46
    · rw [if_pos hc, if_pos (h3 hc)]
    · rw [if_neg hc, digitVal_spec, if_neg h1]

/-- what is read of digits, point and digits -/
theorem readSignif_parts (hex : Bool) (i : Bytes) (f : Option Bytes) (r : Bytes) (hi : ∀ c ∈ i, IsDigitOf hex c)
    (hf : ∀ c ∈ f.getD [], IsDigitOf hex c) (hr : Stops hex f.isSome r) :
    readSignif hex ⟨0, 0, false, false, false⟩ (i ++ (fracText f ++ r)) =
      (⟨numFrom (if hex then 16 else 10) 0 (i ++ f.getD []), (f.getD []).length, f.isSome, !i.isEmpty || !(f.getD []).isEmpty, false⟩, r) := by
  rw [readSignif_span hex _ _ hi]
  cases f with
  | none =>
    simp only [fracText, List.nil_append, Option.getD_none, List.append_nil, List.length_nil, Option.isSome_none]
    rw [readSignif_stop _ _ _ hr]
    simp
  | some f =>
    simp only [fracText, Option.getD_some, Option.isSome_some] at hf hr ⊢
    simp only [Bool.false_eq_true, if_false, Bool.false_or]
    have e : ∀ (m : ℕ) (b : Bool), readSignif hex ⟨m, 0, false, b, false⟩ (46 :: f ++ r) =
        readSignif hex ⟨m, 0, true, b, false⟩ (f ++ r) := by
      intro m b
      rw [List.cons_append, readSignif]
      simp
    rw [e, readSignif_span hex _ _ hf, readSignif_stop _ _ _ hr]
    simp [numFrom_append]

/-- every text without underscores begins with digits, point and digits, perhaps none of them -/
theorem split_signif (hex : Bool) (s : Bytes) (hu : 95 ∉ s) :
    ∃ (i : Bytes) (f : Option Bytes) (r : Bytes), s = i ++ (fracText f ++ r) ∧ (∀ c ∈ i, IsDigitOf hex c) ∧
      (∀ c ∈ f.getD [], IsDigitOf hex c) ∧ Stops hex f.isSome r := by
  obtain ⟨i, r, e, hi, hr⟩ := split_digits hex s
  have hur : 95 ∉ r := fun h => hu (by rw [e]; exact List.mem_append_right _ h)
  by_cases hdot : ∃ t, r = 46 :: t
  · obtain ⟨t, rfl⟩ := hdot
    obtain ⟨f, r', e', hf, hr'⟩ := split_digits hex t
    refine ⟨i, some f, r', ?_, hi, hf, ?_⟩
    · rw [e, e']; simp [fracText]
    · intro c u h
      refine ⟨hr' c u h, ?_, fun _ => rfl⟩
      rintro rfl
      exact hur (by rw [e', h]; simp)
  · refine ⟨i, none, r, by rw [e]; simp [fracText], hi, by simp, ?_⟩
    intro c u h
    refine ⟨hr c u h, ?_, ?_⟩
    · rintro rfl; exact hur (by rw [h]; simp)
    · rintro rfl; exact absurd ⟨u, h⟩ hdot

/-! ## the exponent -/

/-- the digits of an exponent as strconv counts them: not beyond five digits -/
def expCount (e : ℕ) (ds : Bytes) : ℕ := ds.foldl (fun e c => if e < 10000 then e * 10 + digitNumber c else e) e

theorem expCount_cons (e : ℕ) (c : UInt8) (t : Bytes) :
    expCount e (c :: t) = expCount (if e < 10000 then e * 10 + digitNumber c else e) t := rfl

theorem numFrom_ge (base n : ℕ) (hb : 1 ≤ base) (t : Bytes) : n ≤ numFrom base n t := by
  rw [numFrom_split]
  have : 1 ≤ base ^ t.length := Nat.one_le_pow _ _ hb
  nlinarith [Nat.zero_le (digitsNumber base t)]

theorem expCount_small (e : ℕ) (ds : Bytes) (h : numFrom 10 e ds < 10000) : expCount e ds = numFrom 10 e ds := by
  induction ds generalizing e with
  | nil => rfl
  | cons c t ih =>
    rw [numFrom_cons] at h
    have h1 := numFrom_ge 10 (e * 10 + digitNumber c) (by norm_num) t
    rw [expCount_cons, if_pos (by omega), ih _ h, numFrom_cons]

theorem readExpDigits_span (ds r : Bytes) (hd : ∀ c ∈ ds, IsDec c) (u : Bool) : ∀ e : ℕ,
    readExpDigits e u (ds ++ r) = readExpDigits (expCount e ds) u r := by
  induction ds with
  | nil => intro e; rfl
  | cons c t ih =>
    intro e
    have hc : IsDigitOf false c := hd c (by simp)
    have hn := digit_not false hc
    rw [List.cons_append, readExpDigits, if_neg hn.1, digitVal_spec, if_pos hc]
    dsimp only
    rw [ih (fun c hc => hd c (by simp [hc]))]
    rfl

theorem readExpDigits_stop (r : Bytes) (e : ℕ) (u : Bool) (h : Stops false true r) : readExpDigits e u r = (e, u, r) := by
  cases r with
  | nil => rfl
  | cons c t =>
    obtain ⟨h1, h2, _⟩ := h c t rfl
    rw [readExpDigits, if_neg h2, digitVal_spec, if_neg h1]

/-- an exponent without underscores is read to the end if and only if it is a sign and digits -/
theorem readExp_iff (u : Bool) (t : Bytes) (hu : 95 ∉ t) (e : ℤ) (w : Bool) :
    readExp u t = some (e, w, []) ↔ ∃ (s : Option Bool) (x : Bytes), t = signText s ++ x ∧ x ≠ [] ∧ (∀ c ∈ x, IsDec c) ∧ w = u ∧
      e = if s = some false then -(expCount 0 x : ℤ) else expCount 0 x := by
  -- without the sign
  have key : ∀ (neg : Bool) (t : Bytes), 95 ∉ t →
      ((match t with
        | [] => none
        | c :: _ =>
          if 48 ≤ c ∧ c ≤ 57 then
            some (if neg then -((readExpDigits 0 u t).1 : ℤ) else (readExpDigits 0 u t).1, (readExpDigits 0 u t).2.1, (readExpDigits 0 u t).2.2)
          else none) = some (e, w, []) ↔
        t ≠ [] ∧ (∀ c ∈ t, IsDec c) ∧ w = u ∧ e = if neg then -(expCount 0 t : ℤ) else expCount 0 t) := by
    intro neg t hu
    obtain ⟨i, r, et, hi, hr⟩ := split_digits false t
    have hst : Stops false true r := by
      intro c q h
      refine ⟨hr c q h, ?_, fun _ => rfl⟩
      rintro rfl
      exact hu (by rw [et, h]; simp)
    have hread : readExpDigits 0 u t = (expCount 0 i, u, r) := by
      rw [et, readExpDigits_span i r hi, readExpDigits_stop r _ u hst]
    rw [hread]
    cases t with
    | nil => simp
    | cons c q =>
      dsimp only
      constructor
      · intro h
        split_ifs at h with h1 h2
        · simp only [Option.some.injEq, Prod.mk.injEq] at h
          obtain ⟨a, b, c'⟩ := h
          rw [c', List.append_nil] at et
          subst h2
          refine ⟨by simp, ?_, b.symm, ?_⟩
          · rw [et]; exact hi
          · rw [et, ← a]; rfl
        · simp only [Option.some.injEq, Prod.mk.injEq] at h
          obtain ⟨a, b, c'⟩ := h
          rw [c', List.append_nil] at et
          refine ⟨by simp, ?_, b.symm, ?_⟩
          · rw [et]; exact hi
          · rw [et, ← a, if_neg h2]
      · rintro ⟨_, h2, rfl, rfl⟩
        have hc : IsDec c := h2 c (by simp)
        rw [if_pos ((isDec_iff c).1 hc)]
        have hrn : r = [] := by
          cases r with
          | nil => rfl
          | cons d z => exact absurd (h2 d (by rw [et]; simp)) (hr d z rfl)
        subst hrn
        rw [List.append_nil] at et
        rw [et]
  unfold readExp
  dsimp only
  split
  · rename_i t'
    refine (key false t' (by simp at hu; exact hu)).trans ?_
    constructor
    · rintro ⟨h1, h2, h3, h4⟩
      exact ⟨some true, t', rfl, h1, h2, h3, by simpa using h4⟩
    · rintro ⟨s, x, e1, h1, h2, h3, h4⟩
      rcases s with _ | _ | _
      · exfalso
        simp only [signText, List.nil_append] at e1
        have := digit_not false (h2 43 (by rw [← e1]; simp))
        exact this.2.2.1 rfl
      · simp [signText] at e1
      · simp only [signText, List.cons_append, List.nil_append, List.cons.injEq, true_and] at e1
        subst e1
        exact ⟨h1, h2, h3, by simpa using h4⟩
  · rename_i t'
    refine (key true t' (by simp at hu; exact hu)).trans ?_
    constructor
    · rintro ⟨h1, h2, h3, h4⟩
      exact ⟨some false, t', rfl, h1, h2, h3, by simpa using h4⟩
    · rintro ⟨s, x, e1, h1, h2, h3, h4⟩
      rcases s with _ | _ | _
      · exfalso
        simp only [signText, List.nil_append] at e1
        have := digit_not false (h2 45 (by rw [← e1]; simp))
        exact this.2.2.2 rfl
      · simp only [signText, List.cons_append, List.nil_append, List.cons.injEq, true_and] at e1
        subst e1
        exact ⟨h1, h2, h3, by simpa using h4⟩
      · simp [signText] at e1
  · rename_i hp hm
    refine (key false t hu).trans ?_
    constructor
    · rintro ⟨h1, h2, h3, h4⟩
      exact ⟨none, t, rfl, h1, h2, h3, by simpa using h4⟩
    · rintro ⟨s, x, e1, h1, h2, h3, h4⟩
      rcases s with _ | _ | _
      · simp only [signText, List.nil_append] at e1
        subst e1
        exact ⟨h1, h2, h3, by simpa using h4⟩
      · exact absurd e1 (hm x)
      · exact absurd e1 (hp x)

/-! ## the magnitude -/

/-- the exponent that is counted -/
def countedExp : Option (Bool × Option Bool × Bytes) → ℤ
  | none => 0
  | some (_, s, x) => if s = some false then -(expCount 0 x : ℤ) else expCount 0 x

/-- the number that is read -/
noncomputable def partsVal (hex : Bool) (i : Bytes) (f : Option Bytes) (x : Option (Bool × Option Bool × Bytes)) : ℝ :=
  (numFrom (if hex then 16 else 10) 0 (i ++ f.getD []) : ℝ) / (if hex then 16 else 10) ^ (f.getD []).length *
    (if hex then 2 else 10) ^ countedExp x

theorem expText_stops (hex dot : Bool) (x : Option (Bool × Option Bool × Bytes)) : Stops hex dot (expText hex x) := by
  cases x with
  | none => intro c t h; simp [expText] at h
  | some q =>
    obtain ⟨big, s, x⟩ := q
    intro c t h
    simp only [expText, List.cons.injEq] at h
    rw [← h.1]
    cases dot <;> cases hex <;> cases big <;> decide

/-- a text without underscores is read as a number if and only if it is digits, point and digits, exponent -/
theorem magnitude_parts (whole s s' : Bytes) (hex : Bool) (hs : hexStart s = (hex, s')) (hu : 95 ∉ s') (v : ℝ) :
    readMagnitude whole s = some v ↔ ∃ (i : Bytes) (f : Option Bytes) (x : Option (Bool × Option Bool × Bytes)),
      s' = i ++ (fracText f ++ expText hex x) ∧ (∀ c ∈ i, IsDigitOf hex c) ∧ (∀ c ∈ f.getD [], IsDigitOf hex c) ∧
      (i ≠ [] ∨ f.getD [] ≠ []) ∧ (∀ q ∈ x, q.2.2 ≠ [] ∧ ∀ c ∈ q.2.2, IsDec c) ∧ (hex = true → x.isSome = true) ∧
      v = partsVal hex i f x := by
  have flag : ∀ i j : Bytes, (!i.isEmpty || !j.isEmpty) = true ↔ (i ≠ [] ∨ j ≠ []) := by
    intro i j; cases i <;> cases j <;> simp
  constructor
  · intro h
    obtain ⟨i, f, r, e, hi, hf, hr⟩ := split_signif hex s' hu
    have hp := readSignif_parts hex i f r hi hf hr
    rw [← e] at hp
    unfold readMagnitude at h
    rw [hs] at h
    dsimp only at h
    rw [hp] at h
    dsimp only at h
    by_cases hd : (!i.isEmpty || !(f.getD []).isEmpty) = false
    · rw [if_pos hd] at h; exact absurd h (by simp)
    rw [if_neg hd] at h
    have hne := (flag i (f.getD [])).1 (by rw [Bool.not_eq_false] at hd; exact hd)
    cases r with
    | nil =>
      dsimp only at h
      by_cases hx : hex = true
      · rw [if_pos hx] at h; exact absurd h (by simp)
      · rw [if_neg hx, if_pos (by simp)] at h
        simp only [Option.some.injEq] at h
        refine ⟨i, f, none, by rw [e]; simp [expText], hi, hf, hne, by simp, fun h => absurd h hx, ?_⟩
        rw [← h]
        unfold partsVal countedExp
        simp [hx]
    | cons c t =>
      dsimp only at h
      by_cases hc : lowerCase c = (if hex then 112 else 101)
      swap
      · rw [if_neg hc] at h; exact absurd h (by simp)
      rw [if_pos hc] at h
      rw [lowerCase_exp] at hc
      have hut : 95 ∉ t := fun hm => hu (by rw [e]; simp [hm])
      cases hq : readExp false t with
      | none => rw [hq] at h; simp at h
      | some w =>
        obtain ⟨e', u', rest⟩ := w
        rw [hq] at h
        dsimp only at h
        by_cases hdone : rest = [] ∧ (u' = true → underscoreOK whole = true)
        swap
        · rw [if_neg hdone] at h; exact absurd h (by simp)
        rw [if_pos hdone] at h
        obtain ⟨rfl, _⟩ := hdone
        rw [readExp_iff false t hut] at hq
        obtain ⟨sg, x, et, hx, hxd, _, hev⟩ := hq
        simp only [Option.some.injEq] at h
        rcases hc with hc | hc
        · refine ⟨i, f, some (false, sg, x), by rw [e, et, hc]; simp [expText], hi, hf, hne, by simpa using ⟨hx, hxd⟩, fun _ => rfl, ?_⟩
          rw [← h, hev]
          rfl
        · refine ⟨i, f, some (true, sg, x), by rw [e, et, hc]; simp [expText], hi, hf, hne, by simpa using ⟨hx, hxd⟩, fun _ => rfl, ?_⟩
          rw [← h, hev]
          rfl
  · rintro ⟨i, f, x, e, hi, hf, hne, hx, hpow, rfl⟩
    have hp := readSignif_parts hex i f _ hi hf (expText_stops hex f.isSome x)
    rw [← e] at hp
    unfold readMagnitude
    rw [hs]
    dsimp only
    rw [hp]
    dsimp only
    rw [if_neg (by rw [(flag i (f.getD [])).2 hne]; simp)]
    cases x with
    | none =>
      have hh : hex = false := by
        cases hex with
        | false => rfl
        | true => exact absurd (hpow rfl) (by simp)
      subst hh
      simp [expText, partsVal, countedExp]
    | some q =>
      obtain ⟨big, sg, y⟩ := q
      obtain ⟨h1, h2⟩ := hx _ rfl
      dsimp only at h1 h2
      simp only [expText]
      rw [if_pos ((lowerCase_exp hex _).2 (by cases big <;> simp))]
      have hut : 95 ∉ signText sg ++ y := fun hm => hu (by rw [e]; simp only [expText]; simp at hm ⊢; right; right; right; exact hm)
      rw [(readExp_iff false (signText sg ++ y) hut _ false).2 ⟨sg, y, rfl, h1, h2, rfl, rfl⟩]
      simp [partsVal, countedExp]

/-- the beginning of a hexadecimal literal -/
theorem hexStart_cases (s : Bytes) : (∃ big s', s = hexText (some big) ++ s' ∧ s' ≠ [] ∧ hexStart s = (true, s')) ∨
    (hexStart s = (false, s) ∧ ∀ big s', s = hexText (some big) ++ s' → s' = []) := by
  unfold hexStart
  split
  · rename_i c d t
    split_ifs with h
    · left
      rcases (lowerCase_x c).1 h with rfl | rfl
      · exact ⟨false, d :: t, rfl, by simp, rfl⟩
      · exact ⟨true, d :: t, rfl, by simp, rfl⟩
    · right
      refine ⟨rfl, ?_⟩
      intro big s' e
      exfalso
      apply h
      rw [lowerCase_x]
      cases big <;> simp [hexText] at e
      · exact Or.inl e.1
      · exact Or.inr e.1
  · rename_i hn
    right
    refine ⟨rfl, ?_⟩
    intro big s' e
    cases s' with
    | nil => rfl
    | cons d t =>
      exfalso
      cases big
      · exact hn 120 d t (by rw [e]; rfl)
      · exact hn 88 d t (by rw [e]; rfl)

/-- a decimal literal does not begin like a hexadecimal one -/
theorem decimal_not_hex (i : Bytes) (f : Option Bytes) (x : Option (Bool × Option Bool × Bytes)) (hi : ∀ c ∈ i, IsDigitOf false c)
    (hne : i ≠ [] ∨ f.getD [] ≠ []) (big : Bool) (s' : Bytes) :
    i ++ (fracText f ++ expText false x) ≠ hexText (some big) ++ s' := by
  intro h
  have hx : ∀ c, IsDigitOf false c → c ≠ 120 ∧ c ≠ 88 := by
    intro c hc
    constructor <;> (rintro rfl; revert hc; decide)
  rcases i with _ | ⟨a, _ | ⟨b, i⟩⟩
  · cases f with
    | none => simp at hne
    | some f => cases big <;> simp [fracText, hexText] at h
  · cases f with
    | some f => cases big <;> simp [fracText, hexText] at h
    | none =>
      cases x with
      | none => cases big <;> simp [fracText, hexText, expText] at h
      | some q =>
        obtain ⟨b2, sg, y⟩ := q
        cases big <;> cases b2 <;> simp [fracText, hexText, expText, expLetter] at h
  · have hb := hx b (hi b (by simp))
    cases big <;> simp [hexText] at h
    · exact hb.1 h.2.1
    · exact hb.2 h.2.1

/-- the literal as it is read, without its sign -/
noncomputable def Spec.NumLit.readMag (l : NumLit) : ℝ := partsVal l.hex.isSome l.int l.frac l.exp

/-- a text without underscores is read as a magnitude if and only if it is a literal without a sign -/
theorem readMagnitude_iff (whole s : Bytes) (hu : 95 ∉ s) (v : ℝ) :
    readMagnitude whole s = some v ↔ ∃ l : NumLit, l.sign = none ∧ l.Ok ∧ l.text = s ∧ v = l.readMag := by
  rcases hexStart_cases s with ⟨big, s', e, hne, hs⟩ | ⟨hs, hno⟩
  · rw [magnitude_parts whole s s' true hs (fun h => hu (by rw [e]; exact List.mem_append_right _ h))]
    constructor
    · rintro ⟨i, f, x, e', hi, hf, hd, hx, hp, rfl⟩
      exact ⟨⟨none, some big, i, f, x⟩, rfl, ⟨hi, hf, hd, hx, hp⟩, by rw [e, e']; rfl, rfl⟩
    · rintro ⟨⟨sg, hex, i, f, x⟩, rfl, hok, ht, rfl⟩
      cases hex with
      | none =>
        exfalso
        refine decimal_not_hex i f x hok.int hok.some big s' ?_
        rw [← e, ← ht]; rfl
      | some b =>
        have : s' = i ++ (fracText f ++ expText true x) := by
          rw [e] at ht
          cases b <;> cases big <;> simp [NumLit.text, signText, hexText] at ht
          · exact ht.symm
          · exact ht.symm
        exact ⟨i, f, x, this, hok.int, hok.frac, hok.some, hok.exp, hok.power, rfl⟩
  · rw [magnitude_parts whole s s false hs hu]
    constructor
    · rintro ⟨i, f, x, e', hi, hf, hd, hx, hp, rfl⟩
      exact ⟨⟨none, none, i, f, x⟩, rfl, ⟨hi, hf, hd, hx, hp⟩, by rw [e']; rfl, rfl⟩
    · rintro ⟨⟨sg, hex, i, f, x⟩, rfl, hok, ht, rfl⟩
      cases hex with
      | none => exact ⟨i, f, x, by rw [← ht]; rfl, hok.int, hok.frac, hok.some, hok.exp, by simp, rfl⟩
      | some b =>
        exfalso
        have h1 := hno b (i ++ (fracText f ++ expText true x)) (by rw [← ht]; rfl)
        have h2 := hok.some
        simp only [List.append_eq_nil_iff] at h1
        rcases h2 with h2 | h2
        · exact h2 h1.1
        · cases f with
          | none => exact h2 rfl
          | some f => simp [fracText] at h1

/-! ## underscores -/

theorem strip_cons (c : UInt8) (t : Bytes) (h : c ≠ 95) : strip (c :: t) = c :: strip t := by
  unfold strip; rw [List.filter_cons_of_pos (by simpa using h)]

theorem strip_under (t : Bytes) : strip (95 :: t) = strip t := by
  unfold strip; rw [List.filter_cons_of_neg (by simp)]

theorem strip_append (a b : Bytes) : strip (a ++ b) = strip a ++ strip b := by
  unfold strip; rw [List.filter_append]

theorem strip_self {s : Bytes} (h : 95 ∉ s) : strip s = s := by
  unfold strip
  rw [List.filter_eq_self]
  intro c hc
  have : c ≠ 95 := by rintro rfl; exact h hc
  simpa using this

theorem not_mem_strip (s : Bytes) : 95 ∉ strip s := by
  unfold strip; simp

/-- the rest of a text after reading begins with something else than an underscore -/
def NoUnder (r : Bytes) : Prop := ∀ t, r ≠ 95 :: t

theorem noUnder_strip_nil {r : Bytes} (h : NoUnder r) : strip r = [] ↔ r = [] := by
  cases r with
  | nil => simp [strip]
  | cons c t =>
    have hc : c ≠ 95 := fun e => h t (by rw [e])
    rw [strip_cons c t hc]; simp

/-- reading a significand with its underscores -/
theorem readSignif_strip (hex : Bool) (s : Bytes) : ∀ g : Signif,
    readSignif hex { g with under := false } (strip s) =
      ({ (readSignif hex g s).1 with under := false }, strip (readSignif hex g s).2) ∧
    ((g.under = true ∨ 95 ∈ s) ↔ ((readSignif hex g s).1.under = true ∨ 95 ∈ (readSignif hex g s).2)) ∧
    (∃ pre, s = pre ++ (readSignif hex g s).2) ∧ NoUnder (readSignif hex g s).2 := by
  induction s with
  | nil =>
    intro g
    refine ⟨rfl, by simp [readSignif], ⟨[], rfl⟩, ?_⟩
    intro t h; simp [readSignif] at h
  | cons c t ih =>
    intro g
    by_cases hc : c = 95
    · subst hc
      have e : readSignif hex g (95 :: t) = readSignif hex { g with under := true } t := by
        rw [readSignif, if_pos rfl]
      obtain ⟨h1, h2, ⟨pre, h3⟩, h4⟩ := ih { g with under := true }
      rw [e, strip_under]
      refine ⟨h1, ?_, ⟨95 :: pre, by rw [List.cons_append, ← h3]⟩, h4⟩
      rw [← h2]; simp
    · have stop : ∀ (e : readSignif hex g (c :: t) = (g, c :: t)) (e2 : ∀ q, readSignif hex { g with under := false } (c :: q) =
          ({ g with under := false }, c :: q)),
          readSignif hex { g with under := false } (strip (c :: t)) =
            ({ (readSignif hex g (c :: t)).1 with under := false }, strip (readSignif hex g (c :: t)).2) ∧
          ((g.under = true ∨ 95 ∈ c :: t) ↔ ((readSignif hex g (c :: t)).1.under = true ∨ 95 ∈ (readSignif hex g (c :: t)).2)) ∧
          (∃ pre, c :: t = pre ++ (readSignif hex g (c :: t)).2) ∧ NoUnder (readSignif hex g (c :: t)).2 := by
        intro e e2
        rw [e, strip_cons c t hc]
        refine ⟨e2 _, Iff.rfl, ⟨[], rfl⟩, ?_⟩
        intro q h
        injection h with h _
        exact hc h
      have step : ∀ (g' : Signif) (hu : g'.under = g.under) (e : readSignif hex g (c :: t) = readSignif hex g' t)
          (e2 : ∀ q, readSignif hex { g with under := false } (c :: q) = readSignif hex { g' with under := false } q),
          readSignif hex { g with under := false } (strip (c :: t)) =
            ({ (readSignif hex g (c :: t)).1 with under := false }, strip (readSignif hex g (c :: t)).2) ∧
          ((g.under = true ∨ 95 ∈ c :: t) ↔ ((readSignif hex g (c :: t)).1.under = true ∨ 95 ∈ (readSignif hex g (c :: t)).2)) ∧
          (∃ pre, c :: t = pre ++ (readSignif hex g (c :: t)).2) ∧ NoUnder (readSignif hex g (c :: t)).2 := by
        intro g' hu e e2
        obtain ⟨h1, h2, ⟨pre, h3⟩, h4⟩ := ih g'
        rw [e, strip_cons c t hc, e2]
        refine ⟨h1, ?_, ⟨c :: pre, by rw [List.cons_append, ← h3]⟩, h4⟩
        rw [← h2, hu, List.mem_cons]
        have : ¬ (95 : UInt8) = c := fun h => hc h.symm
        simp [this]
      by_cases hp : c = 46
      · by_cases hd : g.dot = true
        · refine stop ?_ ?_
          · rw [readSignif, if_neg hc, if_pos hp, if_pos hd]
          · intro q; rw [readSignif, if_neg hc, if_pos hp, if_pos hd]
        · refine step { g with dot := true } rfl ?_ ?_
          · rw [readSignif, if_neg hc, if_pos hp, if_neg hd]
          · intro q; rw [readSignif, if_neg hc, if_pos hp, if_neg hd]
      · cases hv : digitVal hex c with
        | none =>
          refine stop ?_ ?_
          · rw [readSignif, if_neg hc, if_neg hp, hv]
          · intro q; rw [readSignif, if_neg hc, if_neg hp, hv]
        | some d =>
          refine step { g with mant := g.mant * (if hex then 16 else 10) + d
                               frac := if g.dot then g.frac + 1 else g.frac
                               digits := true } rfl ?_ ?_
          · rw [readSignif, if_neg hc, if_neg hp, hv]
          · intro q; rw [readSignif, if_neg hc, if_neg hp, hv]

/-- reading the digits of an exponent with their underscores -/
theorem readExpDigits_strip (s : Bytes) : ∀ (e : ℕ) (u : Bool),
    readExpDigits e false (strip s) = ((readExpDigits e u s).1, false, strip (readExpDigits e u s).2.2) ∧
    ((u = true ∨ 95 ∈ s) ↔ ((readExpDigits e u s).2.1 = true ∨ 95 ∈ (readExpDigits e u s).2.2)) ∧
    NoUnder (readExpDigits e u s).2.2 := by
  induction s with
  | nil =>
    intro e u
    refine ⟨rfl, by simp [readExpDigits], ?_⟩
    intro t h; simp [readExpDigits] at h
  | cons c t ih =>
    intro e u
    by_cases hc : c = 95
    · subst hc
      have e1 : readExpDigits e u (95 :: t) = readExpDigits e true t := by rw [readExpDigits, if_pos rfl]
      obtain ⟨h1, h2, h3⟩ := ih e true
      rw [e1, strip_under]
      refine ⟨h1, ?_, h3⟩
      rw [← h2]; simp
    · have hne : ¬ (95 : UInt8) = c := fun h => hc h.symm
      cases hv : digitVal false c with
      | none =>
        have e1 : ∀ (u : Bool) (t : Bytes), readExpDigits e u (c :: t) = (e, u, c :: t) := by
          intro u t; rw [readExpDigits, if_neg hc, hv]
        rw [e1 u t, strip_cons c t hc, e1]
        refine ⟨rfl, Iff.rfl, ?_⟩
        intro q h
        injection h with h _
        exact hc h
      | some d =>
        have e1 : ∀ (u : Bool) (t : Bytes), readExpDigits e u (c :: t) = readExpDigits (if e < 10000 then e * 10 + d else e) u t := by
          intro u t; rw [readExpDigits, if_neg hc, hv]
        obtain ⟨h1, h2, h3⟩ := ih (if e < 10000 then e * 10 + d else e) u
        rw [e1 u t, strip_cons c t hc, e1]
        refine ⟨h1, ?_, h3⟩
        rw [← h2, List.mem_cons]
        simp [hne]

/-- the exponent without its sign, as `readExp` reads it -/
def readUnsignedExp (neg u : Bool) (t : Bytes) : Option (ℤ × Bool × Bytes) :=
  match t with
  | [] => none
  | c :: _ =>
    if 48 ≤ c ∧ c ≤ 57 then
      some (if neg then -((readExpDigits 0 u t).1 : ℤ) else (readExpDigits 0 u t).1, (readExpDigits 0 u t).2.1, (readExpDigits 0 u t).2.2)
    else none

theorem readExp_sign (u : Bool) (s : Option Bool) (t : Bytes) (h : s = none → ∀ q, t ≠ 43 :: q ∧ t ≠ 45 :: q) :
    readExp u (signText s ++ t) = readUnsignedExp (s = some false) u t := by
  rcases s with _ | _ | _
  · have h' := h rfl
    unfold readExp
    dsimp only
    simp only [signText, List.nil_append]
    split
    · rename_i q; exact absurd rfl (h' q).1
    · rename_i q; exact absurd rfl (h' q).2
    · rfl
  · rfl
  · rfl

theorem split_sign (t : Bytes) : ∃ (s : Option Bool) (r : Bytes), t = signText s ++ r ∧ (s = none → ∀ q, r ≠ 43 :: q ∧ r ≠ 45 :: q) := by
  by_cases h1 : ∃ q, t = 43 :: q
  · obtain ⟨q, rfl⟩ := h1; exact ⟨some true, q, rfl, by simp⟩
  · by_cases h2 : ∃ q, t = 45 :: q
    · obtain ⟨q, rfl⟩ := h2; exact ⟨some false, q, rfl, by simp⟩
    · exact ⟨none, t, rfl, fun _ q => ⟨fun h => h1 ⟨q, h⟩, fun h => h2 ⟨q, h⟩⟩⟩

theorem strip_sign (s : Option Bool) (t : Bytes) : strip (signText s ++ t) = signText s ++ strip t := by
  rw [strip_append, strip_self]
  rcases s with _ | _ | _ <;> simp [signText]

theorem mem_sign (s : Option Bool) (t : Bytes) : 95 ∈ signText s ++ t ↔ 95 ∈ t := by
  rw [List.mem_append]
  rcases s with _ | _ | _ <;> simp [signText]

/-- the flag of the underscores is raised when there is one -/
theorem readExp_flag (u : Bool) (t : Bytes) (e : ℤ) (w : Bool) (h : readExp u t = some (e, w, [])) (hu : u = true ∨ 95 ∈ t) : w = true := by
  obtain ⟨s, r, rfl, hs⟩ := split_sign t
  rw [readExp_sign u s r hs] at h
  rw [mem_sign] at hu
  unfold readUnsignedExp at h
  cases r with
  | nil => simp at h
  | cons c q =>
    dsimp only at h
    by_cases hc : 48 ≤ c ∧ c ≤ 57
    · rw [if_pos hc] at h
      simp only [Option.some.injEq, Prod.mk.injEq] at h
      obtain ⟨_, h1, h2⟩ := h
      obtain ⟨_, h3, _⟩ := readExpDigits_strip (c :: q) 0 u
      have := h3.1 hu
      rw [h1, h2] at this
      simpa using this
    · rw [if_neg hc] at h; exact absurd h (by simp)

/-- reading an exponent with its underscores, if none stands before the first digit -/
theorem readExp_strip (u : Bool) (t : Bytes) (h0 : ∀ s r, t = signText s ++ r → NoUnder r) (e : ℤ) :
    (∃ w, readExp u t = some (e, w, [])) ↔ readExp false (strip t) = some (e, false, []) := by
  obtain ⟨s, r, rfl, hs⟩ := split_sign t
  have hr := h0 s r rfl
  have hs' : s = none → ∀ q, strip r ≠ 43 :: q ∧ strip r ≠ 45 :: q := by
    intro h q
    cases r with
    | nil => simp [strip]
    | cons c z =>
      have hc : c ≠ 95 := fun e => hr z (by rw [e])
      rw [strip_cons c z hc]
      have := hs h z
      constructor <;> (intro h2; injection h2 with h3 _; subst h3)
      · exact this.1 rfl
      · exact this.2 rfl
  rw [readExp_sign u s r hs, strip_sign, readExp_sign false s (strip r) hs']
  cases r with
  | nil => simp [readUnsignedExp, strip]
  | cons c z =>
    have hc : c ≠ 95 := fun e => hr z (by rw [e])
    obtain ⟨h1, h2, h3⟩ := readExpDigits_strip (c :: z) 0 u
    rw [strip_cons c z hc] at h1 ⊢
    unfold readUnsignedExp
    dsimp only
    by_cases hd : 48 ≤ c ∧ c ≤ 57
    · rw [if_pos hd, if_pos hd, h1]
      simp only [Option.some.injEq, Prod.mk.injEq, true_and]
      rw [noUnder_strip_nil h3]
      constructor
      · rintro ⟨w, a, _, b⟩; exact ⟨a, b⟩
      · rintro ⟨a, b⟩; exact ⟨_, a, rfl, b⟩
    · rw [if_neg hd, if_neg hd]; simp

/-- a number with an underscore is accepted only if the underscores are in order -/
theorem readMagnitude_needs (whole s : Bytes) (v : ℝ) (h : readMagnitude whole s = some v) (hu : 95 ∈ s) : underscoreOK whole = true := by
  have hs : 95 ∈ (hexStart s).2 := by
    rcases hexStart_cases s with ⟨big, s', e, _, hs⟩ | ⟨hs, _⟩
    · rw [hs]
      rw [e, List.mem_append] at hu
      rcases hu with hu | hu
      · cases big <;> simp [hexText] at hu
      · exact hu
    · rw [hs]; exact hu
  unfold readMagnitude at h
  dsimp only at h
  obtain ⟨_, hflag, _, _⟩ := readSignif_strip (hexStart s).1 (hexStart s).2 ⟨0, 0, false, false, false⟩
  have hf := hflag.1 (Or.inr hs)
  generalize readSignif (hexStart s).1 ⟨0, 0, false, false, false⟩ (hexStart s).2 = p at h hf
  obtain ⟨g, r⟩ := p
  dsimp only at h hf
  by_cases hd : g.digits = false
  · rw [if_pos hd] at h; exact absurd h (by simp)
  rw [if_neg hd] at h
  cases r with
  | nil =>
    dsimp only at h
    by_cases hx : (hexStart s).1 = true
    · rw [if_pos hx] at h; exact absurd h (by simp)
    rw [if_neg hx] at h
    by_cases hq : ([] : Bytes) = [] ∧ (g.under = true → underscoreOK whole = true)
    · exact hq.2 (by simpa using hf)
    · rw [if_neg hq] at h; exact absurd h (by simp)
  | cons c t =>
    dsimp only at h
    by_cases hc : lowerCase c = (if (hexStart s).1 then 112 else 101)
    swap
    · rw [if_neg hc] at h; exact absurd h (by simp)
    rw [if_pos hc] at h
    cases hq : readExp g.under t with
    | none => rw [hq] at h; simp at h
    | some w =>
      obtain ⟨e', u', rest⟩ := w
      rw [hq] at h
      dsimp only at h
      by_cases hdone : rest = [] ∧ (u' = true → underscoreOK whole = true)
      swap
      · rw [if_neg hdone] at h; exact absurd h (by simp)
      obtain ⟨rfl, h2⟩ := hdone
      apply h2
      refine readExp_flag g.under t e' u' hq ?_
      rcases hf with hf | hf
      · exact Or.inl hf
      · rcases List.mem_cons.1 hf with hf | hf
        · exfalso
          rw [← hf] at hc
          cases hh : (hexStart s).1 <;> rw [hh] at hc <;> revert hc <;> decide
        · exact Or.inr hf

/-- a number whose underscores are in order is the number without them -/
theorem readMagnitude_strip (whole whole' s s' : Bytes) (hex : Bool) (hs : hexStart s = (hex, s')) (hss : hexStart (strip s) = (hex, strip s'))
    (hn : ∀ a c b, s' = a ++ c :: 95 :: b → c ≠ 43 ∧ c ≠ 45 ∧ c ≠ expLetter hex false ∧ c ≠ expLetter hex true)
    (hok : underscoreOK whole = true) (v : ℝ) : readMagnitude whole s = some v ↔ readMagnitude whole' (strip s) = some v := by
  unfold readMagnitude
  rw [hs, hss]
  dsimp only
  obtain ⟨h1, _, ⟨pre, h3⟩, h4⟩ := readSignif_strip hex s' ⟨0, 0, false, false, false⟩
  dsimp only at h1
  rw [h1]
  generalize readSignif hex ⟨0, 0, false, false, false⟩ s' = p at h3 h4 ⊢
  obtain ⟨g, r⟩ := p
  dsimp only at h3 h4 ⊢
  by_cases hd : g.digits = false
  · rw [if_pos hd, if_pos hd]
  rw [if_neg hd, if_neg hd]
  cases r with
  | nil =>
    simp [strip, hok]
  | cons c t =>
    have hc0 : c ≠ 95 := fun e => h4 t (by rw [e])
    rw [strip_cons c t hc0]
    dsimp only
    by_cases hc : lowerCase c = (if hex then 112 else 101)
    swap
    · rw [if_neg hc, if_neg hc]
    rw [if_pos hc, if_pos hc]
    have ht : ∀ sg q, t = signText sg ++ q → NoUnder q := by
      intro sg q e z ez
      rw [ez] at e
      rcases sg with _ | _ | _
      · simp only [signText, List.nil_append] at e
        have := hn pre c z (by rw [h3, e])
        rcases (lowerCase_exp hex c).1 hc with h | h
        · exact this.2.2.1 h
        · exact this.2.2.2 h
      · have := hn (pre ++ [c]) 45 z (by rw [h3, e]; simp [signText])
        exact this.2.1 rfl
      · have := hn (pre ++ [c]) 43 z (by rw [h3, e]; simp [signText])
        exact this.1 rfl
    have key := readExp_strip g.under t ht
    cases hq : readExp g.under t with
    | none =>
      cases hq' : readExp false (strip t) with
      | none => simp
      | some w =>
        obtain ⟨e', u', rest⟩ := w
        dsimp only
        by_cases hr : rest = []
        swap
        · rw [if_neg (fun h => hr h.1)]
        exfalso
        subst hr
        have hu' : u' = false := by
          rw [readExp_iff false (strip t) (not_mem_strip t)] at hq'
          obtain ⟨_, _, _, _, _, h, _⟩ := hq'
          exact h
        subst hu'
        obtain ⟨w, hw⟩ := (key e').2 hq'
        rw [hq] at hw
        exact absurd hw (by simp)
    | some w =>
      obtain ⟨e', u', rest⟩ := w
      dsimp only
      by_cases hr : rest = []
      · subst hr
        rw [(key e').1 ⟨u', hq⟩]
        dsimp only
        simp [hok]
      · rw [if_neg (fun h => hr h.1)]
        cases hq' : readExp false (strip t) with
        | none => simp
        | some w2 =>
          obtain ⟨e2, u2, rest2⟩ := w2
          dsimp only
          by_cases hr2 : rest2 = []
          swap
          · rw [if_neg (fun h => hr2 h.1)]
          exfalso
          subst hr2
          have hu2 : u2 = false := by
            rw [readExp_iff false (strip t) (not_mem_strip t)] at hq'
            obtain ⟨_, _, _, _, _, h, _⟩ := hq'
            exact h
          subst hu2
          obtain ⟨w, hw⟩ := (key e2).2 hq'
          rw [hq] at hw
          simp only [Option.some.injEq, Prod.mk.injEq] at hw
          exact hr hw.2.2

/-! ## the places of the underscores -/

/-- a digit ends the text, or the text is empty and a digit was seen before -/
def PrevOK (hex saw : Bool) (a : Bytes) : Prop := (a = [] ∧ saw = true) ∨ ∃ a' c, a = a' ++ [c] ∧ IsDigitOf hex c

/-- a digit begins the text -/
def NextOK (hex : Bool) (b : Bytes) : Prop := ∃ c b', b = c :: b' ∧ IsDigitOf hex c

/-- every underscore is between two digits -/
def SepFrom (hex saw : Bool) (s : Bytes) : Prop := ∀ a b, s = a ++ 95 :: b → PrevOK hex saw a ∧ NextOK hex b

theorem prevOK_cons (hex saw : Bool) (c : UInt8) (a : Bytes) : PrevOK hex saw (c :: a) ↔ PrevOK hex (decide (IsDigitOf hex c)) a := by
  unfold PrevOK
  constructor
  · rintro (⟨h, _⟩ | ⟨a', d, h, hd⟩)
    · exact absurd h (by simp)
    · cases a' with
      | nil =>
        simp only [List.nil_append, List.cons.injEq] at h
        left
        rw [h.1]
        exact ⟨h.2, by simpa using hd⟩
      | cons e a'' =>
        simp only [List.cons_append, List.cons.injEq] at h
        exact Or.inr ⟨a'', d, h.2, hd⟩
  · rintro (⟨rfl, h⟩ | ⟨a', d, rfl, hd⟩)
    · exact Or.inr ⟨[], c, rfl, by simpa using h⟩
    · exact Or.inr ⟨c :: a', d, rfl, hd⟩

theorem sepFrom_cons (hex saw : Bool) (c : UInt8) (t : Bytes) :
    SepFrom hex saw (c :: t) ↔ (c = 95 → saw = true ∧ NextOK hex t) ∧ SepFrom hex (decide (IsDigitOf hex c)) t := by
  constructor
  · intro h
    refine ⟨?_, ?_⟩
    · rintro rfl
      obtain ⟨h1, h2⟩ := h [] t rfl
      refine ⟨?_, h2⟩
      rcases h1 with ⟨_, h1⟩ | ⟨a', d, h1, _⟩
      · exact h1
      · exact absurd h1 (by simp)
    · intro a b e
      obtain ⟨h1, h2⟩ := h (c :: a) b (by rw [e]; rfl)
      exact ⟨(prevOK_cons hex saw c a).1 h1, h2⟩
  · rintro ⟨h1, h2⟩ a b e
    cases a with
    | nil =>
      simp only [List.nil_append, List.cons.injEq] at e
      obtain ⟨h3, h4⟩ := h1 e.1
      rw [← e.2]
      exact ⟨Or.inl ⟨rfl, h3⟩, h4⟩
    | cons d a =>
      simp only [List.cons_append, List.cons.injEq] at e
      obtain ⟨h3, h4⟩ := h2 a b e.2
      rw [← e.1]
      exact ⟨(prevOK_cons hex saw c a).2 h3, h4⟩

/-- the loop of `underscoreOK` -/
theorem underscoresFrom_iff (hex : Bool) (s : Bytes) : ∀ saw : Option Bool,
    underscoresFrom hex saw s = true ↔ SepFrom hex (decide (saw = some true)) s ∧ (saw = some false → NextOK hex s) := by
  induction s with
  | nil =>
    intro saw
    have h1 : SepFrom hex (decide (saw = some true)) [] := by intro a b h; exact absurd h (by simp)
    have h2 : ¬ NextOK hex [] := by rintro ⟨c, b, h, _⟩; exact absurd h (by simp)
    rcases saw with _ | _ | _ <;> simp [underscoresFrom, h1, h2]
    all_goals first
      | exact h1
      | (intro a b h; exact absurd h (by simp))
  | cons c t ih =>
    intro saw
    rw [sepFrom_cons]
    have hnext : NextOK hex (c :: t) ↔ IsDigitOf hex c := by
      constructor
      · rintro ⟨d, b, h, hd⟩
        injection h with h _
        rw [h]; exact hd
      · intro h; exact ⟨c, t, rfl, h⟩
    rw [hnext]
    by_cases hd : IsDigitOf hex c
    · have hn := (digit_not hex hd).1
      rw [underscoresFrom, if_pos ((okDigit_iff hex c).2 hd), ih]
      simp [hd, hn]
    · rw [underscoresFrom, if_neg (fun h => hd ((okDigit_iff hex c).1 h))]
      by_cases hc : c = 95
      · rw [if_pos hc]
        by_cases hs : saw = some true
        · rw [if_pos hs, ih]
          simp [hs, hc]
          constructor
          · rintro ⟨h1, h2⟩
            refine ⟨h2, ?_⟩
            have : decide (IsDigitOf hex 95) = false := by cases hex <;> decide
            rw [this]; exact h1
          · rintro ⟨h1, h2⟩
            refine ⟨?_, h1⟩
            have : decide (IsDigitOf hex 95) = false := by cases hex <;> decide
            rw [this] at h2; exact h2
        · rw [if_neg hs]
          simp [hs, hc]
      · rw [if_neg hc]
        by_cases hs : saw = some false
        · rw [if_pos hs]
          simp [hs, hd]
        · rw [if_neg hs, ih]
          simp [hs, hc, hd]

/-- `underscoreOK` after the sign -/
def underBody (t : Bytes) : Bool :=
  match t with
  | 48 :: c :: r =>
    if lowerCase c = 98 ∨ lowerCase c = 111 ∨ lowerCase c = 120 then underscoresFrom (lowerCase c = 120) (some true) r
    else underscoresFrom false none t
  | _ => underscoresFrom false none t

theorem underscoreOK_sign (s : Option Bool) (t : Bytes) (h : s = none → ∀ q, t ≠ 43 :: q ∧ t ≠ 45 :: q) :
    underscoreOK (signText s ++ t) = underBody t := by
  rcases s with _ | _ | _
  · have h' := h rfl
    unfold underscoreOK
    dsimp only
    simp only [signText, List.nil_append]
    split
    · rename_i q; exact absurd rfl (h' q).1
    · rename_i q; exact absurd rfl (h' q).2
    · rfl
  · rfl
  · rfl

/-- a prefix of a binary, octal or hexadecimal literal -/
def PrefixLetter (c : UInt8) : Prop := lowerCase c = 98 ∨ lowerCase c = 111 ∨ lowerCase c = 120

theorem underBody_prefix (c : UInt8) (r : Bytes) (h : PrefixLetter c) :
    underBody (48 :: c :: r) = underscoresFrom (lowerCase c = 120) (some true) r := by
  unfold underBody
  exact if_pos h

theorem underBody_other (t : Bytes) (h : ∀ c r, t = 48 :: c :: r → ¬ PrefixLetter c) : underBody t = underscoresFrom false none t := by
  unfold underBody
  split
  · rename_i c r
    exact if_neg (h c r rfl)
  · rfl

/-- a text in order is the beginning of a hexadecimal literal if it is without its underscores -/
theorem underBody_start (t : Bytes) (x : UInt8) (r : Bytes) (hx : x = 120 ∨ x = 88) (h : underBody t = true) (hs : strip t = 48 :: x :: r) :
    ∃ r', t = 48 :: x :: r' ∧ strip r' = r := by
  have hx95 : x ≠ 95 := by rcases hx with rfl | rfl <;> decide
  have hxd : ¬ IsDigitOf false x := by rcases hx with rfl | rfl <;> decide
  by_cases hp : ∃ c q, t = 48 :: c :: q ∧ PrefixLetter c
  · obtain ⟨c, q, rfl, hc⟩ := hp
    have hc95 : c ≠ 95 := by rintro rfl; rcases hc with h | h | h <;> revert h <;> decide
    rw [strip_cons _ _ (by decide), strip_cons _ _ hc95] at hs
    simp only [List.cons.injEq, true_and] at hs
    exact ⟨q, by rw [hs.1], hs.2⟩
  · rw [underBody_other t (fun c q e hc => hp ⟨c, q, e, hc⟩), underscoresFrom_iff] at h
    obtain ⟨h, _⟩ := h
    exfalso
    rcases t with _ | ⟨c, t⟩
    · simp [strip] at hs
    · by_cases hc : c = 95
      · subst hc
        obtain ⟨h1, _⟩ := (sepFrom_cons _ _ _ _).1 h
        simpa using (h1 rfl).1
      · rw [strip_cons c t hc] at hs
        simp only [List.cons.injEq] at hs
        obtain ⟨rfl, hs⟩ := hs
        rcases t with _ | ⟨d, t⟩
        · simp [strip] at hs
        · by_cases hd : d = 95
          · subst hd
            have h2 := ((sepFrom_cons _ _ _ _).1 h).2
            obtain ⟨_, d, b, rfl, hdd⟩ := ((sepFrom_cons _ _ _ _).1 h2).1 rfl
            have hdn := (digit_not false hdd).1
            rw [strip_under, strip_cons d b hdn] at hs
            simp only [List.cons.injEq] at hs
            rw [hs.1] at hdd
            exact hxd hdd
          · rw [strip_cons d t hd] at hs
            simp only [List.cons.injEq] at hs
            refine hp ⟨d, t, rfl, ?_⟩
            rw [hs.1]
            rcases hx with rfl | rfl
            · exact Or.inr (Or.inr (by decide))
            · exact Or.inr (Or.inr (by decide))

/-- no underscore follows a letter or a sign -/
theorem sepFrom_prev {hex saw : Bool} {s : Bytes} (h : SepFrom hex saw s) (a : Bytes) (c : UInt8) (b : Bytes) (e : s = a ++ c :: 95 :: b) :
    IsDigitOf hex c := by
  obtain ⟨h1, _⟩ := h (a ++ [c]) b (by rw [e]; simp)
  rcases h1 with ⟨h1, _⟩ | ⟨a', d, h1, hd⟩
  · exact absurd h1 (by simp)
  · obtain ⟨_, h2⟩ := List.append_inj' h1 rfl
    injection h2 with h2 _
    rw [h2]; exact hd

theorem digit_notExp (hex : Bool) {c : UInt8} (h : IsDigitOf hex c) :
    c ≠ 43 ∧ c ≠ 45 ∧ c ≠ expLetter hex false ∧ c ≠ expLetter hex true := by
  refine ⟨(digit_not hex h).2.2.1, (digit_not hex h).2.2.2, ?_, ?_⟩ <;> (rintro rfl; revert h; cases hex <;> decide)

/-- a number whose underscores are in order is the number without them -/
theorem readMagnitude_under (whole whole' t : Bytes) (hok : underscoreOK whole = true) (hb : underBody t = true) (v : ℝ) :
    readMagnitude whole t = some v ↔ readMagnitude whole' (strip t) = some v := by
  rcases hexStart_cases t with ⟨big, s', e, hne, hs⟩ | ⟨hs, hno⟩
  · -- hexadecimal
    have hu : SepFrom true true s' := by
      have hx : ∃ x, t = 48 :: x :: s' ∧ lowerCase x = 120 := by
        cases big
        · exact ⟨120, e, by decide⟩
        · exact ⟨88, e, by decide⟩
      obtain ⟨x, e2, hx⟩ := hx
      rw [e2, underBody_prefix x s' (Or.inr (Or.inr hx)), underscoresFrom_iff] at hb
      simpa [hx] using hb.1
    have hne' : strip s' ≠ [] := by
      rcases s' with _ | ⟨c, q⟩
      · exact absurd rfl hne
      · by_cases hc : c = 95
        · subst hc
          obtain ⟨_, d, b, rfl, hd⟩ := ((sepFrom_cons _ _ _ _).1 hu).1 rfl
          rw [strip_under, strip_cons d b (digit_not true hd).1]; simp
        · rw [strip_cons c q hc]; simp
    have hss : hexStart (strip t) = (true, strip s') := by
      have e2 : strip t = hexText (some big) ++ strip s' := by
        rw [e, strip_append, strip_self]
        cases big <;> simp [hexText]
      rcases hexStart_cases (strip t) with ⟨big', s'', e3, _, h3⟩ | ⟨_, h3⟩
      · rw [h3]
        rw [e3] at e2
        cases big <;> cases big' <;> simp [hexText] at e2
        · rw [e2]
        · rw [e2]
      · exact absurd (h3 big (strip s') e2) hne'
    refine readMagnitude_strip whole whole' t s' true hs hss ?_ hok v
    intro a c b e4
    exact digit_notExp true (sepFrom_prev hu a c b e4)
  · have hss : hexStart (strip t) = (false, strip t) := by
      rcases hexStart_cases (strip t) with ⟨big, s'', e3, hne, h3⟩ | ⟨h3, _⟩
      · exfalso
        have hx : ∃ x, (x = 120 ∨ x = 88) ∧ hexText (some big) = [48, x] := by
          cases big
          · exact ⟨120, Or.inl rfl, rfl⟩
          · exact ⟨88, Or.inr rfl, rfl⟩
        obtain ⟨x, hx, ex⟩ := hx
        obtain ⟨r', e4, e5⟩ := underBody_start t x s'' hx hb (by rw [e3, ex]; rfl)
        have h6 := hno big r' (by rw [e4, ex]; rfl)
        rw [h6] at e5
        exact hne (by rw [← e5]; rfl)
      · exact h3
    refine readMagnitude_strip whole whole' t t false hs hss ?_ hok v
    intro a c b e4
    by_cases hp : ∃ d q, t = 48 :: d :: q ∧ PrefixLetter d
    · obtain ⟨d, q, e5, hd⟩ := hp
      rw [e5, underBody_prefix d q hd, underscoresFrom_iff] at hb
      have hsep := hb.1
      rw [e5] at e4
      rcases a with _ | ⟨a1, _ | ⟨a2, a⟩⟩
      · simp only [List.nil_append, List.cons.injEq] at e4
        exfalso
        rw [e4.2.1] at hd
        rcases hd with h | h | h <;> revert h <;> decide
      · simp only [List.cons_append, List.nil_append, List.cons.injEq] at e4
        rw [← e4.2.1]
        refine ⟨?_, ?_, ?_, ?_⟩ <;> (rintro rfl; rcases hd with h | h | h <;> revert h <;> decide)
      · simp only [List.cons_append, List.cons.injEq] at e4
        by_cases hx : lowerCase d = 120
        · -- `0x` alone
          exfalso
          rcases (lowerCase_x d).1 hx with rfl | rfl
          · have := hno false q (by rw [e5]; rfl)
            rw [this] at e4
            exact absurd e4.2.2 (by simp)
          · have := hno true q (by rw [e5]; rfl)
            rw [this] at e4
            exact absurd e4.2.2 (by simp)
        · rw [show decide (lowerCase d = 120) = false by simpa using hx] at hsep
          exact digit_notExp false (sepFrom_prev hsep a c b e4.2.2)
    · rw [underBody_other t (fun d q e hd => hp ⟨d, q, e, hd⟩), underscoresFrom_iff] at hb
      exact digit_notExp false (sepFrom_prev hb.1 a c b e4)

/-! ## whole literals -/

/-- the literal after its sign -/
def Spec.NumLit.rest (l : NumLit) : Bytes := hexText l.hex ++ (l.int ++ (fracText l.frac ++ expText l.hex.isSome l.exp))

theorem numLit_text_eq (l : NumLit) : l.text = signText l.sign ++ l.rest := rfl

/-- a literal begins with a digit or a point after its sign -/
theorem numLit_rest_head (l : NumLit) (h : l.Ok) : ∀ q, l.rest ≠ 43 :: q ∧ l.rest ≠ 45 :: q := by
  obtain ⟨sg, hex, i, f, x⟩ := l
  intro q
  unfold NumLit.rest
  cases hex with
  | some b => cases b <;> simp [hexText]
  | none =>
    simp only [hexText, List.nil_append]
    cases i with
    | cons c t =>
      have := digit_not false (h.int c (by simp))
      simp [this.2.2.1, this.2.2.2]
    | nil =>
      cases f with
      | none => exact absurd h.some (by simp)
      | some f => simp [fracText]

theorem sign_cancel {a b : Option Bool} {r r' : Bytes} (ha : ∀ q, r ≠ 43 :: q ∧ r ≠ 45 :: q) (hb : b = none → ∀ q, r' ≠ 43 :: q ∧ r' ≠ 45 :: q)
    (e : signText a ++ r = signText b ++ r') : b = none ∧ a = none ∧ r = r' ∨ b ≠ none ∧ a = b ∧ r = r' := by
  rcases a with _ | _ | _ <;> rcases b with _ | _ | _ <;> simp [signText] at e ⊢
  · exact e
  · exact (ha r').2 e
  · exact (ha r').1 e
  · exact (hb rfl r).2 e.symm
  · exact e
  · exact (hb rfl r).1 e.symm
  · exact e

theorem decimal_second (i : Bytes) (f : Option Bytes) (x : Option (Bool × Option Bool × Bytes)) (hi : ∀ c ∈ i, IsDigitOf false c)
    (hne : i ≠ [] ∨ f.getD [] ≠ []) (c : UInt8) (r : Bytes) (h : i ++ (fracText f ++ expText false x) = 48 :: c :: r) :
    ¬ PrefixLetter c := by
  rcases i with _ | ⟨a, _ | ⟨b, i⟩⟩
  · cases f with
    | none => simp at hne
    | some f => simp [fracText] at h
  · cases f with
    | some f =>
      simp [fracText] at h
      rw [← h.2.1]
      rintro (h | h | h) <;> revert h <;> decide
    | none =>
      cases x with
      | none => simp [fracText, expText] at h
      | some q =>
        obtain ⟨b2, sg, y⟩ := q
        simp [fracText, expText] at h
        rw [← h.2.1]
        cases b2 <;> (rintro (h | h | h) <;> revert h <;> decide)
  · have hb := hi b (by simp)
    simp at h
    rw [← h.2.1]
    have h2 : lowerCase b = b := lowerCase_digit ((isDec_iff b).1 hb)
    intro hp
    unfold PrefixLetter at hp
    rw [h2] at hp
    rcases hp with rfl | rfl | rfl <;> revert hb <;> decide

theorem under_shift (p r : Bytes) (hp : 95 ∉ p) (Q : Bytes → Bytes → Prop) :
    (∀ a b, p ++ r = a ++ 95 :: b → Q a b) ↔ ∀ a b, r = a ++ 95 :: b → Q (p ++ a) b := by
  constructor
  · intro h a b e
    exact h (p ++ a) b (by rw [e, List.append_assoc])
  · intro h a b e
    rcases List.append_eq_append_iff.1 e with ⟨a', h1, h2⟩ | ⟨c', h1, h2⟩
    · rw [h1]; exact h a' b h2
    · cases c' with
      | nil =>
        rw [List.append_nil] at h1
        have := h [] b (by simpa using h2.symm)
        rw [List.append_nil] at this
        rw [← h1]; exact this
      | cons d c' =>
        exfalso
        injection h2 with h2 _
        exact hp (by rw [h1, ← h2]; simp)

theorem last_append (p a : Bytes) (hex : Bool) (hp : ∀ p' c, p = p' ++ [c] → ¬ IsDigitOf hex c) :
    (∃ a' c, p ++ a = a' ++ [c] ∧ IsDigitOf hex c) ↔ ∃ a' c, a = a' ++ [c] ∧ IsDigitOf hex c := by
  constructor
  · rintro ⟨a', c, e, hc⟩
    rcases List.eq_nil_or_concat a with rfl | ⟨a2, d, rfl⟩
    · rw [List.append_nil] at e
      exact absurd hc (hp a' c e)
    · rw [List.concat_eq_append, ← List.append_assoc] at e
      obtain ⟨_, h2⟩ := List.append_inj' e rfl
      injection h2 with h2 _
      exact ⟨a2, d, by simp, by rw [h2]; exact hc⟩
  · rintro ⟨a', c, rfl, hc⟩
    exact ⟨p ++ a', c, by simp, hc⟩

theorem not_mem_sign (s : Option Bool) : 95 ∉ signText s := by rcases s with _ | _ | _ <;> simp [signText]

theorem sign_last (s : Option Bool) (hex : Bool) (p' : Bytes) (c : UInt8) (e : signText s = p' ++ [c]) : ¬ IsDigitOf hex c := by
  rcases s with _ | _ | _
  · simp [signText] at e
  · have : c = 45 := by
      obtain ⟨_, h⟩ := List.append_inj' (show [] ++ [45] = p' ++ [c] from e) rfl
      injection h with h _; exact h.symm
    subst this; cases hex <;> decide
  · have : c = 43 := by
      obtain ⟨_, h⟩ := List.append_inj' (show [] ++ [43] = p' ++ [c] from e) rfl
      injection h with h _; exact h.symm
    subst this; cases hex <;> decide

/-- the specification and the loop agree on the places of the underscores -/
theorem separating_iff (l : NumLit) (h : l.Ok) (t : Bytes) (hs : strip t = l.rest) :
    Separating l.sign l.hex.isSome (signText l.sign ++ t) ↔ underBody t = true := by
  obtain ⟨sg, hex, i, f, x⟩ := l
  cases hex with
  | none =>
    have hno : ∀ c r, t = 48 :: c :: r → ¬ PrefixLetter c := by
      intro c r e hc
      have hc95 : c ≠ 95 := by rintro rfl; rcases hc with h | h | h <;> revert h <;> decide
      rw [e, strip_cons _ _ (by decide), strip_cons _ _ hc95] at hs
      exact decimal_second i f x h.int h.some c (strip r) hs.symm hc
    rw [underBody_other t hno, underscoresFrom_iff]
    unfold Separating
    simp only [Option.isSome_none, Bool.false_eq_true, false_and, or_false]
    rw [under_shift (signText sg) t (not_mem_sign sg)]
    simp only [reduceCtorEq, decide_false, false_imp_iff, and_true]
    unfold SepFrom
    constructor
    · intro h2 a b e
      obtain ⟨h3, h4⟩ := h2 a b e
      exact ⟨Or.inr ((last_append _ a false (fun p' c => sign_last sg false p' c)).1 h3), h4⟩
    · intro h2 a b e
      obtain ⟨h3, h4⟩ := h2 a b e
      refine ⟨(last_append _ a false (fun p' c => sign_last sg false p' c)).2 ?_, h4⟩
      rcases h3 with ⟨_, h3⟩ | h3
      · exact absurd h3 (by simp)
      · exact h3
  | some big =>
    have hx : ∃ x, (x = 120 ∨ x = 88) ∧ hexText (some big) = [48, x] := by
      cases big
      · exact ⟨120, Or.inl rfl, rfl⟩
      · exact ⟨88, Or.inr rfl, rfl⟩
    obtain ⟨y, hy, ey⟩ := hx
    have hs' : strip t = 48 :: y :: (i ++ (fracText f ++ expText true x)) := by
      rw [hs]; unfold NumLit.rest; dsimp only; rw [ey]; rfl
    -- in order after the prefix
    have key : ∀ r, t = 48 :: y :: r →
        (Separating sg true (signText sg ++ t) ↔ underBody t = true) := by
      intro r e
      have hyl : lowerCase y = 120 := (lowerCase_x y).2 hy
      rw [e, underBody_prefix y r (Or.inr (Or.inr hyl)), underscoresFrom_iff]
      simp only [hyl, decide_true, reduceCtorEq, Option.some.injEq, Bool.true_eq_false, false_imp_iff, and_true]
      unfold Separating SepFrom
      have e2 : signText sg ++ 48 :: y :: r = (signText sg ++ [48, y]) ++ r := by simp
      have hp : 95 ∉ signText sg ++ [48, y] := by
        rw [mem_sign]
        rcases hy with rfl | rfl <;> decide
      rw [e2, under_shift _ r hp]
      have hlast : ∀ p' c, signText sg ++ [48, y] = p' ++ [c] → ¬ IsDigitOf true c := by
        intro p' c e3
        have e4 : (signText sg ++ [48]) ++ [y] = p' ++ [c] := by rw [← e3]; simp
        obtain ⟨_, h5⟩ := List.append_inj' e4 rfl
        injection h5 with h5 _
        rw [← h5]
        rcases hy with rfl | rfl <;> decide
      constructor
      · intro h2 a b e3
        obtain ⟨h3, h4⟩ := h2 a b e3
        refine ⟨?_, h4⟩
        rcases h3 with h3 | ⟨_, b2, h3⟩
        · exact Or.inr ((last_append _ a true hlast).1 h3)
        · left
          refine ⟨?_, rfl⟩
          have hl := congrArg List.length h3
          have : (hexText (some b2)).length = 2 := by cases b2 <;> rfl
          simp only [List.length_append, this, List.length_cons, List.length_nil] at hl
          exact List.length_eq_zero_iff.1 (by omega)
      · intro h2 a b e3
        obtain ⟨h3, h4⟩ := h2 a b e3
        refine ⟨?_, h4⟩
        rcases h3 with ⟨rfl, _⟩ | h3
        · right
          refine ⟨rfl, big, ?_⟩
          rw [ey, List.append_nil]
        · left
          exact (last_append _ a true hlast).2 h3
    simp only [Option.isSome_some]
    constructor
    · intro h2
      have hstart : ∃ r, t = 48 :: y :: r := by
        unfold Separating at h2
        rw [under_shift (signText sg) t (not_mem_sign sg)] at h2
        rcases t with _ | ⟨c, t⟩
        · simp [strip] at hs'
        · by_cases hc : c = 95
          · exfalso
            subst hc
            obtain ⟨h3, _⟩ := h2 [] t rfl
            rw [List.append_nil] at h3
            rcases h3 with ⟨a', d, h3, hd⟩ | ⟨_, b2, h3⟩
            · exact sign_last sg true a' d h3 hd
            · have hl := congrArg List.length h3
              have : (hexText (some b2)).length = 2 := by cases b2 <;> rfl
              simp only [List.length_append, this] at hl
              omega
          · rw [strip_cons c t hc] at hs'
            simp only [List.cons.injEq] at hs'
            obtain ⟨rfl, hs'⟩ := hs'
            rcases t with _ | ⟨d, t⟩
            · simp [strip] at hs'
            · by_cases hd : d = 95
              · exfalso
                subst hd
                obtain ⟨_, d, b, rfl, hdd⟩ := h2 [48] t rfl
                rw [strip_under, strip_cons d b (digit_not true hdd).1] at hs'
                simp only [List.cons.injEq] at hs'
                rw [hs'.1] at hdd
                revert hdd
                rcases hy with rfl | rfl <;> decide
              · rw [strip_cons d t hd] at hs'
                simp only [List.cons.injEq] at hs'
                exact ⟨t, by rw [hs'.1]⟩
      obtain ⟨r, e⟩ := hstart
      exact (key r e).1 h2
    · intro h2
      obtain ⟨r, e, _⟩ := underBody_start t y _ hy h2 hs'
      exact (key r e).2 h2

/-- the number that is read -/
noncomputable def Spec.NumLit.readVal (l : NumLit) : ℝ := if l.sign = some false then -l.readMag else l.readMag

theorem readNumber_sign (s : Option Bool) (t : Bytes) (h : s = none → ∀ q, t ≠ 43 :: q ∧ t ≠ 45 :: q) :
    readNumber (signText s ++ t) = if s = some false then (readMagnitude (signText s ++ t) t).map Neg.neg
      else readMagnitude (signText s ++ t) t := by
  rcases s with _ | _ | _
  · have h' := h rfl
    unfold readNumber
    simp only [signText, List.nil_append]
    split
    · rename_i q; exact absurd rfl (h' q).1
    · rename_i q; exact absurd rfl (h' q).2
    · simp
  · simp [signText, readNumber]
  · simp [signText, readNumber]

/-- a text is read as a magnitude if and only if it is a literal, perhaps with underscores -/
theorem readMagnitude_writes (sg : Option Bool) (t : Bytes) (h : sg = none → ∀ q, t ≠ 43 :: q ∧ t ≠ 45 :: q) (v : ℝ) :
    readMagnitude (signText sg ++ t) t = some v ↔ ∃ l : NumLit, l.sign = sg ∧ Writes (signText sg ++ t) l ∧ v = l.readMag := by
  have plain : ∀ w u : Bytes, 95 ∉ u → (readMagnitude w u = some v ↔ ∃ l : NumLit, l.sign = sg ∧ l.Ok ∧ l.rest = u ∧ v = l.readMag) := by
    intro w u hu
    rw [readMagnitude_iff w u hu]
    constructor
    · rintro ⟨⟨_, hex, i, f, x⟩, rfl, hok, ht, hv⟩
      exact ⟨⟨sg, hex, i, f, x⟩, rfl, ⟨hok.int, hok.frac, hok.some, hok.exp, hok.power⟩, ht, hv⟩
    · rintro ⟨⟨_, hex, i, f, x⟩, rfl, hok, ht, hv⟩
      exact ⟨⟨none, hex, i, f, x⟩, rfl, ⟨hok.int, hok.frac, hok.some, hok.exp, hok.power⟩, ht, hv⟩
  have hiff : ∀ l : NumLit, l.sign = sg → (Writes (signText sg ++ t) l ↔ l.Ok ∧ l.rest = strip t ∧ underBody t = true) := by
    rintro l rfl
    unfold Writes
    constructor
    · rintro ⟨h1, h2, h3⟩
      rw [strip_sign, numLit_text_eq] at h2
      have e := List.append_cancel_left h2
      exact ⟨h1, e.symm, (separating_iff l h1 t e).1 h3⟩
    · rintro ⟨h1, h2, h3⟩
      exact ⟨h1, by rw [strip_sign, numLit_text_eq, h2], (separating_iff l h1 t h2.symm).2 h3⟩
  by_cases hu : 95 ∈ t
  · constructor
    · intro hr
      have hok := readMagnitude_needs _ t v hr hu
      have hb := hok
      rw [underscoreOK_sign sg t h] at hb
      rw [readMagnitude_under _ [] t hok hb, plain [] (strip t) (not_mem_strip t)] at hr
      obtain ⟨l, h1, h2, h3, h4⟩ := hr
      exact ⟨l, h1, (hiff l h1).2 ⟨h2, h3, hb⟩, h4⟩
    · rintro ⟨l, h1, h2, h4⟩
      obtain ⟨h2, h3, hb⟩ := (hiff l h1).1 h2
      have hok : underscoreOK (signText sg ++ t) = true := by rw [underscoreOK_sign sg t h]; exact hb
      rw [readMagnitude_under _ [] t hok hb, plain [] (strip t) (not_mem_strip t)]
      exact ⟨l, h1, h2, h3, h4⟩
  · rw [plain _ t hu]
    constructor
    · rintro ⟨l, h1, h2, h3, h4⟩
      refine ⟨l, h1, ⟨h2, ?_, ?_⟩, h4⟩
      · rw [strip_sign, strip_self hu, numLit_text_eq, h1, h3]
      · intro a b e
        exfalso
        exact hu ((mem_sign sg t).1 (by rw [e]; simp))
    · rintro ⟨l, h1, ⟨h2, h3, _⟩, h4⟩
      refine ⟨l, h1, h2, ?_, h4⟩
      rw [strip_sign, strip_self hu, numLit_text_eq, h1] at h3
      exact (List.append_cancel_left h3).symm

/-- **the reader accepts the literals and nothing else** -/
theorem readNumber_iff (s : Bytes) (v : ℝ) : readNumber s = some v ↔ ∃ l : NumLit, Writes s l ∧ v = l.readVal := by
  obtain ⟨sg, t, rfl, hsg⟩ := split_sign s
  rw [readNumber_sign sg t hsg]
  have hsign : ∀ l : NumLit, Writes (signText sg ++ t) l → l.sign = sg := by
    rintro l ⟨h1, h2, h3⟩
    have h2' := h2
    rw [strip_sign, numLit_text_eq] at h2
    have hst : sg = none → ∀ q, strip t ≠ 43 :: q ∧ strip t ≠ 45 :: q := by
      rintro rfl q
      cases t with
      | nil => simp [strip]
      | cons c z =>
        by_cases hc : c = 95
        · exfalso
          subst hc
          obtain ⟨h3, _⟩ := h3 [] z rfl
          rcases h3 with ⟨a', d, h3, _⟩ | ⟨_, b2, h3⟩
          · exact absurd h3 (by simp)
          · have hl := congrArg List.length h3
            have : (hexText (some b2)).length = 2 := by cases b2 <;> rfl
            simp only [List.length_append, this, List.length_nil] at hl
            omega
        · rw [strip_cons c z hc]
          have := hsg rfl z
          constructor <;> (intro h2; injection h2 with h3 _; subst h3)
          · exact this.1 rfl
          · exact this.2 rfl
    rcases sign_cancel (numLit_rest_head l h1) hst h2.symm with ⟨h4, h5, _⟩ | ⟨_, h5, _⟩
    · rw [h4, h5]
    · exact h5
  by_cases hn : sg = some false
  · rw [if_pos hn]
    constructor
    · intro h
      rw [Option.map_eq_some_iff] at h
      obtain ⟨w, h1, h2⟩ := h
      rw [readMagnitude_writes sg t hsg] at h1
      obtain ⟨l, e, h3, h4⟩ := h1
      refine ⟨l, h3, ?_⟩
      unfold NumLit.readVal
      rw [if_pos (by rw [e, hn]), ← h4, ← h2]
    · rintro ⟨l, h3, h4⟩
      have e := hsign l h3
      rw [Option.map_eq_some_iff]
      refine ⟨l.readMag, (readMagnitude_writes sg t hsg _).2 ⟨l, e, h3, rfl⟩, ?_⟩
      rw [h4]
      unfold NumLit.readVal
      rw [if_pos (by rw [e, hn])]
  · rw [if_neg hn]
    rw [readMagnitude_writes sg t hsg]
    constructor
    · rintro ⟨l, e, h3, h4⟩
      refine ⟨l, h3, ?_⟩
      unfold NumLit.readVal
      rw [if_neg (by rw [e]; exact hn), h4]
    · rintro ⟨l, h3, h4⟩
      have e := hsign l h3
      refine ⟨l, e, h3, ?_⟩
      rw [h4]
      unfold NumLit.readVal
      rw [if_neg (by rw [e]; exact hn)]

/-- a literal with an exponent below 10000 is read as the number it denotes -/
theorem numLit_readVal_eq (l : NumLit) (h : l.expMag < 10000) : l.readVal = l.value := by
  obtain ⟨sg, hex, i, f, x⟩ := l
  have hexp : countedExp x = (NumLit.mk sg hex i f x).expVal := by
    cases x with
    | none => rfl
    | some q =>
      obtain ⟨b, s, y⟩ := q
      have h2 : expCount 0 y = digitsNumber 10 y := by
        rw [expCount_small 0 y h]; rfl
      rcases s with _ | _ | _ <;> simp [countedExp, NumLit.expVal, NumLit.expMag, h2]
  have hmag : (NumLit.mk sg hex i f x).readMag = (((digitsNumber (if hex.isSome then 16 else 10) i : ℕ) : ℝ) +
      ((digitsNumber (if hex.isSome then 16 else 10) (f.getD []) : ℕ) : ℝ) / ((if hex.isSome then 16 else 10 : ℕ) : ℝ) ^ (f.getD []).length) *
      (if hex.isSome then 2 else 10 : ℝ) ^ (NumLit.mk sg hex i f x).expVal := by
    unfold NumLit.readMag partsVal
    dsimp only
    rw [hexp, numFrom_append, numFrom_split, numFrom_zero]
    cases hex.isSome
    · simp only [Bool.false_eq_true, if_false]
      push_cast
      have : (10 : ℝ) ^ (f.getD []).length ≠ 0 := by positivity
      rw [add_div, mul_div_cancel_right₀ _ this]
    · simp only [if_true]
      push_cast
      have : (16 : ℝ) ^ (f.getD []).length ≠ 0 := by positivity
      rw [add_div, mul_div_cancel_right₀ _ this]
  unfold NumLit.readVal
  rw [hmag]
  unfold NumLit.value NumLit.base
  dsimp only
  by_cases hs : sg = some false
  · rw [if_pos hs, if_pos hs]; ring
  · rw [if_neg hs, if_neg hs]; ring

end Goosli
