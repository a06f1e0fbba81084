import Verif.Model.Stl
import Verif.Model.Vip
import Mathlib.Tactic.SplitIfs
/-!
# C85: lines that are too long
-/
set_option autoImplicit false
namespace Goosli
open Flt

/-- Specification: the text has a line of 64 KiB or more, that is, so many bytes in a row none of which is a newline. -/
def TooLong (b : Bytes) : Prop := ∃ l : Bytes, l <:+: b ∧ 10 ∉ l ∧ 65536 ≤ l.length

theorem infix_split {a t l : Bytes} {x : UInt8} (hx : x ∉ l) (h : l <:+: a ++ x :: t) : l <:+: a ∨ l <:+: t := by
  obtain ⟨u, v, h⟩ := h
  rw [List.append_assoc] at h
  rcases List.append_eq_append_iff.1 h with ⟨c, h1, h2⟩ | ⟨c, h1, h2⟩
  · -- `u` ends inside `a`
    rcases List.append_eq_append_iff.1 h2 with ⟨e, h3, h4⟩ | ⟨e, h3, h4⟩
    · exact Or.inl ⟨u, e, by rw [h1, h3, List.append_assoc]⟩
    · cases e with
      | nil => exact Or.inl ⟨u, [], by rw [h1, ← List.append_nil c, h3]; simp⟩
      | cons y e =>
        injection h4 with h5 _
        exact absurd (by rw [h3, h5]; simp) hx
  · cases c with
    | nil =>
      cases l with
      | nil => exact Or.inr ⟨[], t, rfl⟩
      | cons y l => injection h2 with h3 _; exact absurd (by rw [h3]; simp) hx
    | cons y c =>
      injection h2 with _ h3
      exact Or.inr ⟨c, v, by rw [h3, List.append_assoc]; rfl⟩

theorem scanLines_tooLong : ∀ (b cur : Bytes), 10 ∉ cur → ((scanLines cur b).2 = true ↔ TooLong (cur ++ b))
  | [], cur, hc => by
    have key : TooLong (cur ++ []) ↔ 65536 ≤ cur.length := by
      rw [List.append_nil]
      exact ⟨fun ⟨l, h1, _, h3⟩ => Nat.le_trans h3 h1.length_le, fun h => ⟨cur, List.infix_rfl, hc, h⟩⟩
    rw [key]
    unfold scanLines
    split_ifs with h1 h2
    · subst h1; simp
    · simp [h2]
    · simp; omega
  | c :: t, cur, hc => by
    unfold scanLines
    split_ifs with h1 h2
    · simp only [true_iff]
      exact ⟨cur, ⟨[], c :: t, rfl⟩, hc, h2⟩
    · subst h1
      have ih := scanLines_tooLong t [] (by simp)
      rw [List.nil_append] at ih
      show (scanLines [] t).2 = true ↔ _
      rw [ih]
      constructor
      · rintro ⟨l, ⟨u, v, h⟩, h3, h4⟩
        exact ⟨l, ⟨cur ++ 10 :: u, v, by rw [← h]; simp⟩, h3, h4⟩
      · rintro ⟨l, h, h3, h4⟩
        rcases infix_split h3 h with h | h
        · exact absurd (Nat.le_trans h4 h.length_le) h2
        · exact ⟨l, h, h3, h4⟩
    · have ih := scanLines_tooLong t (cur ++ [c]) (by simp [hc]; exact fun h => h1 h.symm)
      rw [ih]; simp

variable {α : Type} [Flt α] [FltText α]

/-- **C85.** A text file is loaded without an error exactly if none of its lines is too long; the only error is that one. -/
theorem C85_stl (b : Bytes) : ((loadSTLAscii b : Option (Mesh α) × Option LoadErr).2 = some .tooLong ↔ TooLong b) ∧
    ((loadSTLAscii b : Option (Mesh α) × Option LoadErr).2 = none ↔ ¬ TooLong b) := by
  have h := scanLines_tooLong b [] (by simp)
  rw [List.nil_append] at h
  unfold loadSTLAscii
  by_cases hb : TooLong b
  · simp [h.2 hb, hb]
  · have : (scanLines [] b).2 = false := by
      cases e : (scanLines [] b).2 with
      | false => rfl
      | true => exact absurd (h.1 e) hb
    simp [this, hb]

/-- **C85, files of planes.** Whatever follows a line that is too long is dropped without failure: a file that begins with such a line
gives no planes at all, however many it lists. -/
theorem C85_planes_violated (rest : Bytes) : readPlanes (α := α) (some (List.replicate 65536 120 ++ rest)) = .ok [] := by
  have key : ∀ (b cur : Bytes), 65536 ≤ cur.length → (scanLines cur b).1 = [] := by
    intro b
    induction b with
    | nil =>
      intro cur h
      unfold scanLines
      split_ifs <;> rfl
    | cons c t ih =>
      intro cur h
      unfold scanLines
      split_ifs
      · rfl
      · exact ih _ (by simp; omega)
  have step : ∀ (n : Nat) (cur : Bytes), scanLines cur (List.replicate n 120 ++ rest) = scanLines (cur ++ List.replicate n 120) rest := by
    intro n
    induction n with
    | zero => intro cur; simp
    | succ n ih =>
      intro cur
      rw [List.replicate_succ, List.cons_append]
      show scanLines cur (120 :: (List.replicate n 120 ++ rest)) = _
      rw [scanLines, if_neg (by decide), ih, List.append_assoc]
      rfl
  unfold readPlanes
  simp only
  rw [step, key _ _ (by rw [List.nil_append, List.length_replicate]; exact Nat.le_refl _)]
  rfl

/-! ## Non-vacuity -/

/-- both cases occur -/
example : TooLong (List.replicate 70000 65) ∧ ¬ TooLong [118, 10, 118] := by
  refine ⟨⟨_, List.infix_rfl, ?_, by rw [List.length_replicate]; omega⟩, ?_⟩
  · intro h; have := List.eq_of_mem_replicate h; revert this; decide
  · rintro ⟨l, h, _, h3⟩
    have := h.length_le
    simp at this
    omega

end Goosli
