import Verif.Model.Helpers
import Verif.Model.XR
import Verif.Proofs.Base
/-!
# C19: line simplification terminates exactly for non-negative epsilon
-/
set_option linter.unusedSectionVars false
namespace Goosli
open Flt

section
variable {α : Type} [Flt α]

/-- the index found is the initial one or one of the positions looked at -/
theorem farthest_index (a b : Point α) (t : List (Point α)) : ∀ (i : Nat) (acc : Nat × α),
    farthest a b i t acc = acc ∨ (i ≤ (farthest a b i t acc).1 ∧ (farthest a b i t acc).1 < i + t.length) := by
  induction t with
  | nil => intro i acc; exact Or.inl rfl
  | cons p t ih =>
    intro i acc
    obtain ⟨k, m⟩ := acc
    rw [farthest]
    by_cases h : (m <? p.distanceToLine a b) = true
    · rw [if_pos h]
      rcases ih (i + 1) (i, p.distanceToLine a b) with h' | ⟨h1, h2⟩
      · rw [h']; exact Or.inr ⟨le_refl _, by simp⟩
      · exact Or.inr ⟨by omega, by simp at h2 ⊢; omega⟩
    · rw [if_neg h]
      rcases ih (i + 1) (k, m) with h' | ⟨h1, h2⟩
      · exact Or.inl h'
      · exact Or.inr ⟨by omega, by simp at h2 ⊢; omega⟩

/-- the split point is strictly inside the polyline unless the largest distance is the initial 0 -/
theorem farthestOf_index (ps : List (Point α)) :
    farthestOf ps = (0, lit 0 0) ∨ (1 ≤ (farthestOf ps).1 ∧ (farthestOf ps).1 + 1 < ps.length) := by
  unfold farthestOf
  split
  · rename_i a b _ _
    rcases farthest_index a b ps.tail.dropLast 1 (0, lit 0 0) with h | ⟨h1, h2⟩
    · exact Or.inl h
    · refine Or.inr ⟨h1, ?_⟩
      simp at h2; omega
  · exact Or.inl rfl

theorem goInit_ok {β : Type} {l : List β} (h : l ≠ []) : goInit l = .ok l.dropLast := by
  cases l with
  | nil => exact absurd rfl h
  | cons => rfl

/-- **C19 (termination).** In every arithmetic: if `epsilon` does not compare below 0, every non-empty polyline is
simplified with recursion depth at most its length. -/
theorem C19_terminates (eps : α) (he : (eps <? lit 0 0) = false) : ∀ (n : Nat) (ps : List (Point α)), ps.length = n → ps ≠ [] →
    ∃ r, r ≠ [] ∧ ∀ fuel, ps.length ≤ fuel → simplifyLine fuel ps eps = .ok r := by
  intro n
  induction n using Nat.strong_induction_on with
  | _ n ih =>
    intro ps hn hne
    have hpos : 0 < ps.length := List.length_pos_of_ne_nil hne
    by_cases hc : (eps <? (farthestOf ps).2) = true
    · rcases farthestOf_index ps with h | ⟨h1, h2⟩
      · rw [h] at hc; rw [he] at hc; exact absurd hc (by simp)
      · obtain ⟨r1, hr1, e1⟩ := ih (ps.take ((farthestOf ps).1 + 1)).length (by simp; omega) _ rfl
          (by intro h; have := congrArg List.length h; simp only [List.length_take, List.length_drop, List.length_nil] at this; omega)
        obtain ⟨r2, hr2, e2⟩ := ih (ps.drop (farthestOf ps).1).length (by simp; omega) _ rfl
          (by intro h; have := congrArg List.length h; simp only [List.length_take, List.length_drop, List.length_nil] at this; omega)
        refine ⟨r1.dropLast ++ r2, by simp [hr2], ?_⟩
        intro fuel hf
        obtain ⟨f, rfl⟩ : ∃ f, fuel = f + 1 := ⟨fuel - 1, by omega⟩
        rw [simplifyLine]
        dsimp only
        rw [if_pos hc, if_neg (by omega), e1 f (by simp; omega), e2 f (by simp; omega)]
        simp only [bind, Except.bind, pure, Except.pure, goInit_ok hr1]
    · obtain ⟨x, t, rfl⟩ := List.exists_cons_of_ne_nil hne
      refine ⟨[x, (x :: t).getLast hne], by simp, ?_⟩
      intro fuel hf
      obtain ⟨f, rfl⟩ : ∃ f, fuel = f + 1 := ⟨fuel - 1, by simp at hf; omega⟩
      rw [simplifyLine]
      dsimp only
      rw [if_neg hc]
      simp only [goAt, goLast, List.getElem?_cons_zero, List.getLast?_eq_some_getLast hne, bind, Except.bind, pure, Except.pure]

/-- **C19 (empty polyline).** It panics: `ps[0]` is out of range. -/
theorem C19_empty_panics (eps : α) (he : (eps <? lit 0 0) = false) (fuel : Nat) :
    simplifyLine (fuel + 1) ([] : List (Point α)) eps = .error .index := by
  rw [simplifyLine]
  simp [farthestOf, he, goAt, bind, Except.bind]

end

theorem XR.ltb_trans {a b c : XR} (h1 : (a <? b) = true) (h2 : (b <? c) = true) : (a <? c) = true := by
  change XR.lt a b = true at h1; change XR.lt b c = true at h2; change XR.lt a c = true
  cases a <;> cases b <;> cases c <;> simp_all [XR.lt]
  linarith

theorem farthest_above (eps : XR) (a b : Point XR) (t : List (Point XR)) : ∀ (i : Nat) (acc : Nat × XR),
    (eps <? acc.2) = true → (eps <? (farthest a b i t acc).2) = true := by
  induction t with
  | nil => intro i acc h; exact h
  | cons p t ih =>
    intro i acc h
    obtain ⟨k, m⟩ := acc
    rw [farthest]
    apply ih
    split
    · rename_i hd; exact XR.ltb_trans h hd
    · exact h

/-- **C19 (negative epsilon).** For any points, finite or not, the recursion never ends: no depth is enough. -/
theorem C19_negative_diverges (eps : XR) (he : (eps <? lit 0 0) = true) (fuel : Nat) :
    ∀ ps : List (Point XR), ps ≠ [] → simplifyLine fuel ps eps = .error .diverges := by
  induction fuel with
  | zero => intro ps _; rfl
  | succ f ih =>
    intro ps hne
    have hpos : 0 < ps.length := List.length_pos_of_ne_nil hne
    have hc : (eps <? (farthestOf ps).2) = true := by
      unfold farthestOf
      split
      · exact farthest_above eps _ _ _ _ _ he
      · exact he
    rw [simplifyLine]
    dsimp only
    have hi : (farthestOf ps).1 + 1 ≤ ps.length := by
      rcases farthestOf_index ps with h | ⟨_, h⟩
      · rw [h]; omega
      · omega
    rw [if_pos hc, if_neg (by omega), ih _ (by
      intro h; have := congrArg List.length h; simp only [List.length_take, List.length_drop, List.length_nil] at this; omega)]
    rfl

/-- the hypotheses are met by `epsilon = 0` and by `epsilon = -1` respectively -/
example : ((lit 0 0 : XR) <? lit 0 0) = false ∧ ((lit (-1) 0 : XR) <? lit 0 0) = true := by simp

end Goosli
