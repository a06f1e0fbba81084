import Verif.Model.Fill
import Verif.Proofs.Base
import Verif.Proofs.Slice
/-!
# Infill functions, for every arithmetic
-/
set_option linter.unusedSectionVars false
namespace Goosli
open Flt

variable {α : Type} [Flt α]

theorem goLast_of_ne {β : Type} {l : List β} (h : l ≠ []) : ∃ a, goLast l = .ok a := by
  obtain ⟨a, ha⟩ : ∃ a, l.getLast? = some a := ⟨_, List.getLast?_eq_getLast_of_ne_nil h⟩
  exact ⟨a, by unfold goLast; rw [ha]⟩

theorem goAt_zero_of_ne {β : Type} {l : List β} (h : l ≠ []) : ∃ a, goAt l 0 = .ok a := by
  cases l with
  | nil => exact absurd rfl h
  | cons a t => exact ⟨a, rfl⟩

theorem goAt_of_lt {β : Type} {l : List β} {i : Nat} (h : i < l.length) : ∃ a, goAt l i = .ok a ∧ a ∈ l := by
  refine ⟨l[i], ?_, List.getElem_mem h⟩
  unfold goAt
  rw [List.getElem?_eq_getElem h]

theorem nearestFrom_total (p : Point α) : ∀ (L : List (Path α × Bool)) (j : Nat) (acc : NearAcc α),
    (∀ c ∈ L, c.1.points ≠ []) → ∃ r, nearestFrom p j L acc = .ok r ∧ (r.sj = acc.sj ∨ r.sj < j + L.length) := by
  intro L
  induction L with
  | nil => intro j acc _; exact ⟨acc, rfl, Or.inl rfl⟩
  | cons c rest ih =>
    intro j acc hne
    obtain ⟨q, used⟩ := c
    have hne' : ∀ c ∈ rest, c.1.points ≠ [] := fun c hc => hne c (by simp [hc])
    have hq : q.points ≠ [] := hne (q, used) (by simp)
    cases used with
    | true =>
      obtain ⟨r, h1, h2⟩ := ih (j + 1) acc hne'
      refine ⟨r, by simpa [nearestFrom] using h1, ?_⟩
      rw [List.length_cons]; omega
    | false =>
      obtain ⟨f, hf⟩ := goAt_zero_of_ne hq
      obtain ⟨l, hl⟩ := goLast_of_ne hq
      simp only [nearestFrom, Bool.false_eq_true, if_false]
      rw [hf, hl]
      obtain ⟨a1, ha1⟩ : ∃ a, a = (if f.distanceTo p <? acc.d then NearAcc.mk (f.distanceTo p) j false else acc) := ⟨_, rfl⟩
      obtain ⟨a2, ha2⟩ : ∃ a, a = (if l.distanceTo p <? a1.d then NearAcc.mk (l.distanceTo p) j true else a1) := ⟨_, rfl⟩
      obtain ⟨r, h1, h2⟩ := ih (j + 1) a2 hne'
      refine ⟨r, by rw [ha2, ha1] at h1; exact h1, ?_⟩
      have b1 : a1.sj = acc.sj ∨ a1.sj = j := by rw [ha1]; split <;> simp
      have b2 : a2.sj = a1.sj ∨ a2.sj = j := by rw [ha2]; split <;> simp
      rw [List.length_cons]
      rcases h2 with h2 | h2
      · rcases b2 with b2 | b2
        · rcases b1 with b1 | b1
          · left; rw [h2, b2, b1]
          · right; omega
        · right; omega
      · right; omega

theorem sortFillLoop_total (fill : List (Path α)) (h0 : fill ≠ []) (hne : ∀ q ∈ fill, q.points ≠ []) :
    ∀ (k : Nat) (last : Path α) (used : List Bool), last.points ≠ [] → used.length = fill.length →
    ∃ out, sortFillLoop fill k last used = .ok out ∧ out.length = k ∧
      ∀ o ∈ out, ∃ q ∈ fill, o.points = q.points ∨ o.points = q.points.reverse := by
  intro k
  induction k with
  | zero => intro last used _ _; exact ⟨[], rfl, rfl, by simp⟩
  | succ k ih =>
    intro last used hl hu
    obtain ⟨p, hp⟩ := goLast_of_ne hl
    have hne' : ∀ c ∈ (fill.zip used).tail, c.1.points ≠ [] := by
      intro c hc
      obtain ⟨c1, c2⟩ := c
      exact hne _ (List.of_mem_zip (List.mem_of_mem_tail hc)).1
    obtain ⟨r, hr, hsj⟩ := nearestFrom_total p (fill.zip used).tail 1 ⟨maxF32, 0, false⟩ hne'
    have hlt : r.sj < fill.length := by
      have hpos : 0 < fill.length := List.length_pos_iff.2 h0
      have : (fill.zip used).tail.length = fill.length - 1 := by simp [hu]
      rcases hsj with h | h
      · rw [h]; exact hpos
      · rw [this] at h; omega
    obtain ⟨q, hq, hqm⟩ := goAt_of_lt hlt
    obtain ⟨o, ho⟩ : ∃ o : Path α, o = if r.rev then q.reverse else q := ⟨_, rfl⟩
    have hop : o.points = q.points ∨ o.points = q.points.reverse := by
      rw [ho]; split
      · right; rfl
      · left; rfl
    have hon : o.points ≠ [] := by
      rcases hop with h | h <;> rw [h]
      · exact hne q hqm
      · simpa using hne q hqm
    obtain ⟨out, h1, h2, h3⟩ := ih o (used.set r.sj true) hon (by simpa using hu)
    refine ⟨o :: out, ?_, by simp [h2], ?_⟩
    · simp only [sortFillLoop]
      rw [hp]
      show (do let r ← nearestFrom p 1 (fill.zip used).tail ⟨maxF32, 0, false⟩; _) = _
      rw [hr]
      show (do let q ← goAt fill r.sj; _) = _
      rw [hq]
      show (do let rest ← sortFillLoop fill k (if r.rev then q.reverse else q) (used.set r.sj true); _) = _
      rw [← ho, h1]
      rfl
    · intro x hx
      rcases List.mem_cons.1 hx with rfl | hx
      · exact ⟨q, hqm, hop⟩
      · exact h3 x hx

/-- reordering non-empty lines never fails, keeps their number, and yields only given lines, possibly reversed -/
theorem sortFillPathes_total (fill : List (Path α)) (hne : ∀ q ∈ fill, q.points ≠ []) :
    ∃ out, sortFillPathes fill = .ok out ∧ out.length = fill.length ∧
      ∀ o ∈ out, ∃ q ∈ fill, o.points = q.points ∨ o.points = q.points.reverse := by
  match fill, hne with
  | [], _ => exact ⟨[], rfl, rfl, by simp⟩
  | [a], _ => exact ⟨[a], rfl, rfl, fun o ho => ⟨o, ho, Or.inl rfl⟩⟩
  | a :: b :: t, hne =>
    obtain ⟨out, h1, h2, h3⟩ := sortFillLoop_total (a :: b :: t) (by simp) hne (t.length + 1) a
      (true :: List.replicate (t.length + 1) false) (hne a (by simp)) (by simp)
    refine ⟨a :: out, ?_, by simp [h2], ?_⟩
    · simp only [sortFillPathes]
      rw [h1]; rfl
    · intro o ho
      rcases List.mem_cons.1 ho with rfl | ho
      · exact ⟨o, by simp, Or.inl rfl⟩
      · exact h3 o ho

theorem pairUp_points (l : List (Point α)) : ∀ q ∈ pairUp l, ∃ a b, q = ⟨[a, b]⟩ ∧ a ∈ l ∧ b ∈ l := by
  match l with
  | [] => simp [pairUp]
  | [a] => simp [pairUp]
  | a :: b :: t =>
    intro q hq
    simp only [pairUp, List.mem_cons] at hq
    rcases hq with rfl | hq
    · exact ⟨a, b, rfl, by simp, by simp⟩
    · obtain ⟨c, d, h1, h2, h3⟩ := pairUp_points t q hq
      exact ⟨c, d, h1, by simp [h2], by simp [h3]⟩

/-- every fill line joins two of the crossings -/
theorem intersectByPlane_points (S : Sorter) (paths : List (Path α)) (p : Plane α) :
    ∀ q ∈ intersectByPlane S paths p, ∃ a b, q = ⟨[a, b]⟩ ∧ a ∈ planeCrossings paths p ∧ b ∈ planeCrossings paths p := by
  intro q hq
  unfold intersectByPlane at hq
  dsimp only at hq
  split at hq
  · simp at hq
  · have hmem : ∀ x, x ∈ sortCrossings S p (planeCrossings paths p) → x ∈ planeCrossings paths p := by
      intro x hx
      unfold sortCrossings at hx
      split at hx
      · exact (S.perm _ _).mem_iff.1 hx
      · exact (S.perm _ _).mem_iff.1 hx
    generalize sortCrossings S p (planeCrossings paths p) = pts at hq hmem
    split at hq
    · obtain ⟨a, b, h1, h2, h3⟩ := pairUp_points _ _ hq
      exact ⟨a, b, h1, hmem _ h2, hmem _ h3⟩
    · split at hq
      · simp only [List.mem_singleton] at hq
        exact ⟨_, _, hq, hmem _ (by simp), hmem _ (by simp)⟩
      · simp only [List.mem_singleton] at hq
        exact ⟨_, _, hq, hmem _ (by simp), hmem _ (by simp)⟩
      · simp only [List.mem_cons, List.not_mem_nil, or_false] at hq
        rcases hq with hq | hq
        · exact ⟨_, _, hq, hmem _ (by simp), hmem _ (by simp)⟩
        · exact ⟨_, _, hq, hmem _ (by simp), hmem _ (by simp)⟩
      · simp at hq

/-- `mapM` over a list in `Go`, elementwise -/
theorem go_mapM_total {β γ : Type} (f : β → Go γ) (l : List β) (h : ∀ a ∈ l, ∃ b, f a = .ok b) :
    ∃ out, l.mapM f = .ok out ∧ List.Forall₂ (fun a b => f a = .ok b) l out := by
  induction l with
  | nil => exact ⟨[], rfl, .nil⟩
  | cons a t ih =>
    obtain ⟨b, hb⟩ := h a (by simp)
    obtain ⟨out, h1, h2⟩ := ih (fun x hx => h x (by simp [hx]))
    refine ⟨b :: out, ?_, .cons hb h2⟩
    rw [List.mapM_cons, hb, h1]
    rfl

end Goosli
