import Verif.Proofs.Join
import Verif.Spec.Toy
/-!
# C13: contour assembly conserves segments
-/
set_option linter.unusedSectionVars false
namespace Goosli
open Flt
variable {α : Type} [Flt α]

theorem range_map_getD {β : Type} (p : List β) (d : β) : (List.range p.length).map (fun i => p.getD i d) = p := by
  apply List.ext_getElem
  · simp
  · intro i h1 h2
    simp at h1
    simp [h1]

theorem segCount_concat (g : List (Path α)) (h : g ≠ []) (hn : ∀ p ∈ g, p.points ≠ []) :
    segCount (concatPath g) = (g.map segCount).sum := by
  cases g with
  | nil => exact absurd rfl h
  | cons q t =>
    have hq : 1 ≤ q.points.length := by
      have := hn q (by simp)
      exact List.length_pos_iff.2 this
    have ht : ∀ t : List (Path α), (t.flatMap fun q => q.points.tail).length = (t.map segCount).sum := by
      intro t
      induction t with
      | nil => rfl
      | cons a t ih => simp [ih, segCount]
    simp only [concatPath, segCount, List.length_append, List.map_cons, List.sum_cons]
    rw [ht]
    show q.points.length + (t.map segCount).sum - 1 = q.points.length - 1 + (t.map segCount).sum
    omega

theorem sum_flatten_segCount (gs : List (List (Path α))) (h : ∀ g ∈ gs, g ≠ [])
    (hn : ∀ g ∈ gs, ∀ p ∈ g, p.points ≠ []) :
    ((gs.map concatPath).map segCount).sum = (gs.flatten.map segCount).sum := by
  induction gs with
  | nil => rfl
  | cons g t ih =>
    simp only [List.map_cons, List.sum_cons, List.flatten_cons, List.map_append, List.sum_append]
    rw [segCount_concat g (h g (by simp)) (hn g (by simp)),
      ih (fun g hg => h g (by simp [hg])) (fun g hg => hn g (by simp [hg]))]

/-- **C13.** For every list of non-empty paths, every arithmetic and every permutation the sort may produce,
`JoinPaths3` returns (no panic, no infinite loop) and there is a way to group the input paths -- every input path in
exactly one group, no group empty -- such that the outputs are the groups walked through in order.  No segment is lost,
added or reversed.  If every input path has at least one segment, neighbours in a group meet up to the tolerance. -/
theorem C13_join_conserves (S : Sorter) (p : List (Path α)) (hn : ∀ q ∈ p, q.points ≠ []) :
    ∃ (out : List (Path α)) (groups : List (List (Path α))), joinPaths3 S p = .ok out ∧
      groups.flatten.Perm p ∧ (∀ g ∈ groups, g ≠ []) ∧ out = groups.map concatPath ∧
      (out.map segCount).sum = (p.map segCount).sum ∧
      ((∀ q ∈ p, 2 ≤ q.points.length) → ∀ g ∈ groups, g.IsChain meets) := by
  obtain ⟨l, hl, hm⟩ := sortPs_ok p hn 0
  have hpf : ∀ i < p.length, (p.getD i ⟨[]⟩) ∈ p := by
    intro i hi; simp [hi]
  have hn' : ∀ i < p.length, (p.getD i ⟨[]⟩).points ≠ [] := fun i hi => hn _ (hpf i hi)
  obtain ⟨st, gs, h1, h2⟩ := joinLoop_inv (pf := fun i => p.getD i ⟨[]⟩) (n := p.length) hn' (S.run joinLess l) _ _
    (JInv.init p) (by
      intro s hs
      obtain ⟨k, q, hk, hi, _⟩ := (hm s).1 ((S.perm _ _).mem_iff.1 hs)
      rw [hi, Nat.zero_add]
      by_contra hc
      rw [List.getElem?_eq_none (by omega)] at hk; cases hk)
  have hperm : (((List.range p.length).filter fun r => st.w[r]? = some r).map fun r =>
      (gs r).map fun i => p.getD i ⟨[]⟩).flatten.Perm p := by
    have := (groups_perm h2).map fun i => p.getD i (⟨[]⟩ : Path α)
    rw [range_map_getD] at this
    rwa [List.map_flatMap, List.flatMap_def] at this
  have hne : ∀ g ∈ ((List.range p.length).filter fun r => st.w[r]? = some r).map (fun r =>
      (gs r).map fun i => p.getD i ⟨[]⟩), g ≠ [] := by
    intro g hg
    obtain ⟨r, hr, rfl⟩ := List.mem_map.1 hg
    simp at hr
    simpa using (h2.roots r hr.1 hr.2).2
  refine ⟨_, ((List.range p.length).filter fun r => st.w[r]? = some r).map fun r =>
    (gs r).map fun i => p.getD i ⟨[]⟩, ?_, hperm, hne, rfl, ?_, ?_⟩
  · simp only [joinPaths3, hl, h1, bind, Except.bind, pure, Except.pure]
    rw [joinCollect_eq h2, List.map_map]; rfl
  · rw [sum_flatten_segCount _ hne]
    · exact (hperm.map segCount).sum_eq
    · intro g hg q hq
      exact hn q (hperm.mem_iff.1 (List.mem_flatten.2 ⟨g, hg, hq⟩))
  · intro h2p g hg
    obtain ⟨r, hr, rfl⟩ := List.mem_map.1 hg
    simp at hr
    exact h2.links (fun i hi => h2p _ (hpf i hi)) r hr.1

/-- without the hypothesis: an empty path makes `JoinPaths3` panic -/
theorem C13_empty_path_panics (S : Sorter) (p : List (Path α)) (h : ∃ q ∈ p, q.points = []) :
    ∃ e, joinPaths3 S p = .error e := by
  have : ∀ (p : List (Path α)) i, (∃ q ∈ p, q.points = []) → ∃ e, sortPs i p = .error e := by
    intro p
    induction p with
    | nil => rintro i ⟨q, hq, _⟩; simp at hq
    | cons a t ih =>
      rintro i ⟨q, hq, hqe⟩
      simp only [sortPs, goAt, goLast, bind, Except.bind]
      cases ha : a.points with
      | nil => exact ⟨_, rfl⟩
      | cons x xs =>
        rcases List.mem_cons.1 hq with rfl | hq
        · rw [hqe] at ha; cases ha
        · obtain ⟨e, he⟩ := ih (i + 1) ⟨q, hq, hqe⟩
          simp only [List.getElem?_cons_zero, he]
          rw [List.getLast?_eq_getLast_of_ne_nil (by simp)]
          exact ⟨_, rfl⟩
  obtain ⟨e, he⟩ := this p 0 h
  exact ⟨e, by simp [joinPaths3, he, bind, Except.bind]⟩

section Example
attribute [local instance] Toy.flt

private def square : List (Path Int) :=
  [⟨[⟨0, 0, 0⟩, ⟨5000, 0, 0⟩]⟩, ⟨[⟨5000, 7000, 0⟩, ⟨0, 7000, 0⟩]⟩, ⟨[⟨5000, 0, 0⟩, ⟨5000, 7000, 0⟩]⟩,
   ⟨[⟨0, 7000, 0⟩, ⟨0, 0, 0⟩]⟩]

/-- the hypotheses hold for the four sides of a rectangle in mixed order -/
example : (∀ q ∈ square, q.points ≠ []) ∧ ∀ q ∈ square, 2 ≤ q.points.length := by
  constructor <;> decide
end Example

end Goosli
