import Verif.Proofs.Base
import Verif.Proofs.GcodeHoare
import Verif.Spec.Chain
import Mathlib.Algebra.BigOperators.Group.Finset.Basic
import Mathlib.Data.Multiset.Count
import Mathlib.Data.List.Chain
/-!
# Invariant of JoinPaths3
-/
set_option linter.unusedSectionVars false
namespace Goosli
open Flt
variable {α : Type} [Flt α]

theorem concatPath_ne {g : List (Path α)} (h : g ≠ []) (hn : ∀ p ∈ g, p.points ≠ []) : (concatPath g).points ≠ [] := by
  cases g with
  | nil => exact absurd rfl h
  | cons p ps =>
    have := hn p (by simp)
    simp [concatPath, this]

theorem concatPath_append {g1 g2 : List (Path α)} (h1 : g1 ≠ []) (h2 : g2 ≠ []) (hn : ∀ p ∈ g2, p.points ≠ []) :
    concatPath (g1 ++ g2) = ⟨(concatPath g1).points ++ (concatPath g2).points.tail⟩ := by
  cases g1 with
  | nil => exact absurd rfl h1
  | cons p ps =>
    cases g2 with
    | nil => exact absurd rfl h2
    | cons q qs =>
      have hq := hn q (by simp)
      simp only [concatPath, List.cons_append, List.flatMap_append, List.flatMap_cons]
      rw [List.tail_append_of_ne_nil hq, List.append_assoc]

theorem concatPath_head {g : List (Path α)} {p : Path α} (h : g.head? = some p) (hp : p.points ≠ []) :
    (concatPath g).points.head? = p.points.head? := by
  cases g with
  | nil => simp at h
  | cons q qs =>
    simp at h; subst h
    simp only [concatPath]
    cases hq : q.points with
    | nil => exact absurd hq hp
    | cons a t => simp

theorem concatPath_last {g : List (Path α)} {p : Path α} (h : g.getLast? = some p) (hn : ∀ p ∈ g, 2 ≤ p.points.length) :
    (concatPath g).points.getLast? = p.points.getLast? := by
  have aux : ∀ (g : List (Path α)) (p : Path α), g.getLast? = some p → (∀ p ∈ g, 2 ≤ p.points.length) →
      ∀ pre : List (Point α), (pre ++ g.flatMap fun q => q.points.tail).getLast? = p.points.getLast? := by
    intro g
    induction g with
    | nil => intro p h; simp at h
    | cons q qs ih =>
      intro p h hn pre
      cases qs with
      | nil =>
        simp at h; subst h
        have := hn q (by simp)
        rcases hq : q.points with _ | ⟨a, _ | ⟨b, t⟩⟩
        · simp [hq] at this
        · simp [hq] at this
        · simp only [List.flatMap_cons, List.flatMap_nil, List.append_nil, hq, List.tail_cons, List.getLast?_cons_cons,
            List.getLast?_append]
          rw [List.getLast?_eq_getLast_of_ne_nil (by simp : b :: t ≠ [])]; rfl
      | cons r rs =>
        rw [List.getLast?_cons_cons] at h
        have := ih p h (fun p hp => hn p (by simp [hp])) (pre ++ q.points.tail)
        simpa using this
  cases g with
  | nil => simp at h
  | cons q qs =>
    cases qs with
    | nil => simp at h; subst h; simp [concatPath]
    | cons r rs =>
      rw [List.getLast?_cons_cons] at h
      exact aux (r :: rs) p h (fun p hp => hn p (by simp [hp])) q.points

/-- the three outcomes of `tryJoin` on non-empty paths -/
theorem tryJoin_cases {p1 p2 : Path α} (h1 : p1.points ≠ []) (h2 : p2.points ≠ []) :
    (tryJoin p1 p2 = .ok none ∧ ¬ meets p1 p2 ∧ ¬ meets p2 p1) ∨
    (tryJoin p1 p2 = .ok (some ⟨p1.points ++ p2.points.tail⟩) ∧ meets p1 p2) ∨
    (tryJoin p1 p2 = .ok (some ⟨p2.points ++ p1.points.tail⟩) ∧ meets p2 p1) := by
  obtain ⟨l1, hl1⟩ : ∃ l, p1.points.getLast? = some l := ⟨_, List.getLast?_eq_getLast_of_ne_nil h1⟩
  obtain ⟨l2, hl2⟩ : ∃ l, p2.points.getLast? = some l := ⟨_, List.getLast?_eq_getLast_of_ne_nil h2⟩
  cases e1 : p1.points with
  | nil => exact absurd e1 h1
  | cons a t =>
    cases e2 : p2.points with
    | nil => exact absurd e2 h2
    | cons b s =>
      rw [e1] at hl1; rw [e2] at hl2
      simp only [tryJoin, goLast, goAt, goTail, e1, e2, hl1, hl2, meets, bind, Except.bind, pure, Except.pure]
      by_cases c1 : l1.equal b = true
      · right; left; simp [c1, hl1]
      · by_cases c2 : l2.equal a = true
        · right; right; simp [c1, c2, hl2]
        · left; simp [c1, c2, hl1, hl2]

/-- `i` reaches the root `r` in `k` steps -/
def Reach (w : List Nat) : Nat → Nat → Nat → Prop
  | 0, i, r => i = r ∧ w[r]? = some r
  | k + 1, i, r => ∃ j, w[i]? = some j ∧ j ≠ i ∧ Reach w k j r

theorem Reach.root {w : List Nat} : ∀ {k i r}, Reach w k i r → w[r]? = some r := by
  intro k
  induction k with
  | zero => intro i r h; exact h.2
  | succ k ih => rintro i r ⟨j, _, _, h⟩; exact ih h

theorem findRoot_reach {w : List Nat} : ∀ {k i r fuel}, Reach w k i r → k < fuel → findRoot w fuel i = .ok r := by
  intro k
  induction k with
  | zero =>
    rintro i r fuel ⟨rfl, h⟩ hf
    obtain ⟨f, rfl⟩ : ∃ f, fuel = f + 1 := ⟨fuel - 1, by omega⟩
    simp [findRoot, goAt, h, bind, Except.bind, pure, Except.pure]
  | succ k ih =>
    rintro i r fuel ⟨j, hj, hne, h⟩ hf
    obtain ⟨f, rfl⟩ : ∃ f, fuel = f + 1 := ⟨fuel - 1, by omega⟩
    simp only [findRoot, goAt, hj, bind, Except.bind]
    rw [if_neg hne]
    exact ih h (by omega)

theorem Reach.set {w : List Nat} {j1 j2 : Nat} (h1 : w[j1]? = some j1) (h2 : w[j2]? = some j2) (hne : j1 ≠ j2) :
    ∀ {k i r}, Reach w k i r → (r = j2 → Reach (w.set j2 j1) (k + 1) i j1) ∧ (r ≠ j2 → Reach (w.set j2 j1) k i r) := by
  have hlt : j2 < w.length := by
    by_contra h; rw [List.getElem?_eq_none (by omega)] at h2; cases h2
  intro k
  induction k with
  | zero =>
    rintro i r ⟨rfl, h⟩
    constructor
    · rintro rfl
      refine ⟨j1, by rw [List.getElem?_set_self hlt], hne, rfl, ?_⟩
      rw [List.getElem?_set_ne hne.symm]; exact h1
    · intro hr
      exact ⟨rfl, by rw [List.getElem?_set_ne hr.symm]; exact h⟩
  | succ k ih =>
    rintro i r ⟨j, hj, hji, h⟩
    have hi : i ≠ j2 := by
      rintro rfl; rw [hj] at h2; injection h2 with h2; exact hji h2
    have hw : (w.set j2 j1)[i]? = some j := by rw [List.getElem?_set_ne hi.symm]; exact hj
    exact ⟨fun e => ⟨j, hw, hji, (ih h).1 e⟩, fun e => ⟨j, hw, hji, (ih h).2 e⟩⟩

/-- number of entries that are not roots -/
def nonRoots (w : List Nat) (n : Nat) : Nat := ((Finset.range n).filter fun r => w[r]? ≠ some r).card

/-- invariant of the joining loop: `gs r` is the list of original paths joined into slot `r` -/
structure JInv (pf : Nat → Path α) (n : Nat) (st : JState α) (gs : Nat → List Nat) : Prop where
  lenP : st.p.length = n
  lenW : st.w.length = n
  roots : ∀ r < n, st.w[r]? = some r → st.p[r]? = some (concatPath ((gs r).map pf)) ∧ gs r ≠ []
  nonroots : ∀ r < n, st.w[r]? ≠ some r → gs r = []
  part : ∑ r ∈ Finset.range n, (↑(gs r) : Multiset ℕ) = Multiset.range n
  reach : ∀ i < n, ∃ r k, r < n ∧ k ≤ nonRoots st.w n ∧ Reach st.w k i r ∧ i ∈ gs r
  links : (∀ i < n, 2 ≤ (pf i).points.length) → ∀ r < n, ((gs r).map pf).IsChain meets

theorem JInv.mem_lt {pf : Nat → Path α} {n st gs} (h : JInv pf n st gs) {r i : Nat} (hr : r < n) (hi : i ∈ gs r) :
    i < n := by
  have : (↑(gs r) : Multiset ℕ) ≤ ∑ r ∈ Finset.range n, (↑(gs r) : Multiset ℕ) :=
    Finset.single_le_sum (f := fun r => (↑(gs r) : Multiset ℕ)) (fun _ _ => Multiset.zero_le _) (Finset.mem_range.2 hr)
  rw [h.part] at this
  exact Multiset.mem_range.1 (Multiset.mem_of_le this (by simpa using hi))

theorem JInv.nodup {pf : Nat → Path α} {n st gs} (h : JInv pf n st gs) {r : Nat} (hr : r < n) : (gs r).Nodup := by
  have : (↑(gs r) : Multiset ℕ) ≤ ∑ r ∈ Finset.range n, (↑(gs r) : Multiset ℕ) :=
    Finset.single_le_sum (f := fun r => (↑(gs r) : Multiset ℕ)) (fun _ _ => Multiset.zero_le _) (Finset.mem_range.2 hr)
  rw [h.part] at this
  have := Multiset.nodup_of_le this (Multiset.nodup_range n)
  simpa using this

theorem JInv.disjoint {pf : Nat → Path α} {n st gs} (h : JInv pf n st gs) {r r' i : Nat} (hr : r < n) (hr' : r' < n)
    (hi : i ∈ gs r) (hi' : i ∈ gs r') : r = r' := by
  by_contra hne
  have h2 : (↑(gs r) + ↑(gs r') : Multiset ℕ) ≤ ∑ r ∈ Finset.range n, (↑(gs r) : Multiset ℕ) := by
    have := Finset.sum_le_sum_of_subset_of_nonneg (f := fun r => (↑(gs r) : Multiset ℕ))
      (s := {r, r'}) (t := Finset.range n) (by intro x hx; simp at hx; rcases hx with rfl | rfl <;> simpa)
      (fun _ _ _ => Multiset.zero_le _)
    rwa [Finset.sum_pair hne] at this
  rw [h.part] at h2
  have := Multiset.nodup_of_le h2 (Multiset.nodup_range n)
  rw [Multiset.nodup_add] at this
  exact Multiset.disjoint_left.1 this.2.2 (by simpa using hi) (by simpa using hi')

theorem JInv.nonRoots_lt {pf : Nat → Path α} {n st gs} (_ : JInv pf n st gs) {r : Nat} (hr : r < n)
    (hw : st.w[r]? = some r) : nonRoots st.w n < n := by
  have : ((Finset.range n).filter fun r => st.w[r]? ≠ some r) ⊂ Finset.range n := by
    rw [Finset.ssubset_iff_subset_ne]
    refine ⟨Finset.filter_subset _ _, fun he => ?_⟩
    have : r ∈ (Finset.range n).filter fun r => st.w[r]? ≠ some r := by rw [he]; simpa using hr
    simp at this
    exact this.2 hw
  simpa [nonRoots] using Finset.card_lt_card this

theorem sum_merge (n : Nat) (gs : Nat → List Nat) (j1 j2 : Nat) (h1 : j1 < n) (h2 : j2 < n) (hne : j1 ≠ j2)
    (l : List Nat) (hl : (↑l : Multiset ℕ) = ↑(gs j1) + ↑(gs j2)) :
    ∑ r ∈ Finset.range n, (↑(if r = j1 then l else if r = j2 then [] else gs r) : Multiset ℕ) =
      ∑ r ∈ Finset.range n, (↑(gs r) : Multiset ℕ) := by
  have m1 : j1 ∈ Finset.range n := Finset.mem_range.2 h1
  have m2 : j2 ∈ (Finset.range n).erase j1 := Finset.mem_erase.2 ⟨hne.symm, Finset.mem_range.2 h2⟩
  rw [← Finset.add_sum_erase _ _ m1, ← Finset.add_sum_erase _ _ m2]
  rw [← Finset.add_sum_erase (Finset.range n) _ m1, ← Finset.add_sum_erase ((Finset.range n).erase j1) _ m2]
  rw [if_pos rfl, if_neg hne.symm, if_pos rfl, hl]
  have : ∀ r ∈ ((Finset.range n).erase j1).erase j2,
      (↑(if r = j1 then l else if r = j2 then [] else gs r) : Multiset ℕ) = ↑(gs r) := by
    intro r hr
    have hr := Finset.mem_erase.1 hr
    have hr' := Finset.mem_erase.1 hr.2
    rw [if_neg hr'.1, if_neg hr.1]
  rw [Finset.sum_congr rfl this, Multiset.coe_nil, zero_add, add_assoc]

/-- merging two groups keeps the invariant -/
theorem JInv.merge {pf : Nat → Path α} {n st gs} (h : JInv pf n st gs)
    {j1 j2 : Nat} (h1 : j1 < n) (h2 : j2 < n) (hne : j1 ≠ j2) (w1 : st.w[j1]? = some j1) (w2 : st.w[j2]? = some j2)
    (l : List Nat) (hl : (l = gs j1 ++ gs j2 ∧ meets (concatPath ((gs j1).map pf)) (concatPath ((gs j2).map pf))) ∨
      (l = gs j2 ++ gs j1 ∧ meets (concatPath ((gs j2).map pf)) (concatPath ((gs j1).map pf)))) :
    JInv pf n ⟨st.p.set j1 (concatPath (l.map pf)), st.w.set j2 j1⟩
      (fun r => if r = j1 then l else if r = j2 then [] else gs r) := by
  have hlm : (↑l : Multiset ℕ) = ↑(gs j1) + ↑(gs j2) := by
    rcases hl with ⟨rfl, _⟩ | ⟨rfl, _⟩
    · simp
    · rw [← Multiset.coe_add, add_comm]
  have hmem : ∀ i, i ∈ l ↔ i ∈ gs j1 ∨ i ∈ gs j2 := by
    intro i; rcases hl with ⟨rfl, _⟩ | ⟨rfl, _⟩ <;> simp [or_comm]
  have e1 : gs j1 ≠ [] := (h.roots j1 h1 w1).2
  have e2 : gs j2 ≠ [] := (h.roots j2 h2 w2).2
  have hlne : l ≠ [] := by rcases hl with ⟨rfl, _⟩ | ⟨rfl, _⟩ <;> simp [e1, e2]
  have hlt2 : j2 < st.w.length := by rw [h.lenW]; exact h2
  have wj1 : (st.w.set j2 j1)[j1]? = some j1 := by rw [List.getElem?_set_ne hne.symm]; exact w1
  have wj2 : (st.w.set j2 j1)[j2]? = some j1 := by rw [List.getElem?_set_self hlt2]
  have wr : ∀ r, r ≠ j2 → (st.w.set j2 j1)[r]? = st.w[r]? := fun r hr => by rw [List.getElem?_set_ne hr.symm]
  have hcount : nonRoots (st.w.set j2 j1) n = nonRoots st.w n + 1 := by
    unfold nonRoots
    have : ((Finset.range n).filter fun r => (st.w.set j2 j1)[r]? ≠ some r) =
        insert j2 ((Finset.range n).filter fun r => st.w[r]? ≠ some r) := by
      ext r
      simp only [Finset.mem_filter, Finset.mem_range, Finset.mem_insert]
      by_cases hr : r = j2
      · subst hr; simp [h2, hne, hlt2]
      · rw [wr r hr]; simp [hr]
    rw [this, Finset.card_insert_of_notMem (by simp [w2])]
  refine ⟨by simp [h.lenP], by simp [h.lenW], ?_, ?_, ?_, ?_, ?_⟩
  · intro r hr hw
    have hr2 : r ≠ j2 := by rintro rfl; rw [wj2] at hw; injection hw with hw; exact hne hw
    by_cases hr1 : r = j1
    · subst hr1
      simp only [if_true]
      exact ⟨by rw [List.getElem?_set_self (by rw [h.lenP]; exact h1)], hlne⟩
    · rw [wr r hr2] at hw
      simp only [if_neg hr1, if_neg hr2]
      rw [List.getElem?_set_ne (Ne.symm hr1)]
      exact h.roots r hr hw
  · intro r hr hw
    by_cases hr1 : r = j1
    · subst hr1; exact absurd wj1 hw
    · by_cases hr2 : r = j2
      · simp only [if_neg hr1, if_pos hr2]
      · simp only [if_neg hr1, if_neg hr2]
        rw [wr r hr2] at hw
        exact h.nonroots r hr hw
  · rw [sum_merge n gs j1 j2 h1 h2 hne l hlm, h.part]
  · intro i hi
    obtain ⟨r, k, hr, hk, hre, hm⟩ := h.reach i hi
    have hs := Reach.set w1 w2 hne hre
    by_cases hr2 : r = j2
    · refine ⟨j1, k + 1, h1, by rw [hcount]; omega, hs.1 hr2, ?_⟩
      simp only [if_true, hmem]; right; rw [← hr2]; exact hm
    · refine ⟨r, k, hr, by rw [hcount]; omega, hs.2 hr2, ?_⟩
      by_cases hr1 : r = j1
      · subst hr1; simp only [if_true, hmem]; left; exact hm
      · simp only [if_neg hr1, if_neg hr2]; exact hm
  · intro h2p r hr
    by_cases hr1 : r = j1
    · subst hr1
      simp only [if_true]
      have key : ∀ a b : Nat, a < n → b < n → gs a ≠ [] → gs b ≠ [] →
          meets (concatPath ((gs a).map pf)) (concatPath ((gs b).map pf)) → ((gs a ++ gs b).map pf).IsChain meets := by
        intro a b ha hb ea eb hmeet
        rw [List.map_append, List.isChain_append]
        refine ⟨h.links h2p a ha, h.links h2p b hb, ?_⟩
        intro x hx y hy
        have hxm : ∀ p ∈ (gs a).map pf, 2 ≤ p.points.length := by
          intro p hp; obtain ⟨i, hi, rfl⟩ := List.mem_map.1 hp; exact h2p i (h.mem_lt ha hi)
        have hym : ∀ p ∈ (gs b).map pf, 2 ≤ p.points.length := by
          intro p hp; obtain ⟨i, hi, rfl⟩ := List.mem_map.1 hp; exact h2p i (h.mem_lt hb hi)
        obtain ⟨u, v, hu, hv, huv⟩ := hmeet
        refine ⟨u, v, ?_, ?_, huv⟩
        · rw [← concatPath_last hx hxm]; exact hu
        · have hy' : y.points ≠ [] := by
            have := hym y (List.mem_of_mem_head? hy)
            intro hc; rw [hc] at this; simp at this
          rw [← concatPath_head hy hy']; exact hv
      rcases hl with ⟨rfl, hm⟩ | ⟨rfl, hm⟩
      · exact key r j2 h1 h2 e1 e2 hm
      · exact key j2 r h2 h1 e2 e1 hm
    · by_cases hr2 : r = j2
      · simp only [if_neg hr1, if_pos hr2]; simp
      · simp only [if_neg hr1, if_neg hr2]; exact h.links h2p r hr

/-- what one iteration does: nothing, or a merge; if the two points are equal and the paths are in different groups
that do not meet, nothing -/
theorem joinStep_spec {pf : Nat → Path α} {n st gs} (h : JInv pf n st gs) (hn : ∀ i < n, (pf i).points ≠ [])
    (b c : SortP α) (hb : b.ind < n) (hc : c.ind < n) :
    ∃ st' gs', joinStep st b c = .ok st' ∧ JInv pf n st' gs' ∧
      (∀ i j r, r < n → i ∈ gs r → j ∈ gs r → ∃ r' < n, i ∈ gs' r' ∧ j ∈ gs' r') ∧
      (b.p.equal c.p = true → (∃ r < n, b.ind ∈ gs' r ∧ c.ind ∈ gs' r) ∨
        ∃ r1 r2, r1 < n ∧ r2 < n ∧ r1 ≠ r2 ∧ b.ind ∈ gs r1 ∧ c.ind ∈ gs r2 ∧
          ¬ meets (concatPath ((gs r1).map pf)) (concatPath ((gs r2).map pf)) ∧
          ¬ meets (concatPath ((gs r2).map pf)) (concatPath ((gs r1).map pf))) := by
  by_cases he : b.p.equal c.p = true
  · obtain ⟨r1, k1, hr1, hk1, hre1, hm1⟩ := h.reach b.ind hb
    obtain ⟨r2, k2, hr2, hk2, hre2, hm2⟩ := h.reach c.ind hc
    have f1 : findRoot st.w st.w.length b.ind = .ok r1 :=
      findRoot_reach hre1 (by rw [h.lenW]; exact lt_of_le_of_lt hk1 (h.nonRoots_lt hr1 hre1.root))
    have f2 : findRoot st.w st.w.length c.ind = .ok r2 :=
      findRoot_reach hre2 (by rw [h.lenW]; exact lt_of_le_of_lt hk2 (h.nonRoots_lt hr2 hre2.root))
    obtain ⟨p1, g1⟩ := h.roots r1 hr1 hre1.root
    obtain ⟨p2, g2⟩ := h.roots r2 hr2 hre2.root
    have nn1 : ∀ p ∈ (gs r1).map pf, p.points ≠ [] := by
      intro p hp; obtain ⟨i, hi, rfl⟩ := List.mem_map.1 hp; exact hn i (h.mem_lt hr1 hi)
    have nn2 : ∀ p ∈ (gs r2).map pf, p.points ≠ [] := by
      intro p hp; obtain ⟨i, hi, rfl⟩ := List.mem_map.1 hp; exact hn i (h.mem_lt hr2 hi)
    by_cases hrr : r1 = r2
    · subst hrr
      refine ⟨st, gs, ?_, h, fun i j r hr hi hj => ⟨r, hr, hi, hj⟩, fun _ => Or.inl ⟨r1, hr1, hm1, hm2⟩⟩
      simp [joinStep, he, f1, f2, goAt, p1, bind, Except.bind, pure, Except.pure]
    · have keep : ∀ l : List Nat, (∀ i, i ∈ l ↔ i ∈ gs r1 ∨ i ∈ gs r2) → ∀ i j r, r < n → i ∈ gs r → j ∈ gs r →
          ∃ r' < n, i ∈ (if r' = r1 then l else if r' = r2 then [] else gs r') ∧
            j ∈ (if r' = r1 then l else if r' = r2 then [] else gs r') := by
        intro l hl i j r hr hi hj
        by_cases e1 : r = r1
        · subst e1; exact ⟨r, hr, by simp [hl, hi], by simp [hl, hj]⟩
        · by_cases e2 : r = r2
          · subst e2; exact ⟨r1, hr1, by simp [hl, hi], by simp [hl, hj]⟩
          · exact ⟨r, hr, by simp [e1, e2, hi], by simp [e1, e2, hj]⟩
      rcases tryJoin_cases (concatPath_ne (by simpa using g1) nn1) (concatPath_ne (by simpa using g2) nn2) with
        ⟨ht, hm, hm'⟩ | ⟨ht, hm⟩ | ⟨ht, hm⟩
      · refine ⟨st, gs, ?_, h, fun i j r hr hi hj => ⟨r, hr, hi, hj⟩,
          fun _ => Or.inr ⟨r1, r2, hr1, hr2, hrr, hm1, hm2, hm, hm'⟩⟩
        simp [joinStep, he, f1, f2, goAt, p1, p2, hrr, ht, bind, Except.bind, pure, Except.pure]
      · refine ⟨_, _, ?_, h.merge hr1 hr2 hrr hre1.root hre2.root (gs r1 ++ gs r2) (Or.inl ⟨rfl, hm⟩),
          keep _ (by simp), fun _ => Or.inl ⟨r1, hr1, by simp [hm1], by simp [hm2]⟩⟩
        rw [List.map_append, concatPath_append (by simpa using g1) (by simpa using g2) nn2]
        simp [joinStep, he, f1, f2, goAt, p1, p2, hrr, ht, bind, Except.bind, pure, Except.pure]
      · refine ⟨_, _, ?_, h.merge hr1 hr2 hrr hre1.root hre2.root (gs r2 ++ gs r1) (Or.inr ⟨rfl, hm⟩),
          keep _ (by simp [or_comm]), fun _ => Or.inl ⟨r1, hr1, by simp [hm1], by simp [hm2]⟩⟩
        rw [List.map_append, concatPath_append (by simpa using g2) (by simpa using g1) nn1]
        simp [joinStep, he, f1, f2, goAt, p1, p2, hrr, ht, bind, Except.bind, pure, Except.pure]
  · exact ⟨st, gs, by simp [joinStep, he, pure, Except.pure], h, fun i j r hr hi hj => ⟨r, hr, hi, hj⟩,
      fun h => absurd h he⟩

theorem joinLoop_inv {pf : Nat → Path α} {n} (hn : ∀ i < n, (pf i).points ≠ []) (l : List (SortP α)) :
    ∀ st gs, JInv pf n st gs → (∀ s ∈ l, s.ind < n) → ∃ st' gs', joinLoop l st = .ok st' ∧ JInv pf n st' gs' := by
  induction l with
  | nil => intro st gs h _; exact ⟨st, gs, rfl, h⟩
  | cons b t ih =>
    intro st gs h hl
    cases t with
    | nil => exact ⟨st, gs, rfl, h⟩
    | cons c t =>
      obtain ⟨st', gs', h1, h2, _⟩ := joinStep_spec h hn b c (hl b (by simp)) (hl c (by simp))
      obtain ⟨st'', gs'', h3, h4⟩ := ih st' gs' h2 (fun s hs => hl s (by simp [hs]))
      exact ⟨st'', gs'', by simp [joinLoop, h1, bind, Except.bind, h3], h4⟩

/-- the initial state satisfies the invariant -/
theorem JInv.init (p : List (Path α)) :
    JInv (fun i => p.getD i ⟨[]⟩) p.length ⟨p, List.range p.length⟩ (fun i => [i]) := by
  have hw : ∀ r < p.length, (List.range p.length)[r]? = some r := fun r hr => by simp [hr]
  refine ⟨rfl, by simp, ?_, ?_, ?_, ?_, ?_⟩
  · intro r hr _
    simp [concatPath, hr]
  · intro r hr h; exact absurd (hw r hr) h
  · have : ∀ n, ∑ r ∈ Finset.range n, (↑([r]) : Multiset ℕ) = Multiset.range n := by
      intro n
      induction n with
      | zero => simp
      | succ n ih => rw [Finset.sum_range_succ, ih, Multiset.range_succ, Multiset.coe_singleton, add_comm, Multiset.singleton_add]
    exact this _
  · intro i hi; exact ⟨i, 0, hi, Nat.zero_le _, ⟨rfl, hw i hi⟩, by simp⟩
  · intro _ r _; simp

/-- the end points are exactly those of the paths -/
theorem sortPs_ok (p : List (Path α)) (hn : ∀ q ∈ p, q.points ≠ []) : ∀ i, ∃ l, sortPs i p = .ok l ∧
    (∀ s, s ∈ l ↔ ∃ k q, p[k]? = some q ∧ s.ind = i + k ∧ (q.points.head? = some s.p ∨ q.points.getLast? = some s.p)) := by
  induction p with
  | nil => intro i; exact ⟨[], rfl, by simp⟩
  | cons q t ih =>
    intro i
    obtain ⟨l, h1, h2⟩ := ih (fun q hq => hn q (by simp [hq])) (i + 1)
    obtain ⟨la, hla⟩ : ∃ l, q.points.getLast? = some l := ⟨_, List.getLast?_eq_getLast_of_ne_nil (hn q (by simp))⟩
    obtain ⟨f, hf⟩ : ∃ f, q.points.head? = some f := by
      cases e : q.points with
      | nil => exact absurd e (hn q (by simp))
      | cons a t => exact ⟨a, rfl⟩
    have hf0 : q.points[0]? = some f := by rw [← List.head?_eq_getElem?]; exact hf
    refine ⟨⟨f, i⟩ :: ⟨la, i⟩ :: l, ?_, ?_⟩
    · simp [sortPs, goAt, goLast, hf0, hla, h1, bind, Except.bind, pure, Except.pure]
    · intro s
      simp only [List.mem_cons, h2]
      constructor
      · rintro (rfl | rfl | ⟨k, q', hk, hi, he⟩)
        · exact ⟨0, q, rfl, by simp, Or.inl hf⟩
        · exact ⟨0, q, rfl, by simp, Or.inr hla⟩
        · exact ⟨k + 1, q', by simpa using hk, by omega, he⟩
      · rintro ⟨k, q', hk, hi, he⟩
        cases k with
        | zero =>
          simp at hk; subst hk
          obtain ⟨sp, si⟩ := s
          simp at hi; subst hi
          rcases he with he | he
          · rw [hf] at he; injection he with he; subst he; exact Or.inl rfl
          · rw [hla] at he; injection he with he; subst he; exact Or.inr (Or.inl rfl)
        | succ k => exact Or.inr (Or.inr ⟨k, q', by simpa using hk, by omega, he⟩)

/-- the collected result in terms of the groups -/
theorem joinCollect_eq {pf : Nat → Path α} {n st gs} (h : JInv pf n st gs) :
    joinCollect st = ((List.range n).filter fun r => st.w[r]? = some r).map fun r => concatPath ((gs r).map pf) := by
  obtain ⟨p, w⟩ := st
  have hp := h.lenP
  have hw := h.lenW
  simp only at hp hw
  have e : (p.zip w).zipIdx = (List.range n).map fun r => ((p.getD r ⟨[]⟩, w.getD r 0), r) := by
    apply List.ext_getElem
    · simp [hp, hw]
    · intro i h1 h2
      simp at h1
      simp [h1.1, h1.2]
  unfold joinCollect
  simp only
  rw [e, List.filterMap_map]
  have : ∀ l : List Nat, (∀ r ∈ l, r < n) →
      l.filterMap ((fun q : (Path α × Nat) × Nat => if q.1.2 = q.2 then some q.1.1 else none) ∘ fun r =>
        ((p.getD r ⟨[]⟩, w.getD r 0), r)) =
      (l.filter fun r => w[r]? = some r).map fun r => concatPath ((gs r).map pf) := by
    intro l
    induction l with
    | nil => intro _; rfl
    | cons r t ih =>
      intro hl
      have hr := hl r (by simp)
      have hwr : w[r]? = some (w.getD r 0) := by
        rw [List.getD_eq_getElem?_getD]
        have : r < w.length := by omega
        simp [this]
      have hpr : p[r]? = some (p.getD r ⟨[]⟩) := by
        rw [List.getD_eq_getElem?_getD]
        have : r < p.length := by omega
        simp [this]
      rw [List.filterMap_cons, List.filter_cons]
      by_cases hc : w.getD r 0 = r
      · have h' : w[r]? = some r := by rw [hwr, hc]
        have := (h.roots r hr h').1
        simp only at this
        rw [hpr] at this
        injection this with this
        rw [ih (fun r hr => hl r (by simp [hr]))]
        simp only [Function.comp, hc, if_true, h', decide_true, List.map_cons, this]
      · have h' : w[r]? ≠ some r := by rw [hwr]; intro hh; injection hh with hh; exact hc hh
        rw [ih (fun r hr => hl r (by simp [hr]))]
        simp only [Function.comp, hc, if_false, h', decide_false]
        simp
  exact this _ (by simp)

/-- the groups of the roots are a partition of the inputs -/
theorem groups_perm {pf : Nat → Path α} {n st gs} (h : JInv pf n st gs) :
    (((List.range n).filter fun r => st.w[r]? = some r).flatMap gs).Perm (List.range n) := by
  rw [← Multiset.coe_eq_coe]
  have h1 : ∀ l : List Nat, (∀ r ∈ l, r < n) →
      (↑((l.filter fun r => st.w[r]? = some r).flatMap gs) : Multiset ℕ) = (l.map fun r => (↑(gs r) : Multiset ℕ)).sum := by
    intro l
    induction l with
    | nil => intro _; rfl
    | cons r t ih =>
      intro hl
      rw [List.filter_cons, List.map_cons, List.sum_cons, ← ih (fun r hr => hl r (by simp [hr]))]
      by_cases hc : st.w[r]? = some r
      · simp [hc]
      · simp [hc, h.nonroots r (hl r (by simp)) hc]
  rw [h1 _ (by simp)]
  have h2 : ((List.range n).map fun r => (↑(gs r) : Multiset ℕ)).sum = ∑ r ∈ Finset.range n, (↑(gs r) : Multiset ℕ) := by
    rw [Finset.sum_eq_multiset_sum]
    rfl
  rw [h2, h.part]; rfl

end Goosli
