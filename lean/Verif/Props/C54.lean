import Verif.Model.Helpers
import Verif.Model.XR
import Verif.Proofs.Base
import Mathlib.Data.Sym.Sym2
import Mathlib.Data.List.Perm.Basic
/-!
# C54: the support outline is the boundary of the overhang
-/
set_option linter.unusedSectionVars false
namespace Goosli
open Flt Classical

/-- a point none of whose coordinates is NaN -/
def Point.NoNaN (p : Point XR) : Prop := p.x ≠ XR.nan ∧ p.y ≠ XR.nan ∧ p.z ≠ XR.nan
/-- a triangle none of whose coordinates is NaN -/
def Triangle.NoNaN (t : Triangle XR) : Prop := t.p1.NoNaN ∧ t.p2.NoNaN ∧ t.p3.NoNaN
/-- a line none of whose coordinates is NaN -/
def Line.NoNaN (l : Line XR) : Prop := l.p1.NoNaN ∧ l.p2.NoNaN

/-- a line as an undirected edge -/
def Line.edge (l : Line XR) : Sym2 (Point XR) := s(l.p1, l.p2)

/-- the undirected edges of the triangles, with multiplicity -/
def edgesOf (ts : List (Triangle XR)) : List (Sym2 (Point XR)) :=
  ts.flatMap fun t => [s(t.p1, t.p2), s(t.p1, t.p3), s(t.p2, t.p3)]

theorem XR.eqb_iff {a : XR} (h : a ≠ XR.nan) (b : XR) : (a =? b) = true ↔ a = b := by
  show XR.eq a b = true ↔ _
  cases a <;> cases b <;> simp_all [XR.eq]

theorem Point.goEq_iff {a : Point XR} (h : a.NoNaN) (b : Point XR) : a.goEq b = true ↔ a = b := by
  obtain ⟨ax, ay, az⟩ := a
  obtain ⟨bx, bY, bz⟩ := b
  simp only [Point.goEq, Bool.and_eq_true, XR.eqb_iff h.1, XR.eqb_iff h.2.1, XR.eqb_iff h.2.2, Point.mk.injEq, and_assoc]

theorem sameEdge_iff {l : Line XR} (h : l.NoNaN) (k : Line XR) : sameEdge l k = true ↔ l.edge = k.edge := by
  simp only [sameEdge, Line.goEq, Line.reverse, Bool.or_eq_true, Bool.and_eq_true, Point.goEq_iff h.1, Point.goEq_iff h.2,
    Line.edge, Sym2.eq_iff]

theorem triangleLines_edges (ts : List (Triangle XR)) : (triangleLines ts).map Line.edge = edgesOf ts := by
  unfold triangleLines edgesOf
  rw [List.map_flatMap]
  congr 1
  funext t
  simp [Line.edge, Sym2.eq_swap]

theorem triangleLines_noNaN (ts : List (Triangle XR)) (h : ∀ t ∈ ts, t.NoNaN) : ∀ l ∈ triangleLines ts, l.NoNaN := by
  intro l hl
  obtain ⟨t, ht, hl⟩ := List.mem_flatMap.1 hl
  have := h t ht
  simp only [List.mem_cons, List.not_mem_nil, or_false] at hl
  rcases hl with rfl | rfl | rfl
  · exact ⟨this.1, this.2.1⟩
  · exact ⟨this.1, this.2.2⟩
  · exact ⟨this.2.2, this.2.1⟩

theorem any_sameEdge {l : Line XR} (h : l.NoNaN) (ls : List (Line XR)) :
    ls.any (sameEdge l) = true ↔ l.edge ∈ ls.map Line.edge := by
  simp only [List.any_eq_true, sameEdge_iff h, List.mem_map]
  exact ⟨fun ⟨k, hk, e⟩ => ⟨k, hk, e.symm⟩, fun ⟨k, hk, e⟩ => ⟨k, hk, e.symm⟩⟩

theorem undoubled_eq (L : List (Line XR)) : ∀ pre : List (Line XR), (∀ l ∈ L, l.NoNaN) →
    undoubled pre L = L.filter (fun l => decide (((pre ++ L).map Line.edge).count l.edge = 1)) := by
  induction L with
  | nil => intro pre _; rfl
  | cons l t ih =>
    intro pre h
    have hl := h l (by simp)
    rw [undoubled, ih (pre ++ [l]) (fun k hk => h k (by simp [hk]))]
    have e : pre ++ [l] ++ t = pre ++ l :: t := by simp
    rw [e, List.filter_cons]
    have hc : ((pre ++ l :: t).map Line.edge).count l.edge = ((pre ++ t).map Line.edge).count l.edge + 1 := by
      simp only [List.map_append, List.map_cons, List.count_append, List.count_cons_self]; omega
    by_cases ha : (pre ++ t).any (sameEdge l) = true
    · rw [if_pos ha, if_neg]
      · rfl
      · rw [any_sameEdge hl, ← List.count_pos_iff] at ha
        simp only [decide_eq_true_eq]
        omega
    · rw [if_neg ha, if_pos]
      · rfl
      · rw [any_sameEdge hl, ← List.count_pos_iff] at ha
        simp only [decide_eq_true_eq]
        omega

/-- **C54 (outline).** Exactly the edges that occur once, in either direction, in the order of the triangles. -/
theorem C54_undoubled (ts : List (Triangle XR)) (h : ∀ t ∈ ts, t.NoNaN) :
    (makeUndoubledLines ts).map Line.edge = (edgesOf ts).filter (fun e => decide ((edgesOf ts).count e = 1)) := by
  unfold makeUndoubledLines
  rw [undoubled_eq _ _ (triangleLines_noNaN ts h), List.nil_append, triangleLines_edges]
  conv_rhs => rw [← triangleLines_edges]
  rw [List.filter_map]
  rw [triangleLines_edges]
  rfl

theorem set_dropLast_perm {β : Type} (ls : List β) (j : Nat) (hj : j < ls.length) (e : β) (he : ls.getLast? = some e) :
    (ls.set j e).dropLast.Perm (ls.eraseIdx j) := by
  have hne : ls ≠ [] := by intro h; rw [h] at hj; simp at hj
  obtain ⟨init, rfl⟩ : ∃ init, ls = init ++ [e] := by
    refine ⟨ls.dropLast, ?_⟩
    have := List.getLast?_eq_some_getLast hne
    rw [he] at this
    rw [Option.some.inj this, List.dropLast_append_getLast]
  by_cases h : j < init.length
  · rw [List.set_append_left _ _ h, List.dropLast_concat, List.eraseIdx_append_of_lt_length h]
    exact (List.set_perm_cons_eraseIdx h e).trans (List.perm_append_comm (l₁ := [e]))
  · have : j = init.length := by simp at hj; omega
    subst this
    rw [List.set_append_right _ _ (le_refl _), List.eraseIdx_append_of_length_le (le_refl _)]
    simp

/-- one step of the second outline function: an edge already present is removed once, otherwise it is added -/
theorem compareAndDelete_count (ls : List (Line XR)) (l : Line XR) (hl : l.NoNaN) (x : Sym2 (Point XR)) :
    ((compareAndDelete ls l).map Line.edge).count x =
      if l.edge = x then (if x ∈ ls.map Line.edge then (ls.map Line.edge).count x - 1 else 1)
      else (ls.map Line.edge).count x := by
  unfold compareAndDelete
  rcases hf : ls.findIdx? (sameEdge l) with _ | j
  · dsimp only
    rw [List.findIdx?_eq_none_iff] at hf
    have hn : l.edge ∉ ls.map Line.edge := by
      rw [← any_sameEdge hl]; simp only [List.any_eq_true, not_exists, not_and]
      intro k hk; simp [hf k hk]
    rw [List.map_append, List.count_append]
    by_cases hx : l.edge = x
    · subst hx
      rw [if_pos rfl, if_neg hn, List.count_eq_zero_of_not_mem hn]; simp
    · rw [if_neg hx]; simp [hx]
  · dsimp only
    rw [List.findIdx?_eq_some_iff_getElem] at hf
    obtain ⟨hj, hs, _⟩ := hf
    rw [sameEdge_iff hl] at hs
    obtain ⟨e, he⟩ : ∃ e, ls.getLast? = some e := by
      rcases h : ls.getLast? with _ | e
      · rw [List.getLast?_eq_none_iff] at h; rw [h] at hj; simp at hj
      · exact ⟨e, rfl⟩
    rw [he]
    dsimp only
    rw [((set_dropLast_perm ls j hj e he).map Line.edge).count_eq]
    have hp := ((List.getElem_cons_eraseIdx_perm hj).map Line.edge).count_eq x
    rw [List.map_cons, List.count_cons, ← hs] at hp
    by_cases hx : l.edge = x
    · subst hx
      have hm : l.edge ∈ ls.map Line.edge := by
        rw [hs]; exact List.mem_map_of_mem (List.getElem_mem hj)
      rw [if_pos rfl, if_pos hm]
      simp at hp; omega
    · rw [if_neg hx]
      simp [hx] at hp; omega

theorem deleteInternal_fold (L : List (Line XR)) : ∀ (acc : List (Line XR)) (pre : List (Sym2 (Point XR))),
    (∀ l ∈ L, l.NoNaN) → (∀ x, (acc.map Line.edge).count x = pre.count x % 2) →
    ∀ x, ((L.foldl compareAndDelete acc).map Line.edge).count x = (pre ++ L.map Line.edge).count x % 2 := by
  induction L with
  | nil => intro acc pre _ h x; simpa using h x
  | cons l t ih =>
    intro acc pre hN h x
    rw [List.foldl_cons]
    have := ih (compareAndDelete acc l) (pre ++ [l.edge]) (fun k hk => hN k (by simp [hk])) (by
      intro y
      rw [compareAndDelete_count acc l (hN l (by simp)) y, h y, List.count_append]
      by_cases hy : l.edge = y
      · subst hy
        have hp := List.count_pos_iff (l := acc.map Line.edge) (a := l.edge)
        rw [h] at hp
        rw [if_pos rfl, List.count_singleton_self]
        split <;> rename_i hm
        · have := hp.2 hm; omega
        · have : ¬ 0 < pre.count l.edge % 2 := fun h' => hm (hp.1 h')
          omega
      · rw [if_neg hy]; simp [hy]) x
    simpa using this

/-- **C54 (internal lines deleted).** One line for each edge that occurs an odd number of times, none for the others. -/
theorem C54_delete_internal (ts : List (Triangle XR)) (h : ∀ t ∈ ts, t.NoNaN) (e : Sym2 (Point XR)) :
    ((deleteInternalLines ts).map Line.edge).count e = if (edgesOf ts).count e % 2 = 1 then 1 else 0 := by
  have := deleteInternal_fold (triangleLines ts) [] [] (triangleLines_noNaN ts h) (by intro x; simp) e
  rw [triangleLines_edges, List.nil_append] at this
  unfold deleteInternalLines
  rw [this]
  split <;> omega

/-- the four corners of a square -/
noncomputable def sq (i j : ℝ) : Point XR := ⟨XR.fin i, XR.fin j, XR.fin 0⟩

/-- two triangles of a square: the diagonal is inside, the first side is on the outline -/
example : let ts : List (Triangle XR) := [newTriangle (sq 0 0) (sq 1 0) (sq 1 1), newTriangle (sq 0 0) (sq 1 1) (sq 0 1)]
    (∀ t ∈ ts, t.NoNaN) ∧ (edgesOf ts).count s(sq 1 1, sq 0 0) = 2 ∧ (edgesOf ts).count s(sq 0 0, sq 1 0) = 1 := by
  intro ts
  refine ⟨?_, ?_, ?_⟩
  · intro t ht
    simp only [ts, List.mem_cons, List.not_mem_nil, or_false] at ht
    rcases ht with rfl | rfl <;> simp [Triangle.NoNaN, Point.NoNaN, newTriangle, sq]
  · simp [ts, edgesOf, newTriangle, sq, List.count_cons]
  · simp [ts, edgesOf, newTriangle, sq, List.count_cons]

end Goosli
