import Verif.Props.C08
import Verif.Props.C29
import Verif.Proofs.Rot
import Verif.Model.FiveAxes
/-!
# Where a vertical plane meets a contour, in real terms
-/
set_option linter.unusedSectionVars false
set_option autoImplicit false
namespace Goosli
open Flt

/-- the upward direction -/
def R3.ez : R3 := ⟨0, 0, 1⟩

/-- `i` is where the side `q` crosses the vertical plane through `c` in the direction `d`, and it is not behind `o`, seen in that
direction -/
def InFront (c d o : R3) (q : R3 × R3) (i : R3) : Prop := crosses c (d.cross .ez) q.1 q.2 i ∧ 0 ≤ (i - o).dot d

/-- `i` is the first such point in the order of the contour -/
def Meets (c d o : R3) (ws : List R3) (i : R3) : Prop :=
  ∃ (k : Nat) (q : R3 × R3), (adjPairs ws)[k]? = some q ∧ InFront c d o q i ∧
    ∀ (k' : Nat) (q' : R3 × R3), k' < k → (adjPairs ws)[k']? = some q' → ∀ i', ¬ InFront c d o q' i'

/-- no side is crossed in front of `o` -/
def Misses (c d o : R3) (ws : List R3) : Prop := ∀ q ∈ adjPairs ws, ∀ i, ¬ InFront c d o q i

theorem adjPairs_pt (ws : List R3) : adjPairs (ws.map R3.pt) = (adjPairs ws).map fun q => (q.1.pt, q.2.pt) := by
  unfold adjPairs
  rw [← List.map_tail, List.zip_map]; rfl

/-- the result on one side -/
noncomputable def sideHit (c d o : R3) (a b : Point XR) : Option (Point XR) :=
  ((Plane.mk c.pt (d.cross .ez).vec).intersectSegment a b).bind fun i => if (o.pt.vectorTo i).codirectedWith d.vec then some i else none

theorem sideHit_spec (c d o : R3) (q : R3 × R3) :
    (∃ i : R3, sideHit c d o q.1.pt q.2.pt = some i.pt ∧ InFront c d o q i) ∨
    (sideHit c d o q.1.pt q.2.pt = none ∧ ∀ i, ¬ InFront c d o q i) := by
  unfold sideHit
  cases hs : (Plane.mk c.pt (d.cross .ez).vec).intersectSegment q.1.pt q.2.pt with
  | none =>
    right
    refine ⟨rfl, ?_⟩
    rintro i ⟨hi, _⟩
    have := (intersectSegment_iff c (d.cross .ez) q.1 q.2 i.pt).2 ⟨i, rfl, hi⟩
    rw [hs] at this; cases this
  | some p =>
    obtain ⟨i, rfl, hi⟩ := (intersectSegment_iff c (d.cross .ez) q.1 q.2 p).1 hs
    by_cases hd : 0 ≤ (i - o).dot d
    · left
      refine ⟨i, ?_, hi, hd⟩
      simp only [Option.bind_some, vectorTo_pt, codirected_vec, hd, decide_true, if_true]
    · right
      refine ⟨?_, ?_⟩
      · simp only [Option.bind_some, vectorTo_pt, codirected_vec, hd, decide_false, Bool.false_eq_true, if_false]
      · rintro i' ⟨hi', hd'⟩
        have := (intersectSegment_iff c (d.cross .ez) q.1 q.2 i'.pt).2 ⟨i', rfl, hi'⟩
        rw [hs] at this
        injection this with this
        rw [R3.pt_inj this] at hd
        exact hd hd'

theorem sidesHit (c d o : R3) : ∀ qs : List (R3 × R3),
    let f := (qs.map fun q => (q.1.pt, q.2.pt)).findSome? fun q => sideHit c d o q.1 q.2
    (∃ i : R3, f = some i.pt ∧ ∃ (k : Nat) (q : R3 × R3), qs[k]? = some q ∧ InFront c d o q i ∧
      ∀ (k' : Nat) (q' : R3 × R3), k' < k → qs[k']? = some q' → ∀ i', ¬ InFront c d o q' i') ∨
    (f = none ∧ ∀ q ∈ qs, ∀ i, ¬ InFront c d o q i) := by
  intro qs
  induction qs with
  | nil => right; exact ⟨rfl, by simp⟩
  | cons q t ih =>
    intro f
    rcases sideHit_spec c d o q with ⟨i, h1, h2⟩ | ⟨h1, h2⟩
    · left
      refine ⟨i, ?_, 0, q, rfl, h2, by intro k' q' hk; omega⟩
      simp only [f, List.map_cons, List.findSome?_cons, h1]
    · have e : f = (t.map fun q => (q.1.pt, q.2.pt)).findSome? fun q => sideHit c d o q.1 q.2 := by
        simp only [f, List.map_cons, List.findSome?_cons, h1]
      rcases ih with ⟨i, h3, k, q', h4, h5, h6⟩ | ⟨h3, h4⟩
      · left
        refine ⟨i, by rw [e]; exact h3, k + 1, q', h4, h5, ?_⟩
        intro k' r hk hr
        cases k' with
        | zero =>
          injection hr with hr
          subst hr
          exact h2
        | succ k' => exact h6 k' r (by omega) hr
      · right
        refine ⟨by rw [e]; exact h3, ?_⟩
        intro r hr
        rcases List.mem_cons.1 hr with rfl | hr
        · exact h2
        · exact h4 r hr

/-- `Plane.IntersectPathCodirectedWith` for the vertical plane through `c` in the direction `d` -/
theorem pathHit (c d o : R3) (ws : List R3) (ho : findCentroid ⟨ws.map R3.pt⟩ = .ok o.pt) :
    (∃ i : R3, (Plane.mk c.pt (d.cross .ez).vec).intersectPathCodirectedWith ⟨ws.map R3.pt⟩ d.vec = .ok (some i.pt) ∧ Meets c d o ws i) ∨
    ((Plane.mk c.pt (d.cross .ez).vec).intersectPathCodirectedWith ⟨ws.map R3.pt⟩ d.vec = .ok none ∧ Misses c d o ws) := by
  have e : (Plane.mk c.pt (d.cross .ez).vec).intersectPathCodirectedWith ⟨ws.map R3.pt⟩ d.vec =
      .ok (((adjPairs ws).map fun q => (q.1.pt, q.2.pt)).findSome? fun q => sideHit c d o q.1 q.2) := by
    unfold Plane.intersectPathCodirectedWith
    rw [ho]
    simp only [bind, Except.bind, pure, Except.pure, adjPairs_pt]
    congr 2
    funext q
    unfold sideHit
    cases (Plane.mk c.pt (d.cross .ez).vec).intersectSegment q.1 q.2 <;> rfl
  rw [e]
  rcases sidesHit c d o (adjPairs ws) with ⟨i, h1, h2⟩ | ⟨h1, h2⟩
  · left
    exact ⟨i, by rw [h1], h2⟩
  · right
    exact ⟨by rw [h1], h2⟩

theorem Meets.unique {c d o : R3} {ws : List R3} {i j : R3} (h : Meets c d o ws i) (h' : Meets c d o ws j) : i = j := by
  obtain ⟨k, q, h1, h2, h3⟩ := h
  obtain ⟨k', q', h1', h2', h3'⟩ := h'
  rcases lt_trichotomy k k' with hk | hk | hk
  · exact absurd h2 (h3' k q hk h1 i)
  · subst hk
    rw [h1] at h1'
    injection h1' with h1'
    subst h1'
    have a := (intersectSegment_iff c (d.cross .ez) q.1 q.2 i.pt).2 ⟨i, rfl, h2.1⟩
    have b := (intersectSegment_iff c (d.cross .ez) q.1 q.2 j.pt).2 ⟨j, rfl, h2'.1⟩
    rw [a] at b
    injection b with b
    exact R3.pt_inj b
  · exact absurd h2' (h3 k' q' hk h1' j)

theorem Misses.not_meets {c d o : R3} {ws : List R3} (h : Misses c d o ws) (i : R3) : ¬ Meets c d o ws i := by
  rintro ⟨k, q, h1, h2, _⟩
  exact h q (List.mem_of_getElem? h1) i h2

theorem pathHit_meets {c d o : R3} {ws : List R3} {i : R3} (ho : findCentroid ⟨ws.map R3.pt⟩ = .ok o.pt) (h : Meets c d o ws i) :
    (Plane.mk c.pt (d.cross .ez).vec).intersectPathCodirectedWith ⟨ws.map R3.pt⟩ d.vec = .ok (some i.pt) := by
  rcases pathHit c d o ws ho with ⟨j, h1, h2⟩ | ⟨_, h2⟩
  · rw [h1, h.unique h2]
  · exact absurd h (h2.not_meets i)

theorem pathHit_misses {c d o : R3} {ws : List R3} (ho : findCentroid ⟨ws.map R3.pt⟩ = .ok o.pt) (h : Misses c d o ws) :
    (Plane.mk c.pt (d.cross .ez).vec).intersectPathCodirectedWith ⟨ws.map R3.pt⟩ d.vec = .ok none := by
  rcases pathHit c d o ws ho with ⟨j, _, h2⟩ | ⟨h1, _⟩
  · exact absurd h2 (h.not_meets j)
  · exact h1

theorem meets_or_misses (c d o : R3) (ws : List R3) : (∃ i, Meets c d o ws i) ∨ Misses c d o ws := by
  rcases sidesHit c d o (adjPairs ws) with ⟨i, _, h2⟩ | ⟨_, h2⟩
  · exact Or.inl ⟨i, h2⟩
  · exact Or.inr h2

end Goosli
