import Verif.Proofs.Geom
import Verif.Model.Path
import Mathlib.Algebra.BigOperators.Group.List.Basic
import Mathlib.Data.List.Rotate
/-!
# C30: hole / solid classification
-/
set_option linter.unusedSectionVars false
namespace Goosli
open Flt

/-! ## specification: twice the signed area (shoelace formula) -/

/-- the cyclically consecutive pairs of vertices -/
def cyclicPairs {β : Type} (l : List β) : List (β × β) := l.zip (l.rotate 1)

/-- twice the signed area of the polygon in the xy-plane (positive: counterclockwise) -/
noncomputable def area2 (l : List R3) : ℝ := ((cyclicPairs l).map fun q => q.1.x * q.2.y - q.2.x * q.1.y).sum

theorem zip_rotate {β γ : Type} (l : List β) (l' : List γ) (h : l.length = l'.length) (k : Nat) :
    (l.rotate k).zip (l'.rotate k) = (l.zip l').rotate k := by
  exact (List.zipWith_rotate_distrib Prod.mk l l' k h).symm

theorem area2_rotate (l : List R3) (k : Nat) : area2 (l.rotate k) = area2 l := by
  unfold area2 cyclicPairs
  rw [List.rotate_rotate, Nat.add_comm, ← List.rotate_rotate, zip_rotate _ _ (by simp)]
  exact ((List.rotate_perm _ _).map _).sum_eq

theorem area2_shift (l : List R3) (v : R3) : area2 (l.map (· + v)) = area2 l := by
  unfold area2 cyclicPairs
  rw [← List.map_rotate, List.zip_map, List.map_map]
  have hp : (l.rotate 1).Perm l := List.rotate_perm l 1
  have hx : ((l.zip (l.rotate 1)).map fun q => q.1.x).sum = ((l.zip (l.rotate 1)).map fun q => q.2.x).sum := by
    have e1 : ((l.zip (l.rotate 1)).map fun q => q.1.x) = ((l.zip (l.rotate 1)).map Prod.fst).map R3.x := by simp
    have e2 : ((l.zip (l.rotate 1)).map fun q => q.2.x) = ((l.zip (l.rotate 1)).map Prod.snd).map R3.x := by simp
    rw [e1, e2, List.map_fst_zip (by simp), List.map_snd_zip (by simp)]
    exact (hp.map R3.x).sum_eq.symm
  have hy : ((l.zip (l.rotate 1)).map fun q => q.1.y).sum = ((l.zip (l.rotate 1)).map fun q => q.2.y).sum := by
    have e1 : ((l.zip (l.rotate 1)).map fun q => q.1.y) = ((l.zip (l.rotate 1)).map Prod.fst).map R3.y := by simp
    have e2 : ((l.zip (l.rotate 1)).map fun q => q.2.y) = ((l.zip (l.rotate 1)).map Prod.snd).map R3.y := by simp
    rw [e1, e2, List.map_fst_zip (by simp), List.map_snd_zip (by simp)]
    exact (hp.map R3.y).sum_eq.symm
  generalize l.zip (l.rotate 1) = Q at hx hy ⊢
  have key : ∀ Q : List (R3 × R3), (Q.map ((fun q : R3 × R3 => q.1.x * q.2.y - q.2.x * q.1.y) ∘
      Prod.map (· + v) (· + v))).sum = (Q.map fun q => q.1.x * q.2.y - q.2.x * q.1.y).sum +
        v.y * ((Q.map fun q => q.1.x).sum - (Q.map fun q => q.2.x).sum) -
        v.x * ((Q.map fun q => q.1.y).sum - (Q.map fun q => q.2.y).sum) := by
    intro Q
    induction Q with
    | nil => simp
    | cons q t ih =>
      simp only [List.map_cons, List.sum_cons, ih, Function.comp, Prod.map, R3.add_x, R3.add_y]
      ring
  rw [key, hx, hy]; ring

theorem area2_reverse (l : List R3) : area2 l.reverse = - area2 l := by
  unfold area2 cyclicPairs
  rcases Nat.eq_zero_or_pos l.length with h0 | hpos
  · rw [List.length_eq_zero_iff.1 h0]; simp
  · have e1 : l.reverse.rotate 1 = (l.rotate (l.length - 1)).reverse := by
      rw [List.reverse_rotate]
      congr 1
      rw [Nat.mod_eq_of_lt (by omega)]; omega
    have e2 : l.reverse.zip ((l.rotate (l.length - 1)).reverse) = (l.zip (l.rotate (l.length - 1))).reverse := by
      have := List.reverse_zipWith (f := Prod.mk) (l := l) (l' := l.rotate (l.length - 1)) (by simp)
      exact this.symm
    have e3 : l.zip (l.rotate (l.length - 1)) = ((l.rotate 1).zip l).rotate (l.length - 1) := by
      rw [← zip_rotate _ _ (by simp), List.rotate_rotate, show 1 + (l.length - 1) = l.length by omega, List.rotate_length]
    rw [e1, e2, ((List.reverse_perm _).map _).sum_eq, e3, ((List.rotate_perm _ _).map _).sum_eq]
    have : ∀ (a b : List R3), ((a.zip b).map fun q => q.1.x * q.2.y - q.2.x * q.1.y).sum =
        - ((b.zip a).map fun q => q.1.x * q.2.y - q.2.x * q.1.y).sum := by
      intro a
      induction a with
      | nil => intro b; simp
      | cons x t ih =>
        intro b
        cases b with
        | nil => simp
        | cons y u => simp only [List.zip_cons_cons, List.map_cons, List.sum_cons, ih u]; ring
    exact this _ _

/-! ## the model computes minus the signed area -/

theorem foldl_winding (l : List (R3 × R3)) (s : ℝ) :
    (l.map fun q => (q.1.pt, q.2.pt)).foldl (fun s q => s + Path.windingTerm q.1 q.2) (XR.fin s) =
      XR.fin (s + (l.map fun q => (q.2.x - q.1.x) * (q.2.y + q.1.y)).sum) := by
  induction l generalizing s with
  | nil => simp
  | cons q t ih =>
    simp only [List.map_cons, List.foldl_cons, List.sum_cons]
    have : (XR.fin s + Path.windingTerm q.1.pt q.2.pt : XR) = XR.fin (s + (q.2.x - q.1.x) * (q.2.y + q.1.y)) := by
      simp [Path.windingTerm, R3.pt]
    rw [this, ih, add_assoc]

theorem adj_cyclic {β : Type} (a : β) (t : List β) (last : β) (h : (a :: t).getLast? = some last) :
    cyclicPairs (a :: t) = adjPairs (a :: t) ++ [(last, a)] := by
  unfold cyclicPairs adjPairs
  rw [List.rotate_cons_succ, List.rotate_zero, List.tail_cons]
  have : ∀ (t : List β) (a b : β), (a :: t).getLast? = some last →
      (a :: t).zip (t ++ [b]) = (a :: t).zip t ++ [(last, b)] := by
    intro t
    induction t with
    | nil => intro a b h; simp at h; subst h; rfl
    | cons c t ih =>
      intro a b h
      rw [List.getLast?_cons_cons] at h
      simp only [List.cons_append, List.zip_cons_cons]
      rw [ih c b h]
  exact this t a a h

theorem sum_winding (Q : List (R3 × R3)) (hx : (Q.map fun q => q.1.x * q.1.y).sum = (Q.map fun q => q.2.x * q.2.y).sum) :
    (Q.map fun q => (q.2.x - q.1.x) * (q.2.y + q.1.y)).sum = - (Q.map fun q => q.1.x * q.2.y - q.2.x * q.1.y).sum := by
  have key : ∀ Q : List (R3 × R3), (Q.map fun q => (q.2.x - q.1.x) * (q.2.y + q.1.y)).sum =
      - (Q.map fun q => q.1.x * q.2.y - q.2.x * q.1.y).sum + (Q.map fun q => q.2.x * q.2.y).sum -
        (Q.map fun q => q.1.x * q.1.y).sum := by
    intro Q
    induction Q with
    | nil => simp
    | cons q t ih => simp only [List.map_cons, List.sum_cons, ih]; ring
  rw [key, hx]; ring

/-- **C30.** For every non-empty path with finite coordinates `IsWindingCW` says whether the signed area is negative. -/
theorem C30_winding_is_area (l : List R3) (h : l ≠ []) :
    (Path.mk (l.map R3.pt)).isWindingCW = .ok (decide (area2 l < 0)) := by
  cases l with
  | nil => exact absurd rfl h
  | cons a t =>
    obtain ⟨b, hb⟩ : ∃ b, (a :: t).getLast? = some b := ⟨_, List.getLast?_eq_getLast_of_ne_nil (by simp)⟩
    have hadj : adjPairs ((a :: t).map R3.pt) = (adjPairs (a :: t)).map fun q => (q.1.pt, q.2.pt) := by
      unfold adjPairs
      rw [← List.map_tail, List.zip_map]; rfl
    have hlast : ((a :: t).map R3.pt).getLast? = some b.pt := by rw [List.getLast?_map, hb]; rfl
    simp only [Path.isWindingCW, goAt, goLast, hlast, bind, Except.bind, pure, Except.pure]
    rw [hadj]
    have e0 : (lit 0 0 : XR) = XR.fin 0 := by simp
    rw [e0, foldl_winding]
    simp only [List.map_cons, List.getElem?_cons_zero]
    have e1 : Path.windingTerm b.pt a.pt = XR.fin ((a.x - b.x) * (a.y + b.y)) := by simp [Path.windingTerm, R3.pt]
    rw [e1, XR.fin_add, XR.fin_lt]
    have e2 : 0 + ((adjPairs (a :: t)).map fun q => (q.2.x - q.1.x) * (q.2.y + q.1.y)).sum + (a.x - b.x) * (a.y + b.y) =
        ((cyclicPairs (a :: t)).map fun q => (q.2.x - q.1.x) * (q.2.y + q.1.y)).sum := by
      rw [adj_cyclic a t b hb]; simp
    rw [e2, sum_winding]
    · congr 1
      unfold area2
      simp
    · unfold cyclicPairs
      have e1 : (((a :: t).zip ((a :: t).rotate 1)).map fun q => q.1.x * q.1.y) =
          (((a :: t).zip ((a :: t).rotate 1)).map Prod.fst).map fun w => w.x * w.y := by simp
      have e2 : (((a :: t).zip ((a :: t).rotate 1)).map fun q => q.2.x * q.2.y) =
          (((a :: t).zip ((a :: t).rotate 1)).map Prod.snd).map fun w => w.x * w.y := by simp
      rw [e1, e2, List.map_fst_zip (by simp), List.map_snd_zip (by simp)]
      exact (((List.rotate_perm (a :: t) 1)).map _).sum_eq.symm

/-- **C30.** The classification is unchanged by translation and by the choice of the starting vertex. -/
theorem C30_winding_invariant (l : List R3) (h : l ≠ []) (v : R3) (k : Nat) :
    (Path.mk ((l.map (· + v)).map R3.pt)).isWindingCW = (Path.mk (l.map R3.pt)).isWindingCW ∧
      (Path.mk ((l.rotate k).map R3.pt)).isWindingCW = (Path.mk (l.map R3.pt)).isWindingCW := by
  have h1 : l.map (· + v) ≠ [] := by simpa using h
  have h2 : l.rotate k ≠ [] := by
    intro hc; exact h (List.rotate_eq_nil_iff.1 hc)
  rw [C30_winding_is_area _ h1, C30_winding_is_area _ h2, C30_winding_is_area _ h, area2_shift, area2_rotate]
  exact ⟨rfl, rfl⟩

/-- **C30.** Exactly one of a contour of non-zero area and its reverse is solid; the other one is a hole. -/
theorem C30_reverse_flips (l : List R3) (h : area2 l ≠ 0) :
    ∃ b : Bool, (Path.mk (l.map R3.pt)).isSolid = .ok b ∧ (Path.mk (l.map R3.pt)).isHole = .ok (!b) ∧
      (Path.mk (l.map R3.pt)).reverse.isSolid = .ok (!b) ∧ (Path.mk (l.map R3.pt)).reverse.isHole = .ok b := by
  have hne : l ≠ [] := by rintro rfl; exact h (by simp [area2, cyclicPairs])
  have hr : (Path.mk (l.map R3.pt)).reverse = Path.mk (l.reverse.map R3.pt) := by simp [Path.reverse]
  have hrn : l.reverse ≠ [] := by simpa using hne
  refine ⟨decide (area2 l < 0), ?_, ?_, ?_, ?_⟩
  · simp [Path.isSolid, Path.isHole, C30_winding_is_area l hne, bind, Except.bind, pure, Except.pure]
  · simp [Path.isHole, C30_winding_is_area l hne, bind, Except.bind, pure, Except.pure]
  · rw [hr]
    simp only [Path.isSolid, Path.isHole, C30_winding_is_area _ hrn, bind, Except.bind, pure, Except.pure, area2_reverse]
    rcases lt_or_gt_of_ne h with h | h
    · have : ¬ (- area2 l < 0) := by linarith
      simp [h]; linarith
    · have : ¬ (area2 l < 0) := by linarith
      have h' : - area2 l < 0 := by linarith
      simp [this, h]
  · rw [hr]
    simp only [Path.isHole, C30_winding_is_area _ hrn, bind, Except.bind, pure, Except.pure, area2_reverse]
    rcases lt_or_gt_of_ne h with h | h
    · have : ¬ (- area2 l < 0) := by linarith
      simp [h]; linarith
    · have : ¬ (area2 l < 0) := by linarith
      have h' : - area2 l < 0 := by linarith
      simp [this, h]

/-- **C30.** An empty path makes the classification panic, whatever the arithmetic. -/
theorem C30_empty_panics {α : Type} [Flt α] : ∃ e, (Path.mk ([] : List (Point α))).isWindingCW = .error e :=
  ⟨.index, rfl⟩

/-- the unit square has non-zero area: the hypothesis of `C30_reverse_flips` is met -/
example : area2 [⟨0, 0, 0⟩, ⟨1, 0, 0⟩, ⟨1, 1, 0⟩, ⟨0, 1, 0⟩] = 2 := by
  simp [area2, cyclicPairs, List.rotate]; norm_num

end Goosli
