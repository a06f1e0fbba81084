import Verif.Proofs.Geom
import Verif.Model.Path
import Verif.Spec.Toy
/-!
# C31: path reversal and closing
-/
set_option linter.unusedSectionVars false
namespace Goosli
open Flt
variable {α : Type} [Flt α]

/-- **C31 (reversal).** `Reverse` is an involution, keeps the number of points, puts point `i` at `len-1-i` and swaps the
end points, for every path and every arithmetic. -/
theorem C31_reverse (p : Path α) :
    p.reverse.reverse = p ∧ p.reverse.points.length = p.points.length ∧
      (∀ i < p.points.length, p.reverse.points[i]? = p.points[p.points.length - 1 - i]?) ∧
      p.reverse.points.head? = p.points.getLast? ∧ p.reverse.points.getLast? = p.points.head? := by
  refine ⟨by simp [Path.reverse], by simp [Path.reverse], fun i hi => ?_, by simp [Path.reverse], by simp [Path.reverse]⟩
  simp only [Path.reverse]
  rw [List.getElem?_reverse hi]

/-- **C31 (closing).** `Close` keeps the original points as a prefix and adds at most one point, which is the first; for
every path and every arithmetic. -/
theorem C31_close_prefix (p : Path α) :
    p.close.points = p.points ∨ (p.isClosed = false ∧ ∃ a, p.points.head? = some a ∧ p.close.points = p.points ++ [a]) := by
  unfold Path.close
  by_cases h : p.isClosed = true
  · left; simp [h]
  · simp only [Bool.not_eq_true] at h
    rw [if_neg (by simp [h])]
    rcases hp : p.points with _ | ⟨a, t⟩
    · left; rfl
    · right; exact ⟨h, a, rfl, rfl⟩

/-- **C31 (closing).** With finite coordinates the result is closed, and closing again changes nothing. -/
theorem C31_close_closes (ws : List R3) :
    (Path.mk (ws.map R3.pt)).close.isClosed = true ∧
      (Path.mk (ws.map R3.pt)).close.close = (Path.mk (ws.map R3.pt)).close := by
  have h1 : (Path.mk (ws.map R3.pt)).close.isClosed = true := by
    rcases C31_close_prefix (Path.mk (ws.map R3.pt)) with h | ⟨hc, a, ha, h⟩
    · by_cases hc : (Path.mk (ws.map R3.pt)).isClosed = true
      · have : (Path.mk (ws.map R3.pt)).close = Path.mk (ws.map R3.pt) := by unfold Path.close; rw [if_pos hc]
        rw [this]; exact hc
      · cases hw : ws.map R3.pt with
        | nil => simp [Path.close, Path.isClosed]
        | cons a t =>
          exfalso
          rw [hw] at h hc
          simp [Path.close, hc] at h
    · have hb : (Path.mk (ws.map R3.pt)).close = ⟨ws.map R3.pt ++ [a]⟩ := by
        cases hcl : (Path.mk (ws.map R3.pt)).close; rw [hcl] at h; simpa using h
      rw [hb]
      have hm : ∃ w : R3, a = w.pt := by
        obtain ⟨w, _, rfl⟩ := List.mem_map.1 (List.mem_of_mem_head? ha); exact ⟨w, rfl⟩
      obtain ⟨w, rfl⟩ := hm
      have e1 : (ws.map R3.pt ++ [w.pt]).getLast? = some w.pt := List.getLast?_concat
      have e2 : (ws.map R3.pt ++ [w.pt]).head? = some w.pt := by
        simp only at ha
        cases hw : ws.map R3.pt with
        | nil => rfl
        | cons b t => rw [hw] at ha; simpa using ha
      simp only [Path.isClosed, e1, e2]
      split
      · rfl
      · exact (equal_pt _ _).2 (R3.near_refl w)
  refine ⟨h1, ?_⟩
  generalize (Path.mk (ws.map R3.pt)).close = q at h1 ⊢
  unfold Path.close; rw [if_pos h1]

section Example
attribute [local instance] Toy.flt
/-- `Close` adds a point to an open path -/
example : (Path.mk [(⟨0, 0, 0⟩ : Point Int), ⟨5, 0, 0⟩, ⟨9, 7, 0⟩]).isClosed = false ∧
    (Path.mk [(⟨0, 0, 0⟩ : Point Int), ⟨5, 0, 0⟩, ⟨9, 7, 0⟩]).close.points.length = 4 := by decide
end Example
end Goosli
