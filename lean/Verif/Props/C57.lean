import Verif.Props.C06
/-!
# C57: the mesh simplifier wrapper
-/
set_option linter.unusedSectionVars false
namespace Goosli
open Flt

variable {α : Type} [Flt α]

/-- **C57 (nil).** `none` is the error result. -/
theorem C57_nil (f : List (STri α) → α → List (STri α)) (k : Int) : simplifyMesh f none k = none := rfl

/-- **C57 (small enough).** The mesh itself; the simplifier is not consulted (the result is the same for any two). -/
theorem C57_small (f : List (STri α) → α → List (STri α)) (m : Mesh α) (k : Int) (h : (m.triangles.length : Int) ≤ k) :
    simplifyMesh f (some m) k = some m := by
  simp [simplifyMesh, h]

/-- **C57 (reduction).** Otherwise the simplifier receives the vertices of all triangles in order and the ratio of the
sizes, and the result has its triangles in order, vertices in order, with normals computed from the vertices. -/
theorem C57_reduced (f : List (STri α) → α → List (STri α)) (m : Mesh α) (k : Int) (h : k < m.triangles.length) :
    ∃ (inp : List (STri α)) (m' : Mesh α), simplifyMesh f (some m) k = some m' ∧
      inp.length = m.triangles.length ∧
      (∀ (i : Nat) (t : Triangle α), m.triangles[i]? = some t → inp[i]? = some (t.p1, t.p2, t.p3)) ∧
      m'.triangles.length = (f inp (ofInt k / ofInt (m.triangles.length : Int))).length ∧
      (∀ (i : Nat) (q : STri α), (f inp (ofInt k / ofInt (m.triangles.length : Int)))[i]? = some q →
        ∃ t, m'.triangles[i]? = some t ∧ t.p1 = q.1 ∧ t.p2 = q.2.1 ∧ t.p3 = q.2.2 ∧ t.Consistent) := by
  refine ⟨toFoglemanMesh m, toGoosliMesh (f (toFoglemanMesh m) (ofInt k / ofInt (m.triangles.length : Int))), ?_, ?_, ?_, ?_, ?_⟩
  · unfold simplifyMesh; dsimp only; rw [if_neg (by omega)]
  · simp [toFoglemanMesh]
  · intro i t ht; simp [toFoglemanMesh, ht]
  · simp [toGoosliMesh]
  · intro i q hq
    exact ⟨newTriangle q.1 q.2.1 q.2.2, by simp [toGoosliMesh, hq], rfl, rfl, rfl, (C06_newTriangle _ _ _).1⟩

section
attribute [local instance] Toy.flt
/-- a mesh of two triangles reduced to one by a simplifier that keeps the first -/
example : ∃ m : Mesh Int, (1 : Int) < m.triangles.length ∧
    (simplifyMesh (fun ts _ => ts.take 1) (some m) 1).map (·.triangles.length) = some 1 :=
  ⟨⟨[newTriangle ⟨1, 0, 0⟩ ⟨0, 2, 0⟩ ⟨0, 0, 3⟩, newTriangle ⟨1, 0, 0⟩ ⟨0, 5, 0⟩ ⟨0, 0, 3⟩]⟩, by decide, by decide⟩
end

end Goosli
