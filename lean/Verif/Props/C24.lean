import Verif.Proofs.Solid
/-!
# C24: shifting is a translation
-/
set_option linter.unusedSectionVars false
namespace Goosli
open Flt

/-- **C24.** `Mesh.Shift` moves every vertex by exactly `v`, keeps normals, number and order of the triangles. -/
theorem C24_shift (ts : List RTri) (v : R3) :
    Mesh.shift (some (rmesh ts)) v.vec = some (rmesh (ts.map (RTri.map (· + v)))) ∧
      ∀ t : RTri, (t.map (· + v)).nrm = t.nrm := by
  constructor
  · simp only [Mesh.shift, rmesh, Option.map_some, List.map_map]
    refine congrArg some (congrArg Mesh.mk ?_)
    apply List.map_congr_left
    intro t _
    simp only [Function.comp, Triangle.shift, RTri.tri, shift_pt, newTriangle_tri, RTri.map]
  · intro t
    simp only [RTri.nrm, RTri.map]
    congr 1 <;> apply R3.ext <;> simp

/-- **C24.** Two shifts add up; a shift by zero changes nothing; shifting back restores the mesh. -/
theorem C24_shift_comp (ts : List RTri) (v w : R3) :
    Mesh.shift (Mesh.shift (some (rmesh ts)) v.vec) w.vec = Mesh.shift (some (rmesh ts)) (v + w).vec ∧
      Mesh.shift (Mesh.shift (some (rmesh ts)) v.vec) (-v).vec = some (rmesh ts) := by
  have comp : ∀ v w : R3, Mesh.shift (Mesh.shift (some (rmesh ts)) v.vec) w.vec = Mesh.shift (some (rmesh ts)) (v + w).vec := by
    intro v w
    rw [(C24_shift ts v).1, (C24_shift _ w).1, (C24_shift ts (v + w)).1, List.map_map]
    congr 2
    apply List.map_congr_left
    intro t _
    simp only [Function.comp, RTri.map]
    congr 1 <;> apply R3.ext <;> simp <;> ring
  refine ⟨comp v w, ?_⟩
  rw [comp, (C24_shift ts _).1]
  congr 2
  conv_rhs => rw [← List.map_id ts]
  apply List.map_congr_left
  intro t _
  simp only [RTri.map, id]
  have e : ∀ p : R3, p + (v + -v) = p := by intro p; apply R3.ext <;> simp
  simp only [e]

/-- **C24.** A nil mesh is ignored, whatever the arithmetic. -/
theorem C24_nil {α : Type} [Flt α] (v : Vec α) : Mesh.shift none v = none := rfl

/-- shifting a concrete triangle changes it -/
example : (RTri.mk ⟨0, 0, 0⟩ ⟨1, 0, 0⟩ ⟨0, 1, 0⟩).map (· + ⟨1, 2, 3⟩) = ⟨⟨1, 2, 3⟩, ⟨2, 2, 3⟩, ⟨1, 3, 3⟩⟩ := by
  unfold RTri.map
  congr 1 <;> apply R3.ext <;> simp <;> norm_num

end Goosli
