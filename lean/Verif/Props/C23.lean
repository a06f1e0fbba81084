import Verif.Proofs.Solid
/-!
# C23: rotations are rigid and reversible
-/
set_option linter.unusedSectionVars false
namespace Goosli
open Flt

theorem rotate_rotX (θ : ℝ) (v : R3) : v.vec.rotate (rotationAroundX (XR.fin θ)) = (v.rotX (-rad θ)).vec := by
  simp [Vec.rotate, rotationAroundX, toRadians_fin, Vec.dot, V, R3.vec, R3.rotX]
  constructor <;> ring

theorem rotate_rotZ (θ : ℝ) (v : R3) : v.vec.rotate (rotationAroundZ (XR.fin θ)) = (v.rotZ (-rad θ)).vec := by
  simp [Vec.rotate, rotationAroundZ, toRadians_fin, Vec.dot, V, R3.vec, R3.rotZ]
  constructor <;> ring

/-- turn about a centre by a linear map -/
noncomputable def turnAbout (L : R3 → R3) (o p : R3) : R3 := L (p - o) + o

/-- general shape of `Mesh.Rotate` for a matrix that acts as `L` -/
theorem rotate_mesh (rm : RotationMatrix XR) (L : R3 → R3) (hL : ∀ v : R3, v.vec.rotate rm = (L v).vec) (ts : List RTri)
    (o : R3) : (rmesh ts).rotate rm o.pt = rmesh (ts.map (RTri.map (turnAbout L o))) := by
  simp only [Mesh.rotate, rmesh, List.map_map]
  congr 1
  apply List.map_congr_left
  intro t _
  simp only [Function.comp, RTri.tri, vectorTo_pt, hL, toVector_pt, add_vec, toPoint_vec, newTriangle_tri]
  rfl

/-- a rigid rotation: keeps distances and vector products, fixes the centre, and is undone by another one -/
structure RigidAt (L L' : R3 → R3) : Prop where
  sub : ∀ u v, L (u - v) = L u - L v
  dot : ∀ u v, (L u).dot (L v) = u.dot v
  cross : ∀ u v, (L u).cross (L v) = L (u.cross v)
  inv : ∀ u, L' (L u) = u

theorem rigid_rotX (φ : ℝ) : RigidAt (R3.rotX φ) (R3.rotX (-φ)) where
  sub u v := by apply R3.ext <;> simp [R3.rotX] <;> ring
  dot u v := by
    have := Real.sin_sq_add_cos_sq φ
    simp only [R3.rotX, R3.dot]
    linear_combination (u.y * v.y + u.z * v.z) * this
  cross u v := by
    have := Real.sin_sq_add_cos_sq φ
    apply R3.ext
    · simp only [R3.rotX, R3.cross]; linear_combination (u.y * v.z - u.z * v.y) * this
    · simp only [R3.rotX, R3.cross]; ring
    · simp only [R3.rotX, R3.cross]; ring
  inv u := by
    have := Real.sin_sq_add_cos_sq φ
    apply R3.ext
    · simp [R3.rotX]
    · simp only [R3.rotX, Real.cos_neg, Real.sin_neg]; linear_combination u.y * this
    · simp only [R3.rotX, Real.cos_neg, Real.sin_neg]; linear_combination u.z * this

theorem rigid_rotZ (φ : ℝ) : RigidAt (R3.rotZ φ) (R3.rotZ (-φ)) where
  sub u v := by apply R3.ext <;> simp [R3.rotZ] <;> ring
  dot u v := by
    have := Real.sin_sq_add_cos_sq φ
    simp only [R3.rotZ, R3.dot]
    linear_combination (u.x * v.x + u.y * v.y) * this
  cross u v := by
    have := Real.sin_sq_add_cos_sq φ
    apply R3.ext
    · simp only [R3.rotZ, R3.cross]; ring
    · simp only [R3.rotZ, R3.cross]; ring
    · simp only [R3.rotZ, R3.cross]; linear_combination (u.x * v.y - u.y * v.x) * this
  inv u := by
    have := Real.sin_sq_add_cos_sq φ
    apply R3.ext
    · simp only [R3.rotZ, Real.cos_neg, Real.sin_neg]; linear_combination u.x * this
    · simp only [R3.rotZ, Real.cos_neg, Real.sin_neg]; linear_combination u.y * this
    · simp [R3.rotZ]

theorem rigid_facts {L L' : R3 → R3} (h : RigidAt L L') (o : R3) :
    turnAbout L o o = o ∧ (∀ p q, R3.dist (turnAbout L o p) (turnAbout L o q) = R3.dist p q) ∧
      (∀ t : RTri, (t.map (turnAbout L o)).nrm = L t.nrm ∧ (t.map (turnAbout L o)).nrm.norm = t.nrm.norm) ∧
      (∀ p, turnAbout L' o (turnAbout L o p) = p) := by
  have l0 : L 0 = 0 := by
    have := h.sub 0 0
    have e : ∀ a : R3, a - a = 0 := by intro a; apply R3.ext <;> simp
    rwa [e, e] at this
  have diff : ∀ p q, turnAbout L o p - turnAbout L o q = L (p - q) := by
    intro p q
    have e : p - q = (p - o) - (q - o) := by apply R3.ext <;> simp
    rw [e, h.sub]
    unfold turnAbout
    apply R3.ext <;> simp
  have nr : ∀ t : RTri, (t.map (turnAbout L o)).nrm = L t.nrm := by
    intro t
    simp only [RTri.nrm, RTri.map, diff, h.cross]
  refine ⟨?_, ?_, fun t => ⟨nr t, ?_⟩, ?_⟩
  · unfold turnAbout
    have e : o - o = 0 := by apply R3.ext <;> simp
    rw [e, l0]; apply R3.ext <;> simp
  · intro p q
    unfold R3.dist R3.norm R3.normSq
    rw [diff, h.dot]
  · rw [nr]; unfold R3.norm R3.normSq; rw [h.dot]
  · intro p
    unfold turnAbout
    have e : L (p - o) + o - o = L (p - o) := by apply R3.ext <;> simp
    rw [e, h.inv]
    apply R3.ext <;> simp

/-- **C23 (about the x axis).** `Mesh.Rotate` with `RotationAroundX(angle)` maps every vertex by one and the same
turn about `o` (by `-angle` in the mathematical sense), keeping number and order of the triangles; the turn fixes `o`
and all distances, rotates the normals and keeps areas; turning back by `-angle` restores the mesh. -/
theorem C23_rotate_X (ts : List RTri) (o : R3) (θ : ℝ) :
    let f := turnAbout (R3.rotX (-rad θ)) o
    (rmesh ts).rotate (rotationAroundX (XR.fin θ)) o.pt = rmesh (ts.map (RTri.map f)) ∧
      f o = o ∧ (∀ p q, R3.dist (f p) (f q) = R3.dist p q) ∧
      (∀ t : RTri, (t.map f).nrm = t.nrm.rotX (-rad θ) ∧ (t.map f).nrm.norm = t.nrm.norm) ∧
      ((rmesh ts).rotate (rotationAroundX (XR.fin θ)) o.pt).rotate (rotationAroundX (XR.fin (-θ))) o.pt = rmesh ts := by
  intro f
  have h := rigid_facts (rigid_rotX (-rad θ)) o
  refine ⟨rotate_mesh _ _ (rotate_rotX θ) ts o, h.1, h.2.1, h.2.2.1, ?_⟩
  rw [rotate_mesh _ _ (rotate_rotX θ), rotate_mesh _ _ (rotate_rotX (-θ)), List.map_map]
  have e : -rad (-θ) = - -rad θ := by unfold rad; ring
  congr 1
  rw [e]
  conv_rhs => rw [← List.map_id ts]
  apply List.map_congr_left
  intro t _
  simp only [Function.comp, RTri.map, h.2.2.2, id]

/-- **C23 (about the z axis).** -/
theorem C23_rotate_Z (ts : List RTri) (o : R3) (θ : ℝ) :
    let f := turnAbout (R3.rotZ (-rad θ)) o
    (rmesh ts).rotate (rotationAroundZ (XR.fin θ)) o.pt = rmesh (ts.map (RTri.map f)) ∧
      f o = o ∧ (∀ p q, R3.dist (f p) (f q) = R3.dist p q) ∧
      (∀ t : RTri, (t.map f).nrm = t.nrm.rotZ (-rad θ) ∧ (t.map f).nrm.norm = t.nrm.norm) ∧
      ((rmesh ts).rotate (rotationAroundZ (XR.fin θ)) o.pt).rotate (rotationAroundZ (XR.fin (-θ))) o.pt = rmesh ts := by
  intro f
  have h := rigid_facts (rigid_rotZ (-rad θ)) o
  refine ⟨rotate_mesh _ _ (rotate_rotZ θ) ts o, h.1, h.2.1, h.2.2.1, ?_⟩
  rw [rotate_mesh _ _ (rotate_rotZ θ), rotate_mesh _ _ (rotate_rotZ (-θ)), List.map_map]
  have e : -rad (-θ) = - -rad θ := by unfold rad; ring
  congr 1
  rw [e]
  conv_rhs => rw [← List.map_id ts]
  apply List.map_congr_left
  intro t _
  simp only [Function.comp, RTri.map, h.2.2.2, id]

/-- a quarter turn moves a point: the statement is not about the identity -/
example : turnAbout (R3.rotZ (-rad 90)) ⟨1, 1, 0⟩ ⟨2, 1, 5⟩ = ⟨1, 0, 5⟩ := by
  have e : rad 90 = Real.pi / 2 := by unfold rad; ring
  apply R3.ext <;> simp [turnAbout, R3.rotZ, e] <;> norm_num

end Goosli
