import Verif.Proofs.Rot
/-!
# C63: rotation about an arbitrary axis
-/
namespace Goosli
open Flt

/-- **C63.** `RotateAbout` with a non-zero axis is the right-hand rotation about that axis: it is Rodrigues' formula, keeps lengths and
the component along the axis, and moves a vector perpendicular to the axis by exactly the angle. -/
theorem C63_rotation (a b : R3) (hb : b ≠ 0) (θ : ℝ) : ∃ r : R3, a.vec.rotateAbout b.vec (XR.fin θ) = r.vec ∧
    r = R3.rodrigues b.unit (rad θ) a ∧ r.norm = a.norm ∧ r.dot b = a.dot b ∧
    (a.dot b = 0 → r.dot a = Real.cos (rad θ) * a.normSq ∧ (a.cross r).dot b = Real.sin (rad θ) * a.normSq * b.norm) := by
  refine ⟨_, rotateAbout_vec a b hb θ, rfl, ?_, ?_, ?_⟩
  all_goals
    have hn := R3.norm_pos hb
    have hu : b.unit.normSq = 1 := by
      have : b.unit.normSq = b.normSq * (1 / b.norm) ^ 2 := by
        simp [R3.unit, R3.normSq, R3.dot, hn.ne']; ring
      rw [this, ← R3.norm_sq]; field_simp
    have hb' : b = b.norm • b.unit := by
      apply R3.ext <;> simp [R3.unit, hn.ne'] <;> field_simp
    have hsc := Real.sin_sq_add_cos_sq (rad θ)
    unfold R3.rodrigues
    generalize Real.sin (rad θ) = s at *
    generalize Real.cos (rad θ) = c at *
    generalize b.unit = u at *
    generalize b.norm = k at *
    subst hb'
  · unfold R3.norm
    congr 1
    simp only [R3.normSq, R3.dot] at hu ⊢
    simp only [R3.add_x, R3.add_y, R3.add_z, R3.smul_x, R3.smul_y, R3.smul_z, R3.cross]
    linear_combination ((1 - c) ^ 2 * (u.x * a.x + u.y * a.y + u.z * a.z) ^ 2 + s ^ 2 * (a.x * a.x + a.y * a.y + a.z * a.z)) * hu +
      ((a.x * a.x + a.y * a.y + a.z * a.z) - (u.x * a.x + u.y * a.y + u.z * a.z) ^ 2) * hsc
  · simp only [R3.normSq, R3.dot] at hu ⊢
    simp only [R3.add_x, R3.add_y, R3.add_z, R3.smul_x, R3.smul_y, R3.smul_z, R3.cross]
    linear_combination (k * (1 - c) * (u.x * a.x + u.y * a.y + u.z * a.z)) * hu
  · intro h0
    have hd : u.dot a = 0 := by
      have : a.dot (k • u) = k * u.dot a := by simp [R3.dot]; ring
      rw [this] at h0
      exact (mul_eq_zero.1 h0).resolve_left hn.ne'
    simp only [hd, mul_zero]
    simp only [R3.normSq, R3.dot] at hu hd ⊢
    simp only [R3.add_x, R3.add_y, R3.add_z, R3.smul_x, R3.smul_y, R3.smul_z, R3.cross]
    constructor
    · ring
    · linear_combination (s * k * (a.x * a.x + a.y * a.y + a.z * a.z)) * hu - (s * k * (u.x * a.x + u.y * a.y + u.z * a.z)) * hd

/-- with a zero axis the vector is scaled by the cosine of the angle -/
theorem C63_zero_axis (a : R3) (θ : ℝ) : a.vec.rotateAbout (0 : R3).vec (XR.fin θ) = (Real.cos (rad θ) • a).vec :=
  rotateAbout_zero_axis a θ

/-- `Rotate` with the matrices of the package turns the other way round -/
theorem C63_opposite (a : R3) (θ : ℝ) :
    a.vec.rotate (rotationAroundZ (XR.fin θ)) = a.vec.rotateAbout (axisZ : Vec XR) (XR.fin (-θ)) ∧
    a.vec.rotate (rotationAroundX (XR.fin θ)) = a.vec.rotateAbout (axisX : Vec XR) (XR.fin (-θ)) := by
  have hx : (R3.mk 1 0 0) ≠ 0 := by intro h; have := congrArg R3.x h; simp at this
  have hz : (R3.mk 0 0 1) ≠ 0 := by intro h; have := congrArg R3.z h; simp at this
  have ux : (R3.mk 1 0 0).unit = R3.mk 1 0 0 := by apply R3.ext <;> simp [R3.unit, R3.norm, R3.normSq, R3.dot]
  have uz : (R3.mk 0 0 1).unit = R3.mk 0 0 1 := by apply R3.ext <;> simp [R3.unit, R3.norm, R3.normSq, R3.dot]
  have e : rad (-θ) = -rad θ := by unfold rad; ring
  rw [rotate_rotZ, rotate_rotX, axisZ_vec, axisX_vec', rotateAbout_vec _ _ hz, rotateAbout_vec _ _ hx, ux, uz, e]
  constructor <;> congr 1 <;> apply R3.ext <;> simp [R3.rodrigues, R3.dot, R3.cross, R3.rotX, R3.rotZ] <;> ring

/-- a quarter turn of the x axis about the z axis gives the y axis -/
example : (axisX : Vec XR).rotateAbout axisZ (XR.fin 90) = (R3.mk 0 1 0).vec := by
  have hz : (R3.mk 0 0 1) ≠ 0 := by intro h; have := congrArg R3.z h; simp at this
  have uz : (R3.mk 0 0 1).unit = R3.mk 0 0 1 := by apply R3.ext <;> simp [R3.unit, R3.norm, R3.normSq, R3.dot]
  have e : rad 90 = Real.pi / 2 := by unfold rad; ring
  rw [axisZ_vec, axisX_vec', rotateAbout_vec _ _ hz, uz, e]
  congr 1
  apply R3.ext <;> simp [R3.rodrigues, R3.dot, R3.cross]

end Goosli
