import Verif.Model.Vip
import Verif.Proofs.Solid
import Verif.Props.C23
import Verif.Props.C26
import Verif.Props.C27
import Mathlib.Analysis.SpecialFunctions.Trigonometric.Bounds
/-!
# Rotations about an axis and the planes of the analysis in real terms
-/
set_option linter.unusedSectionVars false
namespace Goosli
open Flt

/-- right-hand rotation of `a` by `φ` radians about the axis `u` (a unit vector): Rodrigues' formula -/
noncomputable def R3.rodrigues (u : R3) (φ : ℝ) (a : R3) : R3 :=
  Real.cos φ • a + ((1 - Real.cos φ) * u.dot a) • u + Real.sin φ • u.cross a

theorem axisZ_vec : (axisZ : Vec XR) = (R3.mk 0 0 1).vec := by simp [axisZ, V, R3.vec]
theorem axisX_vec' : (axisX : Vec XR) = (R3.mk 1 0 0).vec := by simp [axisX, V, R3.vec]
theorem planeXY_eq : (planeXY : Plane XR) = ⟨(0 : R3).pt, (R3.mk 0 0 1).vec⟩ := by
  simp [planeXY, originPoint, axisZ, V, R3.vec, R3.pt]

theorem rotateAbout_raw (a b : R3) (θ : ℝ) : a.vec.rotateAbout b.vec (XR.fin θ) =
    (((b.dot a / b.normSq) • b + Real.cos (rad θ) • (a - (b.dot a / b.normSq) • b)) +
      Real.sin (rad θ) • ((a - (b.dot a / b.normSq) • b).norm • (b.cross (a - (b.dot a / b.normSq) • b)).unit)).vec := by
  unfold Vec.rotateAbout
  simp only [toRadians_fin, projectOn_vec, sub_vec, cross_vec, normalize_vec, length_vec, XR.fin_cos, XR.fin_sin, mulScalar_vec, add_vec]

/-- for a non-zero axis `RotateAbout` is the right-hand rotation -/
theorem rotateAbout_vec (a b : R3) (hb : b ≠ 0) (θ : ℝ) :
    a.vec.rotateAbout b.vec (XR.fin θ) = (R3.rodrigues b.unit (rad θ) a).vec := by
  rw [rotateAbout_raw]
  have hn := R3.norm_pos hb
  have hs : b.normSq = b.norm * b.norm := (R3.norm_sq b).symm
  have hs0 : b.normSq ≠ 0 := (R3.normSq_pos hb).ne'
  set perp := a - (b.dot a / b.normSq) • b with hperp
  have horth : b.dot perp = 0 := by
    have : b.dot perp = b.dot a - (b.dot a / b.normSq) * b.normSq := by
      rw [hperp]; simp [R3.dot, R3.normSq]; ring
    rw [this]; field_simp; ring
  -- the third vector
  have hw : perp.norm • (b.cross perp).unit = (1 / b.norm) • b.cross a := by
    have hbp : b.cross perp = b.cross a := by
      rw [hperp]; apply R3.ext <;> simp [R3.cross] <;> ring
    have hnorm : (b.cross perp).norm = b.norm * perp.norm := by
      have e : (b.cross perp).normSq = b.normSq * perp.normSq - b.dot perp * b.dot perp := by
        simp [R3.cross, R3.normSq, R3.dot]; ring
      rw [horth, mul_zero, sub_zero] at e
      unfold R3.norm
      rw [e, Real.sqrt_mul b.normSq_nonneg]
    by_cases h0 : perp.norm = 0
    · have hp0 : perp = 0 := R3.norm_eq_zero.1 h0
      have : b.cross a = 0 := by rw [← hbp, hp0]; apply R3.ext <;> simp [R3.cross]
      rw [this, h0]
      apply R3.ext <;> simp
    · rw [R3.unit, hnorm, hbp]
      apply R3.ext <;> simp <;> field_simp
  rw [hw]
  congr 1
  have hu : ∀ x : R3, b.unit.dot x = b.dot x / b.norm := by
    intro x; simp [R3.unit, R3.dot]; ring
  have e1 : b.dot a / b.normSq = b.dot a / (b.norm * b.norm) := by rw [hs]
  rw [hperp, e1]
  unfold R3.rodrigues
  rw [hu a]
  apply R3.ext <;> simp [R3.unit, R3.cross] <;> field_simp <;> ring

/-- a zero axis leaves nothing of the part that should turn -/
theorem rotateAbout_zero_axis (a : R3) (θ : ℝ) :
    a.vec.rotateAbout (0 : R3).vec (XR.fin θ) = (Real.cos (rad θ) • a).vec := by
  rw [rotateAbout_raw]
  congr 1
  apply R3.ext <;> simp [R3.cross, R3.unit, R3.dot]

theorem rad_sub90 (θ : ℝ) : rad (θ - 90) = rad θ - Real.pi / 2 := by unfold rad; ring

theorem rad30 : rad 30 = Real.pi / 6 := by unfold rad; ring
theorem rad60 : rad 60 = Real.pi / 3 := by unfold rad; ring

/-- the normal read from a file -/
theorem fileNormal_tilted (r : ℝ) : fileNormal true (XR.fin r) =
    (R3.mk (-Real.sin (rad r) * Real.sin (rad 60)) (Real.cos (rad r) * Real.sin (rad 60)) (Real.cos (rad 60))).vec := by
  have hx : (R3.mk 1 0 0) ≠ 0 := by intro h; have := congrArg R3.x h; simp at this
  have hz : (R3.mk 0 0 1) ≠ 0 := by intro h; have := congrArg R3.z h; simp at this
  have ux : (R3.mk 1 0 0).unit = R3.mk 1 0 0 := by apply R3.ext <;> simp [R3.unit, R3.norm, R3.normSq, R3.dot]
  have uz : (R3.mk 0 0 1).unit = R3.mk 0 0 1 := by apply R3.ext <;> simp [R3.unit, R3.norm, R3.normSq, R3.dot]
  have ht : (-tiltX : XR) = XR.fin (-60) := by simp [tiltX]
  unfold fileNormal
  rw [if_pos rfl, ht, axisZ_vec, axisX_vec', rotateAbout_vec _ _ hx, rotateAbout_vec _ _ hz, ux, uz]
  have h60 : rad (-60) = -rad 60 := by unfold rad; ring
  congr 1
  apply R3.ext <;> simp [R3.rodrigues, R3.dot, R3.cross, h60, Real.cos_neg, Real.sin_neg]
  ring

theorem fileNormal_flat (r : ℝ) : fileNormal false (XR.fin r) = (axisZ : Vec XR) := by
  have hz : (R3.mk 0 0 1) ≠ 0 := by intro h; have := congrArg R3.z h; simp at this
  have uz : (R3.mk 0 0 1).unit = R3.mk 0 0 1 := by apply R3.ext <;> simp [R3.unit, R3.norm, R3.normSq, R3.dot]
  unfold fileNormal
  rw [if_neg (by simp), axisZ_vec, rotateAbout_vec _ _ hz, uz]
  congr 1
  apply R3.ext <;> simp [R3.rodrigues, R3.dot, R3.cross]

/-- the shadow of a vector on the bed -/
def R3.flat (n : R3) : R3 := ⟨n.x, n.y, 0⟩

/-- the plane found for a facet with normal `n` while the bed is not tilted -/
theorem nextPlane_tilted (cur : AnalyzedPlane XR) (hc : cur.tilted = false) (t : RTri) (hn : t.nrm.flat ≠ 0) :
    nextPlane cur t.tri = ⟨⟨lowestVertex t.tri cur.plane.n, (R3.mk (Real.cos (rad 30) * t.nrm.x) (Real.cos (rad 30) * t.nrm.y)
      (Real.sin (rad 30) * t.nrm.flat.norm)).vec⟩, true, XR.fin (angleDeg t.nrm.flat (R3.mk 1 0 0) - 90)⟩ := by
  have hx : (R3.mk 1 0 0) ≠ 0 := by intro h; have := congrArg R3.x h; simp at this
  have hpr : t.tri.n.projectOnPlane planeXY = t.nrm.flat.vec := by
    show t.nrm.vec.projectOnPlane planeXY = _
    rw [planeXY_eq]
    unfold Vec.projectOnPlane
    simp only [projectOn_vec, reverse_vec, add_vec]
    congr 1
    apply R3.ext <;> simp [R3.dot, R3.normSq, R3.flat]
  have ht : (lit 90 0 - tiltX : XR) = XR.fin 30 := by simp [tiltX]; norm_num
  have h90 : (lit 90 0 : XR) = XR.fin 90 := by simp
  unfold nextPlane
  simp only [hc, Bool.false_eq_true, if_false, hpr, ht]
  simp only [h90, rotate_rotZ, axisX_vec', angle_vec _ _ hn hx, XR.fin_sub]
  have hb : t.nrm.flat.rotZ (-rad 90) = ⟨t.nrm.y, -t.nrm.x, 0⟩ := by
    have : rad 90 = Real.pi / 2 := by unfold rad; ring
    rw [this]
    apply R3.ext <;> simp [R3.rotZ, R3.flat]
  have hb0 : (R3.mk t.nrm.y (-t.nrm.x) 0) ≠ 0 := by
    intro h
    apply hn
    have h1 := congrArg R3.x h
    have h2 := congrArg R3.y h
    simp at h1 h2
    apply R3.ext <;> simp [R3.flat, h1, h2]
  rw [hb, rotateAbout_vec _ _ hb0]
  have hnorm : (R3.mk t.nrm.y (-t.nrm.x) 0).norm = t.nrm.flat.norm := by
    unfold R3.norm; congr 1; simp [R3.normSq, R3.dot, R3.flat]; ring
  have hs := R3.norm_sq t.nrm.flat
  have h0 := (R3.norm_pos hn).ne'
  have hs' : t.nrm.flat.norm * t.nrm.flat.norm = t.nrm.x * t.nrm.x + t.nrm.y * t.nrm.y := by
    rw [hs]; simp [R3.normSq, R3.dot, R3.flat]
  congr 3
  simp only [R3.unit, hnorm]
  have hdot : ((1 / t.nrm.flat.norm) • (R3.mk t.nrm.y (-t.nrm.x) 0)).dot t.nrm.flat = 0 := by
    simp [R3.dot, R3.flat]; ring
  have hcross : ((1 / t.nrm.flat.norm) • (R3.mk t.nrm.y (-t.nrm.x) 0)).cross t.nrm.flat = R3.mk 0 0 t.nrm.flat.norm := by
    apply R3.ext
    · simp [R3.cross, R3.flat]
    · simp [R3.cross, R3.flat]
    · have : (((1 / t.nrm.flat.norm) • (R3.mk t.nrm.y (-t.nrm.x) 0)).cross t.nrm.flat).z =
          (t.nrm.flat.norm * t.nrm.flat.norm) / t.nrm.flat.norm := by
        rw [hs']; simp [R3.cross, R3.flat]; ring
      rw [this]; field_simp
  unfold R3.rodrigues
  rw [hdot, hcross]
  apply R3.ext <;> simp [R3.flat]

end Goosli
