import Verif.Props.C52
import Verif.Proofs.GcodeHoare
/-!
# C64: the bed is turned so that the part is printed upright
-/
set_option linter.unusedSectionVars false
namespace Goosli
open Flt

/-- the turn about the z axis followed by the tilt about the x axis, as a map of space -/
noncomputable def bedMap (θ φ : ℝ) (p : R3) : R3 := (p.rotZ (-rad θ)).rotX (-rad φ)

theorem bedMap_add (θ φ : ℝ) (p v : R3) : bedMap θ φ (p + v) = bedMap θ φ p + bedMap θ φ v := by
  apply R3.ext <;> simp [bedMap, R3.rotZ, R3.rotX] <;> ring

theorem bedMap_dist (θ φ : ℝ) (p q : R3) : R3.dist (bedMap θ φ p) (bedMap θ φ q) = R3.dist p q := by
  unfold R3.dist R3.norm R3.normSq bedMap
  rw [← (rigid_rotX _).sub, ← (rigid_rotZ _).sub, (rigid_rotX _).dot, (rigid_rotZ _).dot]

theorem originPoint_pt : (originPoint : Point XR) = (0 : R3).pt := by simp [originPoint, R3.pt]

theorem turnAbout_zero (L : R3 → R3) : turnAbout L 0 = L := by
  funext p
  have e : p - 0 = p := by apply R3.ext <;> simp
  unfold turnAbout
  rw [e]
  apply R3.ext <;> simp

theorem turnMesh_real (θ φ : ℝ) (ts : List RTri) :
    turnMesh (XR.fin θ) (XR.fin φ) (rmesh ts) = rmesh (ts.map (RTri.map (bedMap θ φ))) := by
  unfold turnMesh
  rw [originPoint_pt, rotate_mesh _ _ (rotate_rotZ θ), rotate_mesh _ _ (rotate_rotX φ), List.map_map, turnAbout_zero, turnAbout_zero]
  rfl

theorem projectXY (v : R3) : v.vec.projectOnPlane planeXY = v.flat.vec := by
  rw [planeXY_eq]
  unfold Vec.projectOnPlane
  simp only [projectOn_vec, reverse_vec, add_vec]
  congr 1
  apply R3.ext <;> simp [R3.dot, R3.normSq, R3.flat]

theorem directionZ_vec (v : R3) (hv : v.flat ≠ 0) : directionZ v.vec = XR.fin (angleDeg v.flat (R3.mk 1 0 0) + 90) := by
  have hx : (R3.mk 1 0 0) ≠ 0 := by intro h; have := congrArg R3.x h; simp at this
  have h90 : (lit 90 0 : XR) = XR.fin 90 := by simp
  unfold directionZ
  rw [projectXY, axisX_vec', angle_vec _ _ hv hx, h90, XR.fin_add]

/-- where the turn takes the direction `v` it was computed for -/
theorem bedMap_direction (v : R3) (hv : v.flat ≠ 0) (φ : ℝ) : bedMap (angleDeg v.flat (R3.mk 1 0 0) + 90) φ v =
    ⟨v.x * (v.y - |v.y|) / v.flat.norm,
      -(v.x * v.x + v.y * |v.y|) / v.flat.norm * Real.cos (rad φ) + v.z * Real.sin (rad φ),
      (v.x * v.x + v.y * |v.y|) / v.flat.norm * Real.sin (rad φ) + v.z * Real.cos (rad φ)⟩ := by
  have hx : (R3.mk 1 0 0) ≠ 0 := by intro h; have := congrArg R3.x h; simp at this
  have h1 : (R3.mk 1 0 0).norm = 1 := by simp [R3.norm, R3.normSq, R3.dot]
  have hs := sin_angleDeg v.flat hv rfl
  have hc := cos_angleDeg v.flat _ hv hx
  have hd : v.flat.dot (R3.mk 1 0 0) = v.x := by simp [R3.dot, R3.flat]
  rw [hd, h1, mul_one] at hc
  have hfy : v.flat.y = v.y := rfl
  rw [hfy] at hs
  have e : rad (angleDeg v.flat (R3.mk 1 0 0) + 90) = rad (angleDeg v.flat (R3.mk 1 0 0)) + Real.pi / 2 := by unfold rad; ring
  unfold bedMap R3.rotZ R3.rotX
  rw [e]
  simp only [Real.cos_neg, Real.sin_neg, Real.sin_add_pi_div_two, Real.cos_add_pi_div_two, hs, hc]
  apply R3.ext <;> simp <;> ring

/-- `f` is a rigid motion of `m` to `m'` -/
def RigidTo (f : R3 → R3) (ts : List RTri) (m' : Mesh XR) : Prop :=
  m' = rmesh (ts.map (RTri.map f)) ∧ ∀ p q, R3.dist (f p) (f q) = R3.dist p q

/-- `f` turns the direction `v` upright -/
def Uprights (f : R3 → R3) (v : R3) : Prop := ∀ p, f (p + v) = f p + ⟨0, 0, v.norm⟩

/-- `f` leaves the direction `v` slanted -/
def Slants (f : R3 → R3) (v : R3) : Prop := ∀ p h, f (p + v) ≠ f p + ⟨0, 0, h⟩

theorem turn_rigid (θ φ : ℝ) (ts : List RTri) : RigidTo (bedMap θ φ) ts (turnMesh (XR.fin θ) (XR.fin φ) (rmesh ts)) :=
  ⟨turnMesh_real θ φ ts, bedMap_dist θ φ⟩

theorem flat_sq (v : R3) : v.flat.norm * v.flat.norm = v.x * v.x + v.y * v.y := by
  rw [R3.norm_sq]; simp [R3.normSq, R3.dot, R3.flat]

theorem upright_of (v : R3) (hv : v.flat ≠ 0) (hy : 0 ≤ v.y) (φ : ℝ) (hc : Real.cos (rad φ) = v.z / v.norm)
    (hs : Real.sin (rad φ) = v.flat.norm / v.norm) : Uprights (bedMap (angleDeg v.flat (R3.mk 1 0 0) + 90) φ) v := by
  intro p
  rw [bedMap_add, bedMap_direction v hv, abs_of_nonneg hy, hc, hs, ← flat_sq]
  have hf := R3.norm_pos hv
  have hn : 0 < v.norm := by
    apply R3.norm_pos; rintro rfl; exact hv (by apply R3.ext <;> simp [R3.flat])
  have hq : v.norm * v.norm = v.flat.norm * v.flat.norm + v.z * v.z := by
    rw [R3.norm_sq, flat_sq]; simp [R3.normSq, R3.dot]
  congr 1
  apply R3.ext
  · simp
  · simp; field_simp; ring
  · simp only; field_simp; linarith

theorem slants_of (v : R3) (hy : v.y < 0) (hz : 0 < v.z) (φ : ℝ) (hc : Real.cos (rad φ) = v.z / v.norm)
    (hs : Real.sin (rad φ) = v.flat.norm / v.norm) : Slants (bedMap (angleDeg v.flat (R3.mk 1 0 0) + 90) φ) v := by
  have hv : v.flat ≠ 0 := by intro h; have := congrArg R3.y h; simp [R3.flat] at this; linarith
  have hf := R3.norm_pos hv
  have hn : 0 < v.norm := by
    apply R3.norm_pos; rintro rfl; exact hv (by apply R3.ext <;> simp [R3.flat])
  intro p h e
  rw [bedMap_add, bedMap_direction v hv, abs_of_neg hy, hc, hs] at e
  have ex := congrArg R3.x e
  have ey := congrArg R3.y e
  simp at ex ey
  have hx0 : v.x = 0 := by
    rcases ex with (h | h) | h
    · exact h
    · linarith
    · exact absurd h hf.ne'
  have hq : v.flat.norm * v.flat.norm = v.y * v.y := by rw [flat_sq, hx0]; ring
  rw [hx0] at ey
  have : 2 * (v.flat.norm * v.z / v.norm) = 0 := by
    have e1 : (v.flat.norm * v.flat.norm) / v.flat.norm = v.flat.norm := by field_simp
    have e2 : v.y * v.y / v.flat.norm = v.flat.norm := by rw [← hq, e1]
    have e3 : (v.y * v.y + -(0 * 0)) / v.flat.norm = v.flat.norm := by
      have : v.y * v.y + -(0 * 0) = v.y * v.y := by ring
      rw [this, e2]
    rw [e3] at ey
    rw [← ey]; ring
  have : 0 < v.flat.norm * v.z / v.norm := by positivity
  linarith

/-! ## SliceByProfile -/

theorem angle_axisZ (v : R3) (hv : v ≠ 0) : v.vec.angle axisZ = XR.fin (angleDeg v (R3.mk 0 0 1)) ∧
    Real.cos (rad (angleDeg v (R3.mk 0 0 1))) = v.z / v.norm ∧ Real.sin (rad (angleDeg v (R3.mk 0 0 1))) = v.flat.norm / v.norm := by
  have hz : (R3.mk 0 0 1) ≠ 0 := by intro h; have := congrArg R3.z h; simp at this
  have h1 : (R3.mk 0 0 1).norm = 1 := by simp [R3.norm, R3.normSq, R3.dot]
  have hn := R3.norm_pos hv
  have hc := cos_angleDeg v _ hv hz
  have hd : v.dot (R3.mk 0 0 1) = v.z := by simp [R3.dot]
  rw [hd, h1, mul_one] at hc
  refine ⟨by rw [axisZ_vec, angle_vec _ _ hv hz], hc, ?_⟩
  have hs : rad (angleDeg v (R3.mk 0 0 1)) = Real.arccos (v.z / v.norm) := by
    unfold angleDeg rad; rw [h1, mul_one, hd]
    have := Real.pi_pos; field_simp
  have hq : v.norm * v.norm = v.flat.norm * v.flat.norm + v.z * v.z := by
    rw [R3.norm_sq, flat_sq]; simp [R3.normSq, R3.dot]
  rw [hs, Real.sin_arccos]
  have : 1 - (v.z / v.norm) ^ 2 = (v.flat.norm / v.norm) ^ 2 := by field_simp; linarith
  rw [this, Real.sqrt_sq (div_nonneg (show 0 ≤ v.flat.norm from Real.sqrt_nonneg _) hn.le)]

/-- **C64 (profile, the part that holds).** If the profile leans towards positive y (or exactly sideways), `SliceByProfile` turns the
part rigidly so that the direction of the profile becomes vertical. -/
theorem C64_profile_partial (ts : List RTri) (v : R3) (hv : v.flat ≠ 0) (hy : 0 ≤ v.y) :
    ∃ f, RigidTo f ts (turnMesh (directionZ v.vec) (v.vec.angle axisZ) (rmesh ts)) ∧ Uprights f v := by
  have hv0 : v ≠ 0 := by rintro rfl; exact hv (by apply R3.ext <;> simp [R3.flat])
  obtain ⟨ha, hc, hs⟩ := angle_axisZ v hv0
  rw [directionZ_vec v hv, ha]
  exact ⟨_, turn_rigid _ _ _, upright_of v hv hy _ hc hs⟩

/-- **C64 (profile, violated).** If the profile leans towards negative y, the direction of the profile is not vertical after the turn. -/
theorem C64_profile_violated (ts : List RTri) (v : R3) (hy : v.y < 0) (hz : 0 < v.z) :
    ∃ f, RigidTo f ts (turnMesh (directionZ v.vec) (v.vec.angle axisZ) (rmesh ts)) ∧ Slants f v := by
  have hv : v.flat ≠ 0 := by intro h; have := congrArg R3.y h; simp [R3.flat] at this; linarith
  have hv0 : v ≠ 0 := by rintro rfl; exact hv (by apply R3.ext <;> simp [R3.flat])
  obtain ⟨ha, hc, hs⟩ := angle_axisZ v hv0
  rw [directionZ_vec v hv, ha]
  exact ⟨_, turn_rigid _ _ _, slants_of v hy hz _ hc hs⟩

/-- **C64 (profile, violated).** If the profile is vertical, every vertex of the turned part is NaN. -/
theorem C64_vertical_violated (m : Mesh XR) (z : ℝ) (t : Triangle XR)
    (ht : t ∈ (turnMesh (directionZ (R3.mk 0 0 z).vec) ((R3.mk 0 0 z).vec.angle axisZ) m).triangles) :
    t.p1 = ⟨XR.nan, XR.nan, XR.nan⟩ ∧ t.p2 = ⟨XR.nan, XR.nan, XR.nan⟩ ∧ t.p3 = ⟨XR.nan, XR.nan, XR.nan⟩ := by
  have hd : directionZ (R3.mk 0 0 z).vec = XR.nan := by
    have : (R3.mk 0 0 z).flat = 0 := by apply R3.ext <;> simp [R3.flat]
    unfold directionZ
    rw [projectXY, this, axisX_vec', (C27_zero _).2]
    rfl
  have nn : ∀ x : XR, (XR.nan * x : XR) = XR.nan := fun x => rfl
  have nn' : ∀ x : XR, (x * XR.nan : XR) = XR.nan := by intro x; cases x <;> rfl
  have na : ∀ x : XR, (XR.nan + x : XR) = XR.nan := fun x => rfl
  have na' : ∀ x : XR, (x + XR.nan : XR) = XR.nan := by intro x; cases x <;> rfl
  have hrad : toRadians XR.nan = XR.nan := rfl
  have key : ∀ (p : Point XR) (φ : XR), (((((originPoint.vectorTo p).rotate (rotationAroundZ XR.nan)).add
      originPoint.toVector).toPoint : Point XR) |> fun q => (((originPoint.vectorTo q).rotate (rotationAroundX φ)).add
      originPoint.toVector).toPoint) = ⟨XR.nan, XR.nan, XR.nan⟩ := by
    intro p φ
    have c0 : cos XR.nan = XR.nan := rfl
    have s0 : sin XR.nan = XR.nan := rfl
    have g0 : (-XR.nan : XR) = XR.nan := rfl
    have b0 : ∀ x : XR, (XR.nan - x : XR) = XR.nan := fun x => rfl
    simp [c0, s0, g0, b0, rotationAroundZ, rotationAroundX, Vec.rotate, Vec.dot, Vec.add, Vec.toPoint, V, Point.vectorTo, Point.toVector, hrad, nn, nn', na, na']
  rw [hd] at ht
  simp only [turnMesh, Mesh.rotate, List.map_map, List.mem_map, Function.comp] at ht
  obtain ⟨r, _, rfl⟩ := ht
  exact ⟨key _ _, key _ _, key _ _⟩

/-! ## the tilted planes of Slice5Axes, SliceDefault2 and SliceBridge -/

theorem tiltedNormal_vec (a : ℝ) : (tiltedNormal (XR.fin a) : Vec XR) =
    (R3.mk (Real.sin (rad 60) * Real.sin (rad a)) (Real.sin (rad 60) * Real.cos (rad a)) (Real.cos (rad 60))).vec := by
  have ht : (tiltX : XR) = XR.fin 60 := by simp [tiltX]
  unfold tiltedNormal
  rw [ht, axisZ_vec, rotate_rotX, rotate_rotZ]
  congr 1
  apply R3.ext <;> simp [R3.rotX, R3.rotZ] <;> ring

theorem sin60_pos : 0 < Real.sin (rad 60) := by rw [rad60, Real.sin_pi_div_three]; positivity
theorem cos60_pos : 0 < Real.cos (rad 60) := by rw [rad60, Real.cos_pi_div_three]; norm_num

/-- length and shadow of the tilted normal -/
theorem tilted_norms (a : ℝ) :
    let N := R3.mk (Real.sin (rad 60) * Real.sin (rad a)) (Real.sin (rad 60) * Real.cos (rad a)) (Real.cos (rad 60))
    N.norm = 1 ∧ N.flat.norm = Real.sin (rad 60) ∧ N.flat ≠ 0 := by
  intro N
  have h60 := Real.sin_sq_add_cos_sq (rad 60)
  have ha := Real.sin_sq_add_cos_sq (rad a)
  have h1 : N.norm = 1 := by
    unfold R3.norm
    have : N.normSq = 1 := by simp only [N, R3.normSq, R3.dot]; linear_combination (Real.sin (rad 60)) ^ 2 * ha + h60
    rw [this, Real.sqrt_one]
  have h2 : N.flat.norm = Real.sin (rad 60) := by
    unfold R3.norm
    have : N.flat.normSq = (Real.sin (rad 60)) ^ 2 := by
      simp only [N, R3.normSq, R3.dot, R3.flat]; linear_combination (Real.sin (rad 60)) ^ 2 * ha
    rw [this, Real.sqrt_sq sin60_pos.le]
  refine ⟨h1, h2, ?_⟩
  intro h
  rw [h, R3.norm_eq_zero.2 rfl] at h2
  exact sin60_pos.ne h2

/-- **C64 (tilted planes, the part that holds).** A part cut off with the plane tilted by the angle `a` and turned as
`Slice5Axes` and `SliceDefault2` do stands upright on its cut, if the plane leans towards positive y. -/
theorem C64_tilted_partial (ts : List RTri) (a : ℝ) (ha : 0 ≤ Real.cos (rad a)) :
    ∃ f N, RigidTo f ts (turnMesh (directionZ (tiltedNormal (XR.fin a))) tiltX (rmesh ts)) ∧ tiltedNormal (XR.fin a) = N.vec ∧
      Uprights f N := by
  obtain ⟨h1, h2, h3⟩ := tilted_norms a
  have ht : (tiltX : XR) = XR.fin 60 := by simp [tiltX]
  rw [ht]
  refine ⟨bedMap _ 60, _, ?_, tiltedNormal_vec a, upright_of _ h3 (mul_nonneg sin60_pos.le ha) 60 (by rw [h1]; simp) (by rw [h1, h2]; simp)⟩
  rw [tiltedNormal_vec, directionZ_vec _ h3]
  exact turn_rigid _ _ _

/-- **C64 (tilted planes, violated).** If the plane leans towards negative y, the part is slanted after the turn. -/
theorem C64_tilted_violated (ts : List RTri) (a : ℝ) (ha : Real.cos (rad a) < 0) :
    ∃ f N, RigidTo f ts (turnMesh (directionZ (tiltedNormal (XR.fin a))) tiltX (rmesh ts)) ∧ tiltedNormal (XR.fin a) = N.vec ∧
      Slants f N := by
  obtain ⟨h1, h2, h3⟩ := tilted_norms a
  have ht : (tiltX : XR) = XR.fin 60 := by simp [tiltX]
  rw [ht]
  refine ⟨bedMap _ 60, _, ?_, tiltedNormal_vec a, slants_of _ (mul_neg_of_pos_of_neg sin60_pos ha) cos60_pos 60 (by rw [h1]; simp)
    (by rw [h1, h2]; simp)⟩
  rw [tiltedNormal_vec, directionZ_vec _ h3]
  exact turn_rigid _ _ _

/-- **C64 (bridge, violated).** The plane of `SliceBridge` for an overhang in the horizontal direction `v` always leans towards
negative y, whatever side `v` points to, so that unless `v` is parallel to the x axis the part is slanted after the turn. -/
theorem C64_bridge_violated (ts : List RTri) (v : R3) (hz : v.z = 0) (hy : v.y ≠ 0) : ∃ f N,
    tiltedNormal ((axisX : Vec XR).angle v.vec + lit 90 0) = N.vec ∧
      N.flat.unit = ⟨v.unit.x, -|v.unit.y|, 0⟩ ∧
      RigidTo f ts (turnMesh (directionZ (tiltedNormal ((axisX : Vec XR).angle v.vec + lit 90 0))) tiltX (rmesh ts)) ∧ Slants f N := by
  have hv : v ≠ 0 := by rintro rfl; exact hy rfl
  have hn := R3.norm_pos hv
  have hx : (R3.mk 1 0 0) ≠ 0 := by intro h; have := congrArg R3.x h; simp at this
  have h1 : (R3.mk 1 0 0).norm = 1 := by simp [R3.norm, R3.normSq, R3.dot]
  have h90 : (lit 90 0 : XR) = XR.fin 90 := by simp
  have hcomm : angleDeg (R3.mk 1 0 0) v = angleDeg v (R3.mk 1 0 0) := by
    unfold angleDeg
    rw [mul_comm (R3.norm _), show (R3.mk 1 0 0).dot v = v.dot (R3.mk 1 0 0) by simp [R3.dot]]
  rw [axisX_vec', angle_vec _ _ hx hv, h90, XR.fin_add, hcomm]
  have hs := sin_angleDeg v hv hz
  have hc := cos_angleDeg v _ hv hx
  have hd : v.dot (R3.mk 1 0 0) = v.x := by simp [R3.dot]
  rw [hd, h1, mul_one] at hc
  have e : rad (angleDeg v (R3.mk 1 0 0) + 90) = rad (angleDeg v (R3.mk 1 0 0)) + Real.pi / 2 := by unfold rad; ring
  obtain ⟨f, N, hf, hN, hsl⟩ := C64_tilted_violated ts (angleDeg v (R3.mk 1 0 0) + 90) (by
    rw [e, Real.cos_add_pi_div_two, hs]
    have : 0 < |v.y| := abs_pos.2 hy
    have : 0 < |v.y| / v.norm := by positivity
    linarith)
  refine ⟨f, N, hN, ?_, hf, hsl⟩
  obtain ⟨_, h2, _⟩ := tilted_norms (angleDeg v (R3.mk 1 0 0) + 90)
  have hN' := R3.vec_inj (hN.symm.trans (tiltedNormal_vec _))
  rw [← hN'] at h2
  have h60 := sin60_pos
  unfold R3.unit
  rw [h2, hN', e, Real.sin_add_pi_div_two, Real.cos_add_pi_div_two, hs, hc]
  apply R3.ext
  · simp only [R3.flat, R3.smul_x]; field_simp
  · simp only [R3.flat, R3.smul_y, abs_mul, abs_of_pos (one_div_pos.2 hn)]; field_simp
  · simp [R3.flat]

/-! ## SliceByPlanes -/

/-- **C64 (planes from a file).** In `SliceByPlanes` each part above a plane read from the planes file is turned rigidly about the
rotation centre so that the normal of that plane becomes vertical. -/
theorem C64_planes (ts : List RTri) (o : R3) (i : Nat) (hi : i ≠ 0) (tilted : Bool) (r : ℝ) :
    ∃ f N, RigidTo f ts (turnPart o.pt i (tilted, XR.fin r) (rmesh ts)) ∧ fileNormal tilted (XR.fin r) = N.vec ∧ N.norm = 1 ∧
      Uprights f N ∧ f o = o := by
  have ht : (-tiltX : XR) = XR.fin (-60) := by simp [tiltX]
  have hZ := rigid_facts (rigid_rotZ (-rad r)) o
  have hX := rigid_facts (rigid_rotX (-rad (-60))) o
  have h60 := Real.sin_sq_add_cos_sq (rad 60)
  have hr := Real.sin_sq_add_cos_sq (rad r)
  have e60 : -rad (-60) = rad 60 := by unfold rad; ring
  cases tilted with
  | true =>
    have hN : (R3.mk (-Real.sin (rad r) * Real.sin (rad 60)) (Real.cos (rad r) * Real.sin (rad 60)) (Real.cos (rad 60))).norm = 1 := by
      unfold R3.norm
      have : (R3.mk (-Real.sin (rad r) * Real.sin (rad 60)) (Real.cos (rad r) * Real.sin (rad 60)) (Real.cos (rad 60))).normSq = 1 := by
        simp only [R3.normSq, R3.dot]; linear_combination (Real.sin (rad 60)) ^ 2 * hr + h60
      rw [this, Real.sqrt_one]
    refine ⟨turnAbout (R3.rotX (-rad (-60))) o ∘ turnAbout (R3.rotZ (-rad r)) o, _, ⟨?_, ?_⟩, fileNormal_tilted r, hN, ?_, ?_⟩
    · unfold turnPart
      simp only [ne_eq, hi, not_false_eq_true, if_true, ht]
      rw [rotate_mesh _ _ (rotate_rotZ r), rotate_mesh _ _ (rotate_rotX (-60)), List.map_map]
      rfl
    · intro p q
      simp only [Function.comp]
      rw [hX.2.1, hZ.2.1]
    · intro p
      rw [hN, e60]
      simp only [Function.comp, turnAbout]
      apply R3.ext
      · simp [R3.rotX, R3.rotZ]; ring
      · simp [R3.rotX, R3.rotZ]; linear_combination (Real.cos (rad 60) * Real.sin (rad 60)) * hr
      · simp [R3.rotX, R3.rotZ]; linear_combination (Real.sin (rad 60)) ^ 2 * hr + h60
    · simp only [Function.comp]; rw [hZ.1, hX.1]
  | false =>
    have h1 : (R3.mk 0 0 1).norm = 1 := by simp [R3.norm, R3.normSq, R3.dot]
    refine ⟨turnAbout (R3.rotZ (-rad r)) o, R3.mk 0 0 1, ⟨?_, hZ.2.1⟩, by rw [fileNormal_flat, axisZ_vec], h1, ?_, hZ.1⟩
    · unfold turnPart
      simp only [ne_eq, hi, not_false_eq_true, if_true, Bool.false_eq_true, if_false]
      rw [rotate_mesh _ _ (rotate_rotZ r)]
    · intro p
      rw [h1]
      simp only [turnAbout]
      apply R3.ext <;> simp [R3.rotZ]

/-- turning back restores the mesh -/
theorem C64_back (ts : List RTri) (θ φ : ℝ) :
    turnMeshBack (XR.fin θ) (XR.fin φ) (turnMesh (XR.fin θ) (XR.fin φ) (rmesh ts)) = rmesh ts := by
  rw [turnMesh_real]
  unfold turnMeshBack
  rw [originPoint_pt, XR.fin_neg, XR.fin_neg, rotate_mesh _ _ (rotate_rotX (-φ)), rotate_mesh _ _ (rotate_rotZ (-θ)), List.map_map,
    List.map_map, turnAbout_zero, turnAbout_zero]
  congr 1
  have : RTri.map (R3.rotZ (-rad (-θ))) ∘ RTri.map (R3.rotX (-rad (-φ))) ∘ RTri.map (bedMap θ φ) = id := by
    funext t
    have key : ∀ p : R3, ((bedMap θ φ p).rotX (-rad (-φ))).rotZ (-rad (-θ)) = p := by
      intro p
      have e1 : -rad (-φ) = - -rad φ := by unfold rad; ring
      have e2 : -rad (-θ) = - -rad θ := by unfold rad; ring
      unfold bedMap
      rw [e1, e2, (rigid_rotX _).inv, (rigid_rotZ _).inv]
    simp [RTri.map, key]
  rw [Function.comp_assoc, this, List.map_id]

/-! ## the steps of the programs -/

/-- how the mesh in hand is turned after a cut with `pl`, and the command that is written -/
def Turned {α : Type} [Flt α] (rotated : Bool) (oldAngle : α) (pl : Plane α) (up mesh' : Mesh α) (rotated' : Bool) (angle' : α) : Prop :=
  if rotated then mesh' = turnMeshBack oldAngle tiltX up ∧ rotated' = false
  else mesh' = turnMesh angle' tiltX up ∧ rotated' = true ∧ angle' = directionZ pl.n

/-- **C64 (Slice5Axes).** A step of `Slice5Axes` cuts the mesh in hand with the new plane, turns the upper part, or turns it back if the
bed is turned, and the last command it writes is the turn of the bed by the same angles. -/
theorem C64_five {α : Type} [Flt α] (S : Sorter) (A : Arrival α) (sett : Settings α) (st st' : FiveSt α) (i : Nat) (pl : Plane α)
    (h : fiveTurn S A sett st i pl = .ok st') :
    ∃ m up down, cutMesh S (some m) pl = .ok (up, down) ∧ Turned st.rotated st.angleZ pl up st'.mesh st'.rotated st'.angleZ ∧
      ∃ g : Gcode α, st'.gcd = g.add (if st.rotated then .rotateXZ (lit 0 0) (lit 0 0) else .rotateXZ tiltX st'.angleZ) := by
  unfold fiveTurn at h
  obtain ⟨g0, _, h⟩ := bind_ok h
  obtain ⟨l, _, h⟩ := bind_ok h
  obtain ⟨c, _, h⟩ := bind_ok h
  obtain ⟨c1, _, h⟩ := bind_ok h
  obtain ⟨c2, _, h⟩ := bind_ok h
  obtain ⟨c3, _, h⟩ := bind_ok h
  obtain ⟨⟨up, down⟩, hc, h⟩ := bind_ok h
  obtain ⟨low, _, h⟩ := bind_ok h
  obtain ⟨ls, _, h⟩ := bind_ok h
  obtain ⟨add, _, h⟩ := bind_ok h
  have h := pure_ok h
  subst h
  refine ⟨_, up, down, hc, ?_, (st.gcd.addLayers g0).addLayers low, ?_⟩
  · cases hr : st.rotated <;> simp [Turned]
  · cases hr : st.rotated <;> simp

/-- **C64 (SliceDefault2).** The same for `SliceDefault2`, where the bed is turned first and then tilted, and tilted back first. -/
theorem C64_default {α : Type} [Flt α] (S : Sorter) (A : Arrival α) (sett : Settings α) (st st' : DefaultSt α) (pl : Plane α)
    (h : defaultTurn S A sett st pl = .ok st') :
    ∃ up down, cutMesh S (some st.mesh) pl = .ok (up, down) ∧ Turned st.rotated st.angleZ pl up st'.mesh st'.rotated st'.angleZ ∧
      ∃ g : Gcode α, st'.gcd = if st.rotated then (g.add .inclineXBack).add (.rotateZ (lit 0 0)) else (g.add (.rotateZ st'.angleZ)).add .inclineX := by
  unfold defaultTurn at h
  obtain ⟨⟨up, down⟩, hc, h⟩ := bind_ok h
  obtain ⟨low, _, h⟩ := bind_ok h
  obtain ⟨pre, _, h⟩ := bind_ok h
  obtain ⟨ls, _, h⟩ := bind_ok h
  have h := pure_ok h
  subst h
  refine ⟨up, down, hc, ?_, st.gcd.addLayers pre, ?_⟩
  · cases hr : st.rotated <;> simp [Turned]
  · cases hr : st.rotated <;> simp

/-- directions to which the theorems apply: leaning to positive and to negative y -/
example : (R3.mk 1 2 3).flat ≠ 0 ∧ (0 : ℝ) ≤ (R3.mk 1 2 3).y ∧ (R3.mk 1 (-2) 3).y < 0 ∧ (0 : ℝ) < (R3.mk 1 (-2) 3).z := by
  refine ⟨?_, ?_, ?_, ?_⟩
  · intro h; have := congrArg R3.x h; simp [R3.flat] at this
  all_goals norm_num

example : (0 : ℝ) ≤ Real.cos (rad 0) ∧ Real.cos (rad 180) < 0 := by
  constructor <;> simp [rad]

end Goosli
