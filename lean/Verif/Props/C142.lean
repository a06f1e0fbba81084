import Verif.Props.C141
/-!
# C142: the printed part is in the convex hull of the model
-/
set_option autoImplicit false
namespace Goosli
open Flt

/-- spec: the point is in every half-space that contains the model, that is in its convex hull -/
def InHull (ts : List RTri) (x : R3) : Prop := ∀ (g : R3) (c : ℝ), (∀ w ∈ allVerts ts, w.dot g ≤ c) → x.dot g ≤ c

/-- the material of a model is in its convex hull -/
theorem material_hull {ts : List RTri} {z : ℝ} (hw : Watertight ts) (hdeg : ∀ t ∈ ts, t.nrm ≠ 0) (hsm : ∀ w ∈ allVerts ts, w.small) (hg : GoodLevel ts z)
    {x : R3} (hx : x.z = z) (hm : InMaterial ⟨0, 0, z⟩ ⟨0, 0, 1⟩ ts x) : InHull ts x := by
  intro g c hs
  by_contra hcon
  push Not at hcon
  have side : ∀ t ∈ ts, ∀ y, OnTri t y → y.dot g < x.dot g := fun t ht y =>
    onTri_dot fun w h => (hs w (List.mem_flatMap.2 ⟨t, ht, h⟩)).trans_lt hcon
  have hon : ∀ t ∈ ts, ¬ OnTri t x := fun t ht ho => lt_irrefl _ (side t ht x ho)
  by_cases g0 : g.x = 0 ∧ g.y = 0
  · -- the half-space is above or below a level
    obtain ⟨d, hd, -, odd⟩ := hm
    have dz : d.z = 0 := by simpa [R3.dot] using hd
    refine none_odd (fun t ht ⟨s, _, ho⟩ => ?_) odd
    have := side t ht _ ho
    simp [R3.dot, g0.1, g0.2, dz] at this
  · have g1 : 0 < g.x * g.x + g.y * g.y := by
      by_contra h
      exact g0 ⟨by nlinarith [mul_self_nonneg g.x, mul_self_nonneg g.y], by nlinarith [mul_self_nonneg g.x, mul_self_nonneg g.y]⟩
    classical
    obtain ⟨δ, -, -, hd⟩ := miss_points (((dirEdges ts).filter fun e => decide (ascends ⟨0, 0, z⟩ ⟨0, 0, 1⟩ e ∨ descends ⟨0, 0, z⟩ ⟨0, 0, 1⟩ e)).map
      (crossAt ⟨0, 0, z⟩ ⟨0, 0, 1⟩)) x ⟨g.x, g.y, 0⟩ ⟨-g.y, g.x, 0⟩ (by simp only [R3.cross2]; linarith) (by
        intro w hw
        obtain ⟨e, he, rfl⟩ := List.mem_map.1 hw
        obtain ⟨he, hc⟩ := List.mem_filter.1 he
        have cp : CrossPoint ⟨0, 0, z⟩ ⟨0, 0, 1⟩ ts (crossAt ⟨0, 0, z⟩ ⟨0, 0, 1⟩ e) := ⟨e, he, of_decide_eq_true hc, rfl⟩
        obtain ⟨t, ht, ho⟩ := crossPoint_onTri cp
        have := side t ht _ ho
        have hz := crossPoint_height cp
        simp [R3.height, R3.dot] at hz
        by_contra h
        push Not at h
        simp only [R3.dot, h.1, h.2, hx] at this
        have e2 : (crossAt ⟨0, 0, z⟩ ⟨0, 0, 1⟩ e).z = z := by linarith
        rw [e2] at this
        exact lt_irrefl _ this) one_pos
    refine none_odd (fun t ht ⟨s, hs, ho⟩ => ?_)
      ((material_ray hw hdeg hsm hg hx hon (d := (⟨g.x, g.y, 0⟩ : R3) + δ • (⟨-g.y, g.x, 0⟩ : R3)) (by simp) ?_).1 hm)
    · rintro w ⟨e, he, hc, rfl⟩
      exact hd _ (List.mem_map.2 ⟨e, List.mem_filter.2 ⟨he, decide_eq_true hc⟩, rfl⟩)
    · have := side t ht _ ho
      have e : (x + s • ((⟨g.x, g.y, 0⟩ : R3) + δ • (⟨-g.y, g.x, 0⟩ : R3))).dot g = x.dot g + s * (g.x * g.x + g.y * g.y) := by
        simp [R3.dot]; ring
      rw [e] at this
      nlinarith [mul_nonneg hs g1.le]

/-- **C142.** A watertight model sliced and filled vertically in exact arithmetic with the rounding of sections (supports off): the points inside the contours of a good level are
in the convex hull of the model. -/
theorem C142_hull (S : Sorter) (A : Arrival XR) (ts : List RTri) (sett : Settings XR) (hs : sett.supportsOn = false)
    (hw : Watertight ts) (hdeg : ∀ t ∈ ts, t.nrm ≠ 0) (hsm : ∀ w ∈ allVerts ts, w.small) (lo hi t lw M : ℝ)
    (he : Extent ts ⟨0, 0, 1⟩ lo hi) (hh : sett.layerHeight = XR.fin t) (ht : 0 < t) (htl : t < hi - lo) (hb : ⌈(hi - lo) / t⌉ < 2 ^ 63)
    (hlw : sett.gs.lineWidth = XR.fin lw) (hd : patternDensity sett ≠ 0)
    (hsp : FillBounds ts (100 / (patternDensity sett : ℝ) * lw) M) (hfp : FillBounds ts lw M) :
    ∃ (layers : List (Layer XR)) (n : ℕ), sliceByVectorToGcode S A (rmesh ts) (R3.mk 0 0 1).vec sett = .ok ((Gcode.new sett.gs).addLayers layers) ∧
      (n : ℤ) = ⌈(hi - lo) / t⌉ ∧
      ∀ m < n, ∀ z : ℝ, z = lo + ((m : ℝ) + 1 / 2) * ((hi - lo) / n) → GoodLevel ts z → ∀ x : R3, x.z = z →
        FarFromSurface (1 / 10 ^ 8) ⟨0, 0, z⟩ ⟨0, 0, 1⟩ ts x → OffSlimCuts ⟨0, 0, z⟩ ⟨0, 0, 1⟩ ts x → PrintedAt layers m x → InHull ts x := by
  obtain ⟨layers, n, g1, g2, g3⟩ := printed_material S A ts sett hs hw hdeg hsm lo hi t lw M he hh ht htl hb hlw hd hsp hfp
  refine ⟨layers, n, g1, g2, fun m hm z hz good x hx far slim hp => ?_⟩
  subst hz
  exact material_hull hw hdeg hsm good hx ((g3 m hm good x hx far slim).1 hp)

/-- the same in `float64` -/
theorem C142_float (S : Sorter) (A : Arrival B64) (ts : List RTri) (lo hi t lw : ℝ) (hw : Watertight ts) (hdeg : ∀ t ∈ ts, t.nrm ≠ 0)
    (he : Extent ts zUp lo hi) (hh : 1 / 10 ^ 6 ≤ hi - lo) (tF : IsF t) (t0 : 1 / 1000 ≤ t) (t1 : t ≤ 1000)
    (sett : Settings B64) (ht : sett.layerHeight = B64.of t) (hs : sett.supportsOn = false)
    (hF : ∀ w ∈ allVerts ts, w.isF) (hR : ∀ w ∈ allVerts ts, w.inRange)
    (hsafe : ∀ m : ℕ, (m : ℤ) < floatCount lo hi t → FloatSafe (floatLevel lo hi t m) ts) (h2 : 2 ≤ floatCount lo hi t)
    (hlw : sett.gs.lineWidth = B64.of lw) (Flw : IsF lw) (l0 : 1 / 50 ≤ lw) (l1 : lw ≤ 10)
    (hd0 : 1 ≤ densityShare sett.fillingType sett.fillDensity) (hd1 : densityShare sett.fillingType sett.fillDensity ≤ 100) :
    ∃ layers : List (Layer B64), sliceByVectorToGcode S A (fmesh ts) zUp.f64v sett = .ok ((Gcode.new sett.gs).addLayers layers) ∧
      ∀ m : ℕ, (m : ℤ) < floatCount lo hi t → ∀ z : ℝ, z = floatLevel lo hi t m → ∀ x : R3, x.z = z →
        FarFromSurface (1 / 10 ^ 8) (lvl z) zUp ts x → OffThinCuts z ts x → PrintedAtF layers m x → InHull ts x := by
  obtain ⟨layers, g1, g3⟩ := printed_materialF S A ts lo hi t lw hw hdeg he hh tF t0 t1 sett ht hs hF hR hsafe h2 hlw Flw l0 l1 hd0 hd1
  refine ⟨layers, g1, fun m hm z hz x hx far thin hp => ?_⟩
  subst hz
  have H := hsafe m hm
  have good : GoodLevel ts (floatLevel lo hi t m) := ⟨fun w h hc => H.offPlane w h (by rw [height_lvl]; linarith), H.wellSep⟩
  exact material_hull hw hdeg H.small good hx ((g3 m hm x hx far thin).1 hp)

/-- Non-vacuity: the tetrahedron has a point of its material at height 1, in its hull, and the hull is not everything. -/
example : InHull exTetra ⟨1, 1 / 2, 1⟩ ∧ ¬ InHull exTetra ⟨5, 0, 1⟩ ∧ ∀ m : ℕ, (m : ℤ) < floatCount 0 4 1 → FloatSafe (floatLevel 0 4 1 m) exTetra := by
  refine ⟨material_hull exTetra_ok.1 exTetra_ok.2.1 exTetra_ok.2.2.1 (exTetra_good (by norm_num) (by norm_num)) rfl exTetra_material.2.2.1, fun h => ?_, exFloat_safe⟩
  have := h ⟨1, 0, 0⟩ 4 (fun w hw => by
    rcases exTetra_verts w hw with rfl | rfl | rfl | rfl <;> norm_num [R3.dot])
  norm_num [R3.dot] at this

end Goosli
