import Verif.Props.C143
/-!
# C144: a change of the model on one side of a vertical plane changes nothing on the other side
-/
set_option autoImplicit false
namespace Goosli
open Flt

/-- spec: the facets are on the far side of the vertical plane `g · w = c` -/
structure BeyondPlane (g : R3) (c : ℝ) (vs : List RTri) : Prop where
  upright : g.z = 0
  far : ∀ w ∈ allVerts vs, c ≤ w.dot g

/-- on the near side the material is the same whatever closes the model on the far side -/
theorem material_local {us vs vs' : List RTri} {g : R3} {c : ℝ} (B : BeyondPlane g c vs) (B' : BeyondPlane g c vs') {z : ℝ}
    (hw : Watertight (us ++ vs)) (hw' : Watertight (us ++ vs')) (hdeg : ∀ t ∈ us ++ vs, t.nrm ≠ 0) (hdeg' : ∀ t ∈ us ++ vs', t.nrm ≠ 0)
    (hsm : ∀ w ∈ allVerts (us ++ vs), w.small) (hsm' : ∀ w ∈ allVerts (us ++ vs'), w.small) (hg : GoodLevel (us ++ vs) z) (hg' : GoodLevel (us ++ vs') z)
    {x : R3} (hx : x.z = z) (hs : x.dot g < c) (hu : ∀ t ∈ us, ¬ OnTri t x) :
    InMaterial ⟨0, 0, z⟩ ⟨0, 0, 1⟩ (us ++ vs) x ↔ InMaterial ⟨0, 0, z⟩ ⟨0, 0, 1⟩ (us ++ vs') x := by
  classical
  have side : ∀ {ws : List RTri}, BeyondPlane g c ws → ∀ t ∈ ws, ∀ y, OnTri t y → x.dot g < y.dot g := by
    intro ws Bw t ht y ho
    have e : ∀ w : R3, w.dot (-g) = -w.dot g := fun w => by simp [R3.dot]; ring
    have := onTri_dot (g := -g) (c := -x.dot g) (fun w h => by
      have := Bw.far w (List.mem_flatMap.2 ⟨t, ht, h⟩)
      rw [e]; linarith) ho
    rw [e] at this
    linarith
  have on : ∀ {ws : List RTri}, BeyondPlane g c ws → ∀ t ∈ us ++ ws, ¬ OnTri t x := by
    intro ws Bw t ht ho
    rcases List.mem_append.1 ht with h | h
    · exact hu t h ho
    · exact lt_irrefl _ (side Bw t h x ho)
  -- a direction away from the plane; if there is none, the plane is no plane and there is nothing beyond it
  obtain ⟨g0, gn, gpos, gz⟩ : ∃ g0 : R3, (∀ w : R3, g ≠ 0 → w.dot g0 = w.dot g) ∧ 0 < g0.x * g0.x + g0.y * g0.y ∧ g0.z = 0 := by
    by_cases h : g = 0
    · exact ⟨⟨1, 0, 0⟩, fun _ k => absurd h k, by norm_num, rfl⟩
    · refine ⟨g, fun _ _ => rfl, ?_, B.upright⟩
      by_contra k
      refine h (R3.ext ?_ ?_ B.upright)
      · show g.x = 0
        nlinarith [mul_self_nonneg g.x, mul_self_nonneg g.y]
      · show g.y = 0
        nlinarith [mul_self_nonneg g.x, mul_self_nonneg g.y]
  have miss : ∀ {ws : List RTri}, BeyondPlane g c ws → ∀ (δ : ℝ), ∀ t ∈ ws, ¬ RayMeets x ((⟨-g0.x, -g0.y, 0⟩ : R3) + δ • (⟨-g0.y, g0.x, 0⟩ : R3)) t := by
    rintro ws Bw δ t ht ⟨s, s0, ho⟩
    have h1 := side Bw t ht _ ho
    by_cases h : g = 0
    · rw [h] at h1
      simp [R3.dot] at h1
    · rw [← gn _ h, ← gn _ h] at h1
      have e : (x + s • ((⟨-g0.x, -g0.y, 0⟩ : R3) + δ • (⟨-g0.y, g0.x, 0⟩ : R3))).dot g0 = x.dot g0 - s * (g0.x * g0.x + g0.y * g0.y) := by
        simp [R3.dot]; ring
      rw [e] at h1
      nlinarith [mul_nonneg s0 gpos.le]
  obtain ⟨δ, -, -, hd⟩ := miss_points (((dirEdges ((us ++ vs) ++ (us ++ vs'))).filter fun e =>
      decide (ascends ⟨0, 0, z⟩ ⟨0, 0, 1⟩ e ∨ descends ⟨0, 0, z⟩ ⟨0, 0, 1⟩ e)).map (crossAt ⟨0, 0, z⟩ ⟨0, 0, 1⟩)) x ⟨-g0.x, -g0.y, 0⟩ ⟨-g0.y, g0.x, 0⟩
    (by simp only [R3.cross2]; nlinarith) (by
      intro w hw
      obtain ⟨e, he, rfl⟩ := List.mem_map.1 hw
      obtain ⟨he, hc⟩ := List.mem_filter.1 he
      have cp : CrossPoint ⟨0, 0, z⟩ ⟨0, 0, 1⟩ ((us ++ vs) ++ (us ++ vs')) (crossAt ⟨0, 0, z⟩ ⟨0, 0, 1⟩ e) := ⟨e, he, of_decide_eq_true hc, rfl⟩
      obtain ⟨t, ht, ho⟩ := crossPoint_onTri cp
      have hz := crossPoint_height cp
      simp [R3.height, R3.dot] at hz
      by_contra h
      push Not at h
      have ex : crossAt ⟨0, 0, z⟩ ⟨0, 0, 1⟩ e = x := R3.ext h.1 h.2 (by rw [hx]; linarith)
      rw [ex] at ho
      rcases List.mem_append.1 ht with k | k
      · exact on B t k ho
      · exact on B' t k ho) one_pos
  have cross : ∀ w, CrossPoint ⟨0, 0, z⟩ ⟨0, 0, 1⟩ ((us ++ vs) ++ (us ++ vs')) w →
      ((⟨-g0.x, -g0.y, 0⟩ : R3) + δ • (⟨-g0.y, g0.x, 0⟩ : R3)).cross2 (w - x) ≠ 0 := by
    rintro w ⟨e, he, hc, rfl⟩
    exact hd _ (List.mem_map.2 ⟨e, List.mem_filter.2 ⟨he, decide_eq_true hc⟩, rfl⟩)
  have dz : ((⟨-g0.x, -g0.y, 0⟩ : R3) + δ • (⟨-g0.y, g0.x, 0⟩ : R3)).z = 0 := by simp
  rw [material_ray hw hdeg hsm hg hx (on B) dz (fun w h => cross w ((cross_append _ _ _ _ _).2 (Or.inl h))), odd_append,
    material_ray hw' hdeg' hsm' hg' hx (on B') dz (fun w h => cross w ((cross_append _ _ _ _ _).2 (Or.inr h))), odd_append]
  have n1 := none_odd (miss B δ)
  have n2 := none_odd (miss B' δ)
  simp only [n1, n2]

theorem far_notOn {ε z : ℝ} {ts : List RTri} {x : R3} (hx : x.z = z) (far : FarFromSurface ε ⟨0, 0, z⟩ ⟨0, 0, 1⟩ ts x) : ∀ t ∈ ts, ¬ OnTri t x := by
  intro t ht h
  have := far t ht x h (by simp [R3.height, R3.dot, hx])
  simp only [R3.distSq2, sub_self] at this
  nlinarith [sq_nonneg ε]

/-- **C144.** Two watertight models of the same extent in height that have the facets `us` in common and differ only in facets `vs`, `vs'` beyond a vertical plane, sliced and
filled vertically in exact arithmetic with the rounding of sections (supports off): on the near side of the plane the same points are printed, at every level that is good
for both. Settings other than the layer height, the orders of the sorts and of the arrival of layers may be different. -/
theorem C144_local (S S' : Sorter) (A A' : Arrival XR) (us vs vs' : List RTri) (g : R3) (c : ℝ) (B : BeyondPlane g c vs) (B' : BeyondPlane g c vs') (sett sett' : Settings XR)
    (hs : sett.supportsOn = false) (hs' : sett'.supportsOn = false) (hw : Watertight (us ++ vs)) (hw' : Watertight (us ++ vs'))
    (hdeg : ∀ t ∈ us ++ vs, t.nrm ≠ 0) (hdeg' : ∀ t ∈ us ++ vs', t.nrm ≠ 0)
    (hsm : ∀ w ∈ allVerts (us ++ vs), w.small) (hsm' : ∀ w ∈ allVerts (us ++ vs'), w.small)
    (lo hi t lw M lw' M' : ℝ) (he : Extent (us ++ vs) ⟨0, 0, 1⟩ lo hi) (he' : Extent (us ++ vs') ⟨0, 0, 1⟩ lo hi)
    (hh : sett.layerHeight = XR.fin t) (hh' : sett'.layerHeight = XR.fin t) (ht : 0 < t) (htl : t < hi - lo) (hb : ⌈(hi - lo) / t⌉ < 2 ^ 63)
    (hlw : sett.gs.lineWidth = XR.fin lw) (hd : patternDensity sett ≠ 0) (hlw' : sett'.gs.lineWidth = XR.fin lw') (hd' : patternDensity sett' ≠ 0)
    (hsp : FillBounds (us ++ vs) (100 / (patternDensity sett : ℝ) * lw) M) (hfp : FillBounds (us ++ vs) lw M)
    (hsp' : FillBounds (us ++ vs') (100 / (patternDensity sett' : ℝ) * lw') M') (hfp' : FillBounds (us ++ vs') lw' M') :
    ∃ (layers layers' : List (Layer XR)) (n : ℕ), sliceByVectorToGcode S A (rmesh (us ++ vs)) (R3.mk 0 0 1).vec sett = .ok ((Gcode.new sett.gs).addLayers layers) ∧
      sliceByVectorToGcode S' A' (rmesh (us ++ vs')) (R3.mk 0 0 1).vec sett' = .ok ((Gcode.new sett'.gs).addLayers layers') ∧ (n : ℤ) = ⌈(hi - lo) / t⌉ ∧
      ∀ m < n, ∀ z : ℝ, z = lo + ((m : ℝ) + 1 / 2) * ((hi - lo) / n) → GoodLevel (us ++ vs) z → GoodLevel (us ++ vs') z → ∀ x : R3, x.z = z → x.dot g < c →
        FarFromSurface (1 / 10 ^ 8) ⟨0, 0, z⟩ ⟨0, 0, 1⟩ (us ++ vs) x → FarFromSurface (1 / 10 ^ 8) ⟨0, 0, z⟩ ⟨0, 0, 1⟩ (us ++ vs') x →
        OffSlimCuts ⟨0, 0, z⟩ ⟨0, 0, 1⟩ (us ++ vs) x → OffSlimCuts ⟨0, 0, z⟩ ⟨0, 0, 1⟩ (us ++ vs') x →
        (PrintedAt layers' m x ↔ PrintedAt layers m x) := by
  obtain ⟨layers, n, g1, g2, g3⟩ := printed_material S A _ sett hs hw hdeg hsm lo hi t lw M he hh ht htl hb hlw hd hsp hfp
  obtain ⟨layers', n', k1, k2, k3⟩ := printed_material S' A' _ sett' hs' hw' hdeg' hsm' lo hi t lw' M' he' hh' ht htl hb hlw' hd' hsp' hfp'
  have : n' = n := by rw [← g2] at k2; exact_mod_cast k2
  subst this
  refine ⟨layers, layers', n', g1, k1, g2, fun m hm z hz good good' x hx near far far' slim slim' => ?_⟩
  subst hz
  rw [g3 m hm good x hx far slim, k3 m hm good' x hx far' slim']
  exact (material_local B B' hw hw' hdeg hdeg' hsm hsm' good good' hx near (far_notOn hx (far_left far))).symm

/-- **C144, float64.** The same in the arithmetic of the program, under the conditions of C103. -/
theorem C144_float (S S' : Sorter) (A A' : Arrival B64) (us vs vs' : List RTri) (g : R3) (c : ℝ) (B : BeyondPlane g c vs) (B' : BeyondPlane g c vs')
    (lo hi t lw lw' : ℝ) (hw : Watertight (us ++ vs)) (hw' : Watertight (us ++ vs')) (hdeg : ∀ t ∈ us ++ vs, t.nrm ≠ 0) (hdeg' : ∀ t ∈ us ++ vs', t.nrm ≠ 0)
    (he : Extent (us ++ vs) zUp lo hi) (he' : Extent (us ++ vs') zUp lo hi) (hh : 1 / 10 ^ 6 ≤ hi - lo) (tF : IsF t) (t0 : 1 / 1000 ≤ t) (t1 : t ≤ 1000)
    (sett sett' : Settings B64) (ht : sett.layerHeight = B64.of t) (ht' : sett'.layerHeight = B64.of t) (hs : sett.supportsOn = false) (hs' : sett'.supportsOn = false)
    (hF : ∀ w ∈ allVerts (us ++ vs), w.isF) (hR : ∀ w ∈ allVerts (us ++ vs), w.inRange) (hF' : ∀ w ∈ allVerts (us ++ vs'), w.isF) (hR' : ∀ w ∈ allVerts (us ++ vs'), w.inRange)
    (hsafe : ∀ m : ℕ, (m : ℤ) < floatCount lo hi t → FloatSafe (floatLevel lo hi t m) (us ++ vs))
    (hsafe' : ∀ m : ℕ, (m : ℤ) < floatCount lo hi t → FloatSafe (floatLevel lo hi t m) (us ++ vs')) (h2 : 2 ≤ floatCount lo hi t)
    (hlw : sett.gs.lineWidth = B64.of lw) (Flw : IsF lw) (l0 : 1 / 50 ≤ lw) (l1 : lw ≤ 10)
    (hlw' : sett'.gs.lineWidth = B64.of lw') (Flw' : IsF lw') (l0' : 1 / 50 ≤ lw') (l1' : lw' ≤ 10)
    (hd0 : 1 ≤ densityShare sett.fillingType sett.fillDensity) (hd1 : densityShare sett.fillingType sett.fillDensity ≤ 100)
    (hd0' : 1 ≤ densityShare sett'.fillingType sett'.fillDensity) (hd1' : densityShare sett'.fillingType sett'.fillDensity ≤ 100) :
    ∃ layers layers' : List (Layer B64), sliceByVectorToGcode S A (fmesh (us ++ vs)) zUp.f64v sett = .ok ((Gcode.new sett.gs).addLayers layers) ∧
      sliceByVectorToGcode S' A' (fmesh (us ++ vs')) zUp.f64v sett' = .ok ((Gcode.new sett'.gs).addLayers layers') ∧
      ∀ m : ℕ, (m : ℤ) < floatCount lo hi t → ∀ z : ℝ, z = floatLevel lo hi t m → ∀ x : R3, x.z = z → x.dot g < c →
        FarFromSurface (1 / 10 ^ 8) (lvl z) zUp (us ++ vs) x → FarFromSurface (1 / 10 ^ 8) (lvl z) zUp (us ++ vs') x →
        OffThinCuts z (us ++ vs) x → OffThinCuts z (us ++ vs') x → (PrintedAtF layers' m x ↔ PrintedAtF layers m x) := by
  obtain ⟨layers, g1, g3⟩ := printed_materialF S A _ lo hi t lw hw hdeg he hh tF t0 t1 sett ht hs hF hR hsafe h2 hlw Flw l0 l1 hd0 hd1
  obtain ⟨layers', k1, k3⟩ := printed_materialF S' A' _ lo hi t lw' hw' hdeg' he' hh tF t0 t1 sett' ht' hs' hF' hR' hsafe' h2 hlw' Flw' l0' l1' hd0' hd1'
  refine ⟨layers, layers', g1, k1, fun m hm z hz x hx near far far' thin thin' => ?_⟩
  subst hz
  have good : ∀ {ts : List RTri}, FloatSafe (floatLevel lo hi t m) ts → GoodLevel ts (floatLevel lo hi t m) := fun H =>
    ⟨fun w h hc => H.offPlane w h (by rw [height_lvl]; linarith), H.wellSep⟩
  rw [g3 m hm x hx far thin, k3 m hm x hx far' thin']
  exact (material_local B B' hw hw' hdeg hdeg' (hsafe m hm).small (hsafe' m hm).small (good (hsafe m hm)) (good (hsafe' m hm)) hx near (far_notOn hx (far_left far))).symm

/-- an open frustum: the part of a tetrahedron up to `x = 2`, without the lid -/
def openFrustum : List RTri :=
  [⟨⟨0, 0, 0⟩, ⟨0, 0, 4⟩, ⟨0, 4, 0⟩⟩,
   ⟨⟨0, 0, 0⟩, ⟨0, 4, 0⟩, ⟨2, 2, 0⟩⟩, ⟨⟨0, 0, 0⟩, ⟨2, 2, 0⟩, ⟨2, 0, 0⟩⟩,
   ⟨⟨0, 4, 0⟩, ⟨0, 0, 4⟩, ⟨2, 0, 2⟩⟩, ⟨⟨0, 4, 0⟩, ⟨2, 0, 2⟩, ⟨2, 2, 0⟩⟩,
   ⟨⟨0, 0, 4⟩, ⟨0, 0, 0⟩, ⟨2, 0, 0⟩⟩, ⟨⟨0, 0, 4⟩, ⟨2, 0, 0⟩, ⟨2, 0, 2⟩⟩]

/-- a flat lid -/
def flatLid : List RTri := [⟨⟨2, 0, 0⟩, ⟨2, 2, 0⟩, ⟨2, 0, 2⟩⟩]

/-- a pointed lid -/
def pointedLid : List RTri := [⟨⟨2, 0, 0⟩, ⟨2, 2, 0⟩, ⟨4, 0, 0⟩⟩, ⟨⟨2, 2, 0⟩, ⟨2, 0, 2⟩, ⟨4, 0, 0⟩⟩, ⟨⟨2, 0, 2⟩, ⟨2, 0, 0⟩, ⟨4, 0, 0⟩⟩]

private theorem mk_iff (a b c x y z : ℝ) : ((⟨a, b, c⟩ : R3) = ⟨x, y, z⟩) ↔ a = x ∧ b = y ∧ c = z := R3.mk.injEq .. ▸ Iff.rfl

theorem frustum_watertight : Watertight (openFrustum ++ flatLid) ∧ Watertight (openFrustum ++ pointedLid) := by
  refine ⟨⟨?_, ?_⟩, ⟨?_, ?_⟩⟩
  · simp [dirEdges, RTri.edges, openFrustum, flatLid, mk_iff]
  · simp [dirEdges, RTri.edges, openFrustum, flatLid, mk_iff]
  · simp [dirEdges, RTri.edges, openFrustum, pointedLid, mk_iff]
  · simp [dirEdges, RTri.edges, openFrustum, pointedLid, mk_iff]

theorem frustum_solid : (∀ t ∈ openFrustum ++ flatLid, t.nrm ≠ 0) ∧ (∀ t ∈ openFrustum ++ pointedLid, t.nrm ≠ 0) := by
  have all : ∀ t ∈ openFrustum ++ flatLid ++ pointedLid, t.nrm ≠ 0 := by
    intro t ht h
    simp only [openFrustum, flatLid, pointedLid, List.cons_append, List.nil_append, List.mem_cons, List.not_mem_nil, or_false] at ht
    rcases ht with rfl | rfl | rfl | rfl | rfl | rfl | rfl | rfl | rfl | rfl | rfl <;> norm_num [R3.ext_iff, RTri.nrm, R3.cross] at h
  refine ⟨fun t ht => all t (List.mem_append_left _ ht), fun t ht => all t ?_⟩
  rcases List.mem_append.1 ht with h | h
  · simp [h]
  · simp [h]

/-- the edges of the frustum and its lids that cross the level 1, and where -/
noncomputable def frustumCuts : List ((R3 × R3) × R3) :=
  [((⟨0, 0, 0⟩, ⟨0, 0, 4⟩), ⟨0, 0, 1⟩), ((⟨0, 4, 0⟩, ⟨0, 0, 4⟩), ⟨0, 3, 1⟩), ((⟨2, 0, 0⟩, ⟨0, 0, 4⟩), ⟨3 / 2, 0, 1⟩), ((⟨0, 4, 0⟩, ⟨2, 0, 2⟩), ⟨1, 2, 1⟩),
   ((⟨2, 2, 0⟩, ⟨2, 0, 2⟩), ⟨2, 1, 1⟩), ((⟨2, 0, 0⟩, ⟨2, 0, 2⟩), ⟨2, 0, 1⟩), ((⟨4, 0, 0⟩, ⟨2, 0, 2⟩), ⟨3, 0, 1⟩)]

theorem frustum_cuts {e : R3 × R3} (he : e ∈ dirEdges (openFrustum ++ flatLid ++ pointedLid)) (hc : ascends ⟨0, 0, 1⟩ ⟨0, 0, 1⟩ e ∨ descends ⟨0, 0, 1⟩ ⟨0, 0, 1⟩ e) :
    ∃ k ∈ frustumCuts, (e = k.1 ∨ e = k.1.swap) ∧ crossAt ⟨0, 0, 1⟩ ⟨0, 0, 1⟩ e = k.2 := by
  simp only [dirEdges, RTri.edges, openFrustum, flatLid, pointedLid, List.cons_append, List.nil_append, List.flatMap_cons, List.flatMap_nil, List.mem_cons,
    List.not_mem_nil, or_false] at he
  rcases he with h | h | h | h | h | h | h | h | h | h | h | h | h | h | h | h | h | h | h | h | h | h | h | h | h | h | h | h | h | h | h | h | h <;> subst h <;>
    norm_num [ascends, descends, R3.height, R3.dot] at hc <;>
    norm_num [frustumCuts, crossAt, R3.height, R3.dot, mk_iff, R3.ext_iff]

theorem frustum_apart : ∀ k ∈ frustumCuts, ∀ l ∈ frustumCuts, clearlyApart k.2.x l.2.x ∧ clearlyApart k.2.y l.2.y ∧ clearlyApart k.2.z l.2.z ∧ (k.2 = l.2 → k.1 = l.1) := by
  norm_num [frustumCuts, clearlyApart, mk_iff, abs_of_pos, abs_of_neg]

theorem frustum_good {ts : List RTri} (h : ∀ t ∈ ts, t ∈ openFrustum ++ flatLid ++ pointedLid) : GoodLevel ts 1 := by
  constructor
  · intro w hw
    obtain ⟨t, ht, hv⟩ := List.mem_flatMap.1 hw
    have all : ∀ w ∈ allVerts (openFrustum ++ flatLid ++ pointedLid), w.z ≠ 1 := by
      norm_num [allVerts, RTri.verts, openFrustum, flatLid, pointedLid]
    exact all w (List.mem_flatMap.2 ⟨t, h t ht, hv⟩)
  · intro e he f hf h1 h2
    have sub : ∀ e ∈ dirEdges ts, e ∈ dirEdges (openFrustum ++ flatLid ++ pointedLid) := by
      intro e he
      obtain ⟨t, ht, hv⟩ := List.mem_flatMap.1 he
      exact List.mem_flatMap.2 ⟨t, h t ht, hv⟩
    obtain ⟨k, hk, ek, ck⟩ := frustum_cuts (sub e he) h1
    obtain ⟨l, hl, el, cl⟩ := frustum_cuts (sub f hf) h2
    obtain ⟨a, b, c, d⟩ := frustum_apart k hk l hl
    rw [ck, cl]
    refine ⟨a, b, c, fun q => ?_⟩
    have := d q
    rcases ek with rfl | rfl <;> rcases el with rfl | rfl <;> rw [this] <;> simp

/-- Non-vacuity: a frustum closed by a flat and by a pointed lid is watertight in both ways, with the same extent in height, the lids are beyond the plane `x = 2`,
and the level 1 is good for both. -/
example : BeyondPlane ⟨1, 0, 0⟩ 2 flatLid ∧ BeyondPlane ⟨1, 0, 0⟩ 2 pointedLid ∧ Watertight (openFrustum ++ flatLid) ∧ Watertight (openFrustum ++ pointedLid) ∧
    (∀ t ∈ openFrustum ++ flatLid, t.nrm ≠ 0) ∧ (∀ t ∈ openFrustum ++ pointedLid, t.nrm ≠ 0) ∧
    Extent (openFrustum ++ flatLid) ⟨0, 0, 1⟩ 0 4 ∧ Extent (openFrustum ++ pointedLid) ⟨0, 0, 1⟩ 0 4 ∧
    GoodLevel (openFrustum ++ flatLid) 1 ∧ GoodLevel (openFrustum ++ pointedLid) 1 := by
  refine ⟨⟨rfl, ?_⟩, ⟨rfl, ?_⟩, frustum_watertight.1, frustum_watertight.2, frustum_solid.1, frustum_solid.2, ?_, ?_,
    frustum_good fun t ht => List.mem_append_left _ ht, frustum_good fun t ht => ?_⟩
  · simp [allVerts, RTri.verts, flatLid, R3.dot]
  · norm_num [allVerts, RTri.verts, pointedLid, R3.dot]
  · refine ⟨⟨⟨⟨0, 0, 0⟩, by simp [allVerts, RTri.verts, openFrustum], by simp [R3.dot]⟩, ?_⟩, ⟨⟨0, 0, 4⟩, by simp [allVerts, RTri.verts, openFrustum], by simp [R3.dot]⟩, ?_⟩ <;>
      rintro y ⟨w, hw, rfl⟩ <;> revert w <;> norm_num [allVerts, RTri.verts, openFrustum, flatLid, R3.dot]
  · refine ⟨⟨⟨⟨0, 0, 0⟩, by simp [allVerts, RTri.verts, openFrustum], by simp [R3.dot]⟩, ?_⟩, ⟨⟨0, 0, 4⟩, by simp [allVerts, RTri.verts, openFrustum], by simp [R3.dot]⟩, ?_⟩ <;>
      rintro y ⟨w, hw, rfl⟩ <;> revert w <;> norm_num [allVerts, RTri.verts, openFrustum, pointedLid, R3.dot]
  · rcases List.mem_append.1 ht with h | h
    · simp [h]
    · simp [h]

end Goosli
