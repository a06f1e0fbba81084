import Verif.Props.C145
/-!
# C146: making a part taller by whole layers leaves the layers below alone
-/
set_option autoImplicit false
namespace Goosli
open Flt

/-- **C146.** Two watertight models with the same lowest point, `k` and `k'` layer heights high, sliced and filled vertically in exact arithmetic with the rounding of sections
(supports off): the layers of both that are reached by the same facets are printed alike, at every good level. Settings other than the layer height, the orders of the sorts and of
the arrival of layers may be different. -/
theorem C146_taller (S S' : Sorter) (A A' : Arrival XR) (ts ts' : List RTri) (sett sett' : Settings XR)
    (hs : sett.supportsOn = false) (hs' : sett'.supportsOn = false) (hw : Watertight ts) (hw' : Watertight ts')
    (hdeg : ∀ t ∈ ts, t.nrm ≠ 0) (hdeg' : ∀ t ∈ ts', t.nrm ≠ 0) (hsm : ∀ w ∈ allVerts ts, w.small) (hsm' : ∀ w ∈ allVerts ts', w.small)
    (lo hi hi' t lw M lw' M' : ℝ) (k k' : ℕ) (he : Extent ts ⟨0, 0, 1⟩ lo hi) (he' : Extent ts' ⟨0, 0, 1⟩ lo hi') (hk : hi - lo = k * t) (hk' : hi' - lo = k' * t)
    (k2 : 2 ≤ k) (k2' : 2 ≤ k') (kb : k < 2 ^ 63) (kb' : k' < 2 ^ 63)
    (hh : sett.layerHeight = XR.fin t) (hh' : sett'.layerHeight = XR.fin t) (ht : 0 < t)
    (hlw : sett.gs.lineWidth = XR.fin lw) (hd : patternDensity sett ≠ 0) (hlw' : sett'.gs.lineWidth = XR.fin lw') (hd' : patternDensity sett' ≠ 0)
    (hsp : FillBounds ts (100 / (patternDensity sett : ℝ) * lw) M) (hfp : FillBounds ts lw M)
    (hsp' : FillBounds ts' (100 / (patternDensity sett' : ℝ) * lw') M') (hfp' : FillBounds ts' lw' M') :
    ∃ layers layers' : List (Layer XR), sliceByVectorToGcode S A (rmesh ts) (R3.mk 0 0 1).vec sett = .ok ((Gcode.new sett.gs).addLayers layers) ∧
      sliceByVectorToGcode S' A' (rmesh ts') (R3.mk 0 0 1).vec sett' = .ok ((Gcode.new sett'.gs).addLayers layers') ∧
      ∀ m < k, m < k' → ∀ z : ℝ, z = lo + ((m : ℝ) + 1 / 2) * t → SameAt z ts ts' → GoodLevel ts z → ∀ x : R3, x.z = z →
        FarFromSurface (1 / 10 ^ 8) ⟨0, 0, z⟩ ⟨0, 0, 1⟩ ts x → OffSlimCuts ⟨0, 0, z⟩ ⟨0, 0, 1⟩ ts x → (PrintedAt layers' m x ↔ PrintedAt layers m x) := by
  have cnt : ∀ {h : ℝ} {j : ℕ}, h - lo = j * t → ⌈(h - lo) / t⌉ = (j : ℤ) := by
    intro h j e
    rw [e, mul_div_assoc, div_self ht.ne', mul_one]
    exact Int.ceil_natCast j
  have big : ∀ {h : ℝ} {j : ℕ}, h - lo = j * t → 2 ≤ j → t < h - lo := by
    intro h j e j2
    have : (2 : ℝ) ≤ j := by exact_mod_cast j2
    rw [e]; nlinarith
  obtain ⟨layers, n, g1, g2, g3⟩ := printed_material S A _ sett hs hw hdeg hsm lo hi t lw M he hh ht (big hk k2) (by rw [cnt hk]; exact_mod_cast kb) hlw hd hsp hfp
  obtain ⟨layers', n', l1, l2, l3⟩ := printed_material S' A' _ sett' hs' hw' hdeg' hsm' lo hi' t lw' M' he' hh' ht (big hk' k2') (by rw [cnt hk']; exact_mod_cast kb')
    hlw' hd' hsp' hfp'
  rw [cnt hk] at g2
  rw [cnt hk'] at l2
  have e1 : n = k := by exact_mod_cast g2
  have e2 : n' = k' := by exact_mod_cast l2
  subst e1; subst e2
  refine ⟨layers, layers', g1, l1, fun m hm hm' z hz same good x hx far slim => ?_⟩
  have lev : ∀ {h : ℝ} {j : ℕ}, h - lo = j * t → 2 ≤ j → z = lo + ((m : ℝ) + 1 / 2) * ((h - lo) / j) := by
    intro h j e j2
    have : (j : ℝ) ≠ 0 := by
      have : (2 : ℝ) ≤ j := by exact_mod_cast j2
      linarith
    rw [e, hz]; field_simp
  have a : PrintedAt layers m x ↔ InMaterial ⟨0, 0, z⟩ ⟨0, 0, 1⟩ ts x := by
    have := g3 m hm
    rw [← lev hk k2] at this
    exact this good x hx far slim
  have b : PrintedAt layers' m x ↔ InMaterial ⟨0, 0, z⟩ ⟨0, 0, 1⟩ ts' x := by
    have := l3 m hm'
    rw [← lev hk' k2'] at this
    exact this (same.good good) x hx (same.far far) (same.slim slim)
  rw [a, b]
  exact ⟨same.symm.material hx, same.material hx⟩

/-- what is printed of a model on a grid (C109) is its material -/
theorem printed_grid (S : Sorter) (A : Arrival B64) (ts : List RTri) (i k n : ℕ) (G : GridModel i k ts) (hw : Watertight ts) (lo hi t lw : ℝ)
    (he : Extent ts zUp lo hi) (E : EvenLayers k n lo hi t) (hn : 2 ≤ n) (hoff : ∀ w ∈ allVerts ts, ∀ m < n, w.z ≠ lo + (2 * m + 1 : ℕ) * (t / 2))
    (sett : Settings B64) (ht : sett.layerHeight = B64.of t) (hs : sett.supportsOn = false)
    (hlw : sett.gs.lineWidth = B64.of lw) (Flw : IsF lw) (l0 : 1 / 50 ≤ lw) (l1 : lw ≤ 10)
    (hd0 : 1 ≤ densityShare sett.fillingType sett.fillDensity) (hd1 : densityShare sett.fillingType sett.fillDensity ≤ 100) :
    ∃ layers : List (Layer B64), sliceByVectorToGcode S A (fmesh ts) zUp.f64v sett = .ok ((Gcode.new sett.gs).addLayers layers) ∧
      ∀ m < n, ∀ z : ℝ, z = lo + (m + 1 / 2) * t → ∀ x : R3, x.z = z → FarFromSurface (1 / 10 ^ 8) (lvl z) zUp ts x → OffThinCuts z ts x →
        (PrintedAtF layers m x ↔ InMaterial (lvl z) zUp ts x) := by
  have Gn : GridModel i k [] := ⟨G.fine, G.coarse, by simp [allVerts], by simp [allVerts], by simp [dirEdges], by simp, by simp [EdgesApart, dirEdges]⟩
  have D : SideBySide ⟨1, 0, 0⟩ 1001 ts [] := ⟨rfl, fun w h => by
    have := (abs_le.1 (G.range w h).1).2
    simp [R3.dot]; linarith, by simp [allVerts]⟩
  have an : ts ++ [] = ts := List.append_nil ts
  obtain ⟨layers, g1, g2⟩ := C136_float S A ts [] ⟨1, 0, 0⟩ 1001 D i k n G Gn hw watertight_nil lo hi t lw (by rw [an]; exact he) E hn (by rw [an]; exact hoff)
    sett ht hs hlw Flw l0 l1 hd0 hd1
  rw [an] at g1
  simp only [an] at g2
  refine ⟨layers, g1, fun m hm z hz x hx far thin => ?_⟩
  rw [g2 m hm z hz x hx far thin]
  exact ⟨fun h => h.resolve_right (material_nil _ _ _), Or.inl⟩

/-- **C146, float64.** The same in the arithmetic of the program, for models on a grid (C109) that are cut into even layers, no vertex being in the middle of a layer. -/
theorem C146_float (S S' : Sorter) (A A' : Arrival B64) (ts ts' : List RTri) (i k n n' : ℕ) (G : GridModel i k ts) (G' : GridModel i k ts') (hw : Watertight ts) (hw' : Watertight ts')
    (lo hi hi' t lw lw' : ℝ) (he : Extent ts zUp lo hi) (he' : Extent ts' zUp lo hi') (E : EvenLayers k n lo hi t) (E' : EvenLayers k n' lo hi' t) (hn : 2 ≤ n) (hn' : 2 ≤ n')
    (hoff : ∀ w ∈ allVerts ts, ∀ m < n, w.z ≠ lo + (2 * m + 1 : ℕ) * (t / 2)) (hoff' : ∀ w ∈ allVerts ts', ∀ m < n', w.z ≠ lo + (2 * m + 1 : ℕ) * (t / 2))
    (sett sett' : Settings B64) (ht : sett.layerHeight = B64.of t) (ht' : sett'.layerHeight = B64.of t) (hs : sett.supportsOn = false) (hs' : sett'.supportsOn = false)
    (hlw : sett.gs.lineWidth = B64.of lw) (Flw : IsF lw) (l0 : 1 / 50 ≤ lw) (l1 : lw ≤ 10)
    (hlw' : sett'.gs.lineWidth = B64.of lw') (Flw' : IsF lw') (l0' : 1 / 50 ≤ lw') (l1' : lw' ≤ 10)
    (hd0 : 1 ≤ densityShare sett.fillingType sett.fillDensity) (hd1 : densityShare sett.fillingType sett.fillDensity ≤ 100)
    (hd0' : 1 ≤ densityShare sett'.fillingType sett'.fillDensity) (hd1' : densityShare sett'.fillingType sett'.fillDensity ≤ 100) :
    ∃ layers layers' : List (Layer B64), sliceByVectorToGcode S A (fmesh ts) zUp.f64v sett = .ok ((Gcode.new sett.gs).addLayers layers) ∧
      sliceByVectorToGcode S' A' (fmesh ts') zUp.f64v sett' = .ok ((Gcode.new sett'.gs).addLayers layers') ∧
      ∀ m < n, m < n' → ∀ z : ℝ, z = lo + (m + 1 / 2) * t → SameAt z ts ts' → ∀ x : R3, x.z = z →
        FarFromSurface (1 / 10 ^ 8) (lvl z) zUp ts x → OffThinCuts z ts x → (PrintedAtF layers' m x ↔ PrintedAtF layers m x) := by
  obtain ⟨layers, g1, g3⟩ := printed_grid S A ts i k n G hw lo hi t lw he E hn hoff sett ht hs hlw Flw l0 l1 hd0 hd1
  obtain ⟨layers', l1, l3⟩ := printed_grid S' A' ts' i k n' G' hw' lo hi' t lw' he' E' hn' hoff' sett' ht' hs' hlw' Flw' l0' l1' hd0' hd1'
  refine ⟨layers, layers', g1, l1, fun m hm hm' z hz same x hx far thin => ?_⟩
  rw [g3 m hm z hz x hx far thin, l3 m hm' z hz x hx (same.far far) (same.thin thin)]
  exact ⟨same.symm.material hx, same.material hx⟩

/-- Non-vacuity: a box with a height of 3 mm in four layers, and the same with a second box higher up beside it, 6 mm in eight layers: the levels below the second box
are reached by the same facets. -/
theorem higher_box {p q p' q' : R3} (H : GoodBox 3 p q) (H' : GoodBox 3 p' q') (hx : q.x < p'.x) (hz : q.z - p.z = 3) (hz' : q'.z - p.z = 6) (hb : q.z ≤ p'.z) :
    SideBySide ⟨1, 0, 0⟩ ((q.x + p'.x) / 2) (brick p q) (brick p' q') ∧ GridModel 0 3 (brick p q ++ brick p' q') ∧ Extent (brick p q) zUp p.z q.z ∧ Extent (brick p q ++ brick p' q') zUp p.z q'.z ∧
      EvenLayers 3 4 p.z q.z (3 / 4) ∧ EvenLayers 3 8 p.z q'.z (3 / 4) ∧ ∀ z < q.z, SameAt z (brick p q) (brick p q ++ brick p' q') := by
  have dx : ∀ w : R3, w.dot ⟨1, 0, 0⟩ = w.x := fun w => by simp [R3.dot]
  have D : SideBySide ⟨1, 0, 0⟩ ((q.x + p'.x) / 2) (brick p q) (brick p' q') := by
    refine ⟨rfl, fun w h => ?_, fun w h => ?_⟩ <;> rw [dx]
    · have := H.below.1
      rcases (box_vert h).1 with e | e <;> rw [e] <;> linarith
    · have := H'.below.1
      rcases (box_vert h).1 with e | e <;> rw [e] <;> linarith
  have R : Rep (3 / 4 : ℝ) := ⟨3, -2, by norm_num, by norm_num, by norm_num⟩
  have s1 : rd (((4 : ℕ) : ℝ) * (3 / 4) * rd (1 / ((4 : ℕ) : ℝ))) = 3 / 4 := by
    have := even_pow2 R 2 (by norm_num)
    norm_num at this ⊢
    exact this
  have s2 : rd (((8 : ℕ) : ℝ) * (3 / 4) * rd (1 / ((8 : ℕ) : ℝ))) = 3 / 4 := by
    have := even_pow2 R 3 (by norm_num)
    norm_num at this ⊢
    exact this
  refine ⟨D, D.grid (box_grid H) (box_grid H'), box_extent H.below, ?_,
    ⟨H.pz.mono (by norm_num), ⟨3, by norm_num⟩, by norm_num, by rw [hz]; norm_num, H.pr.2.2, H.qr.2.2, s1⟩,
    ⟨H.pz.mono (by norm_num), ⟨3, by norm_num⟩, by norm_num, by rw [hz']; norm_num, H.pr.2.2, H'.qr.2.2, s2⟩, fun z h => ?_⟩
  · have v : ∀ e, e ∈ allVerts (brick p q ++ brick p' q') ↔ e ∈ allVerts (brick p q) ∨ e ∈ allVerts (brick p' q') := fun e => by simp [allVerts]
    have X := box_extent H.below
    have X' := box_extent H'.below
    have l := X.le
    unfold Extent at *
    obtain ⟨⟨⟨w, hw, e1⟩, b1⟩, ⟨-, b2⟩⟩ := X
    obtain ⟨⟨-, b3⟩, ⟨⟨w', hw', e2⟩, b4⟩⟩ := X'
    refine ⟨⟨⟨w, (v w).2 (Or.inl hw), e1⟩, ?_⟩, ⟨⟨w', (v w').2 (Or.inr hw'), e2⟩, ?_⟩⟩
    · rintro _ ⟨u, hu, rfl⟩
      rcases (v u).1 hu with h | h
      · exact b1 ⟨u, h, rfl⟩
      · exact (l.trans hb).trans (b3 ⟨u, h, rfl⟩)
    · rintro _ ⟨u, hu, rfl⟩
      rcases (v u).1 hu with h | h
      · exact (b2 ⟨u, h, rfl⟩).trans (by linarith)
      · exact b4 ⟨u, h, rfl⟩
  · have miss : ∀ t ∈ brick p' q', LevelMisses z [t] := by
      intro t ht
      right
      intro w hw
      have : w ∈ allVerts (brick p' q') := by
        obtain ⟨r, hr, hv⟩ := List.mem_flatMap.1 hw
        rw [List.mem_singleton.1 hr] at hv
        exact List.mem_flatMap.2 ⟨t, ht, hv⟩
      have b := H'.below.2.2
      rcases (box_vert this).2.2 with e | e <;> rw [e] <;> linarith
    unfold SameAt facetsAt
    rw [List.filter_append]
    exact List.Perm.of_eq ((congrArg _ (List.filter_eq_nil_iff.2 fun t ht => by simpa using miss t ht)).trans (List.append_nil _)).symm

end Goosli
