import Verif.Props.C139
/-!
# C140: a body does not change what is printed of another beside it
-/
set_option autoImplicit false
namespace Goosli
open Flt

theorem SideBySide.alone {g : R3} {c : ℝ} {us vs : List RTri} (D : SideBySide g c us vs) : SideBySide g c us [] :=
  ⟨D.upright, D.left, fun w h => absurd h (by simp [allVerts])⟩

theorem watertight_nil : Watertight [] := ⟨by simp [dirEdges], by simp [dirEdges]⟩

theorem material_nil (P N x : R3) : ¬ InMaterial P N [] x := by
  rintro ⟨d, -, -, h⟩
  simp [OddTris] at h

/-- on the side of the first body there is no material of the second -/
theorem SideBySide.clear {g : R3} {c : ℝ} {us vs : List RTri} (D : SideBySide g c us vs) {z : ℝ} (hv : Watertight vs) (hdeg : ∀ t ∈ us ++ vs, t.nrm ≠ 0)
    (hsm : ∀ w ∈ allVerts (us ++ vs), w.small) (hg : GoodLevel (us ++ vs) z) {x : R3} (hx : x.z = z) (hs : x.dot g < c) : ¬ InMaterial ⟨0, 0, z⟩ ⟨0, 0, 1⟩ vs x := by
  have v : ∀ e, e ∈ allVerts (us ++ vs) ↔ e ∈ allVerts us ∨ e ∈ allVerts vs := fun e => by simp [allVerts]
  intro b
  have h2 := material_side hv (fun t ht => hdeg t (by simp [ht])) (fun w h => hsm w ((v w).2 (Or.inr h))) (good_left hg).2 D.symm.upright D.symm.left hx b
  have e : x.dot (-g) = -x.dot g := by simp [R3.dot]; ring
  rw [e] at h2
  linarith

theorem far_left {ε : ℝ} {P N x : R3} {us vs : List RTri} (h : FarFromSurface ε P N (us ++ vs) x) : FarFromSurface ε P N us x :=
  fun t ht => h t (List.mem_append.2 (Or.inl ht))

theorem slim_left {P N x : R3} {us vs : List RTri} (h : OffSlimCuts P N (us ++ vs) x) : OffSlimCuts P N us x := fun a b c ha hb hc =>
  h a b c ((cross_append _ _ _ _ _).2 (Or.inl ha)) ((cross_append _ _ _ _ _).2 (Or.inl hb)) ((cross_append _ _ _ _ _).2 (Or.inl hc))

theorem thin_left {z : ℝ} {x : R3} {us vs : List RTri} (h : OffThinCuts z (us ++ vs) x) : OffThinCuts z us x := fun a b c ha hb hc =>
  h a b c ((cross_append _ _ _ _ _).2 (Or.inl ha)) ((cross_append _ _ _ _ _).2 (Or.inl hb)) ((cross_append _ _ _ _ _).2 (Or.inl hc))

/-- **C140.** A body `us` sliced alone, and sliced together with a body `vs` on the other side of a vertical plane and not lower or higher, in exact arithmetic with the rounding of
sections (supports off): on the side of `us` the same points are printed, at every good level. Settings other than the layer height, the orders of the sorts and of the arrival of
layers may be different. -/
theorem C140_independent (S S' : Sorter) (A A' : Arrival XR) (us vs : List RTri) (g : R3) (c : ℝ) (D : SideBySide g c us vs) (sett sett' : Settings XR)
    (hs : sett.supportsOn = false) (hs' : sett'.supportsOn = false) (hu : Watertight us) (hv : Watertight vs) (hdeg : ∀ t ∈ us ++ vs, t.nrm ≠ 0)
    (hsm : ∀ w ∈ allVerts (us ++ vs), w.small) (lo hi t lw M lw' M' : ℝ) (he : Extent us ⟨0, 0, 1⟩ lo hi) (he' : Extent (us ++ vs) ⟨0, 0, 1⟩ lo hi)
    (hh : sett.layerHeight = XR.fin t) (hh' : sett'.layerHeight = XR.fin t) (ht : 0 < t) (htl : t < hi - lo) (hb : ⌈(hi - lo) / t⌉ < 2 ^ 63)
    (hlw : sett.gs.lineWidth = XR.fin lw) (hd : patternDensity sett ≠ 0) (hlw' : sett'.gs.lineWidth = XR.fin lw') (hd' : patternDensity sett' ≠ 0)
    (hsp : FillBounds us (100 / (patternDensity sett : ℝ) * lw) M) (hfp : FillBounds us lw M)
    (hsp' : FillBounds (us ++ vs) (100 / (patternDensity sett' : ℝ) * lw') M') (hfp' : FillBounds (us ++ vs) lw' M') :
    ∃ (layers layers' : List (Layer XR)) (n : ℕ), sliceByVectorToGcode S A (rmesh us) (R3.mk 0 0 1).vec sett = .ok ((Gcode.new sett.gs).addLayers layers) ∧
      sliceByVectorToGcode S' A' (rmesh (us ++ vs)) (R3.mk 0 0 1).vec sett' = .ok ((Gcode.new sett'.gs).addLayers layers') ∧ (n : ℤ) = ⌈(hi - lo) / t⌉ ∧
      ∀ m < n, ∀ z : ℝ, z = lo + ((m : ℝ) + 1 / 2) * ((hi - lo) / n) → GoodLevel (us ++ vs) z → ∀ x : R3, x.z = z → x.dot g < c →
        FarFromSurface (1 / 10 ^ 8) ⟨0, 0, z⟩ ⟨0, 0, 1⟩ (us ++ vs) x → OffSlimCuts ⟨0, 0, z⟩ ⟨0, 0, 1⟩ (us ++ vs) x →
        (PrintedAt layers' m x ↔ PrintedAt layers m x) := by
  obtain ⟨layers, n, g1, g2, g3⟩ := printed_material S A us sett hs hu (fun t ht => hdeg t (by simp [ht])) (fun w h => hsm w (by
    have : w ∈ allVerts us ∨ w ∈ allVerts vs := Or.inl h
    simpa [allVerts] using this)) lo hi t lw M he hh ht htl hb hlw hd hsp hfp
  obtain ⟨layers', n', k1, k2, k3⟩ := C136_side_by_side S' A' us vs g c D sett' hs' hu hv hdeg hsm lo hi t lw' M' he' hh' ht htl hb hlw' hd' hsp' hfp'
  have : n' = n := by rw [← g2] at k2; exact_mod_cast k2
  subst this
  refine ⟨layers, layers', n', g1, k1, g2, fun m hm z hz good x hx side far slim => ?_⟩
  rw [k3 m hm z hz good x hx far slim]
  subst hz
  rw [g3 m hm (good_left good).1 x hx (far_left far) (slim_left slim)]
  have := D.clear hv hdeg hsm good hx side
  tauto

/-- **C140, float64.** The same in the arithmetic of the program, for models on a grid (C109) that are cut into `n` even layers, no vertex being in the middle of a layer. -/
theorem C140_float (S S' : Sorter) (A A' : Arrival B64) (us vs : List RTri) (g : R3) (c : ℝ) (D : SideBySide g c us vs) (j k n : ℕ) (Gu : GridModel j k us) (Gv : GridModel j k vs)
    (hu : Watertight us) (hv : Watertight vs) (lo hi t lw lw' : ℝ) (he : Extent us zUp lo hi) (he' : Extent (us ++ vs) zUp lo hi) (E : EvenLayers k n lo hi t) (hn : 2 ≤ n)
    (hoff : ∀ w ∈ allVerts (us ++ vs), ∀ m < n, w.z ≠ lo + (2 * m + 1 : ℕ) * (t / 2))
    (sett sett' : Settings B64) (ht : sett.layerHeight = B64.of t) (ht' : sett'.layerHeight = B64.of t) (hs : sett.supportsOn = false) (hs' : sett'.supportsOn = false)
    (hlw : sett.gs.lineWidth = B64.of lw) (Flw : IsF lw) (l0 : 1 / 50 ≤ lw) (l1 : lw ≤ 10)
    (hlw' : sett'.gs.lineWidth = B64.of lw') (Flw' : IsF lw') (l0' : 1 / 50 ≤ lw') (l1' : lw' ≤ 10)
    (hd0 : 1 ≤ densityShare sett.fillingType sett.fillDensity) (hd1 : densityShare sett.fillingType sett.fillDensity ≤ 100)
    (hd0' : 1 ≤ densityShare sett'.fillingType sett'.fillDensity) (hd1' : densityShare sett'.fillingType sett'.fillDensity ≤ 100) :
    ∃ layers layers' : List (Layer B64), sliceByVectorToGcode S A (fmesh us) zUp.f64v sett = .ok ((Gcode.new sett.gs).addLayers layers) ∧
      sliceByVectorToGcode S' A' (fmesh (us ++ vs)) zUp.f64v sett' = .ok ((Gcode.new sett'.gs).addLayers layers') ∧
      ∀ m < n, ∀ x : R3, x.z = lo + (m + 1 / 2) * t → x.dot g < c → FarFromSurface (1 / 10 ^ 8) (lvl x.z) zUp (us ++ vs) x → OffThinCuts x.z (us ++ vs) x →
        (PrintedAtF layers' m x ↔ PrintedAtF layers m x) := by
  have Gn : GridModel j k [] := ⟨Gu.fine, Gu.coarse, by simp [allVerts], by simp [allVerts], by simp [dirEdges], by simp, by simp [EdgesApart, dirEdges]⟩
  obtain ⟨layers, g1, g2⟩ := C136_float S A us [] g c D.alone j k n Gu Gn hu watertight_nil lo hi t lw (by rw [List.append_nil]; exact he) E hn
    (fun w hw => hoff w (by
      rw [List.append_nil] at hw
      have : w ∈ allVerts us ∨ w ∈ allVerts vs := Or.inl hw
      simpa [allVerts] using this)) sett ht hs hlw Flw l0 l1 hd0 hd1
  obtain ⟨layers', k1, k2⟩ := C136_float S' A' us vs g c D j k n Gu Gv hu hv lo hi t lw' he' E hn hoff sett' ht' hs' hlw' Flw' l0' l1' hd0' hd1'
  simp only [List.append_nil] at g1 g2
  refine ⟨layers, layers', g1, k1, fun m hm x hx side far thin => ?_⟩
  rw [k2 m hm x.z hx x rfl far thin, g2 m hm x.z hx x rfl (far_left far) (thin_left thin)]
  have G := D.grid Gu Gv
  obtain ⟨cn, L⟩ := C109_levels G E hoff
  obtain ⟨e, H⟩ := L m (by rw [cn]; exact_mod_cast hm)
  rw [e, ← hx] at H
  have good : GoodLevel (us ++ vs) x.z := ⟨fun w h hc => H.offPlane w h (by rw [height_lvl]; linarith), H.wellSep⟩
  have h1 := D.clear hv G.solid H.small good rfl side
  have h2 := material_nil (lvl x.z) zUp x
  constructor
  · rintro (h | h)
    · exact Or.inl h
    · exact absurd h h1
  · rintro (h | h)
    · exact Or.inl h
    · exact absurd h h2

/-- Non-vacuity: two boxes side by side with the same heights. -/
example {k : ℕ} {p q p' q' : R3} (H : GoodBox k p q) (H' : GoodBox k p' q') (hx : q.x < p'.x) (h0 : p'.z = p.z) (h1 : q'.z = q.z) :
    SideBySide ⟨1, 0, 0⟩ ((q.x + p'.x) / 2) (brick p q) (brick p' q') ∧ GridModel 0 k (brick p q) ∧ GridModel 0 k (brick p' q') ∧
      Watertight (brick p q) ∧ Watertight (brick p' q') ∧ Extent (brick p q) zUp p.z q.z ∧ Extent (brick p q ++ brick p' q') zUp p.z q.z ∧
      ∀ z, InRectangle p q ⟨(p.x + q.x) / 2, (p.y + q.y) / 2, z⟩ ∧ (⟨(p.x + q.x) / 2, (p.y + q.y) / 2, z⟩ : R3).dot ⟨1, 0, 0⟩ < (q.x + p'.x) / 2 := by
  obtain ⟨D, -, X⟩ := C136_boxes H H' hx h0 h1
  have := H.below.1
  exact ⟨D, box_grid H, box_grid H', box_watertight H.below, box_watertight H'.below, box_extent H.below, X, fun z =>
    ⟨(box_middle H z).2, by simp [R3.dot]; linarith⟩⟩

end Goosli
