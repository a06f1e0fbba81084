import Verif.Props.C135
import Verif.Props.C110
/-!
# C136: bodies side by side

Bodies in one file that are separated by a vertical plane are all printed.
-/
set_option autoImplicit false
namespace Goosli
open Flt

/-- spec: a vertical plane with normal `g` has the body `us` on one side and the body `vs` on the other -/
structure SideBySide (g : R3) (c : ℝ) (us vs : List RTri) : Prop where
  upright : g.z = 0
  left : ∀ w ∈ allVerts us, w.dot g < c
  right : ∀ w ∈ allVerts vs, c < w.dot g

theorem onTri_dot {t : RTri} {g y : R3} {c : ℝ} (h : ∀ w ∈ t.verts, w.dot g < c) (ho : OnTri t y) : y.dot g < c := by
  obtain ⟨u, v, w, hu, hv, hw, hs, rfl⟩ := ho
  have ha := h t.a (by simp [RTri.verts])
  have hb := h t.b (by simp [RTri.verts])
  have hc := h t.c (by simp [RTri.verts])
  have e : (u • t.a + v • t.b + w • t.c).dot g = u * t.a.dot g + v * t.b.dot g + w * t.c.dot g := by simp [R3.dot]; ring
  rw [e]
  have hc' : u * c + v * c + w * c = c := by rw [← add_mul, ← add_mul, hs, one_mul]
  have a1 := mul_le_mul_of_nonneg_left ha.le hu
  have b1 := mul_le_mul_of_nonneg_left hb.le hv
  have c1 := mul_le_mul_of_nonneg_left hc.le hw
  rcases hu.lt_or_eq with h0 | h0
  · have := mul_lt_mul_of_pos_left ha h0; linarith
  rcases hv.lt_or_eq with h1 | h1
  · have := mul_lt_mul_of_pos_left hb h1; linarith
  · have := mul_lt_mul_of_pos_left hc (by linarith : 0 < w); linarith

/-- the material of a body that is on one side of a vertical plane is on that side -/
theorem material_side {ts : List RTri} {z : ℝ} (hw : Watertight ts) (hdeg : ∀ t ∈ ts, t.nrm ≠ 0) (hsm : ∀ w ∈ allVerts ts, w.small) (hg : GoodLevel ts z)
    {g : R3} {c : ℝ} (gz : g.z = 0) (hs : ∀ w ∈ allVerts ts, w.dot g < c) {x : R3} (hx : x.z = z) (hm : InMaterial ⟨0, 0, z⟩ ⟨0, 0, 1⟩ ts x) : x.dot g < c := by
  by_contra hcon
  push Not at hcon
  have side : ∀ t ∈ ts, ∀ y, OnTri t y → y.dot g < c := fun t ht y => onTri_dot fun w h => hs w (List.mem_flatMap.2 ⟨t, ht, h⟩)
  have hon : ∀ t ∈ ts, ¬ OnTri t x := fun t ht ho => absurd (side t ht x ho) (not_lt.2 hcon)
  by_cases g0 : g.x = 0 ∧ g.y = 0
  · obtain ⟨d, -, -, ho⟩ := hm
    have hne : ts ≠ [] := by rintro rfl; simp [OddTris] at ho
    obtain ⟨t, ht⟩ := List.exists_mem_of_ne_nil _ hne
    have a := hs t.a (List.mem_flatMap.2 ⟨t, ht, by simp [RTri.verts]⟩)
    simp only [R3.dot, gz, g0.1, g0.2] at a hcon
    linarith
  · have g1 : 0 < g.x * g.x + g.y * g.y := by
      by_contra h
      exact g0 ⟨by nlinarith [mul_self_nonneg g.x, mul_self_nonneg g.y], by nlinarith [mul_self_nonneg g.x, mul_self_nonneg g.y]⟩
    classical
    obtain ⟨δ, -, -, hd⟩ := miss_points (((dirEdges ts).filter fun e => decide (ascends ⟨0, 0, z⟩ ⟨0, 0, 1⟩ e ∨ descends ⟨0, 0, z⟩ ⟨0, 0, 1⟩ e)).map
      (crossAt ⟨0, 0, z⟩ ⟨0, 0, 1⟩)) x g ⟨-g.y, g.x, 0⟩ (by simp only [R3.cross2]; linarith) (by
        intro w hw
        obtain ⟨e, he, rfl⟩ := List.mem_map.1 hw
        obtain ⟨he, hc⟩ := List.mem_filter.1 he
        obtain ⟨t, ht, ho⟩ := crossPoint_onTri (P := ⟨0, 0, z⟩) (N := ⟨0, 0, 1⟩) ⟨e, he, of_decide_eq_true hc, rfl⟩
        have := side t ht _ ho
        by_contra h
        push Not at h
        simp only [R3.dot, gz, h.1, h.2] at this hcon
        linarith) one_pos
    refine none_odd (fun t ht ⟨s, hs, ho⟩ => ?_) ((material_ray hw hdeg hsm hg hx hon (d := g + δ • ⟨-g.y, g.x, 0⟩) (by simp [gz]) ?_).1 hm)
    · rintro w ⟨e, he, hc, rfl⟩
      exact hd _ (List.mem_map.2 ⟨e, List.mem_filter.2 ⟨he, decide_eq_true hc⟩, rfl⟩)
    · have := side t ht _ ho
      have e : (x + s • (g + δ • (⟨-g.y, g.x, 0⟩ : R3))).dot g = x.dot g + s * (g.x * g.x + g.y * g.y) := by
        simp [R3.dot, gz]; ring
      rw [e] at this
      nlinarith [mul_nonneg hs g1.le]

namespace SideBySide
variable {g : R3} {c : ℝ} {us vs : List RTri}

theorem symm (D : SideBySide g c us vs) : SideBySide (-g) (-c) vs us := by
  have e : ∀ w : R3, w.dot (-g) = -w.dot g := fun w => by simp [R3.dot]; ring
  refine ⟨by simp [D.upright], fun w h => ?_, fun w h => ?_⟩ <;> rw [e]
  · exact neg_lt_neg (D.right w h)
  · exact neg_lt_neg (D.left w h)

theorem verts (D : SideBySide g c us vs) : ∀ w ∈ allVerts us, w ∉ allVerts vs := fun w h h' => lt_asymm (D.left w h) (D.right w h')

/-- bodies side by side do not overlap -/
theorem apart (D : SideBySide g c us vs) {z : ℝ} (hu : Watertight us) (hv : Watertight vs) (hdeg : ∀ t ∈ us ++ vs, t.nrm ≠ 0) (hsm : ∀ w ∈ allVerts (us ++ vs), w.small)
    (hg : GoodLevel (us ++ vs) z) {x : R3} (hx : x.z = z) : ¬ (InMaterial ⟨0, 0, z⟩ ⟨0, 0, 1⟩ us x ∧ InMaterial ⟨0, 0, z⟩ ⟨0, 0, 1⟩ vs x) := by
  have v : ∀ e, e ∈ allVerts (us ++ vs) ↔ e ∈ allVerts us ∨ e ∈ allVerts vs := fun e => by simp [allVerts]
  obtain ⟨g1, g2⟩ := good_left hg
  rintro ⟨a, b⟩
  have := material_side hu (fun t ht => hdeg t (by simp [ht])) (fun w h => hsm w ((v w).2 (Or.inl h))) g1 D.upright D.left hx a
  have h2 := material_side hv (fun t ht => hdeg t (by simp [ht])) (fun w h => hsm w ((v w).2 (Or.inr h))) g2 D.symm.upright D.symm.left hx b
  have e : x.dot (-g) = -x.dot g := by simp [R3.dot]; ring
  rw [e] at h2
  linarith

/-- two models on a grid, side by side, are a model on the grid -/
theorem grid (D : SideBySide g c us vs) {j k : ℕ} (Gu : GridModel j k us) (Gv : GridModel j k vs) : GridModel j k (us ++ vs) := by
  have v : ∀ e, e ∈ allVerts (us ++ vs) ↔ e ∈ allVerts us ∨ e ∈ allVerts vs := fun e => by simp [allVerts]
  have d : ∀ e, e ∈ dirEdges (us ++ vs) ↔ e ∈ dirEdges us ∨ e ∈ dirEdges vs := fun e => by simp [dirEdges]
  have bet : ∀ {ts : List RTri} {g : R3} {c : ℝ}, (∀ w ∈ allVerts ts, w.dot g < c) → ∀ {e : R3 × R3} {p : R3}, e ∈ dirEdges ts → Between e p → p.dot g < c := by
    rintro ts g c h e p he ⟨s, s0, s1, rfl⟩
    have h1 := h _ (edge_verts he).1
    have h2 := h _ (edge_verts he).2
    have q : (e.1 + s • (e.2 - e.1)).dot g = (1 - s) * e.1.dot g + s * e.2.dot g := by simp [R3.dot]; ring
    rw [q]
    nlinarith [mul_pos s0 (sub_pos.2 h2), mul_pos (sub_pos.2 s1) (sub_pos.2 h1)]
  have no : ∀ {e f : R3 × R3} {p : R3}, e ∈ dirEdges us → f ∈ dirEdges vs → Between e p → Between f p → False := by
    intro e f p he hf be bf
    have h1 := bet D.left he be
    have h2 := bet D.symm.left hf bf
    have q : p.dot (-g) = -p.dot g := by simp [R3.dot]; ring
    rw [q] at h2
    linarith
  exact
  { fine := Gu.fine
    coarse := Gu.coarse
    grid := fun w hw => ((v w).1 hw).elim (Gu.grid w) (Gv.grid w)
    range := fun w hw => ((v w).1 hw).elim (Gu.range w) (Gv.range w)
    short := fun e he => ((d e).1 he).elim (Gu.short e) (Gv.short e)
    solid := fun t ht => (List.mem_append.1 ht).elim (Gu.solid t) (Gv.solid t)
    apart := fun e he f hf p be bf => by
      rcases (d e).1 he with h | h <;> rcases (d f).1 hf with h' | h'
      · exact Gu.apart e h f h' p be bf
      · exact (no h h' be bf).elim
      · exact (no h' h bf be).elim
      · exact Gv.apart e h f h' p be bf }

end SideBySide

/-- **C136.** Two closed bodies in one file, separated by a vertical plane, sliced and filled vertically in exact arithmetic with the rounding of sections (supports off):
at every good level the printed part is the union of the two bodies. -/
theorem C136_side_by_side (S : Sorter) (A : Arrival XR) (us vs : List RTri) (g : R3) (c : ℝ) (D : SideBySide g c us vs) (sett : Settings XR)
    (hs : sett.supportsOn = false) (hu : Watertight us) (hv : Watertight vs) (hdeg : ∀ t ∈ us ++ vs, t.nrm ≠ 0) (hsm : ∀ w ∈ allVerts (us ++ vs), w.small)
    (lo hi t lw M : ℝ) (he : Extent (us ++ vs) ⟨0, 0, 1⟩ lo hi) (hh : sett.layerHeight = XR.fin t) (ht : 0 < t) (htl : t < hi - lo) (hb : ⌈(hi - lo) / t⌉ < 2 ^ 63)
    (hlw : sett.gs.lineWidth = XR.fin lw) (hd : patternDensity sett ≠ 0)
    (hsp : FillBounds (us ++ vs) (100 / (patternDensity sett : ℝ) * lw) M) (hfp : FillBounds (us ++ vs) lw M) :
    ∃ (layers : List (Layer XR)) (n : ℕ), sliceByVectorToGcode S A (rmesh (us ++ vs)) (R3.mk 0 0 1).vec sett = .ok ((Gcode.new sett.gs).addLayers layers) ∧
      (n : ℤ) = ⌈(hi - lo) / t⌉ ∧
      ∀ m < n, ∀ z : ℝ, z = lo + ((m : ℝ) + 1 / 2) * ((hi - lo) / n) → GoodLevel (us ++ vs) z → ∀ x : R3, x.z = z →
        FarFromSurface (1 / 10 ^ 8) ⟨0, 0, z⟩ ⟨0, 0, 1⟩ (us ++ vs) x → OffSlimCuts ⟨0, 0, z⟩ ⟨0, 0, 1⟩ (us ++ vs) x →
        (PrintedAt layers m x ↔ InMaterial ⟨0, 0, z⟩ ⟨0, 0, 1⟩ us x ∨ InMaterial ⟨0, 0, z⟩ ⟨0, 0, 1⟩ vs x) := by
  obtain ⟨layers, n, g1, g2, g3⟩ := C135_two_bodies_partial S A us vs sett hs hu hv (watertight_append hu hv D.verts) hdeg hsm lo hi t lw M he hh ht htl hb hlw hd hsp hfp
  exact ⟨layers, n, g1, g2, fun m hm z hz good x hx far slim => (g3 m hm z hz good x hx far slim).2 (D.apart hu hv hdeg hsm good hx)⟩

/-- **C136, float64.** The same in the arithmetic of the program, for two models on a grid (C109) that are cut into `n` even layers, no vertex being in the middle of a layer. -/
theorem C136_float (S : Sorter) (A : Arrival B64) (us vs : List RTri) (g : R3) (c : ℝ) (D : SideBySide g c us vs) (j k n : ℕ) (Gu : GridModel j k us) (Gv : GridModel j k vs)
    (hu : Watertight us) (hv : Watertight vs) (lo hi t lw : ℝ) (he : Extent (us ++ vs) zUp lo hi) (E : EvenLayers k n lo hi t) (hn : 2 ≤ n)
    (hoff : ∀ w ∈ allVerts (us ++ vs), ∀ m < n, w.z ≠ lo + (2 * m + 1 : ℕ) * (t / 2))
    (sett : Settings B64) (ht : sett.layerHeight = B64.of t) (hs : sett.supportsOn = false)
    (hlw : sett.gs.lineWidth = B64.of lw) (Flw : IsF lw) (l0 : 1 / 50 ≤ lw) (l1 : lw ≤ 10)
    (hd0 : 1 ≤ densityShare sett.fillingType sett.fillDensity) (hd1 : densityShare sett.fillingType sett.fillDensity ≤ 100) :
    ∃ layers : List (Layer B64), sliceByVectorToGcode S A (fmesh (us ++ vs)) zUp.f64v sett = .ok ((Gcode.new sett.gs).addLayers layers) ∧
      ∀ m < n, ∀ z : ℝ, z = lo + (m + 1 / 2) * t → ∀ x : R3, x.z = z →
        FarFromSurface (1 / 10 ^ 8) (lvl z) zUp (us ++ vs) x → OffThinCuts z (us ++ vs) x →
        (PrintedAtF layers m x ↔ InMaterial (lvl z) zUp us x ∨ InMaterial (lvl z) zUp vs x) := by
  have G := D.grid Gu Gv
  obtain ⟨cn, L⟩ := C109_levels G E hoff
  have t0 := E.pos
  have tg := E.gridT.le_abs t0.ne'
  rw [abs_of_pos t0] at tg
  have h8 : (1 : ℝ) / 2 ^ 8 ≤ 1 / 2 ^ k := one_div_le_one_div_of_le (by positivity) (pow_le_pow_right₀ (by norm_num) G.coarse)
  have a := abs_le.1 E.lo1; have b := abs_le.1 E.hi1
  have hh := E.height
  have n2 : (2 : ℝ) ≤ n := by exact_mod_cast hn
  have t1 : t ≤ 1000 := by nlinarith
  obtain ⟨layers, g1, g3⟩ := C135_float_partial S A us vs lo hi t lw hu hv (watertight_append hu hv D.verts) G.solid he (by nlinarith)
    (grid_isF G.coarse E.gridT (by rw [abs_of_pos t0]; exact t1)) (by linarith) t1 sett ht hs
    (fun w hw => by
      obtain ⟨a, b, c⟩ := G.grid w hw
      obtain ⟨a', b', c'⟩ := G.range w hw
      have := G.coarse
      have := G.fine
      exact ⟨grid_isF (by omega) a a', grid_isF (by omega) b b', grid_isF (by omega) c c'⟩)
    G.range (fun m hm => (L m hm).2) (by rw [cn]; exact_mod_cast hn) hlw Flw l0 l1 hd0 hd1
  refine ⟨layers, g1, fun m hm z hz x hx far thin => ?_⟩
  have hm' : (m : ℤ) < floatCount lo hi t := by rw [cn]; exact_mod_cast hm
  obtain ⟨e, H⟩ := L m hm'
  have hz' : z = floatLevel lo hi t m := by rw [e, hz]
  refine (g3 m hm' z hz' x hx far thin).2 ?_
  rw [← hz'] at H
  have good : GoodLevel (us ++ vs) z := ⟨fun w h hc => H.offPlane w h (by rw [height_lvl]; linarith), H.wellSep⟩
  exact D.apart hu hv G.solid H.small good hx

/-- two boxes with the same heights, one to the left of the other -/
theorem C136_boxes {k : ℕ} {p q p' q' : R3} (H : GoodBox k p q) (H' : GoodBox k p' q') (hx : q.x < p'.x) (h0 : p'.z = p.z) (h1 : q'.z = q.z) :
    SideBySide ⟨1, 0, 0⟩ ((q.x + p'.x) / 2) (brick p q) (brick p' q') ∧ GridModel 0 k (brick p q ++ brick p' q') ∧ Extent (brick p q ++ brick p' q') zUp p.z q.z := by
  have dx : ∀ w : R3, w.dot ⟨1, 0, 0⟩ = w.x := fun w => by simp [R3.dot]
  have D : SideBySide ⟨1, 0, 0⟩ ((q.x + p'.x) / 2) (brick p q) (brick p' q') := by
    refine ⟨rfl, fun w h => ?_, fun w h => ?_⟩ <;> rw [dx]
    · have := H.below.1
      rcases (box_vert h).1 with e | e <;> rw [e] <;> linarith
    · have := H'.below.1
      rcases (box_vert h).1 with e | e <;> rw [e] <;> linarith
  refine ⟨D, D.grid (box_grid H) (box_grid H'), ?_⟩
  have E := box_extent H.below
  have E' := box_extent H'.below
  rw [h0, h1] at E'
  have v : ∀ e, e ∈ allVerts (brick p q ++ brick p' q') ↔ e ∈ allVerts (brick p q) ∨ e ∈ allVerts (brick p' q') := fun e => by simp [allVerts]
  unfold Extent at *
  obtain ⟨⟨⟨w, hw, e1⟩, b1⟩, ⟨⟨w', hw', e2⟩, b2⟩⟩ := E
  refine ⟨⟨⟨w, (v w).2 (Or.inl hw), e1⟩, ?_⟩, ⟨⟨w', (v w').2 (Or.inl hw'), e2⟩, ?_⟩⟩
  · rintro _ ⟨u, hu, rfl⟩
    rcases (v u).1 hu with h | h
    · exact b1 ⟨u, h, rfl⟩
    · exact E'.1.2 ⟨u, h, rfl⟩
  · rintro _ ⟨u, hu, rfl⟩
    rcases (v u).1 hu with h | h
    · exact b2 ⟨u, h, rfl⟩
    · exact E'.2.2 ⟨u, h, rfl⟩

/-! Non-vacuity: every two boxes of whole sides, side by side and with the same height of at most 12 mm, in layers of a quarter of a millimetre. -/

private noncomputable def exFlags : GoosliFlags B64 :=
  ⟨"in.stl", "out.gcode", (⟨0, 0, 0⟩ : R3).f64v, (⟨0, 0, 0⟩ : R3).f64, B64.of 10, B64.of (1 / 4), B64.of 1, 20, 1, 1, 60, 200, 50, 30, 40, false,
    B64.of (1 / 2), "Squares", false, 20, B64.of 5, "planes.txt", "3axes", B64.of 30, zUp.f64v, false, B64.of 1, B64.of 2, B64.of 1, 3⟩

example (S : Sorter) (A : Arrival B64) (p q p' q' : R3) (c : ℕ) (c0 : 1 ≤ c) (c1 : c ≤ 12) (hc : q.z - p.z = c) (H : GoodBox 3 p q) (H' : GoodBox 3 p' q') (hx : q.x < p'.x)
    (h0 : p'.z = p.z) (h1 : q'.z = q.z) :
    ∃ layers : List (Layer B64), sliceByVectorToGcode S A (fmesh (brick p q ++ brick p' q')) zUp.f64v exFlags.settings =
        .ok ((Gcode.new exFlags.settings.gs).addLayers layers) ∧
      ∀ m < 4 * c, ∀ x : R3, x.z = p.z + (m + 1 / 2) * (1 / 4) → OffOutline p q x → OffOutline p' q' x →
        OffThinCuts x.z (brick p q ++ brick p' q') x → (PrintedAtF layers m x ↔ InRectangle p q x ∨ InRectangle p' q' x) := by
  have step : rd (((4 * c : ℕ) : ℝ) * (1 / 4) * rd (1 / ((4 * c : ℕ) : ℝ))) = 1 / 4 := by
    have := even_upto48 (n := 4 * c) (by omega) (by omega) (b := -2) (by norm_num)
    have e : (2 : ℝ) ^ (-2 : ℤ) = 1 / 4 := by norm_num
    rwa [e] at this
  have E : EvenLayers 3 (4 * c) p.z q.z (1 / 4) :=
    ⟨H.pz.mono (by norm_num), ⟨1, by norm_num⟩, by norm_num, by rw [hc]; push_cast; ring, H.pr.2.2, H.qr.2.2, step⟩
  obtain ⟨D, -, X⟩ := C136_boxes H H' hx h0 h1
  obtain ⟨layers, g1, g2⟩ := C136_float S A (brick p q) (brick p' q') ⟨1, 0, 0⟩ _ D 0 3 (4 * c) (box_grid H) (box_grid H') (box_watertight H.below) (box_watertight H'.below)
    p.z q.z (1 / 4) (1 / 2) X E (by omega) (fun w hw m hm => by
      have hz : w.z = p.z ∨ w.z = q.z := by
        rcases (by simpa [allVerts] using hw : w ∈ allVerts (brick p q) ∨ w ∈ allVerts (brick p' q')) with h | h
        · exact (box_vert h).2.2
        · rw [← h0, ← h1]; exact (box_vert h).2.2
      have m0 : (0 : ℝ) < (2 * m + 1 : ℕ) := by positivity
      rcases hz with e | e <;> rw [e] <;> intro h
      · linarith
      · have : ((2 * m + 1 : ℕ) : ℝ) = ((8 * c : ℕ) : ℝ) := by push_cast at h ⊢; linarith
        have : 2 * m + 1 = 8 * c := by exact_mod_cast this
        omega) exFlags.settings rfl rfl rfl isF_half (by norm_num) (by norm_num) (by decide) (by decide)
  refine ⟨layers, g1, fun m hm x hxz off off' thin => ?_⟩
  obtain ⟨e, G, -⟩ := E.level (by norm_num) m hm
  have lev : x.z = p.z + (2 * m + 1 : ℕ) * (1 / 4 / 2) := by rw [hxz]; push_cast; ring
  have l0 : p.z < x.z := by rw [hxz]; have : (0 : ℝ) ≤ m := by positivity
                            linarith
  have l1 : x.z < q.z := by
    have : ((m : ℝ) + 1) ≤ ((4 * c : ℕ) : ℝ) := by exact_mod_cast hm
    push_cast at this
    rw [hxz]; linarith
  have Gx : Dyadic 3 x.z := by rw [lev]; rw [e] at G; exact G
  rw [g2 m hm x.z hxz x rfl ?_ thin, box_material H Gx l0 l1 rfl off, box_material H' Gx (by rw [h0]; exact l0) (by rw [h1]; exact l1) rfl off']
  intro t ht
  rcases List.mem_append.1 ht with h | h
  · exact far_of_off H.below l0 l1 off t h
  · exact far_of_off H'.below (by rw [h0]; exact l0) (by rw [h1]; exact l1) off' t h

end Goosli
