import Verif.Props.C136
/-!
# C137: cavities

A model with a cavity is a file with two closed surfaces, one inside the other.  The cavity is left empty.
-/
set_option autoImplicit false
namespace Goosli
open Flt R3 Spec

/-- **C137.** A closed surface `vs` inside a closed body `us`, sliced and filled vertically in exact arithmetic with the rounding of sections (supports off): at every good level
where what is inside `vs` is inside `us`, the printed part is `us` without `vs`, whichever way the facets of `vs` are oriented. -/
theorem C137_cavity (S : Sorter) (A : Arrival XR) (us vs : List RTri) (sett : Settings XR) (hs : sett.supportsOn = false)
    (hu : Watertight us) (hv : Watertight vs) (hw : Watertight (us ++ vs)) (hdeg : ∀ t ∈ us ++ vs, t.nrm ≠ 0) (hsm : ∀ w ∈ allVerts (us ++ vs), w.small)
    (lo hi t lw M : ℝ) (he : Extent (us ++ vs) ⟨0, 0, 1⟩ lo hi) (hh : sett.layerHeight = XR.fin t) (ht : 0 < t) (htl : t < hi - lo) (hb : ⌈(hi - lo) / t⌉ < 2 ^ 63)
    (hlw : sett.gs.lineWidth = XR.fin lw) (hd : patternDensity sett ≠ 0)
    (hsp : FillBounds (us ++ vs) (100 / (patternDensity sett : ℝ) * lw) M) (hfp : FillBounds (us ++ vs) lw M) :
    ∃ (layers : List (Layer XR)) (n : ℕ), sliceByVectorToGcode S A (rmesh (us ++ vs)) (R3.mk 0 0 1).vec sett = .ok ((Gcode.new sett.gs).addLayers layers) ∧
      (n : ℤ) = ⌈(hi - lo) / t⌉ ∧
      ∀ m < n, ∀ z : ℝ, z = lo + ((m : ℝ) + 1 / 2) * ((hi - lo) / n) → GoodLevel (us ++ vs) z →
        (∀ x : R3, x.z = z → InMaterial ⟨0, 0, z⟩ ⟨0, 0, 1⟩ vs x → InMaterial ⟨0, 0, z⟩ ⟨0, 0, 1⟩ us x) → ∀ x : R3, x.z = z →
        FarFromSurface (1 / 10 ^ 8) ⟨0, 0, z⟩ ⟨0, 0, 1⟩ (us ++ vs) x → OffSlimCuts ⟨0, 0, z⟩ ⟨0, 0, 1⟩ (us ++ vs) x →
        (PrintedAt layers m x ↔ InMaterial ⟨0, 0, z⟩ ⟨0, 0, 1⟩ us x ∧ ¬ InMaterial ⟨0, 0, z⟩ ⟨0, 0, 1⟩ vs x) := by
  obtain ⟨layers, n, g1, g2, g3⟩ := C135_two_bodies_partial S A us vs sett hs hu hv hw hdeg hsm lo hi t lw M he hh ht htl hb hlw hd hsp hfp
  refine ⟨layers, n, g1, g2, fun m hm z hz good inn x hx far slim => ?_⟩
  have := inn x hx
  rw [(g3 m hm z hz good x hx far slim).1]
  tauto

/-! ## A box in a box -/

theorem brick_heights {p q : R3} (h : Below3 p q) {t : RTri} (ht : t ∈ brick p q) {y : R3} (hy : OnTri t y) : p.z ≤ y.z ∧ y.z ≤ q.z := by
  obtain ⟨f, -, rfl⟩ := List.mem_map.1 ht
  obtain ⟨u, v, w, hu, hv, hw, hs, rfl⟩ := hy
  exact convex3 hu hv hw hs (cond_mem h.2.2 f.1.2.2) (cond_mem h.2.2 f.2.1.2.2) (cond_mem h.2.2 f.2.2.2.2)

/-- above and below a box there is no material -/
theorem box_outside {p q : R3} (H : Below3 p q) {h : ℝ} (ho : h < p.z ∨ q.z < h) {x : R3} (hz : x.z = h) : ¬ InMaterial (lvl h) zUp (brick p q) x := by
  rintro ⟨d, hd, -, odd⟩
  refine none_odd (fun t ht ⟨s, hs, hon⟩ => ?_) odd
  obtain ⟨a, b⟩ := brick_heights H ht hon
  have dz : d.z = 0 := by simpa [R3.dot, zUp] using hd
  simp only [R3.add_z, R3.smul_z, dz, mul_zero, add_zero, hz] at a b
  rcases ho with h | h <;> linarith

theorem boxEdges_flat : ∀ e ∈ boxEdges, e.1.1 = e.2.1 ∨ e.1.2.1 = e.2.2.1 ∨ e.1.2.2 = e.2.2.2 := by decide

/-- the points of the edges of a box are on its sides -/
theorem box_edge_side {p q : R3} {e : R3 × R3} (he : e ∈ dirEdges (brick p q)) {y : R3} (hy : Between e y) :
    y.x = p.x ∨ y.x = q.x ∨ y.y = p.y ∨ y.y = q.y ∨ y.z = p.z ∨ y.z = q.z := by
  rw [box_edges] at he
  obtain ⟨⟨⟨a, b, c⟩, ⟨a', b', c'⟩⟩, hi, rfl⟩ := List.mem_map.1 he
  obtain ⟨s, -, -, rfl⟩ := hy
  rcases boxEdges_flat _ hi with h | h | h <;> simp only at h <;> subst h
  · cases a <;> simp [cornerAt]
  · cases b <;> simp [cornerAt]
  · cases c <;> simp [cornerAt]

/-- spec: the second box is inside the first -/
def Inside3 (p q p' q' : R3) : Prop := p.x < p'.x ∧ p.y < p'.y ∧ p.z < p'.z ∧ q'.x < q.x ∧ q'.y < q.y ∧ q'.z < q.z

theorem inside_between {p q : R3} (h : Below3 p q) {e : R3 × R3} (he : e ∈ dirEdges (brick p q)) {y : R3} (hy : Between e y) :
    p.x ≤ y.x ∧ y.x ≤ q.x ∧ p.y ≤ y.y ∧ y.y ≤ q.y ∧ p.z ≤ y.z ∧ y.z ≤ q.z := by
  rw [box_edges] at he
  obtain ⟨⟨⟨a, b, c⟩, ⟨a', b', c'⟩⟩, -, rfl⟩ := List.mem_map.1 he
  obtain ⟨s, s0, s1, rfl⟩ := hy
  have key : ∀ {u v : ℝ}, u < v → ∀ i j : Bool, u ≤ (bif i then v else u) + s * ((bif j then v else u) - (bif i then v else u)) ∧
      (bif i then v else u) + s * ((bif j then v else u) - (bif i then v else u)) ≤ v := by
    intro u v huv i j
    cases i <;> cases j <;> simp only [cond_true, cond_false] <;> constructor <;> nlinarith [mul_pos s0 (sub_pos.2 huv), mul_pos (sub_pos.2 s1) (sub_pos.2 huv)]
  obtain ⟨x1, x2⟩ := key h.1 a a'
  obtain ⟨y1, y2⟩ := key h.2.1 b b'
  obtain ⟨z1, z2⟩ := key h.2.2 c c'
  exact ⟨x1, x2, y1, y2, z1, z2⟩

/-- a hollow box is a watertight model on the grid with the extent of the outer box -/
theorem hollow_box {k : ℕ} {p q p' q' : R3} (H : GoodBox k p q) (H' : GoodBox k p' q') (I : Inside3 p q p' q') :
    Watertight (brick p q ++ brick p' q') ∧ GridModel 0 k (brick p q ++ brick p' q') ∧ Extent (brick p q ++ brick p' q') zUp p.z q.z := by
  obtain ⟨i1, i2, i3, i4, i5, i6⟩ := I
  have v : ∀ e, e ∈ allVerts (brick p q ++ brick p' q') ↔ e ∈ allVerts (brick p q) ∨ e ∈ allVerts (brick p' q') := fun e => by simp [allVerts]
  have d : ∀ e, e ∈ dirEdges (brick p q ++ brick p' q') ↔ e ∈ dirEdges (brick p q) ∨ e ∈ dirEdges (brick p' q') := fun e => by simp [dirEdges]
  have b' := H'.below
  have no : ∀ {e f : R3 × R3} {y : R3}, e ∈ dirEdges (brick p q) → f ∈ dirEdges (brick p' q') → Between e y → Between f y → False := by
    intro e f y he hf be bf
    obtain ⟨x1, x2, y1, y2, z1, z2⟩ := inside_between H'.below hf bf
    rcases box_edge_side he be with h | h | h | h | h | h <;> linarith
  have Gu := box_grid H
  have Gv := box_grid H'
  refine ⟨watertight_append (box_watertight H.below) (box_watertight H'.below) (fun w h h' => ?_), ?_, ?_⟩
  · have := b'.1
    rcases (box_vert h).1 with e | e <;> rcases (box_vert h').1 with e' | e' <;> linarith
  · exact
    { fine := Gu.fine
      coarse := Gu.coarse
      grid := fun w hw => ((v w).1 hw).elim (Gu.grid w) (Gv.grid w)
      range := fun w hw => ((v w).1 hw).elim (Gu.range w) (Gv.range w)
      short := fun e he => ((d e).1 he).elim (Gu.short e) (Gv.short e)
      solid := fun t ht => (List.mem_append.1 ht).elim (Gu.solid t) (Gv.solid t)
      apart := fun e he f hf y be bf => by
        rcases (d e).1 he with h | h <;> rcases (d f).1 hf with h' | h'
        · exact Gu.apart e h f h' y be bf
        · exact (no h h' be bf).elim
        · exact (no h' h bf be).elim
        · exact Gv.apart e h f h' y be bf }
  · obtain ⟨⟨⟨w, hw, e1⟩, b1⟩, ⟨⟨w', hw', e2⟩, b2⟩⟩ := box_extent H.below
    have dz : ∀ w : R3, w.dot zUp = w.z := fun w => by simp [R3.dot, zUp]
    have zz := b'.2.2
    refine ⟨⟨⟨w, (v w).2 (Or.inl hw), e1⟩, ?_⟩, ⟨⟨w', (v w').2 (Or.inl hw'), e2⟩, ?_⟩⟩
    · rintro _ ⟨u, hu, rfl⟩
      rcases (v u).1 hu with h | h
      · exact b1 ⟨u, h, rfl⟩
      · simp only [dz]; rcases (box_vert h).2.2 with e | e <;> rw [e] <;> linarith
    · rintro _ ⟨u, hu, rfl⟩
      rcases (v u).1 hu with h | h
      · exact b2 ⟨u, h, rfl⟩
      · simp only [dz]; rcases (box_vert h).2.2 with e | e <;> rw [e] <;> linarith

/-- the levels of a hollow box, as far as the outlines decide -/
theorem hollow_material {k : ℕ} {p q p' q' : R3} (H : GoodBox k p q) (H' : GoodBox k p' q') (I : Inside3 p q p' q') {x : R3} (Gx : Dyadic k x.z) (z0 : p.z < x.z) (z1 : x.z < q.z)
    (o1 : p'.z ≠ x.z) (o2 : q'.z ≠ x.z) (off : OffOutline p q x) (off' : OffOutline p' q' x) :
    FarFromSurface (1 / 10 ^ 8) (lvl x.z) zUp (brick p q ++ brick p' q') x ∧
      (¬ (InMaterial (lvl x.z) zUp (brick p q) x ↔ InMaterial (lvl x.z) zUp (brick p' q') x) ↔ InRectangle p q x ∧ ¬ (InRectangle p' q' x ∧ p'.z < x.z ∧ x.z < q'.z)) := by
  have cases3 : x.z < p'.z ∨ q'.z < x.z ∨ (p'.z < x.z ∧ x.z < q'.z) := by
    rcases lt_or_gt_of_ne o1 with h | h
    · rcases lt_or_gt_of_ne o2 with h' | h'
      · exact Or.inr (Or.inl h')
      · exact Or.inr (Or.inr ⟨h, h'⟩)
    · exact Or.inl h
  constructor
  · intro u hu y hy hl
    rcases List.mem_append.1 hu with h | h
    · exact far_of_off H.below z0 z1 off u h y hy hl
    · rcases cases3 with c | c | ⟨c, c'⟩
      · have := brick_heights H'.below h hy
        rw [height_lvl] at hl; linarith
      · have := brick_heights H'.below h hy
        rw [height_lvl] at hl; linarith
      · exact far_of_off H'.below c c' off' u h y hy hl
  · rw [box_material H Gx z0 z1 rfl off]
    have sub : InRectangle p' q' x → InRectangle p q x := fun ⟨r1, r2, r3, r4⟩ => by
      obtain ⟨i1, i2, -, i4, i5, -⟩ := I
      exact ⟨by linarith, by linarith, by linarith, by linarith⟩
    rcases cases3 with c | c | ⟨c, c'⟩
    · have := box_outside H'.below (Or.inl c) (x := x) rfl
      have : ¬ p'.z < x.z := not_lt.2 c.le
      tauto
    · have := box_outside H'.below (Or.inr c) (x := x) rfl
      have : ¬ x.z < q'.z := not_lt.2 c.le
      tauto
    · rw [box_material H' Gx c c' rfl off']
      tauto

/-- **C137, float64.** A box with a box-shaped cavity, both with whole coordinates, cut into `n` even layers with no corner of the cavity in the middle of a layer: the slicing
succeeds, and in each layer the printed part is the rectangle of the box without the rectangle of the cavity, at the heights where there is one. -/
theorem C137_box (S : Sorter) (A : Arrival B64) (k n : ℕ) (p q p' q' : R3) (H : GoodBox k p q) (H' : GoodBox k p' q') (I : Inside3 p q p' q') (t lw : ℝ)
    (E : EvenLayers k n p.z q.z t) (hn : 2 ≤ n) (hoff : ∀ m < n, p'.z ≠ p.z + (m + 1 / 2) * t ∧ q'.z ≠ p.z + (m + 1 / 2) * t)
    (sett : Settings B64) (ht : sett.layerHeight = B64.of t) (hs : sett.supportsOn = false)
    (hlw : sett.gs.lineWidth = B64.of lw) (Flw : IsF lw) (l0 : 1 / 50 ≤ lw) (l1 : lw ≤ 10)
    (hd0 : 1 ≤ densityShare sett.fillingType sett.fillDensity) (hd1 : densityShare sett.fillingType sett.fillDensity ≤ 100) :
    ∃ layers : List (Layer B64), sliceByVectorToGcode S A (fmesh (brick p q ++ brick p' q')) zUp.f64v sett = .ok ((Gcode.new sett.gs).addLayers layers) ∧
      ∀ m < n, ∀ x : R3, x.z = p.z + (m + 1 / 2) * t → OffOutline p q x → OffOutline p' q' x → OffThinCuts x.z (brick p q ++ brick p' q') x →
        (PrintedAtF layers m x ↔ InRectangle p q x ∧ ¬ (InRectangle p' q' x ∧ p'.z < x.z ∧ x.z < q'.z)) := by
  obtain ⟨W, G, X⟩ := hollow_box H H' I
  have t0 := E.pos
  have hh := E.height
  have nn : (0 : ℝ) ≤ n := by positivity
  have inn : ∀ m < n, p.z < p.z + ((m : ℝ) + 1 / 2) * t ∧ p.z + ((m : ℝ) + 1 / 2) * t < q.z := by
    intro m hm
    have : ((m : ℝ) + 1) ≤ n := by exact_mod_cast hm
    have m0 : (0 : ℝ) ≤ m := by positivity
    constructor <;> nlinarith
  obtain ⟨cn, L⟩ := C109_levels G E (fun w hw m hm e => by
    have e' : w.z = p.z + ((m : ℝ) + 1 / 2) * t := by rw [e]; push_cast; ring
    have := inn m hm
    rcases (by simpa [allVerts] using hw : w ∈ allVerts (brick p q) ∨ w ∈ allVerts (brick p' q')) with h | h
    · rcases (box_vert h).2.2 with f | f <;> linarith
    · rcases (box_vert h).2.2 with f | f
      · exact (hoff m hm).1 (f.symm.trans e')
      · exact (hoff m hm).2 (f.symm.trans e'))
  have tg := E.gridT.le_abs t0.ne'
  rw [abs_of_pos t0] at tg
  have h8 : (1 : ℝ) / 2 ^ 8 ≤ 1 / 2 ^ k := one_div_le_one_div_of_le (by positivity) (pow_le_pow_right₀ (by norm_num) G.coarse)
  have a := abs_le.1 E.lo1; have b := abs_le.1 E.hi1
  have n2 : (2 : ℝ) ≤ n := by exact_mod_cast hn
  have t1 : t ≤ 1000 := by nlinarith
  obtain ⟨layers, g1, g3⟩ := C135_float_partial S A (brick p q) (brick p' q') p.z q.z t lw (box_watertight H.below) (box_watertight H'.below) W G.solid X (by nlinarith)
    (grid_isF G.coarse E.gridT (by rw [abs_of_pos t0]; exact t1)) (by linarith) t1 sett ht hs
    (fun w hw => by
      obtain ⟨a, b, c⟩ := G.grid w hw
      obtain ⟨a', b', c'⟩ := G.range w hw
      exact ⟨grid_isF (by omega) a a', grid_isF (by omega) b b', grid_isF (by omega) c c'⟩)
    G.range (fun m hm => (L m hm).2) (by rw [cn]; exact_mod_cast hn) hlw Flw l0 l1 hd0 hd1
  refine ⟨layers, g1, fun m hm x hx off off' thin => ?_⟩
  have hm' : (m : ℤ) < floatCount p.z q.z t := by rw [cn]; exact_mod_cast hm
  obtain ⟨z0, z1⟩ := inn m hm
  rw [← hx] at z0 z1
  have hz' : x.z = floatLevel p.z q.z t m := by rw [(L m hm').1, hx]
  have Gx : Dyadic k x.z := by rw [hz']; exact (E.level G.coarse m hm).2.1
  obtain ⟨o1, o2⟩ := hoff m hm
  rw [← hx] at o1 o2
  obtain ⟨far, mat⟩ := hollow_material H H' I Gx z0 z1 o1 o2 off off'
  rw [(g3 m hm' x.z hz' x rfl far thin).1, mat]

/-- a model with whole coordinates that the program itself saves loads as it is -/
theorem whole_loads {k : ℕ} {ts : List RTri} (G : GridModel 0 k ts) (hl : ts.length < 2 ^ 32) : Loads (some (saveSTL (fmesh ts))) (fmesh ts) := by
  have isF : ∀ w ∈ allVerts ts, w.isF := fun w hw => by
    obtain ⟨gx, gy, gz⟩ := G.grid w hw
    obtain ⟨rx, ry, rz⟩ := G.range w hw
    exact ⟨grid_isF (by norm_num) gx rx, grid_isF (by norm_num) gy ry, grid_isF (by norm_num) gz rz⟩
  have h := (C97_save ts hl isF (fun w hw => by
    have h := G.range w hw
    have h3 : (1000 : ℝ) ≤ 2 ^ 127 := by norm_num
    exact ⟨h.1.trans h3, h.2.1.trans h3, h.2.2.trans h3⟩)).1
  have fix : ∀ x : ℝ, Dyadic 0 x → |x| ≤ 1000 → rd32 x = x := by
    rintro x ⟨m, rfl⟩ hm
    rw [pow_zero, div_one] at hm ⊢
    refine rd32_of_rep (rep32_int ?_)
    rw [← Int.cast_abs] at hm
    have : |m| ≤ 1000 := by exact_mod_cast hm
    exact this.trans (by norm_num)
  have fixw : ∀ w ∈ allVerts ts, w.round32 = w := by
    intro w hw
    obtain ⟨gx, gy, gz⟩ := G.grid w hw
    obtain ⟨rx, ry, rz⟩ := G.range w hw
    exact R3.ext (fix _ gx rx) (fix _ gy ry) (fix _ gz rz)
  have e : ts.map RTri.round32 = ts := by
    refine (List.map_congr_left (g := id) fun t ht => ?_).trans (List.map_id _)
    have m : ∀ w ∈ t.verts, w.round32 = w := fun w hw => fixw w (List.mem_flatMap.2 ⟨t, ht, hw⟩)
    exact RTri.ext (m _ (by simp [RTri.verts])) (m _ (by simp [RTri.verts])) (m _ (by simp [RTri.verts]))
  rw [e] at h
  exact ⟨_, rfl, h⟩

/-- **C137, program.** A run of the program in `float64` as in C104 on the file of a box with a box-shaped cavity, cut into `n` even layers with no corner of the cavity in the
middle of a layer: it ends normally and writes one file, in which the nozzle is moved layer by layer along contours that enclose the rectangle of the box without the rectangle of
the cavity. -/
theorem C137_program (M : Machine B64) (fuel : ℕ) (read : String → Option Bytes) (templates : String → Option (List Char))
    (canWrite : String → Bool) (now : String) (fl : GoosliFlags B64) (p q p' q' : R3) (t lw : ℝ) (k n : ℕ)
    (hread : read fl.stl = some (saveSTL (fmesh (brick p q ++ brick p' q')))) (hty : fl.slicingType = "3axes")
    (horg : fl.origin = (⟨0, 0, 0⟩ : R3).f64v) (hout : canWrite fl.out = true) (htop : (templates "data/header_template.txt").isSome)
    (hbot : (templates "data/footer_template.txt").isSome)
    (H : GoodBox k p q) (H' : GoodBox k p' q') (I : Inside3 p q p' q') (E : EvenLayers k n p.z q.z t) (hn : 2 ≤ n)
    (hoff : ∀ m < n, p'.z ≠ p.z + (m + 1 / 2) * t ∧ q'.z ≠ p.z + (m + 1 / 2) * t)
    (ht : fl.layerHeight = B64.of t) (hs : fl.supportsOn = false)
    (hlw : fl.lineWidth = B64.of lw) (Flw : IsF lw) (l0 : 1 / 50 ≤ lw) (l1 : lw ≤ 10)
    (hd0 : 1 ≤ densityShare fl.fillingType fl.fillDensity) (hd1 : densityShare fl.fillingType fl.fillDensity ≤ 100) :
    ∃ (hd ft : List Char) (text : String) (ds : List (List (List R3) × List (R3 × R3))) (i0 : ℕ),
      runGoosli M fuel read templates canWrite now fl = ⟨[(fl.out, hd ++ text.toList ++ ft)], .ok ()⟩ ∧ i0 ≤ 1 ∧ i0 + ds.length ≤ n ∧ n ≤ i0 + ds.length + 1 ∧
      (∀ (i : ℕ) d, ds[i]? = some d → ∀ x : R3, x.z = p.z + ((i0 + i : ℕ) + 1 / 2) * t → OffOutline p q x → OffOutline p' q' x →
        OffThinCuts x.z (brick p q ++ brick p' q') x →
        (∀ c ∈ d.1, ¬ OnContour x c) ∧ (InsideOdd x d.1 ↔ InRectangle p q x ∧ ¬ (InRectangle p' q' x ∧ p'.z < x.z ∧ x.z < q'.z))) ∧
      ∀ P : Printer, P.tool = 0 → printedMoves P (parseText text) = layersRun 0 ds := by
  obtain ⟨W, G, X⟩ := hollow_box H H' I
  have t0 := E.pos
  have hh := E.height
  have inn : ∀ m < n, p.z < p.z + ((m : ℝ) + 1 / 2) * t ∧ p.z + ((m : ℝ) + 1 / 2) * t < q.z := by
    intro m hm
    have : ((m : ℝ) + 1) ≤ n := by exact_mod_cast hm
    have m0 : (0 : ℝ) ≤ m := by positivity
    constructor <;> nlinarith
  have isF : ∀ w ∈ allVerts (brick p q ++ brick p' q'), w.isF := fun w hw => by
    obtain ⟨gx, gy, gz⟩ := G.grid w hw
    obtain ⟨rx, ry, rz⟩ := G.range w hw
    exact ⟨grid_isF (by norm_num) gx rx, grid_isF (by norm_num) gy ry, grid_isF (by norm_num) gz rz⟩
  have hoff' : ∀ w ∈ allVerts (brick p q ++ brick p' q'), ∀ m < n, w.z ≠ p.z + (2 * m + 1 : ℕ) * (t / 2) := by
    intro w hw m hm e
    have e' : w.z = p.z + ((m : ℝ) + 1 / 2) * t := by rw [e]; push_cast; ring
    have := inn m hm
    rcases (by simpa [allVerts] using hw : w ∈ allVerts (brick p q) ∨ w ∈ allVerts (brick p' q')) with h | h
    · rcases (box_vert h).2.2 with f | f <;> linarith
    · rcases (box_vert h).2.2 with f | f
      · exact (hoff m hm).1 (f.symm.trans e')
      · exact (hoff m hm).2 (f.symm.trans e')
  obtain ⟨cn, L⟩ := C109_levels G E hoff'
  obtain ⟨hd, ft, text, sparse, full, ds, i0, h1, -, -, h4, h5, h6, h7, -, h9⟩ :=
    C109_program M fuel read templates canWrite now fl (brick p q ++ brick p' q') (brick p q ++ brick p' q') ⟨0, 0, 0⟩ p.z q.z t lw 0 k n
      (by rw [hread]; exact whole_loads G (by simp [brick, boxFaces])) isF hty ⟨isF_zero, isF_zero, isF_zero⟩ horg hout htop hbot (movedF_zero isF)
      W G X E hn hoff' ht hs hlw Flw l0 l1 hd0 hd1
  refine ⟨hd, ft, text, ds, i0, h1, h4, h5, h6, fun i d hi x hx off off' thin => ?_, h9⟩
  have hm : i0 + i < n := by
    have := (List.getElem?_eq_some_iff.1 hi).1
    omega
  obtain ⟨z0, z1⟩ := inn _ hm
  obtain ⟨o1, o2⟩ := hoff _ hm
  obtain ⟨e, Sf⟩ := L (i0 + i) (by rw [cn]; exact_mod_cast hm)
  rw [e] at Sf
  have Gx := (E.level G.coarse _ hm).2.1
  rw [e] at Gx
  rw [← hx] at z0 z1 o1 o2 Gx Sf
  obtain ⟨far, mat⟩ := hollow_material H H' I Gx z0 z1 o1 o2 off off'
  have bm := (h7 i d hi).1
  rw [← hx] at bm
  obtain ⟨b1, b2⟩ := bm.2 x rfl far thin
  have good : GoodLevel (brick p q ++ brick p' q') x.z := ⟨fun w h hc => Sf.offPlane w h (by rw [height_lvl]; linarith), Sf.wellSep⟩
  refine ⟨b1, b2.trans ?_⟩
  rw [← mat]
  exact material_append (box_watertight H.below) (box_watertight H'.below) W G.solid Sf.small good rfl far

/-! Non-vacuity: a box of 10 by 10 by 4 mm with walls of 2 mm, and a bottom and a top of 1 mm, in layers of a quarter of a millimetre. -/

private noncomputable def exFlags : GoosliFlags B64 :=
  ⟨"in.stl", "out.gcode", (⟨0, 0, 0⟩ : R3).f64v, (⟨0, 0, 0⟩ : R3).f64, B64.of 10, B64.of (1 / 4), B64.of 1, 20, 1, 1, 60, 200, 50, 30, 40, false,
    B64.of (1 / 2), "Squares", false, 20, B64.of 5, "planes.txt", "3axes", B64.of 30, zUp.f64v, false, B64.of 1, B64.of 2, B64.of 1, 3⟩

private theorem exOuter : GoodBox 3 ⟨0, 0, 0⟩ ⟨10, 10, 4⟩ :=
  ⟨by unfold Below3; norm_num, by norm_num, ⟨0, by norm_num⟩, ⟨0, by norm_num⟩, ⟨0, by norm_num⟩, ⟨10, by norm_num⟩, ⟨10, by norm_num⟩, ⟨4, by norm_num⟩,
    by unfold R3.inRange; norm_num, by unfold R3.inRange; norm_num, by norm_num⟩

private theorem exInner : GoodBox 3 ⟨2, 2, 1⟩ ⟨8, 8, 3⟩ :=
  ⟨by unfold Below3; norm_num, by norm_num, ⟨2, by norm_num⟩, ⟨2, by norm_num⟩, ⟨1, by norm_num⟩, ⟨8, by norm_num⟩, ⟨8, by norm_num⟩, ⟨3, by norm_num⟩,
    by unfold R3.inRange; norm_num, by unfold R3.inRange; norm_num, by norm_num⟩

private theorem exLayers : EvenLayers 3 16 0 4 (1 / 4) := by
  have step : rd (((16 : ℕ) : ℝ) * (1 / 4) * rd (1 / ((16 : ℕ) : ℝ))) = 1 / 4 := by
    have := even_upto48 (n := 16) (by omega) (by omega) (b := -2) (by norm_num)
    have e : (2 : ℝ) ^ (-2 : ℤ) = 1 / 4 := by norm_num
    rwa [e] at this
  exact ⟨⟨0, by norm_num⟩, ⟨1, by norm_num⟩, by norm_num, by norm_num, by norm_num, by norm_num, step⟩

private theorem exOff (m : ℕ) : (1 : ℝ) ≠ 0 + ((m : ℝ) + 1 / 2) * (1 / 4) ∧ (3 : ℝ) ≠ 0 + ((m : ℝ) + 1 / 2) * (1 / 4) := by
  have key : ∀ j : ℕ, (j : ℝ) ≠ 0 + ((m : ℝ) + 1 / 2) * (1 / 4) := by
    intro j h
    have : ((8 * j : ℕ) : ℝ) = ((2 * m + 1 : ℕ) : ℝ) := by push_cast; linarith
    have : 8 * j = 2 * m + 1 := by exact_mod_cast this
    omega
  exact ⟨by simpa using key 1, by simpa using key 3⟩

example (S : Sorter) (A : Arrival B64) :
    ∃ layers : List (Layer B64), sliceByVectorToGcode S A (fmesh (brick ⟨0, 0, 0⟩ ⟨10, 10, 4⟩ ++ brick ⟨2, 2, 1⟩ ⟨8, 8, 3⟩)) zUp.f64v exFlags.settings =
        .ok ((Gcode.new exFlags.settings.gs).addLayers layers) ∧
      ∀ m : ℕ, m < 16 → ∀ x : R3, x.z = 0 + (m + 1 / 2) * (1 / 4) → OffOutline ⟨0, 0, 0⟩ ⟨10, 10, 4⟩ x → OffOutline ⟨2, 2, 1⟩ ⟨8, 8, 3⟩ x →
        OffThinCuts x.z (brick ⟨0, 0, 0⟩ ⟨10, 10, 4⟩ ++ brick ⟨2, 2, 1⟩ ⟨8, 8, 3⟩) x →
        (PrintedAtF layers m x ↔ InRectangle ⟨0, 0, 0⟩ ⟨10, 10, 4⟩ x ∧ ¬ (InRectangle ⟨2, 2, 1⟩ ⟨8, 8, 3⟩ x ∧ 1 < x.z ∧ x.z < 3)) := by
  exact C137_box S A 3 16 ⟨0, 0, 0⟩ ⟨10, 10, 4⟩ ⟨2, 2, 1⟩ ⟨8, 8, 3⟩ exOuter exInner (by unfold Inside3; norm_num) (1 / 4) (1 / 2) exLayers (by norm_num) (fun m _ => exOff m)
    exFlags.settings rfl rfl rfl isF_half (by norm_num) (by norm_num) (by decide) (by decide)

/-- the run of the program on the file of this box ends normally, with at least 14 layers -/
example (M : Machine B64) (fuel : ℕ) (now : String) : ∃ (hd ft : List Char) (text : String) (ds : List (List (List R3) × List (R3 × R3))),
    runGoosli M fuel (fun _ => some (saveSTL (fmesh (brick ⟨0, 0, 0⟩ ⟨10, 10, 4⟩ ++ brick ⟨2, 2, 1⟩ ⟨8, 8, 3⟩)))) (fun _ => some []) (fun _ => true) now exFlags =
      ⟨[("out.gcode", hd ++ text.toList ++ ft)], .ok ()⟩ ∧ 14 ≤ ds.length ∧ ∀ P : Printer, P.tool = 0 → printedMoves P (parseText text) = layersRun 0 ds := by
  obtain ⟨hd, ft, text, ds, i0, h1, h2, h3, h4, -, h6⟩ := C137_program M fuel (templates := fun _ => some []) (canWrite := fun _ => true) (now := now) (fl := exFlags) ⟨0, 0, 0⟩ ⟨10, 10, 4⟩ ⟨2, 2, 1⟩ ⟨8, 8, 3⟩ (1 / 4) (1 / 2)
    3 16 (read := fun _ => some (saveSTL (fmesh (brick ⟨0, 0, 0⟩ ⟨10, 10, 4⟩ ++ brick ⟨2, 2, 1⟩ ⟨8, 8, 3⟩)))) rfl rfl rfl rfl rfl rfl exOuter exInner (by unfold Inside3; norm_num)
    exLayers (by norm_num) (fun m _ => exOff m) rfl rfl rfl isF_half (by norm_num) (by norm_num) (by decide) (by decide)
  exact ⟨hd, ft, text, ds, h1, by omega, h6⟩

end Goosli
