import Verif.Proofs.BoxRay
/-!
# C110: boxes are printed as rectangles

For every box with whole coordinates, cut into even layers, the program ends normally, there are as many layers as asked for, and the
contours of each enclose the rectangle of the box.
-/
set_option autoImplicit false
namespace Goosli
open Flt R3 Spec

/-- the material of a box at a level is the rectangle -/
theorem box_material {k : ℕ} {p q : R3} (H : GoodBox k p q) {h : ℝ} (hg : Dyadic k h) (h0 : p.z < h) (h1 : h < q.z) {x : R3} (hz : x.z = h)
    (hx : OffOutline p q x) : InMaterial (lvl h) zUp (brick p q) x ↔ InRectangle p q x := by
  have hb := H.below
  have hr : |h| ≤ 1000 := by
    have a := abs_le.1 H.pr.2.2; have b := abs_le.1 H.qr.2.2
    rw [abs_le]; constructor <;> linarith
  have S : FloatSafe h (brick p q) := C109_safe (box_grid H) hg hr (fun w hw e => by
    rcases (box_vert hw).2.2 with e' | e' <;> linarith)
  have hh : R3.height (lvl h) zUp x = 0 := by rw [height_lvl]; linarith
  have hon : ∀ t ∈ brick p q, ¬ OnTri t x := by
    intro t ht ho
    rcases off_ne hx (brick_outline hb ht ho (by rw [hz]; exact h0) (by rw [hz]; exact h1)) with h | h <;> exact h rfl
  have rays := C83_any_ray (brick p q) (lvl h) zUp (by simp [zUp]) (box_watertight hb) (box_solid hb) S.small S.offPlane S.wellSep x hh hon
  have miss : ∀ (d0 d1 : R3), d0.cross2 d1 ≠ 0 → ∀ M : ℝ, 0 < M → ∃ δ, 0 < δ ∧ δ < M ∧
      ∀ w, CrossPoint (lvl h) zUp (brick p q) w → (d0 + δ • d1).cross2 (w - x) ≠ 0 := by
    intro d0 d1 hi M hM
    obtain ⟨δ, a, b, c⟩ := miss_points ((((dirEdges (brick p q)).map (crossAt (lvl h) zUp)).filter
      fun w => open Classical in decide (CrossPoint (lvl h) zUp (brick p q) w))) x d0 d1 hi (fun w hw => by
        have := (List.mem_filter.1 hw).2
        simp only [decide_eq_true_eq] at this
        exact off_ne hx (cut_outline hb h0 h1 this)) hM
    refine ⟨δ, a, b, fun w hw => c w (List.mem_filter.2 ⟨?_, by simpa using hw⟩)⟩
    obtain ⟨e, he, -, rfl⟩ := hw
    exact List.mem_map.2 ⟨e, he, rfl⟩
  constructor
  · rintro ⟨d, hd, hgd, hodd⟩
    rcases off_cases hx with h | h | h | h | h
    · exact h
    all_goals exfalso
    · obtain ⟨δ, a, -, c⟩ := miss ⟨1, 0, 0⟩ ⟨0, 1, 0⟩ (by simp [R3.cross2]) 1 one_pos
      refine none_odd (fun t ht ⟨s, hs, ho⟩ => ?_) ((rays d _ hd (by simp [R3.dot, zUp]) hgd c).1 hodd)
      have := (brick_bounds hb ht ho).2.1
      simp at this
      linarith
    · obtain ⟨δ, a, -, c⟩ := miss ⟨-1, 0, 0⟩ ⟨0, 1, 0⟩ (by simp [R3.cross2]) 1 one_pos
      refine none_odd (fun t ht ⟨s, hs, ho⟩ => ?_) ((rays d _ hd (by simp [R3.dot, zUp]) hgd c).1 hodd)
      have := (brick_bounds hb ht ho).1
      simp at this
      linarith
    · obtain ⟨δ, a, -, c⟩ := miss ⟨0, 1, 0⟩ ⟨1, 0, 0⟩ (by simp [R3.cross2]) 1 one_pos
      refine none_odd (fun t ht ⟨s, hs, ho⟩ => ?_) ((rays d _ hd (by simp [R3.dot, zUp]) hgd c).1 hodd)
      have := (brick_bounds hb ht ho).2.2.2
      simp at this
      linarith
    · obtain ⟨δ, a, -, c⟩ := miss ⟨0, -1, 0⟩ ⟨1, 0, 0⟩ (by simp [R3.cross2]) 1 one_pos
      refine none_odd (fun t ht ⟨s, hs, ho⟩ => ?_) ((rays d _ hd (by simp [R3.dot, zUp]) hgd c).1 hodd)
      have := (brick_bounds hb ht ho).2.2.1
      simp at this
      linarith
  · intro hin
    have px : 0 < q.x - x.x := sub_pos.2 hin.2.1
    have py : 0 < q.y - x.y := sub_pos.2 hin.2.2.2
    obtain ⟨δ, a, b, c⟩ := miss ⟨1, 0, 0⟩ ⟨0, 1, 0⟩ (by simp [R3.cross2]) ((q.y - x.y) / (q.x - x.x)) (div_pos py px)
    have ed : (⟨1, 0, 0⟩ : R3) + δ • (⟨0, 1, 0⟩ : R3) = ⟨1, δ, 0⟩ := by apply R3.ext <;> simp
    rw [ed] at c
    refine ⟨⟨1, δ, 0⟩, by simp [R3.dot, zUp], c, one_odd hb h0 h1 hz hin a ?_ ?_⟩
    · rw [lt_div_iff₀ px] at b; linarith
    · -- the diagonal of the right side
      intro e
      have cz : 0 < q.z - p.z := sub_pos.2 hb.2.2
      have hm : (cornerAt p q (true, false, false), cornerAt p q (true, true, true)) ∈ dirEdges (brick p q) := by
        rw [box_edges]; exact List.mem_map.2 ⟨((true, false, false), (true, true, true)), by decide, rfl⟩
      have hc : crossesAt h (cornerAt p q (true, false, false), cornerAt p q (true, true, true)) := by
        refine Or.inl ⟨?_, ?_⟩ <;> rw [height_lvl] <;> simp [cornerAt] <;> linarith
      obtain ⟨-, -, g3, g4⟩ := crossAt_lvl hc
      refine c _ ⟨_, hm, hc, rfl⟩ ?_
      simp only [cornerAt, cond_true, cond_false] at g3 g4
      simp only [R3.cross2, R3.sub_x, R3.sub_y, cornerAt, cond_true, cond_false]
      rw [g3, g4]
      have : (h - p.z) / (q.z - p.z) * (q.y - p.y) = x.y + δ * (q.x - x.x) - p.y := by
        rw [div_mul_eq_mul_div, div_eq_iff cz.ne', e]
      rw [this]
      ring

/-- **C110, contours.** Contours that are the cross-section of a box at a level on the grid (C101) enclose the rectangle: a point farther
than `1e-8` from its outline is on no contour, and it is inside an odd number of them exactly if it is inside the rectangle. -/
theorem C110_contours {k : ℕ} {p q : R3} (H : GoodBox k p q) {h : ℝ} (hg : Dyadic k h) (h0 : p.z < h) (h1 : h < q.z) {cs : List (List R3)}
    (hcs : BoundMaterialF h (brick p q) cs) {x : R3} (hz : x.z = h) (hx : OffOutline p q x) :
    (∀ c ∈ cs, ¬ OnContour x c) ∧ (InsideOdd x cs ↔ InRectangle p q x) := by
  obtain ⟨a, b⟩ := hcs.2 x hz (far_of_off H.below h0 h1 hx) (box_thin H hg h0 h1 hx)
  exact ⟨a, b.trans (box_material H hg h0 h1 hz hx)⟩

/-- the corners of the contours are on the outline, up to rounding -/
theorem C110_corners {k : ℕ} {p q : R3} (H : GoodBox k p q) {h : ℝ} (h0 : p.z < h) (h1 : h < q.z) {cs : List (List R3)}
    (hcs : BoundMaterialF h (brick p q) cs) {c : List R3} (hc : c ∈ cs) {w : R3} (hw : w ∈ c) :
    ∃ y, OnOutline p q y ∧ y.z = h ∧ |w.x - y.x| ≤ 6 / 10 ^ 9 ∧ |w.y - y.y| ≤ 6 / 10 ^ 9 := by
  obtain ⟨a, ha, rfl⟩ := (hcs.1 c hc).2.2 w hw
  obtain ⟨az, e, he, ax, ay⟩ := box_cross h0 h1 ha
  obtain ⟨-, -, n1, n2⟩ := CutAt.near H h0 h1 (e := e) ⟨az, ax, ay⟩
  exact ⟨a, cut_outline H.below h0 h1 ha, az, n1, n2⟩

/-- the middle of the box is far from its outline and inside -/
theorem box_middle {k : ℕ} {p q : R3} (H : GoodBox k p q) (h : ℝ) :
    OffOutline p q ⟨(p.x + q.x) / 2, (p.y + q.y) / 2, h⟩ ∧ InRectangle p q ⟨(p.x + q.x) / 2, (p.y + q.y) / 2, h⟩ := by
  obtain ⟨sx, sy⟩ := H.sides
  constructor
  · rintro y ⟨-, -, -, -, h⟩
    simp only [R3.distSq2]
    have sq : (1 : ℝ) / 4 ≤ (y.x - (p.x + q.x) / 2) ^ 2 ∨ (1 : ℝ) / 4 ≤ (y.y - (p.y + q.y) / 2) ^ 2 := by
      rcases h with e | e | e | e
      · left; rw [e]; nlinarith
      · left; rw [e]; nlinarith
      · right; rw [e]; nlinarith
      · right; rw [e]; nlinarith
    have a := sq_nonneg (y.x - (p.x + q.x) / 2)
    have b := sq_nonneg (y.y - (p.y + q.y) / 2)
    rcases sq with h | h <;> norm_num <;> linarith
  · have := H.below
    exact ⟨by simp; linarith [this.1], by simp; linarith [this.1], by simp; linarith [this.2.1], by simp; linarith [this.2.1]⟩

/-- a run of the program on a box: the layers and what is known of them -/
theorem box_run (M : Machine B64) (fuel : ℕ) (read : String → Option Bytes) (templates : String → Option (List Char))
    (canWrite : String → Bool) (now : String) (fl : GoosliFlags B64) (ts0 : List RTri) (o p q : R3) (t lw : ℝ) (k n : ℕ)
    (hread : Loads (read fl.stl) (fmesh ts0)) (hF : ∀ w ∈ allVerts ts0, w.isF) (hty : fl.slicingType = "3axes") (ho : o.isF)
    (horg : fl.origin = o.f64v) (hout : canWrite fl.out = true) (htop : (templates "data/header_template.txt").isSome)
    (hbot : (templates "data/footer_template.txt").isSome) (hts : ts0.map (RTri.movedF o) = brick p q)
    (H : GoodBox k p q) (E : EvenLayers k n p.z q.z t) (hn : 2 ≤ n)
    (ht : fl.layerHeight = B64.of t) (hs : fl.supportsOn = false)
    (hlw : fl.lineWidth = B64.of lw) (Flw : IsF lw) (l0 : 1 / 50 ≤ lw) (l1 : lw ≤ 10)
    (hd0 : 1 ≤ densityShare fl.fillingType fl.fillDensity) (hd1 : densityShare fl.fillingType fl.fillDensity ≤ 100) :
    ∃ (hd ft : List Char) (text : String) (sparse full : List (R3 × R3)) (ds : List (List (List R3) × List (R3 × R3))),
      runGoosli M fuel read templates canWrite now fl = ⟨[(fl.out, hd ++ text.toList ++ ft)], .ok ()⟩ ∧
      PatternF (brick p q) (stepF (densityShare fl.fillingType fl.fillDensity) lw) (patternDirs fl.fillingType) sparse ∧
      GridF (brick p q) lw ⟨1, 0, 0⟩ full ∧ ds.length = n ∧
      (∀ (i : ℕ) d, ds[i]? = some d → Dyadic k (p.z + (i + 1 / 2) * t) ∧ p.z < p.z + (i + 1 / 2) * t ∧ p.z + (i + 1 / 2) * t < q.z ∧
        BoundMaterialF (p.z + (i + 1 / 2) * t) (brick p q) d.1 ∧
        FillIsModelF (p.z + (i + 1 / 2) * t) (brick p q) d.1 (planesAtF fl.settings sparse full n i) d.2) ∧
      ∀ P : Printer, P.tool = 0 → printedMoves P (parseText text) = layersRun 0 ds := by
  have t0 := E.pos
  have mid : ∀ m : ℕ, m < n → p.z < p.z + (2 * m + 1 : ℕ) * (t / 2) ∧ p.z + (2 * m + 1 : ℕ) * (t / 2) < q.z := by
    intro m hm
    have hm' : (m : ℝ) + 1 ≤ n := by exact_mod_cast hm
    have m0 : (0 : ℝ) ≤ m := Nat.cast_nonneg m
    have := E.height
    push_cast
    constructor <;> nlinarith
  obtain ⟨hd, ft, text, sparse, full, ds, i0, h1, h2, h3, h4, h5, h6, h7, h8, h9⟩ :=
    C109_program M fuel read templates canWrite now fl ts0 (brick p q) o p.z q.z t lw 0 k n hread hF hty ho horg hout htop hbot hts
      (box_watertight H.below) (box_grid H) (box_extent H.below) E hn (fun w hw m hm e => by
        obtain ⟨a, b⟩ := mid m hm
        rcases (box_vert hw).2.2 with e' | e' <;> linarith) ht hs hlw Flw l0 l1 hd0 hd1
  have lev : ∀ m : ℕ, m < n → Dyadic k (p.z + ((m : ℝ) + 1 / 2) * t) ∧ p.z < p.z + ((m : ℝ) + 1 / 2) * t ∧ p.z + ((m : ℝ) + 1 / 2) * t < q.z := by
    intro m hm
    have e : p.z + ((m : ℝ) + 1 / 2) * t = p.z + (2 * m + 1 : ℕ) * (t / 2) := by push_cast; ring
    rw [e]
    exact ⟨E.loG.add (E.half.nat_mul _), mid m hm⟩
  -- no layer is missing
  have full_layer : ∀ m < n, ¬ (m < i0 ∨ i0 + ds.length ≤ m) := by
    intro m hm hc
    obtain ⟨g, a, b⟩ := lev m hm
    obtain ⟨c1, c2⟩ := box_middle H (p.z + ((m : ℝ) + 1 / 2) * t)
    exact h8 m hm hc _ rfl (far_of_off H.below a b c1) (box_thin H g a b c1) ((box_material H g a b rfl c1).2 c2)
  have e0 : i0 = 0 := by
    by_contra hne
    exact full_layer 0 (by omega) (Or.inl (by omega))
  subst e0
  have el : ds.length = n := by
    by_contra hne
    exact full_layer (n - 1) (by omega) (Or.inr (by omega))
  refine ⟨hd, ft, text, sparse, full, ds, h1, h2, h3, el, fun i d hi => ?_, h9⟩
  obtain ⟨f1, f2⟩ := h7 i d hi
  rw [Nat.zero_add] at f1 f2
  have hlt : i < n := by rw [← el]; exact (List.getElem?_eq_some_iff.1 hi).1
  obtain ⟨g, a, b⟩ := lev i hlt
  rw [el] at f2
  exact ⟨g, a, b, f1, f2⟩

/-- **C110, program.** A run of the program in `float64` as in C104 on a file that loads as a model which, moved by the origin, is a box with whole
coordinates that is cut into `n` even layers: it ends normally and writes one file, in which the nozzle is moved through exactly `n` layers; the
contours of layer `i` enclose the rectangle of the box. -/
theorem C110_program (M : Machine B64) (fuel : ℕ) (read : String → Option Bytes) (templates : String → Option (List Char))
    (canWrite : String → Bool) (now : String) (fl : GoosliFlags B64) (ts0 : List RTri) (o p q : R3) (t lw : ℝ) (k n : ℕ)
    (hread : Loads (read fl.stl) (fmesh ts0)) (hF : ∀ w ∈ allVerts ts0, w.isF) (hty : fl.slicingType = "3axes") (ho : o.isF)
    (horg : fl.origin = o.f64v) (hout : canWrite fl.out = true) (htop : (templates "data/header_template.txt").isSome)
    (hbot : (templates "data/footer_template.txt").isSome) (hts : ts0.map (RTri.movedF o) = brick p q)
    (H : GoodBox k p q) (E : EvenLayers k n p.z q.z t) (hn : 2 ≤ n)
    (ht : fl.layerHeight = B64.of t) (hs : fl.supportsOn = false)
    (hlw : fl.lineWidth = B64.of lw) (Flw : IsF lw) (l0 : 1 / 50 ≤ lw) (l1 : lw ≤ 10)
    (hd0 : 1 ≤ densityShare fl.fillingType fl.fillDensity) (hd1 : densityShare fl.fillingType fl.fillDensity ≤ 100) :
    ∃ (hd ft : List Char) (text : String) (sparse full : List (R3 × R3)) (ds : List (List (List R3) × List (R3 × R3))),
      runGoosli M fuel read templates canWrite now fl = ⟨[(fl.out, hd ++ text.toList ++ ft)], .ok ()⟩ ∧
      PatternF (brick p q) (stepF (densityShare fl.fillingType fl.fillDensity) lw) (patternDirs fl.fillingType) sparse ∧
      GridF (brick p q) lw ⟨1, 0, 0⟩ full ∧ ds.length = n ∧
      (∀ (i : ℕ) d, ds[i]? = some d →
        (∀ x : R3, x.z = p.z + (i + 1 / 2) * t → OffOutline p q x → (∀ c ∈ d.1, ¬ OnContour x c) ∧ (InsideOdd x d.1 ↔ InRectangle p q x)) ∧
        (∀ c ∈ d.1, c ≠ [] ∧ c.head? = c.getLast? ∧
          ∀ w ∈ c, ∃ y, OnOutline p q y ∧ y.z = p.z + (i + 1 / 2) * t ∧ |w.x - y.x| ≤ 6 / 10 ^ 9 ∧ |w.y - y.y| ≤ 6 / 10 ^ 9) ∧
        FillIsModelF (p.z + (i + 1 / 2) * t) (brick p q) d.1 (planesAtF fl.settings sparse full n i) d.2) ∧
      ∀ P : Printer, P.tool = 0 → printedMoves P (parseText text) = layersRun 0 ds := by
  obtain ⟨hd, ft, text, sparse, full, ds, h1, h2, h3, h4, h5, h6⟩ := box_run M fuel read templates canWrite now fl ts0 o p q t lw k n hread hF hty ho
    horg hout htop hbot hts H E hn ht hs hlw Flw l0 l1 hd0 hd1
  refine ⟨hd, ft, text, sparse, full, ds, h1, h2, h3, h4, fun i d hi => ?_, h6⟩
  obtain ⟨g, a, b, f1, f2⟩ := h5 i d hi
  exact ⟨fun x hz hx => C110_contours H g a b f1 hz hx, fun c hc => ⟨(f1.1 c hc).1, (f1.1 c hc).2.1, fun w hw => C110_corners H a b f1 hc hw⟩, f2⟩

/-! ## boxes from files -/

theorem box_isF {k : ℕ} {p q : R3} (H : GoodBox k p q) : ∀ w ∈ allVerts (brick p q), w.isF := fun w hw => by
  obtain ⟨gx, gy, gz⟩ := (box_grid H).grid w hw
  obtain ⟨rx, ry, rz⟩ := (box_grid H).range w hw
  exact ⟨grid_isF (by norm_num) gx rx, grid_isF (by norm_num) gy ry, grid_isF (by norm_num) gz rz⟩

/-- the file of a box that the program itself saves loads as the box: whole coordinates survive the four byte numbers -/
theorem box_loads {k : ℕ} {p q : R3} (H : GoodBox k p q) : Loads (some (saveSTL (fmesh (brick p q)))) (fmesh (brick p q)) := by
  have h := (C97_save (brick p q) (by simp [brick, boxFaces]) (box_isF H) (fun w hw => by
    have h := (box_grid H).range w hw
    have h3 : (1000 : ℝ) ≤ 2 ^ 127 := by norm_num
    exact ⟨h.1.trans h3, h.2.1.trans h3, h.2.2.trans h3⟩)).1
  have fix : ∀ x : ℝ, Dyadic 0 x → |x| ≤ 1000 → rd32 x = x := by
    rintro x ⟨m, rfl⟩ hm
    rw [pow_zero, div_one] at hm ⊢
    refine rd32_of_rep (rep32_int ?_)
    rw [← Int.cast_abs] at hm
    have : |m| ≤ 1000 := by exact_mod_cast hm
    exact this.trans (by norm_num)
  have fixw : ∀ w ∈ allVerts (brick p q), w.round32 = w := by
    intro w hw
    obtain ⟨gx, gy, gz⟩ := (box_grid H).grid w hw
    obtain ⟨rx, ry, rz⟩ := (box_grid H).range w hw
    exact R3.ext (fix _ gx rx) (fix _ gy ry) (fix _ gz rz)
  have e : (brick p q).map RTri.round32 = brick p q := by
    refine (List.map_congr_left (g := id) fun t ht => ?_).trans (List.map_id _)
    have m : ∀ w ∈ t.verts, w.round32 = w := fun w hw => fixw w (List.mem_flatMap.2 ⟨t, ht, hw⟩)
    exact RTri.ext (m _ (by simp [RTri.verts])) (m _ (by simp [RTri.verts])) (m _ (by simp [RTri.verts]))
  rw [e] at h
  exact ⟨_, rfl, h⟩

/-- flags for a vertical slice in layers of a quarter of a millimetre -/
private noncomputable def exFlags : GoosliFlags B64 :=
  ⟨"in.stl", "out.gcode", (⟨0, 0, 0⟩ : R3).f64v, (⟨0, 0, 0⟩ : R3).f64, B64.of 10, B64.of (1 / 4), B64.of 1, 20, 1, 1, 60, 200, 50, 30, 40, false,
    B64.of (1 / 2), "Squares", false, 20, B64.of 5, "planes.txt", "3axes", B64.of 30, zUp.f64v, false, B64.of 1, B64.of 2, B64.of 1, 3⟩

/-- every box of whole sides with a height of at most 12 mm is cut in four layers for every millimetre -/
example (M : Machine B64) (fuel : ℕ) (now : String) (p q : R3) (c : ℕ) (c0 : 1 ≤ c) (c1 : c ≤ 12) (hc : q.z - p.z = c) (H : GoodBox 3 p q) :
    ∃ (hd ft : List Char) (text : String) (ds : List (List (List R3) × List (R3 × R3))),
    runGoosli M fuel (fun _ => some (saveSTL (fmesh (brick p q)))) (fun _ => some []) (fun _ => true) now exFlags =
      ⟨[("out.gcode", hd ++ text.toList ++ ft)], .ok ()⟩ ∧ ds.length = 4 * c ∧
    (∀ (i : ℕ) d, ds[i]? = some d → ∀ x : R3, x.z = p.z + (i + 1 / 2) * (1 / 4) → OffOutline p q x → (InsideOdd x d.1 ↔ InRectangle p q x)) ∧
    ∀ P : Printer, P.tool = 0 → printedMoves P (parseText text) = layersRun 0 ds := by
  have em := movedF_zero (ts := brick p q) (box_isF H)
  have step : rd (((4 * c : ℕ) : ℝ) * (1 / 4) * rd (1 / ((4 * c : ℕ) : ℝ))) = 1 / 4 := by
    have := even_upto48 (n := 4 * c) (by omega) (by omega) (b := -2) (by norm_num)
    have e : (2 : ℝ) ^ (-2 : ℤ) = 1 / 4 := by norm_num
    rwa [e] at this
  have E : EvenLayers 3 (4 * c) p.z q.z (1 / 4) :=
    ⟨H.pz.mono (by norm_num), ⟨1, by norm_num⟩, by norm_num, by rw [hc]; push_cast; ring, H.pr.2.2, H.qr.2.2, step⟩
  obtain ⟨hd, ft, text, sparse, full, ds, h1, -, -, h2, h3, h4⟩ :=
    C110_program M fuel (fun _ => some (saveSTL (fmesh (brick p q)))) (fun _ => some []) (fun _ => true) now exFlags (brick p q) ⟨0, 0, 0⟩ p q (1 / 4) (1 / 2) 3 (4 * c)
      (box_loads H) (box_isF H) rfl ⟨isF_zero, isF_zero, isF_zero⟩ rfl rfl rfl rfl em H E (by omega) rfl rfl rfl isF_half (by norm_num)
      (by norm_num) (by decide) (by decide)
  exact ⟨hd, ft, text, ds, h1, h2, fun i d hi x hz hx => ((h3 i d hi).1 x hz hx).2, h4⟩

/-- such boxes exist: 40 by 30 by 12 mm -/
example : GoodBox 3 ⟨-20, 5, 0⟩ ⟨20, 35, 12⟩ where
  below := by unfold Below3; norm_num
  coarse := by norm_num
  px := ⟨-20, by norm_num⟩
  py := ⟨5, by norm_num⟩
  pz := ⟨0, by norm_num⟩
  qx := ⟨20, by norm_num⟩
  qy := ⟨35, by norm_num⟩
  qz := ⟨12, by norm_num⟩
  pr := by unfold R3.inRange; norm_num
  qr := by unfold R3.inRange; norm_num
  high := by norm_num

end Goosli
