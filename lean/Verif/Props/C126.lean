import Verif.Props.C79
import Verif.Props.C28
import Verif.Props.C54
import Verif.Props.C10
import Verif.Props.C12
import Verif.Props.C78
import Verif.Props.C94
/-!
# C126: supports stand straight under the border of the overhang
-/
set_option autoImplicit false
namespace Goosli
open Flt

/-! ## The triangles of the mushroom below -/

/-- a point of the grid of the mushroom -/
abbrev MushIx := Fin 4 × Fin 4 × Fin 3

/-- a triangle over indices -/
abbrev MushTri := MushIx × MushIx × MushIx

/-- two triangles for each pair of neighbours in two rings -/
def ringTris : List (MushIx × MushIx) → List MushTri
  | (o, q) :: (o', q') :: rest => (o, q, o') :: (q, q', o') :: ringTris ((o', q') :: rest)
  | _ => []

/-- the faces that point down: the foot and the underside of the plate around the column -/
def mushDown : List MushTri :=
  [((1, 1, 0), (2, 2, 0), (2, 1, 0)), ((1, 1, 0), (1, 2, 0), (2, 2, 0))] ++
  ringTris [((0, 0, 1), (1, 1, 1)), ((3, 0, 1), (2, 1, 1)), ((3, 3, 1), (2, 2, 1)), ((0, 3, 1), (1, 2, 1)), ((0, 0, 1), (1, 1, 1))]

/-- the walls of the column -/
def mushColumn : List MushTri :=
  ringTris [((1, 1, 1), (1, 1, 0)), ((2, 1, 1), (2, 1, 0)), ((2, 2, 1), (2, 2, 0)), ((1, 2, 1), (1, 2, 0)), ((1, 1, 1), (1, 1, 0))]

/-- the sides and the top of the plate -/
def mushPlate : List MushTri :=
  ringTris [((0, 0, 2), (0, 0, 1)), ((3, 0, 2), (3, 0, 1)), ((3, 3, 2), (3, 3, 1)), ((0, 3, 2), (0, 3, 1)), ((0, 0, 2), (0, 0, 1))] ++
  [((0, 0, 2), (3, 0, 2), (3, 3, 2)), ((0, 0, 2), (3, 3, 2), (0, 3, 2))]

/-- the directed edges over indices -/
def mushEdges (t : MushTri) : List (MushIx × MushIx) := [(t.1, t.2.1), (t.2.1, t.2.2), (t.2.2, t.1)]

/-- the sides over indices -/
def mushSides (t : MushTri) : List (MushIx × MushIx) := [(t.1, t.2.1), (t.1, t.2.2), (t.2.2, t.2.1)]

set_option maxRecDepth 20000 in
theorem mush_closed : ((mushDown ++ mushColumn ++ mushPlate).flatMap mushEdges).Nodup ∧
    ∀ e ∈ (mushDown ++ mushColumn ++ mushPlate).flatMap mushEdges, e.swap ∈ (mushDown ++ mushColumn ++ mushPlate).flatMap mushEdges := by
  decide

set_option maxRecDepth 20000 in
theorem mush_border_ix : ((mushDown.flatMap mushSides).filter fun e =>
      decide ((mushDown.flatMap mushSides).countP (fun f => decide (f = e ∨ f = e.swap)) = 1)) =
    [((1, 1, 0), (2, 1, 0)), ((2, 1, 0), (2, 2, 0)), ((1, 1, 0), (1, 2, 0)), ((2, 2, 0), (1, 2, 0)),
      ((0, 0, 1), (3, 0, 1)), ((1, 1, 1), (2, 1, 1)), ((3, 0, 1), (3, 3, 1)), ((2, 1, 1), (2, 2, 1)),
      ((3, 3, 1), (0, 3, 1)), ((2, 2, 1), (1, 2, 1)), ((0, 3, 1), (0, 0, 1)), ((1, 2, 1), (1, 1, 1))] := by
  decide


set_option maxRecDepth 20000 in
theorem mush_split_ix : ∀ t ∈ mushDown ++ mushColumn ++ mushPlate,
    (∀ i ∈ [t.1, t.2.1, t.2.2], (i.1 = 1 ∨ i.1 = 2) ∧ (i.2.1 = 1 ∨ i.2.1 = 2)) ∨ ∀ i ∈ [t.1, t.2.1, t.2.2], i.2.2 ≠ 0 := by
  decide

open Classical

/-! ## Spec -/

/-- the face points away from `d` by more than the angle `a` allows -/
def Overhanging (a : ℝ) (d : R3) (r : RTri) : Prop := r.nrm ≠ 0 ∧ Real.sin (rad a) * (r.nrm.norm * d.norm) < -(r.nrm.dot d)

/-- the sides of a triangle -/
def RTri.sides (r : RTri) : List (R3 × R3) := [(r.a, r.b), (r.a, r.c), (r.c, r.b)]

/-- the sides that belong to one triangle only -/
noncomputable def borderSides (l : List RTri) : List (R3 × R3) :=
  (l.flatMap RTri.sides).filter fun e => decide ((l.flatMap RTri.sides).countP (fun f => decide (f = e ∨ f = e.swap)) = 1)

/-- the overhanging faces, moved down by the gap -/
noncomputable def loweredOverhangs (a : ℝ) (d : R3) (gap : ℝ) (ts : List RTri) : List RTri :=
  (ts.filter fun r => decide (Overhanging a d r)).map fun r => r.map (· + (-gap) • d)

/-- the point of the bottom straight below `w` -/
noncomputable def dropTo (u : R3) (lo : ℝ) (w : R3) : R3 := w + (lo - w.dot u) • u

/-- the triangle contains the point -/
def RTri.holds (r : RTri) (x : R3) : Prop :=
  ∃ α β γ : ℝ, 0 ≤ α ∧ 0 ≤ β ∧ 0 ≤ γ ∧ α + β + γ = 1 ∧ x = α • r.a + β • r.b + γ • r.c

/-- the point is straight below the segment and not below the bottom -/
def Beneath (u : R3) (lo : ℝ) (e : R3 × R3) (x : R3) : Prop :=
  ∃ q t, R3.onSegment e.1 e.2 q ∧ 0 ≤ t ∧ t ≤ q.dot u - lo ∧ x = q - t • u

/-- the two triangles that `SliceByVector` puts below a side -/
noncomputable def legs (u : R3) (lo : ℝ) (e : R3 × R3) : List RTri :=
  [⟨dropTo u lo e.1, e.1, e.2⟩, ⟨dropTo u lo e.1, dropTo u lo e.2, e.2⟩]

/-! ## Which faces -/

theorem overhang_filter (ts : List RTri) (a : ℝ) (ha : -90 ≤ a ∧ a ≤ 90) (d : R3) (hd : d ≠ 0) :
    filterTrianglesByColor (rmesh ts) (XR.fin a) d.vec = (ts.filter fun r => decide (Overhanging a d r)).map RTri.tri := by
  have flag : ∀ r : RTri, (r.tri.n.angle d.vec.reverse <? (lit 90 0 - XR.fin a : XR)) = decide (Overhanging a d r) := by
    intro r
    by_cases hn : r.nrm = 0
    · have h1 := C28_degenerate [r] a d 0 r rfl hn
      simp only [colorizeTriangles, rmesh, List.map_cons, List.map_nil, List.getElem?_cons_zero, Option.some.injEq] at h1
      rw [h1]
      simp [Overhanging, hn]
    · obtain ⟨f, h1, _, h3⟩ := C28_meaning [r] a d hd 0 r rfl hn
      simp only [colorizeTriangles, rmesh, List.map_cons, List.map_nil, List.getElem?_cons_zero, Option.some.injEq] at h1
      rw [h1]
      have := h3 ha.1 ha.2
      cases f
      · simp only [Bool.false_eq_true, false_iff] at this
        simp only [Overhanging, hn, ne_eq, not_false_eq_true, true_and, this, decide_false]
      · simp only [true_iff] at this
        simp only [Overhanging, hn, ne_eq, not_false_eq_true, true_and, this, decide_true]
  unfold filterTrianglesByColor colorizeTriangles rmesh
  simp only
  induction ts with
  | nil => rfl
  | cons r ts ih =>
    simp only [List.map_cons, List.zip_cons_cons, List.filterMap_cons, List.filter_cons, flag] at ih ⊢
    by_cases h : Overhanging a d r
    · simp only [h, decide_true, if_true, List.map_cons, ih]
    · simp only [h, decide_false, Bool.false_eq_true, if_false, ih]

theorem lowered_eq (ts : List RTri) (a gap : ℝ) (ha : -90 ≤ a ∧ a ≤ 90) (d : R3) (hd : d ≠ 0) (sett : Settings XR)
    (h1 : sett.colorizedAngle = XR.fin a) (h2 : sett.unitVector = d.vec) (h3 : sett.supportOffset = XR.fin gap) :
    (if sett.supportOffset =? lit 0 0 then filterTrianglesByColor (rmesh ts) sett.colorizedAngle sett.unitVector
      else (filterTrianglesByColor (rmesh ts) sett.colorizedAngle sett.unitVector).map fun t =>
        t.shift (sett.unitVector.mulScalar (-sett.supportOffset))) = (loweredOverhangs a d gap ts).map RTri.tri := by
  have sh : ∀ r : RTri, r.tri.shift (d.vec.mulScalar (-XR.fin gap)) = (r.map (· + (-gap) • d)).tri := by
    intro r
    rw [XR.fin_neg, mulScalar_vec]
    show newTriangle (r.a.pt.shift _) (r.b.pt.shift _) (r.c.pt.shift _) = _
    rw [shift_pt, shift_pt, shift_pt, newTriangle_tri]
    rfl
  rw [h1, h2, h3, overhang_filter ts a ha d hd]
  unfold loweredOverhangs
  split_ifs with h
  · have hg : gap = 0 := by
      have : (XR.fin gap =? XR.fin 0) = true := by simpa using h
      rw [XR.fin_eq] at this
      simpa using this
    rw [List.map_map]
    apply List.map_congr_left
    intro r _
    subst hg
    have : ∀ w : R3, w + (-0 : ℝ) • d = w := fun w => by apply R3.ext <;> simp
    show r.tri = (RTri.mk (r.a + (-0 : ℝ) • d) (r.b + (-0 : ℝ) • d) (r.c + (-0 : ℝ) • d)).tri
    rw [this, this, this]
  · rw [List.map_map, List.map_map]
    apply List.map_congr_left
    intro r _
    exact sh r

/-! ## Which sides -/

theorem undoubled_sides (l : List RTri) :
    makeUndoubledLines (l.map RTri.tri) = (borderSides l).map fun e => (⟨e.1.pt, e.2.pt⟩ : Line XR) := by
  have nn : ∀ t ∈ l.map RTri.tri, Triangle.NoNaN t := by
    intro t ht
    obtain ⟨r, _, rfl⟩ := List.mem_map.1 ht
    refine ⟨⟨?_, ?_, ?_⟩, ⟨?_, ?_, ?_⟩, ⟨?_, ?_, ?_⟩⟩ <;> simp [RTri.tri, R3.pt]
  have tl : triangleLines (l.map RTri.tri) = (l.flatMap RTri.sides).map fun e => (⟨e.1.pt, e.2.pt⟩ : Line XR) := by
    unfold triangleLines
    rw [List.flatMap_map, List.map_flatMap]
    rfl
  unfold makeUndoubledLines
  rw [undoubled_eq _ _ (triangleLines_noNaN _ nn), List.nil_append, tl, List.filter_map]
  unfold borderSides
  congr 1
  apply List.filter_congr
  intro e _
  simp only [Function.comp]
  congr 1
  rw [List.map_map, List.count, List.countP_map]
  have : (l.flatMap RTri.sides).countP ((fun x => x == (Line.mk e.1.pt e.2.pt).edge) ∘ (Line.edge ∘ fun e => (⟨e.1.pt, e.2.pt⟩ : Line XR))) =
      (l.flatMap RTri.sides).countP (fun f => decide (f = e ∨ f = e.swap)) := by
    apply List.countP_congr
    intro f _
    simp only [Function.comp, Line.edge, beq_iff_eq, Sym2.eq_iff, decide_eq_true_eq]
    constructor
    · rintro (⟨h1, h2⟩ | ⟨h1, h2⟩)
      · exact Or.inl (Prod.ext (R3.pt_inj h1) (R3.pt_inj h2))
      · exact Or.inr (Prod.ext (R3.pt_inj h1) (R3.pt_inj h2))
    · rintro (rfl | rfl)
      · exact Or.inl ⟨rfl, rfl⟩
      · exact Or.inr ⟨rfl, rfl⟩
  rw [← this]

/-! ## Which triangles -/

theorem project_drop (u : R3) (hu : u.normSq = 1) (lo : ℝ) (w : R3) :
    (Plane.mk (u.vec.mulScalar (XR.fin lo)).toPoint u.vec).proectionPointToPlane w.pt = .ok (dropTo u lo w).pt := by
  have hne : u ≠ 0 := by rintro rfl; simp [R3.normSq, R3.dot] at hu
  rw [mulScalar_vec, toPoint_vec, proection_pt _ _ _ hne]
  have : u.dot (lo • u - w) / u.normSq = lo - w.dot u := by
    rw [hu, div_one]
    have : u.dot (lo • u - w) = lo * u.normSq - w.dot u := by simp [R3.dot, R3.normSq]; ring
    rw [this, hu, mul_one]
  rw [this]
  rfl

/-- exactly which support triangles there are -/
theorem supports_exact (S : Sorter) (ts : List RTri) (u : R3) (hu : u.normSq = 1) (lo a gap : ℝ) (ha : -90 ≤ a ∧ a ≤ 90) (d : R3) (hd : d ≠ 0)
    (sett : Settings XR) (h1 : sett.colorizedAngle = XR.fin a) (h2 : sett.unitVector = d.vec) (h3 : sett.supportOffset = XR.fin gap)
    (out : List (Triangle XR)) (h : supportTriangles S (rmesh ts) u.vec (XR.fin lo) sett = .ok out) (t : Triangle XR) :
    t ∈ out ↔ ∃ e ∈ borderSides (loweredOverhangs a d gap ts), ∃ r ∈ legs u lo e, t = r.tri ∧
      intersectTriangles r.tri (rmesh ts).triangles = none := by
  obtain ⟨under, hm, hp, ho⟩ := C79_supports S (rmesh ts) u.vec (XR.fin lo) sett out h
  rw [lowered_eq ts a gap ha d hd sett h1 h2 h3, undoubled_sides] at hm
  rw [ho]
  have fwd : ∀ q ∈ under, ∃ e ∈ borderSides (loweredOverhangs a d gap ts),
      q.2 = ⟨e.1.pt, e.2.pt⟩ ∧ q.1 = ⟨(dropTo u lo e.1).pt, (dropTo u lo e.2).pt⟩ := by
    intro q hq
    have : q.2 ∈ under.map (·.2) := List.mem_map.2 ⟨q, hq, rfl⟩
    rw [hm] at this
    obtain ⟨e, he, e2⟩ := List.mem_map.1 this
    obtain ⟨p1, p2⟩ := hp q hq
    rw [← e2, project_drop u hu] at p1 p2
    refine ⟨e, he, e2.symm, ?_⟩
    injection p1 with p1
    injection p2 with p2
    rw [p1, p2]
  have bwd : ∀ e ∈ borderSides (loweredOverhangs a d gap ts), ∃ q ∈ under,
      q.2 = ⟨e.1.pt, e.2.pt⟩ ∧ q.1 = ⟨(dropTo u lo e.1).pt, (dropTo u lo e.2).pt⟩ := by
    intro e he
    have : (⟨e.1.pt, e.2.pt⟩ : Line XR) ∈ under.map (·.2) := by rw [hm]; exact List.mem_map.2 ⟨e, he, rfl⟩
    obtain ⟨q, hq, e2⟩ := List.mem_map.1 this
    obtain ⟨p1, p2⟩ := hp q hq
    rw [e2, project_drop u hu] at p1 p2
    refine ⟨q, hq, e2, ?_⟩
    injection p1 with p1
    injection p2 with p2
    rw [p1, p2]
  constructor
  · rintro ⟨⟨q, hq, hc⟩, hn⟩
    obtain ⟨e, he, e2, e1⟩ := fwd q hq
    rw [e1, e2] at hc
    simp only [newTriangle_tri] at hc
    rcases hc with rfl | rfl
    · exact ⟨e, he, _, by simp [legs], rfl, (C79_test _ _).2 hn⟩
    · exact ⟨e, he, _, List.mem_cons_of_mem _ List.mem_cons_self, rfl, (C79_test _ _).2 hn⟩
  · rintro ⟨e, he, r, hr, rfl, hn⟩
    obtain ⟨q, hq, e2, e1⟩ := bwd e he
    refine ⟨⟨q, hq, ?_⟩, (C79_test _ _).1 hn⟩
    rw [e1, e2]
    simp only [newTriangle_tri]
    simp only [legs, List.mem_cons, List.not_mem_nil, or_false] at hr
    rcases hr with rfl | rfl
    · exact Or.inl rfl
    · exact Or.inr rfl

/-! ## The wall below a side -/

/-- together the two triangles are the wall between the side and the bottom -/
theorem legs_wall (u : R3) (lo : ℝ) (e : R3 × R3) (h1 : lo ≤ e.1.dot u) (h2 : lo ≤ e.2.dot u) (x : R3) :
    (∃ r ∈ legs u lo e, r.holds x) ↔ Beneath u lo e x := by
  obtain ⟨p, q⟩ := e
  simp only at h1 h2
  simp only [legs, List.mem_cons, List.not_mem_nil, or_false, exists_eq_or_imp, exists_eq_left]
  generalize hP : p.dot u - lo = A
  generalize hQ : q.dot u - lo = B
  have hA : 0 ≤ A := by linarith
  have hB : 0 ≤ B := by linarith
  have dp : dropTo u lo p = p - A • u := by unfold dropTo; rw [← hP]; apply R3.ext <;> simp <;> ring
  have dq : dropTo u lo q = q - B • u := by unfold dropTo; rw [← hQ]; apply R3.ext <;> simp <;> ring
  have mid : ∀ s : ℝ, (p + s • (q - p)).dot u - lo = (1 - s) * A + s * B := by
    intro s; rw [← hP, ← hQ]; simp [R3.dot]; ring
  rw [dp, dq]
  constructor
  · rintro (⟨α, β, γ, a0, b0, c0, hs, rfl⟩ | ⟨α, β, γ, a0, b0, c0, hs, rfl⟩)
    · refine ⟨p + γ • (q - p), α * A, ⟨γ, c0, by linarith, rfl⟩, mul_nonneg a0 hA, ?_, ?_⟩
      · rw [mid]; nlinarith [mul_nonneg b0 hA, mul_nonneg c0 hB]
      · have : α = 1 - β - γ := by linarith
        subst this
        apply R3.ext <;> simp <;> ring
    · refine ⟨p + (β + γ) • (q - p), α * A + β * B, ⟨β + γ, by linarith, by linarith, rfl⟩, by positivity, ?_, ?_⟩
      · rw [mid]; nlinarith [mul_nonneg c0 hB]
      · have : α = 1 - β - γ := by linarith
        subst this
        apply R3.ext <;> simp <;> ring
  · rintro ⟨w, t, ⟨s, s0, s1, rfl⟩, t0, t1, rfl⟩
    rw [mid] at t1
    rcases le_total t ((1 - s) * A) with ht | ht
    · left
      obtain ⟨α, a0, a1, ha⟩ : ∃ α, 0 ≤ α ∧ α ≤ 1 - s ∧ α * A = t := by
        rcases hA.eq_or_lt with h | h
        · exact ⟨0, le_refl _, by linarith, by rw [← h] at ht ⊢; linarith⟩
        · exact ⟨t / A, by positivity, by rw [div_le_iff₀ h]; exact ht, by field_simp⟩
      refine ⟨α, 1 - s - α, s, a0, by linarith, s0, by ring, ?_⟩
      rw [← ha]
      apply R3.ext <;> simp <;> ring
    · right
      obtain ⟨β, b0, b1, hb⟩ : ∃ β, 0 ≤ β ∧ β ≤ s ∧ β * B = t - (1 - s) * A := by
        rcases hB.eq_or_lt with h | h
        · exact ⟨0, le_refl _, s0, by rw [← h] at t1 ⊢; linarith⟩
        · exact ⟨(t - (1 - s) * A) / B, div_nonneg (by linarith) hB, by rw [div_le_iff₀ h]; linarith, by field_simp⟩
      refine ⟨1 - s, β, s - β, by linarith, b0, by linarith, by ring, ?_⟩
      have : t = (1 - s) * A + β * B := by linarith
      rw [this]
      apply R3.ext <;> simp <;> ring

/-! ## Layers -/

/-- the layers consist of the sections of the model and of the support triangles -/
theorem layer_segments (S : Sorter) (A : Arrival XR) (ts : List RTri) (hne : ts ≠ []) (d : R3) (sett : Settings XR)
    (hr : ∀ w ∈ allVerts ts, |w.dot d.unit| ≤ XR.maxF64R) (hf : SupportsFinite sett) (layers : List (Layer XR))
    (h : sliceByVector S A (some (rmesh ts)) d.vec sett = .ok layers) :
    ∃ sup, supportsOf S (rmesh ts) d.unit.vec sett = .ok sup ∧
      ∀ l ∈ layers, ∃ (z : ℝ) (segs : List (Path XR)),
        segs.Perm (sectionPaths ⟨(z • d.unit).pt, d.unit.vec⟩ (sup ++ (rmesh ts).triangles)) ∧ joinPaths3AndMinimize S segs = .ok l.paths := by
  rw [sliceByVector_real S A ts hne] at h
  cases hj : sliceJobs S (rmesh ts) d.unit.vec sett with
  | error e => rw [hj] at h; cases h
  | ok jobs =>
    rw [hj] at h
    obtain ⟨lo, hi, he⟩ := exists_extent (u := d.unit) hne hr
    obtain ⟨sup, hs, hall⟩ := sliceJobs_spec he hr hf hj
    have h : (jobs.mapM (runJob S)).bind trimEmpty = .ok layers := h
    cases hm : jobs.mapM (runJob S) with
    | error e => rw [hm] at h; cases h
    | ok full =>
      rw [hm] at h
      refine ⟨sup, hs, ?_⟩
      intro l hl
      obtain ⟨pre, post, e, _⟩ := trimEmpty_spec full layers h
      have hl' : l ∈ full := by rw [e]; simp [hl]
      obtain ⟨m, hl'⟩ := List.mem_iff_getElem?.1 hl'
      have hfa := mapM_mem _ _ _ hm
      obtain ⟨hlt, hle⟩ := List.getElem?_eq_some_iff.1 hl'
      have hlt' : m < jobs.length := by rw [hfa.length_eq]; exact hlt
      have hrun : runJob S jobs[m] = .ok l := by
        have := List.Forall₂.get hfa hlt' hlt
        simpa [hle] using this
      obtain ⟨g1, g2, g3⟩ := hall m jobs[m] (List.getElem?_eq_getElem hlt')
      unfold runJob at hrun
      cases hp : joinPaths3AndMinimize S (jobPaths jobs[m]) with
      | error e => rw [hp] at hrun; cases hrun
      | ok ps =>
        rw [hp] at hrun
        have hrun : (Except.ok _ : Go (Layer XR)) = Except.ok l := hrun
        injection hrun with hrun
        subst hrun
        exact ⟨_, jobPaths jobs[m], by rw [← g2]; exact g3, hp⟩

/-! ## The mushroom -/

/-- the triangle with the points `P` -/
def mushAt (P : MushIx → R3) (t : MushTri) : RTri := ⟨P t.1, P t.2.1, P t.2.2⟩

/-- the points of the grid -/
def mushPt (X Y : Fin 4 → ℝ) (Z : Fin 3 → ℝ) (i : MushIx) : R3 := ⟨X i.1, Y i.2.1, Z i.2.2⟩

/-- a plate on a column -/
def mushroom (X Y : Fin 4 → ℝ) (Z : Fin 3 → ℝ) : List RTri := (mushDown ++ mushColumn ++ mushPlate).map (mushAt (mushPt X Y Z))

/-- every part is at least 1 mm wide, nothing is further than 1 m away, and two walls of the column are at a multiple of `1e-8` mm -/
structure MushSizes (X Y : Fin 4 → ℝ) (Z : Fin 3 → ℝ) : Prop where
  x : ∀ i : Fin 3, X i.castSucc + 1 ≤ X i.succ
  y : ∀ i : Fin 3, Y i.castSucc + 1 ≤ Y i.succ
  z : ∀ i : Fin 2, Z i.castSucc + 1 ≤ Z i.succ
  bx : ∀ i, |X i| ≤ 1000
  bY : ∀ i, |Y i| ≤ 1000
  bz : ∀ i, |Z i| ≤ 1000
  gx : ∃ k : ℤ, X 1 = k / 10 ^ 8
  gy : ∃ k : ℤ, Y 1 = k / 10 ^ 8

section
variable {X Y : Fin 4 → ℝ} {Z : Fin 3 → ℝ}

theorem MushSizes.monoX (H : MushSizes X Y Z) : StrictMono X := Fin.strictMono_iff_lt_succ.2 fun i => by linarith [H.x i]
theorem MushSizes.monoY (H : MushSizes X Y Z) : StrictMono Y := Fin.strictMono_iff_lt_succ.2 fun i => by linarith [H.y i]
theorem MushSizes.monoZ (H : MushSizes X Y Z) : StrictMono Z := Fin.strictMono_iff_lt_succ.2 fun i => by linarith [H.z i]

theorem MushSizes.inj (H : MushSizes X Y Z) : Function.Injective (mushPt X Y Z) := by
  rintro ⟨i, j, k⟩ ⟨i', j', k'⟩ h
  simp only [mushPt, R3.mk.injEq] at h
  rw [H.monoX.injective h.1, H.monoY.injective h.2.1, H.monoZ.injective h.2.2]

theorem MushSizes.gaps (H : MushSizes X Y Z) : (X 0 + 1 ≤ X 1 ∧ X 1 + 1 ≤ X 2 ∧ X 2 + 1 ≤ X 3) ∧
    (Y 0 + 1 ≤ Y 1 ∧ Y 1 + 1 ≤ Y 2 ∧ Y 2 + 1 ≤ Y 3) ∧ Z 0 + 1 ≤ Z 1 ∧ Z 1 + 1 ≤ Z 2 :=
  ⟨⟨H.x 0, H.x 1, H.x 2⟩, ⟨H.y 0, H.y 1, H.y 2⟩, H.z 0, H.z 1⟩
end

theorem mushroom_watertight {X Y : Fin 4 → ℝ} {Z : Fin 3 → ℝ} (H : MushSizes X Y Z) : Watertight (mushroom X Y Z) := by
  have e : dirEdges (mushroom X Y Z) = ((mushDown ++ mushColumn ++ mushPlate).flatMap mushEdges).map (Prod.map (mushPt X Y Z) (mushPt X Y Z)) := by
    unfold dirEdges mushroom
    rw [List.flatMap_map, List.map_flatMap]
    rfl
  constructor
  · rw [e]
    exact mush_closed.1.map (H.inj.prodMap H.inj)
  · rw [e]
    intro f hf
    obtain ⟨g, hg, rfl⟩ := List.mem_map.1 hf
    exact List.mem_map.2 ⟨g.swap, mush_closed.2 g hg, rfl⟩

/-- the border of the faces that point down -/
theorem mush_border (P : MushIx → R3) (hP : Function.Injective P) :
    borderSides (mushDown.map (mushAt P)) = ((mushDown.flatMap mushSides).filter fun e =>
      decide ((mushDown.flatMap mushSides).countP (fun f => decide (f = e ∨ f = e.swap)) = 1)).map (Prod.map P P) := by
  have e : (mushDown.map (mushAt P)).flatMap RTri.sides = (mushDown.flatMap mushSides).map (Prod.map P P) := by
    rw [List.flatMap_map, List.map_flatMap]
    rfl
  unfold borderSides
  rw [e, List.filter_map]
  congr 1
  apply List.filter_congr
  intro f _
  simp only [Function.comp, List.countP_map]
  congr 2
  apply List.countP_congr
  intro g _
  have hPP := hP.prodMap hP
  simp only [Function.comp, decide_eq_true_eq, hPP.eq_iff]
  rw [show (Prod.map P P f).swap = Prod.map P P f.swap from rfl, hPP.eq_iff]

theorem dropTo_z (lo : ℝ) (w : R3) : dropTo zUp lo w = ⟨w.x, w.y, lo⟩ := by
  apply R3.ext <;> simp [dropTo, zUp, R3.dot]

/-- a level side that plainly crosses the plane of a wall of the model gets no support -/
theorem legs_dropped (bt : RTri) (ts : List (Triangle XR)) (hbt : bt.tri ∈ ts) (hz : bt.nrm.z = 0) (h0 : bt.nrm ≠ 0) (hk : KeepsPlane bt)
    (lo : ℝ) (e : R3 × R3) (hs1 : e.1.small) (hs2 : e.2.small) (hl : |lo| ≤ roundLimit) (hE : e.1.z = e.2.z) (hE1 : lo + 1 ≤ e.1.z)
    (s : ℝ) (s0 : 1 / 2000 ≤ s) (s1 : s ≤ 1 - 1 / 2000) (hs : bt.nrm.dot (e.1 + s • (e.2 - e.1) - bt.a) = 0)
    (t1 : tol ≤ |bt.nrm.dot (e.1 - bt.a)|) (t2 : tol ≤ |bt.nrm.dot (e.2 - bt.a)|) :
    ∀ r ∈ legs zUp lo e, intersectTriangles r.tri ts ≠ none := by
  obtain ⟨p, q⟩ := e
  simp only at *
  set f : R3 → ℝ := fun w => bt.nrm.dot (w - bt.a) with hf
  have hh : ∀ w, R3.height bt.a bt.nrm w = f w := fun w => by simp [hf, R3.height, R3.dot]; ring
  have fd : ∀ w : R3, f ⟨w.x, w.y, lo⟩ = f w := fun w => by simp [hf, R3.dot, hz]
  have fl : ∀ (a b : R3) (x : ℝ), f (a + x • (b - a)) = f a + x * (f b - f a) := fun a b x => by simp [hf, R3.dot]; ring
  have hs' : f p + s * (f q - f p) = 0 := by rw [← fl]; exact hs
  have hne : f p ≠ f q := by
    intro h
    rw [h] at hs'
    have : f q = 0 := by simpa using hs'
    change tol ≤ |f q| at t2
    rw [this, abs_zero] at t2
    exact absurd t2 (not_le.2 tol_pos)
  have small3 : ∀ w : R3, w.small → R3.small ⟨w.x, w.y, lo⟩ := fun w h => ⟨h.1, h.2.1, hl⟩
  have cross : ∀ a b : R3, f a = f p → f b = f q → crosses bt.a bt.nrm a b (a + s • (b - a)) := fun a b h1 h2 =>
    ⟨by rw [hh, hh, h1, h2]; exact hne, ⟨s, by linarith, by linarith, rfl⟩, by unfold R3.onPlane; rw [hh, fl, h1, h2]; exact hs'⟩
  have cross' : crosses bt.a bt.nrm q ⟨p.x, p.y, lo⟩ (q + (1 - s) • (⟨p.x, p.y, lo⟩ - q)) :=
    ⟨by rw [hh, hh, fd]; exact hne.symm, ⟨1 - s, by linarith, by linarith, rfl⟩, by
      unfold R3.onPlane; rw [hh, fl, fd]; linarith⟩
  intro r hr
  simp only [legs, dropTo_z, List.mem_cons, List.not_mem_nil, or_false] at hr
  rcases hr with rfl | rfl
  · refine C79_wall bt _ ts hbt hz h0 hk ⟨small3 p hs1, hs1, hs2⟩ ?_ _ _ (Or.inr (Or.inl (cross p q rfl rfl))) (Or.inr (Or.inr cross')) ?_
    · intro v hv
      simp only [RTri.verts, List.mem_cons, List.not_mem_nil, or_false] at hv
      rcases hv with rfl | rfl | rfl
      · rw [show bt.nrm.dot (⟨p.x, p.y, lo⟩ - bt.a) = bt.nrm.dot (p - bt.a) from fd p]; exact t1
      · exact t1
      · exact t2
    · right; right
      have : (p + s • (q - p)).z - (q + (1 - s) • ((⟨p.x, p.y, lo⟩ : R3) - q)).z = (1 - s) * (p.z - lo) := by
        simp only [R3.add_z, R3.smul_z, R3.sub_z]; rw [← hE]; ring
      rw [this, abs_of_nonneg (by nlinarith)]
      nlinarith
  · refine C79_wall bt _ ts hbt hz h0 hk ⟨small3 p hs1, small3 q hs2, hs2⟩ ?_ _ _ (Or.inl (cross ⟨p.x, p.y, lo⟩ ⟨q.x, q.y, lo⟩ (fd p) (fd q)))
      (Or.inr (Or.inr cross')) ?_
    · intro v hv
      simp only [RTri.verts, List.mem_cons, List.not_mem_nil, or_false] at hv
      rcases hv with rfl | rfl | rfl
      · rw [show bt.nrm.dot (⟨p.x, p.y, lo⟩ - bt.a) = bt.nrm.dot (p - bt.a) from fd p]; exact t1
      · rw [show bt.nrm.dot (⟨q.x, q.y, lo⟩ - bt.a) = bt.nrm.dot (q - bt.a) from fd q]; exact t2
      · exact t2
    · right; right
      have : ((⟨p.x, p.y, lo⟩ : R3) + s • ((⟨q.x, q.y, lo⟩ : R3) - ⟨p.x, p.y, lo⟩)).z - (q + (1 - s) • ((⟨p.x, p.y, lo⟩ : R3) - q)).z =
          -(s * (p.z - lo)) := by
        simp only [R3.add_z, R3.smul_z, R3.sub_z]; rw [← hE]; ring
      rw [this, abs_neg, abs_of_nonneg (by nlinarith)]
      nlinarith

section
variable {X Y : Fin 4 → ℝ} {Z : Fin 3 → ℝ}

/-- which faces of the mushroom hang over -/
theorem mush_overhangs (H : MushSizes X Y Z) (a : ℝ) (ha : 0 ≤ a ∧ a < 90) :
    (∀ t ∈ mushDown, Overhanging a zUp (mushAt (mushPt X Y Z) t)) ∧
    ∀ t ∈ mushColumn ++ mushPlate, ¬ Overhanging a zUp (mushAt (mushPt X Y Z) t) := by
  obtain ⟨⟨x1, x2, x3⟩, ⟨y1, y2, y3⟩, z1, z2⟩ := H.gaps
  have pi := Real.pi_pos
  have s0 : 0 ≤ Real.sin (rad a) := Real.sin_nonneg_of_nonneg_of_le_pi (by unfold rad; have := ha.1; positivity) (by unfold rad; nlinarith [ha.2])
  have s1 : Real.sin (rad a) < 1 := by
    have : Real.sin (rad a) < Real.sin (Real.pi / 2) :=
      Real.sin_lt_sin_of_lt_of_le_pi_div_two (by unfold rad; have := ha.1; have : 0 ≤ Real.pi * a / 180 := by positivity
                                                 linarith) le_rfl (by unfold rad; nlinarith [ha.2])
    rwa [Real.sin_pi_div_two] at this
  have up : zUp.norm = 1 := by simp [R3.norm, R3.normSq, R3.dot, zUp]
  have yes : ∀ r : RTri, r.nrm.x = 0 → r.nrm.y = 0 → r.nrm.z < 0 → Overhanging a zUp r := by
    intro r hx hy hz
    have hn : r.nrm.norm = -r.nrm.z := by
      unfold R3.norm R3.normSq R3.dot
      rw [hx, hy, show (0 : ℝ) * 0 + 0 * 0 + r.nrm.z * r.nrm.z = (-r.nrm.z) ^ 2 by ring]
      exact Real.sqrt_sq (by linarith)
    refine ⟨fun h => by rw [h] at hz; simp at hz, ?_⟩
    rw [up, hn]
    simp only [R3.dot, zUp, hx, hy]
    nlinarith
  have no : ∀ r : RTri, 0 ≤ r.nrm.z → ¬ Overhanging a zUp r := by
    rintro r hz ⟨_, h⟩
    have h1 : 0 ≤ Real.sin (rad a) * (r.nrm.norm * zUp.norm) := mul_nonneg s0 (mul_nonneg (Real.sqrt_nonneg _) (Real.sqrt_nonneg _))
    have h2 : r.nrm.dot zUp = r.nrm.z := by simp [R3.dot, zUp]
    rw [h2] at h
    linarith
  constructor
  · intro t ht
    simp only [mushDown, ringTris, List.cons_append, List.nil_append, List.mem_cons, List.not_mem_nil, or_false] at ht
    apply yes
    all_goals
      rcases ht with rfl | rfl | rfl | rfl | rfl | rfl | rfl | rfl | rfl | rfl <;>
      simp [mushAt, mushPt, RTri.nrm, R3.cross] <;> nlinarith
  · intro t ht
    simp only [mushColumn, mushPlate, ringTris, List.cons_append, List.nil_append, List.append_assoc, List.mem_append, List.mem_cons, List.not_mem_nil, or_false] at ht
    apply no
    rcases ht with rfl | rfl | rfl | rfl | rfl | rfl | rfl | rfl | rfl | rfl | rfl | rfl | rfl | rfl | rfl | rfl | rfl | rfl <;>
      simp [mushAt, mushPt, RTri.nrm, R3.cross] <;> nlinarith

theorem between_ratio {u v c : ℝ} (h : (u + 1 ≤ c ∧ c + 1 ≤ v) ∨ (v + 1 ≤ c ∧ c + 1 ≤ u)) (hu : |u| ≤ 1000) (hv : |v| ≤ 1000) :
    ∃ s : ℝ, 1 / 2000 ≤ s ∧ s ≤ 1 - 1 / 2000 ∧ u + s * (v - u) = c := by
  obtain ⟨u1, u2⟩ := abs_le.1 hu
  obtain ⟨v1, v2⟩ := abs_le.1 hv
  rcases h with ⟨h1, h2⟩ | ⟨h1, h2⟩
  · have hp : 0 < v - u := by linarith
    refine ⟨(c - u) / (v - u), by rw [le_div_iff₀ hp]; linarith, by rw [div_le_iff₀ hp]; linarith, by field_simp; ring⟩
  · have hp : 0 < u - v := by linarith
    have hq : v - u ≠ 0 := by linarith
    refine ⟨(u - c) / (u - v), by rw [le_div_iff₀ hp]; linarith, by rw [div_le_iff₀ hp]; linarith, ?_⟩
    have : v - u = -(u - v) := by ring
    rw [this]
    field_simp
    ring

theorem small_of_thousand {w : R3} (hx : |w.x| ≤ 1000) (hy : |w.y| ≤ 1000) (hz : |w.z| ≤ 3000) : w.small := by
  have : (3000 : ℝ) ≤ roundLimit := by unfold roundLimit; norm_num
  exact ⟨by linarith, by linarith, by linarith⟩

/-- a side of the plate gets no support: the walls of the column are parallel to the other sides -/
theorem plate_side_dropped (H : MushSizes X Y Z) (e : R3 × R3) (hE : e.1.z = e.2.z) (hE1 : Z 0 + 1 ≤ e.1.z) (hE2 : |e.1.z| ≤ 3000)
    (hx : |e.1.x| ≤ 1000 ∧ |e.2.x| ≤ 1000) (hy : |e.1.y| ≤ 1000 ∧ |e.2.y| ≤ 1000)
    (h : ((e.1.x + 1 ≤ X 1 ∧ X 1 + 1 ≤ e.2.x) ∨ (e.2.x + 1 ≤ X 1 ∧ X 1 + 1 ≤ e.1.x)) ∨
      ((e.1.y + 1 ≤ Y 1 ∧ Y 1 + 1 ≤ e.2.y) ∨ (e.2.y + 1 ≤ Y 1 ∧ Y 1 + 1 ≤ e.1.y))) :
    ∀ r ∈ legs zUp (Z 0) e, intersectTriangles r.tri (rmesh (mushroom X Y Z)).triangles ≠ none := by
  obtain ⟨⟨x1, x2, x3⟩, ⟨y1, y2, y3⟩, z1, z2⟩ := H.gaps
  have inM : ∀ t ∈ mushColumn, (mushAt (mushPt X Y Z) t).tri ∈ (rmesh (mushroom X Y Z)).triangles := fun t ht =>
    List.mem_map.2 ⟨_, List.mem_map.2 ⟨t, by simp [ht], rfl⟩, rfl⟩
  have lo : |Z 0| ≤ roundLimit := (H.bz 0).trans (by unfold roundLimit; norm_num)
  have sm1 : e.1.small := small_of_thousand hx.1 hy.1 hE2
  have sm2 : e.2.small := small_of_thousand hx.2 hy.2 (by rw [← hE]; exact hE2)
  have far : ∀ n x c : ℝ, 1 ≤ |n| → (x + 1 ≤ c ∨ c + 1 ≤ x) → tol ≤ |n * (x - c)| := by
    intro n x c hn hc
    have h1 : 1 ≤ |x - c| := by
      rcases hc with h | h
      · rw [abs_of_nonpos (by linarith)]; linarith
      · rw [abs_of_nonneg (by linarith)]; linarith
    have : tol ≤ 1 := by unfold tol; norm_num
    rw [abs_mul]
    nlinarith
  rcases h with h | h
  · obtain ⟨s, s0, s1, hs⟩ := between_ratio h hx.1 hx.2
    set bt := mushAt (mushPt X Y Z) ((1, 2, 1), (1, 2, 0), (1, 1, 1)) with hbt
    have nx : bt.nrm.x = -((Z 0 - Z 1) * (Y 1 - Y 2)) := by simp [hbt, mushAt, mushPt, RTri.nrm, R3.cross]
    have ny : bt.nrm.y = 0 := by simp [hbt, mushAt, mushPt, RTri.nrm, R3.cross]
    have nz : bt.nrm.z = 0 := by simp [hbt, mushAt, mushPt, RTri.nrm, R3.cross]
    have ax : bt.a.x = X 1 := rfl
    have n1 : 1 ≤ |bt.nrm.x| := by
      rw [nx, abs_neg, show (Z 0 - Z 1) * (Y 1 - Y 2) = (Z 1 - Z 0) * (Y 2 - Y 1) by ring, abs_of_nonneg (by nlinarith)]; nlinarith
    have dot : ∀ w : R3, bt.nrm.dot (w - bt.a) = bt.nrm.x * (w.x - X 1) := fun w => by simp [R3.dot, ny, nz, ax]
    refine legs_dropped bt _ (inM _ (by decide)) nz (fun h => by rw [h] at n1; norm_num at n1) (keepsPlane_axis bt (Or.inl ⟨ny, nz, by rw [ax]; exact H.gx⟩))
      (Z 0) e sm1 sm2 lo hE hE1 s s0 s1 ?_ ?_ ?_
    · rw [dot]; simp only [R3.add_x, R3.smul_x, R3.sub_x]; rw [hs]; ring
    · rw [dot]; exact far _ _ _ n1 (by rcases h with h | h; exacts [Or.inl h.1, Or.inr h.2])
    · rw [dot]; exact far _ _ _ n1 (by rcases h with h | h; exacts [Or.inr h.2, Or.inl h.1])
  · obtain ⟨s, s0, s1, hs⟩ := between_ratio h hy.1 hy.2
    set bt := mushAt (mushPt X Y Z) ((1, 1, 1), (1, 1, 0), (2, 1, 1)) with hbt
    have nx : bt.nrm.x = 0 := by simp [hbt, mushAt, mushPt, RTri.nrm, R3.cross]
    have ny : bt.nrm.y = (Z 0 - Z 1) * (X 2 - X 1) := by simp [hbt, mushAt, mushPt, RTri.nrm, R3.cross]
    have nz : bt.nrm.z = 0 := by simp [hbt, mushAt, mushPt, RTri.nrm, R3.cross]
    have ay : bt.a.y = Y 1 := rfl
    have n1 : 1 ≤ |bt.nrm.y| := by
      rw [ny, abs_of_nonpos (by nlinarith)]; nlinarith
    have dot : ∀ w : R3, bt.nrm.dot (w - bt.a) = bt.nrm.y * (w.y - Y 1) := fun w => by simp [R3.dot, nx, nz, ay]
    refine legs_dropped bt _ (inM _ (by decide)) nz (fun h => by rw [h] at n1; norm_num at n1) (keepsPlane_axis bt (Or.inr ⟨nx, nz, by rw [ay]; exact H.gy⟩))
      (Z 0) e sm1 sm2 lo hE hE1 s s0 s1 ?_ ?_ ?_
    · rw [dot]; simp only [R3.add_y, R3.smul_y, R3.sub_y]; rw [hs]; ring
    · rw [dot]; exact far _ _ _ n1 (by rcases h with h | h; exacts [Or.inl h.1, Or.inr h.2])
    · rw [dot]; exact far _ _ _ n1 (by rcases h with h | h; exacts [Or.inr h.2, Or.inl h.1])

/-- the points of the lowered underside -/
noncomputable def mushLow (X Y : Fin 4 → ℝ) (Z : Fin 3 → ℝ) (gap : ℝ) (i : MushIx) : R3 := mushPt X Y Z i + (-gap) • zUp

theorem mush_lowered (H : MushSizes X Y Z) (a : ℝ) (ha : 0 ≤ a ∧ a < 90) (gap : ℝ) :
    borderSides (loweredOverhangs a zUp gap (mushroom X Y Z)) =
      [((1, 1, 0), (2, 1, 0)), ((2, 1, 0), (2, 2, 0)), ((1, 1, 0), (1, 2, 0)), ((2, 2, 0), (1, 2, 0)),
      ((0, 0, 1), (3, 0, 1)), ((1, 1, 1), (2, 1, 1)), ((3, 0, 1), (3, 3, 1)), ((2, 1, 1), (2, 2, 1)),
      ((3, 3, 1), (0, 3, 1)), ((2, 2, 1), (1, 2, 1)), ((0, 3, 1), (0, 0, 1)), ((1, 2, 1), (1, 1, 1))].map
        (Prod.map (mushLow X Y Z gap) (mushLow X Y Z gap)) := by
  obtain ⟨o1, o2⟩ := mush_overhangs H a ha
  have e : loweredOverhangs a zUp gap (mushroom X Y Z) = mushDown.map (mushAt (mushLow X Y Z gap)) := by
    unfold loweredOverhangs mushroom
    rw [List.append_assoc, List.map_append, List.filter_append, List.filter_eq_self.2, List.filter_eq_nil_iff.2, List.append_nil, List.map_map]
    · rfl
    · intro r hr
      obtain ⟨t, ht, rfl⟩ := List.mem_map.1 hr
      simpa using o2 t ht
    · intro r hr
      obtain ⟨t, ht, rfl⟩ := List.mem_map.1 hr
      simpa using o1 t ht
  have inj : Function.Injective (mushLow X Y Z gap) := by
    intro i j h
    apply H.inj
    have hx := congrArg R3.x h
    have hy := congrArg R3.y h
    have hz := congrArg R3.z h
    simp [mushLow] at hx hy hz
    exact R3.ext hx hy hz
  rw [e, mush_border _ inj, mush_border_ix]

/-- above the column, in plan -/
def overColumn (X Y : Fin 4 → ℝ) (eps : ℝ) (w : R3) : Prop := X 1 - eps ≤ w.x ∧ w.x ≤ X 2 + eps ∧ Y 1 - eps ≤ w.y ∧ w.y ≤ Y 2 + eps

/-- every triangle of the model is in the column or not below the plate -/
theorem mush_split (H : MushSizes X Y Z) (r : RTri) (hr : r ∈ mushroom X Y Z) :
    r.small ∧ ((∀ w ∈ r.verts, overColumn X Y 0 w) ∨ ∀ w ∈ r.verts, Z 1 ≤ w.z) := by
  obtain ⟨⟨x1, x2, x3⟩, ⟨y1, y2, y3⟩, z1, z2⟩ := H.gaps
  obtain ⟨t, ht, rfl⟩ := List.mem_map.1 hr
  have sm : ∀ i, (mushPt X Y Z i).small := fun i => small_of_thousand (H.bx _) (H.bY _) ((H.bz _).trans (by norm_num))
  refine ⟨⟨sm _, sm _, sm _⟩, ?_⟩
  have key : ∀ t ∈ mushDown ++ mushColumn ++ mushPlate,
      (∀ i ∈ [t.1, t.2.1, t.2.2], (i.1 = 1 ∨ i.1 = 2) ∧ (i.2.1 = 1 ∨ i.2.1 = 2)) ∨ ∀ i ∈ [t.1, t.2.1, t.2.2], i.2.2 ≠ 0 := by
    clear ht hr t
    exact mush_split_ix
  have e : (mushAt (mushPt X Y Z) t).verts = [t.1, t.2.1, t.2.2].map (mushPt X Y Z) := rfl
  rw [e]
  rcases key t ht with h | h
  · left
    intro w hw
    obtain ⟨i, hi, rfl⟩ := List.mem_map.1 hw
    obtain ⟨h1, h2⟩ := h i hi
    refine ⟨?_, ?_, ?_, ?_⟩ <;> simp only [mushPt]
    · rcases h1 with h1 | h1 <;> rw [h1] <;> linarith
    · rcases h1 with h1 | h1 <;> rw [h1] <;> linarith
    · rcases h2 with h1 | h1 <;> rw [h1] <;> linarith
    · rcases h2 with h1 | h1 <;> rw [h1] <;> linarith
  · right
    intro w hw
    obtain ⟨i, hi, rfl⟩ := List.mem_map.1 hw
    have h1 : (1 : Fin 3) ≤ i.2.2 := by have := h i hi; omega
    exact H.monoZ.monotone h1

/-- the support triangles of the mushroom stay in the column -/
theorem mush_supports (S : Sorter) (H : MushSizes X Y Z) (a gap : ℝ) (ha : 0 ≤ a ∧ a < 90) (g0 : 0 ≤ gap) (g1 : gap ≤ Z 1 - Z 0 - 1)
    (sett : Settings XR) (h1 : sett.colorizedAngle = XR.fin a) (h2 : sett.unitVector = zUp.vec) (h3 : sett.supportOffset = XR.fin gap)
    (out : List (Triangle XR)) (h : supportTriangles S (rmesh (mushroom X Y Z)) zUp.vec (XR.fin (Z 0)) sett = .ok out) :
    ∀ t ∈ out, ∃ r : RTri, t = r.tri ∧ r.small ∧ ∀ w ∈ r.verts, overColumn X Y 0 w := by
  intro t ht
  have up1 : zUp.normSq = 1 := by simp [R3.normSq, R3.dot, zUp]
  have up0 : zUp ≠ 0 := by intro h; rw [h] at up1; simp [R3.normSq, R3.dot] at up1
  obtain ⟨⟨x1, x2, x3⟩, ⟨y1, y2, y3⟩, z1, z2⟩ := H.gaps
  obtain ⟨e, he, r, hr, rfl, hn⟩ := (supports_exact S _ zUp up1 (Z 0) a gap ⟨by linarith [ha.1], by linarith [ha.2]⟩ zUp up0 sett h1 h2 h3 out h t).1 ht
  rw [mush_lowered H a ha] at he
  obtain ⟨⟨i, j⟩, hij, rfl⟩ := List.mem_map.1 he
  have lx : ∀ i, (mushLow X Y Z gap i).x = X i.1 := fun i => by simp [mushLow, mushPt, zUp]
  have ly : ∀ i, (mushLow X Y Z gap i).y = Y i.2.1 := fun i => by simp [mushLow, mushPt, zUp]
  have lz : ∀ i, (mushLow X Y Z gap i).z = Z i.2.2 - gap := fun i => by simp [mushLow, mushPt, zUp]; ring
  have zb : ∀ k, |Z k - gap| ≤ 3000 := fun k => by
    obtain ⟨a1, a2⟩ := abs_le.1 (H.bz k)
    obtain ⟨b1, b2⟩ := abs_le.1 (H.bz 0)
    obtain ⟨c1, c2⟩ := abs_le.1 (H.bz 1)
    exact abs_le.2 ⟨by linarith, by linarith⟩
  have inside : (∀ m ∈ [i, j], (m.1 = 1 ∨ m.1 = 2) ∧ (m.2.1 = 1 ∨ m.2.1 = 2)) → r.small ∧ ∀ w ∈ r.verts, overColumn X Y 0 w := by
    intro hm
    have hw : ∀ w ∈ r.verts, w.small ∧ overColumn X Y 0 w := by
      intro w hw
      have : ∃ m ∈ [i, j], w.x = X m.1 ∧ w.y = Y m.2.1 ∧ |w.z| ≤ 3000 := by
        have z0 : |Z 0| ≤ 3000 := (H.bz 0).trans (by norm_num)
        simp only [legs, dropTo_z, List.mem_cons, List.not_mem_nil, or_false, Prod.map] at hr
        rcases hr with rfl | rfl <;> simp only [RTri.verts, List.mem_cons, List.not_mem_nil, or_false] at hw <;> rcases hw with rfl | rfl | rfl
        · exact ⟨i, by simp, lx i, ly i, z0⟩
        · exact ⟨i, by simp, lx i, ly i, by rw [lz]; exact zb _⟩
        · exact ⟨j, by simp, lx j, ly j, by rw [lz]; exact zb _⟩
        · exact ⟨i, by simp, lx i, ly i, z0⟩
        · exact ⟨j, by simp, lx j, ly j, z0⟩
        · exact ⟨j, by simp, lx j, ly j, by rw [lz]; exact zb _⟩
      obtain ⟨m, hm', e1, e2, e3⟩ := this
      refine ⟨small_of_thousand (by rw [e1]; exact H.bx _) (by rw [e2]; exact H.bY _) e3, ?_⟩
      obtain ⟨c1, c2⟩ := hm m hm'
      unfold overColumn
      rw [e1, e2]
      refine ⟨?_, ?_, ?_, ?_⟩
      · rcases c1 with c | c <;> rw [c] <;> linarith
      · rcases c1 with c | c <;> rw [c] <;> linarith
      · rcases c2 with c | c <;> rw [c] <;> linarith
      · rcases c2 with c | c <;> rw [c] <;> linarith
    exact ⟨⟨(hw _ (by simp [RTri.verts])).1, (hw _ (by simp [RTri.verts])).1, (hw _ (by simp [RTri.verts])).1⟩, fun w h => (hw w h).2⟩
  have outer : i.2.2 = 1 → j.2.2 = 1 → ((i.1 = 0 ∧ j.1 = 3) ∨ (j.1 = 0 ∧ i.1 = 3)) ∨ ((i.2.1 = 0 ∧ j.2.1 = 3) ∨ (j.2.1 = 0 ∧ i.2.1 = 3)) → False := by
    intro k1 k2 hc
    refine plate_side_dropped H (Prod.map (mushLow X Y Z gap) (mushLow X Y Z gap) (i, j)) ?_ ?_ ?_ ?_ ?_ ?_ r hr hn
    · simp only [Prod.map, lz, k1, k2]
    · simp only [Prod.map, lz, k1]; linarith
    · simp only [Prod.map, lz]; exact zb _
    · simp only [Prod.map, lx]; exact ⟨H.bx _, H.bx _⟩
    · simp only [Prod.map, ly]; exact ⟨H.bY _, H.bY _⟩
    · simp only [Prod.map, lx, ly]
      rcases hc with (⟨c1, c2⟩ | ⟨c1, c2⟩) | (⟨c1, c2⟩ | ⟨c1, c2⟩) <;> rw [c1, c2]
      · exact Or.inl (Or.inl ⟨x1, by linarith⟩)
      · exact Or.inl (Or.inr ⟨x1, by linarith⟩)
      · exact Or.inr (Or.inl ⟨y1, by linarith⟩)
      · exact Or.inr (Or.inr ⟨y1, by linarith⟩)
  refine ⟨r, rfl, ?_⟩
  simp only [List.mem_cons, List.not_mem_nil, or_false, Prod.mk.injEq] at hij
  rcases hij with ⟨rfl, rfl⟩ | ⟨rfl, rfl⟩ | ⟨rfl, rfl⟩ | ⟨rfl, rfl⟩ | ⟨rfl, rfl⟩ | ⟨rfl, rfl⟩ | ⟨rfl, rfl⟩ | ⟨rfl, rfl⟩ | ⟨rfl, rfl⟩ | ⟨rfl, rfl⟩ |
    ⟨rfl, rfl⟩ | ⟨rfl, rfl⟩
  all_goals first
    | exact inside (by decide)
    | exact (outer rfl rfl (by decide)).elim

end

/-! ## The theorems -/

theorem tri_inj {r s : RTri} (h : r.tri = s.tri) : r = s := by
  have h1 := congrArg Triangle.p1 h
  have h2 := congrArg Triangle.p2 h
  have h3 := congrArg Triangle.p3 h
  obtain ⟨a, b, c⟩ := r
  obtain ⟨a', b', c'⟩ := s
  simp only [RTri.tri] at h1 h2 h3
  rw [R3.pt_inj h1, R3.pt_inj h2, R3.pt_inj h3]

/-- **C126 (which supports there are).** With supports on, the layers are the sections of the model and of further triangles `sup`:
below every border side of the overhanging faces (lowered by the support offset) the two triangles down to the bottom of the model,
straight along the slicing direction; of these, those that the test `IntersectTriangles` finds free of the model. If it finds both
free, the whole wall between the side and the bottom is there.
Missing from the full claim: that the wall is there below every border side that can be reached from the bottom without meeting the model. -/
theorem C126_supports_partial (S : Sorter) (A : Arrival XR) (ts : List RTri) (hne : ts ≠ []) (d : R3) (hd : d ≠ 0) (lo hi : ℝ)
    (hx : Extent ts d.unit lo hi) (hr : ∀ w ∈ allVerts ts, |w.dot d.unit| ≤ XR.maxF64R)
    (a gap : ℝ) (ha : -90 ≤ a ∧ a ≤ 90) (v : R3) (hv : v ≠ 0) (sett : Settings XR) (h0 : sett.supportsOn = true)
    (h1 : sett.colorizedAngle = XR.fin a) (h2 : sett.unitVector = v.vec) (h3 : sett.supportOffset = XR.fin gap)
    (layers : List (Layer XR)) (h : sliceByVector S A (some (rmesh ts)) d.vec sett = .ok layers) :
    ∃ sup : List RTri,
      (∀ r, r ∈ sup ↔ ∃ e ∈ borderSides (loweredOverhangs a v gap ts), r ∈ legs d.unit lo e ∧ intersectTriangles r.tri (rmesh ts).triangles = none) ∧
      (∀ e ∈ borderSides (loweredOverhangs a v gap ts), lo ≤ e.1.dot d.unit → lo ≤ e.2.dot d.unit →
        (∀ r ∈ legs d.unit lo e, ∀ x, r.holds x → Beneath d.unit lo e x) ∧
        ((∀ r ∈ legs d.unit lo e, intersectTriangles r.tri (rmesh ts).triangles = none) → ∀ x, Beneath d.unit lo e x → ∃ r ∈ sup, r.holds x)) ∧
      ∀ l ∈ layers, ∃ (z : ℝ) (segs : List (Path XR)),
        segs.Perm (sectionPaths ⟨(z • d.unit).pt, d.unit.vec⟩ (rmesh (sup ++ ts)).triangles) ∧ joinPaths3AndMinimize S segs = .ok l.paths := by
  obtain ⟨out, ho, hl⟩ := layer_segments S A ts hne d sett hr (fun _ => ⟨v, gap, h2, h3⟩) layers h
  have u1 : d.unit.normSq = 1 := R3.unit_ne hd
  have ho' : supportTriangles S (rmesh ts) d.unit.vec (XR.fin lo) sett = .ok out := by
    unfold supportsOf at ho
    rw [if_pos h0, minMaxZ_extent hx hr] at ho
    exact ho
  have ex := supports_exact S ts d.unit u1 lo a gap ha v hv sett h1 h2 h3 out ho'
  obtain ⟨sup, rfl⟩ : ∃ sup : List RTri, sup.map RTri.tri = out := by
    have : ∀ t ∈ out, ∃ r : RTri, r.tri = t := fun t ht => by
      obtain ⟨_, _, r, _, e, _⟩ := (ex t).1 ht
      exact ⟨r, e.symm⟩
    have : out ∈ Set.range (List.map RTri.tri) := by
      rw [Set.range_list_map]
      exact this
    exact this
  have ex' : ∀ r, r ∈ sup ↔ ∃ e ∈ borderSides (loweredOverhangs a v gap ts), r ∈ legs d.unit lo e ∧
      intersectTriangles r.tri (rmesh ts).triangles = none := by
    intro r
    constructor
    · intro hr'
      obtain ⟨e, he, r', hr2, e2, hn⟩ := (ex r.tri).1 (List.mem_map.2 ⟨r, hr', rfl⟩)
      rw [tri_inj e2]
      exact ⟨e, he, hr2, hn⟩
    · rintro ⟨e, he, hr2, hn⟩
      obtain ⟨r', h1, h2⟩ := List.mem_map.1 ((ex r.tri).2 ⟨e, he, r, hr2, rfl, hn⟩)
      rwa [← tri_inj h2]
  refine ⟨sup, ex', ?_, ?_⟩
  · intro e he e1 e2
    refine ⟨fun r hr x hx => (legs_wall d.unit lo e e1 e2 x).1 ⟨r, hr, hx⟩, fun hf x hx => ?_⟩
    obtain ⟨r, hr, hx⟩ := (legs_wall d.unit lo e e1 e2 x).2 hx
    exact ⟨r, (ex' r).2 ⟨e, he, hr, hf r hr⟩, hx⟩
  · intro l hl'
    obtain ⟨z, segs, hp, hj⟩ := hl l hl'
    refine ⟨z, segs, ?_, hj⟩
    rw [show (rmesh (sup ++ ts)).triangles = sup.map RTri.tri ++ (rmesh ts).triangles by simp [rmesh]]
    exact hp

/-- a triangle that keeps to one side of every face of the model is free -/
theorem free_of_sides (r : RTri) (ts : List RTri)
    (h : ∀ bt ∈ ts, (∀ w ∈ r.verts, 0 < bt.nrm.dot (w - bt.a)) ∨ ∀ w ∈ r.verts, bt.nrm.dot (w - bt.a) < 0) :
    intersectTriangles r.tri (rmesh ts).triangles = none := by
  rw [C79_test]
  intro t ht
  obtain ⟨bt, hbt, rfl⟩ := List.mem_map.1 ht
  right
  have : (Plane.mk bt.a.pt bt.nrm.vec).intersectTriangle r.tri = none := by
    apply intersectTriangle_none
    have e : ∀ w : R3, bt.nrm.dot (w - bt.a) = w.dot bt.nrm - bt.a.dot bt.nrm := fun w => by simp [R3.dot]; ring
    rcases h bt hbt with h | h
    · left
      simp only [e] at h
      have := h r.a (by simp [RTri.verts]); have := h r.b (by simp [RTri.verts]); have := h r.c (by simp [RTri.verts])
      simp only [RTri.lo, lt_min_iff]
      refine ⟨?_, ?_⟩ <;> (try refine ⟨?_, ?_⟩) <;> linarith
    · right
      simp only [e] at h
      have := h r.a (by simp [RTri.verts]); have := h r.b (by simp [RTri.verts]); have := h r.c (by simp [RTri.verts])
      simp only [RTri.hi, max_lt_iff]
      refine ⟨?_, ?_⟩ <;> (try refine ⟨?_, ?_⟩) <;> linarith
  unfold Triangle.intersectTriangle
  rw [show (Plane.mk bt.tri.p1 bt.tri.n) = Plane.mk bt.a.pt bt.nrm.vec from rfl, this]

/-- **C126 (violated).** A plate on a column, in every size: the underside of the plate hangs over and its four sides belong to the
border, yet with supports on `SliceByVector` prints nothing between the bed and the plate except the column: each
side of the plate crosses the (unbounded) plane of a wall of the column, and so its supports count as meeting the model. -/
theorem C126_violated (S : Sorter) (A : Arrival XR) (X Y : Fin 4 → ℝ) (Z : Fin 3 → ℝ) (H : MushSizes X Y Z) (sett : Settings XR) (t a gap : ℝ)
    (ha : 0 ≤ a ∧ a < 90) (g0 : 0 ≤ gap) (g1 : gap ≤ Z 1 - Z 0 - 1) (h0 : sett.supportsOn = true)
    (h1 : sett.colorizedAngle = XR.fin a) (h2 : sett.unitVector = zUp.vec) (h3 : sett.supportOffset = XR.fin gap)
    (h4 : sett.layerHeight = XR.fin t) (t0 : 1 / 10 ^ 6 ≤ t) (t1 : t < Z 2 - Z 0) :
    Watertight (mushroom X Y Z) ∧
    (∀ e ∈ [((0, 0, 1), (3, 0, 1)), ((3, 0, 1), (3, 3, 1)), ((3, 3, 1), (0, 3, 1)), ((0, 3, 1), (0, 0, 1))],
      (mushPt X Y Z e.1 - gap • zUp, mushPt X Y Z e.2 - gap • zUp) ∈ borderSides (loweredOverhangs a zUp gap (mushroom X Y Z))) ∧
    ∃ layers, sliceByVector S A (some (rmesh (mushroom X Y Z))) zUp.vec sett = .ok layers ∧
      ∀ l ∈ layers, ∀ p ∈ l.paths, ∀ x ∈ p.points, ∃ w : R3, x = w.pt ∧ (Z 1 - 1 / 10 ^ 8 ≤ w.z ∨ overColumn X Y (1 / 10 ^ 8) w) := by
  refine ⟨mushroom_watertight H, ?_, ?_⟩
  · intro e he
    rw [mush_lowered H a ha]
    refine List.mem_map.2 ⟨e, ?_, ?_⟩
    · simp only [List.mem_cons, List.not_mem_nil, or_false] at he
      rcases he with rfl | rfl | rfl | rfl <;> decide
    · have : ∀ i, mushLow X Y Z gap i = mushPt X Y Z i - gap • zUp := fun i => by
        unfold mushLow; apply R3.ext <;> simp <;> ring
      simp only [Prod.map, this]
  · obtain ⟨⟨x1, x2, x3⟩, ⟨y1, y2, y3⟩, z1, z2⟩ := H.gaps
    have un : zUp.unit = zUp := upUnit
    have up0 : zUp ≠ 0 := by intro h; have := congrArg R3.z h; simp [zUp] at this
    have dz : ∀ w : R3, w.dot zUp = w.z := fun w => by simp [R3.dot, zUp]
    have vz : ∀ w ∈ allVerts (mushroom X Y Z), ∃ i, w = mushPt X Y Z i := by
      intro w hw
      unfold allVerts at hw
      obtain ⟨r, hr, hw⟩ := List.mem_flatMap.1 hw
      obtain ⟨tr, _, rfl⟩ := List.mem_map.1 hr
      simp only [mushAt, RTri.verts, List.mem_cons, List.not_mem_nil, or_false] at hw
      rcases hw with rfl | rfl | rfl <;> exact ⟨_, rfl⟩
    have ne : mushroom X Y Z ≠ [] := by simp [mushroom, mushDown]
    have hr : ∀ w ∈ allVerts (mushroom X Y Z), |w.dot zUp.unit| ≤ XR.maxF64R := by
      intro w hw
      obtain ⟨i, rfl⟩ := vz w hw
      rw [un, dz]
      exact (H.bz _).trans ((by norm_num : (1000 : ℝ) ≤ 10 ^ 6).trans million_le_maxF64R)
    have mem : ∀ tr ∈ mushDown ++ mushColumn ++ mushPlate, mushPt X Y Z tr.1 ∈ allVerts (mushroom X Y Z) := fun tr htr => by
      unfold allVerts
      exact List.mem_flatMap.2 ⟨_, List.mem_map.2 ⟨tr, htr, rfl⟩, by simp [RTri.verts, mushAt]⟩
    have hx : Extent (mushroom X Y Z) zUp.unit (Z 0) (Z 2) := by
      rw [un]
      refine ⟨⟨⟨_, mem ((1, 1, 0), (2, 2, 0), (2, 1, 0)) (by decide), dz _⟩, ?_⟩, ⟨_, mem ((0, 0, 2), (3, 0, 2), (3, 3, 2)) (by decide), dz _⟩, ?_⟩
      · rintro z ⟨w, hw, rfl⟩
        obtain ⟨i, rfl⟩ := vz w hw
        rw [dz]
        exact H.monoZ.monotone (Fin.zero_le _)
      · rintro z ⟨w, hw, rfl⟩
        obtain ⟨i, rfl⟩ := vz w hw
        rw [dz]
        exact H.monoZ.monotone (Fin.le_last _)
    have hf : SupportsFinite sett := fun _ => ⟨zUp, gap, h2, h3⟩
    have tpos : 0 < t := lt_of_lt_of_le (by norm_num) t0
    obtain ⟨layers, hlay⟩ : ∃ layers, sliceByVector S A (some (rmesh (mushroom X Y Z))) zUp.vec sett = .ok layers := by
      have b : (Z 2 - Z 0) / t ≤ (2 * 10 ^ 9 : ℤ) := by
        rw [div_le_iff₀ tpos]
        have := abs_le.1 (H.bz 0)
        have := abs_le.1 (H.bz 2)
        push_cast
        nlinarith
      rcases C12_returns S A _ zUp up0 sett (Z 0) (Z 2) t hx hr hf (by linarith) h4 tpos (lt_of_le_of_lt (Int.ceil_le.2 b) (by norm_num)) with h | ⟨h, _⟩
      · exact h
      · linarith
    refine ⟨layers, hlay, ?_⟩
    obtain ⟨sup, hs, hl⟩ := layer_segments S A _ ne zUp sett hr hf layers hlay
    unfold supportsOf at hs
    rw [if_pos h0, minMaxZ_extent hx hr, un] at hs
    have hsup := mush_supports S H a gap ha g0 g1 sett h1 h2 h3 sup hs
    intro l hl' p hp x hx'
    obtain ⟨z, segs, hperm, hj⟩ := hl l hl'
    have segne : ∀ q ∈ segs, q.points ≠ [] := by
      intro q hq
      have := hperm.mem_iff.1 hq
      unfold sectionPaths at this
      obtain ⟨tr, _, h⟩ := List.mem_filterMap.1 this
      obtain ⟨_, _, rfl⟩ := Option.map_eq_some_iff.1 h
      simp
    obtain ⟨out, ho, hpts⟩ := joinMin_ok S segs segne
    rw [hj] at ho
    injection ho with ho
    subst ho
    obtain ⟨q, hq, hxq⟩ := hpts p hp x hx'
    have hq := hperm.mem_iff.1 hq
    unfold sectionPaths at hq
    obtain ⟨tr, htr, hq⟩ := List.mem_filterMap.1 hq
    obtain ⟨ln, hln, rfl⟩ := Option.map_eq_some_iff.1 hq
    obtain ⟨r, rfl, rs, rv⟩ : ∃ r : RTri, tr = r.tri ∧ r.small ∧ ((∀ w ∈ r.verts, overColumn X Y 0 w) ∨ ∀ w ∈ r.verts, Z 1 ≤ w.z) := by
      rcases List.mem_append.1 htr with h | h
      · obtain ⟨r, e, h1, h2⟩ := hsup tr h
        exact ⟨r, e, h1, Or.inl h2⟩
      · obtain ⟨r, hr', rfl⟩ := List.mem_map.1 h
        exact ⟨r, rfl, mush_split H r hr'⟩
    have convex : ∀ u, R3.onBoundary r.a r.b r.c u → overColumn X Y 0 u ∨ Z 1 ≤ u.z := by
      have seg : ∀ p q u : R3, p ∈ r.verts → q ∈ r.verts → R3.onSegment p q u → overColumn X Y 0 u ∨ Z 1 ≤ u.z := by
        rintro p q u hp hq ⟨s, s0, s1, rfl⟩
        have mix : ∀ {f g c : ℝ}, c ≤ f → c ≤ g → c ≤ f + s * (g - f) := fun {f g c} hf hg => by nlinarith
        have mix' : ∀ {f g c : ℝ}, f ≤ c → g ≤ c → f + s * (g - f) ≤ c := fun {f g c} hf hg => by nlinarith
        rcases rv with rv | rv
        · left
          obtain ⟨a1, a2, a3, a4⟩ := rv p hp
          obtain ⟨b1, b2, b3, b4⟩ := rv q hq
          exact ⟨mix a1 b1, mix' a2 b2, mix a3 b3, mix' a4 b4⟩
        · exact Or.inr (mix (rv p hp) (rv q hq))
      rintro u (h | h | h)
      · exact seg _ _ u (by simp [RTri.verts]) (by simp [RTri.verts]) h
      · exact seg _ _ u (by simp [RTri.verts]) (by simp [RTri.verts]) h
      · exact seg _ _ u (by simp [RTri.verts]) (by simp [RTri.verts]) h
    have close : ∀ u y : R3, R3.onBoundary r.a r.b r.c u → y.within8 u → Z 1 - 1 / 10 ^ 8 ≤ y.z ∨ overColumn X Y (1 / 10 ^ 8) y := by
      rintro u y hu ⟨c1, c2, c3⟩
      obtain ⟨c1, c1'⟩ := abs_le.1 c1
      obtain ⟨c2, c2'⟩ := abs_le.1 c2
      obtain ⟨c3, c3'⟩ := abs_le.1 c3
      have e : (1 : ℝ) / 2 / 10 ^ 8 ≤ 1 / 10 ^ 8 := by norm_num
      rcases convex u hu with ⟨a1, a2, a3, a4⟩ | h
      · right
        exact ⟨by linarith, by linarith, by linarith, by linarith⟩
      · left; linarith
    rw [show r.tri = newTriangle r.a.pt r.b.pt r.c.pt from (newTriangle_tri r.a r.b r.c).symm] at hln
    obtain ⟨u, v, x', y', rfl, _, _, bu, bv, wu, wv, _⟩ := C08_sound _ _ r.a r.b r.c rs.1 rs.2.1 rs.2.2 ln hln
    simp only [List.mem_cons, List.not_mem_nil, or_false] at hxq
    rcases hxq with rfl | rfl
    · exact ⟨x', rfl, close u x' bu wu⟩
    · exact ⟨y', rfl, close v y' bv wv⟩

/-! Non-vacuity. -/

/-- the settings of the examples, with supports -/
noncomputable def supportSettings (t gap : ℝ) : Settings XR := { exampleSettings t with supportsOn := true, supportOffset := XR.fin gap }

/-- sizes of a mushroom, and settings, that meet the hypotheses of `C126_violated` -/
example : MushSizes ![-20, -5, 5, 20] ![-20, -5, 5, 20] ![0, 30, 35] ∧ (supportSettings (1 / 5) (1 / 5)).supportsOn = true ∧
    (supportSettings (1 / 5) (1 / 5)).colorizedAngle = XR.fin 30 ∧ (supportSettings (1 / 5) (1 / 5)).unitVector = zUp.vec ∧
    (supportSettings (1 / 5) (1 / 5)).supportOffset = XR.fin (1 / 5) ∧ (supportSettings (1 / 5) (1 / 5)).layerHeight = XR.fin (1 / 5) ∧
    (1 / 5 : ℝ) ≤ ![(0 : ℝ), 30, 35] 1 - ![(0 : ℝ), 30, 35] 0 - 1 := by
  refine ⟨⟨?_, ?_, ?_, ?_, ?_, ?_, ⟨-500000000, ?_⟩, ⟨-500000000, ?_⟩⟩, rfl, rfl, rfl, rfl, rfl, ?_⟩
  · intro i; fin_cases i <;> norm_num <;> (show _ ≤ (5 : ℝ); norm_num)
  · intro i; fin_cases i <;> norm_num <;> (show _ ≤ (5 : ℝ); norm_num)
  · intro i; fin_cases i <;> norm_num <;> (show _ ≤ (35 : ℝ); norm_num)
  · intro i; fin_cases i <;> norm_num
  · intro i; fin_cases i <;> norm_num
  · intro i; fin_cases i <;> norm_num
  · norm_num
  · norm_num
  · norm_num

/-- a wall, and a triangular roof in front of it -/
def roofAndWall : List RTri := [⟨⟨-10, 0, 0⟩, ⟨-10, 1, 0⟩, ⟨-10, 0, 4⟩⟩, ⟨⟨0, 0, 4⟩, ⟨0, 3, 4⟩, ⟨3, 0, 4⟩⟩]

/-- a model on which `C126_supports_partial` gives whole walls: the roof hangs over, its three sides are the border, and the walls below
them are free and reach from 1 mm below the roof to the bottom -/
example : borderSides (loweredOverhangs 30 zUp 1 roofAndWall) =
      [(⟨0, 0, 3⟩, ⟨0, 3, 3⟩), (⟨0, 0, 3⟩, ⟨3, 0, 3⟩), (⟨3, 0, 3⟩, ⟨0, 3, 3⟩)] ∧
    ∀ e ∈ borderSides (loweredOverhangs 30 zUp 1 roofAndWall), 0 ≤ e.1.dot zUp ∧ 0 ≤ e.2.dot zUp ∧
      ∀ r ∈ legs zUp 0 e, intersectTriangles r.tri (rmesh roofAndWall).triangles = none := by
  have s : Real.sin (rad 30) = 1 / 2 := by
    rw [← Real.sin_pi_div_six]; congr 1; unfold rad; ring
  have no : ¬ Overhanging 30 zUp ⟨⟨-10, 0, 0⟩, ⟨-10, 1, 0⟩, ⟨-10, 0, 4⟩⟩ := by
    rintro ⟨_, h⟩
    have h1 : 0 ≤ Real.sin (rad 30) * ((RTri.mk ⟨-10, 0, 0⟩ ⟨-10, 1, 0⟩ ⟨-10, 0, 4⟩).nrm.norm * zUp.norm) := by
      rw [s]; exact mul_nonneg (by norm_num) (mul_nonneg (Real.sqrt_nonneg _) (Real.sqrt_nonneg _))
    have h2 : (RTri.mk ⟨-10, 0, 0⟩ ⟨-10, 1, 0⟩ ⟨-10, 0, 4⟩).nrm.dot zUp = 0 := by simp [RTri.nrm, R3.cross, R3.dot, zUp]
    rw [h2] at h
    linarith
  have n9 : (RTri.mk ⟨0, 0, 4⟩ ⟨0, 3, 4⟩ ⟨3, 0, 4⟩).nrm = ⟨0, 0, -9⟩ := by apply R3.ext <;> simp [RTri.nrm, R3.cross]; norm_num
  have yes : Overhanging 30 zUp ⟨⟨0, 0, 4⟩, ⟨0, 3, 4⟩, ⟨3, 0, 4⟩⟩ := by
    have a1 : (R3.mk 0 0 (-9)).norm = 9 := by
      unfold R3.norm; rw [show (R3.mk 0 0 (-9)).normSq = 9 ^ 2 by simp [R3.normSq, R3.dot]; norm_num]; exact Real.sqrt_sq (by norm_num)
    have a2 : zUp.norm = 1 := by simp [R3.norm, R3.normSq, R3.dot, zUp]
    unfold Overhanging
    rw [n9, s, a1, a2]
    refine ⟨fun h => by have := congrArg R3.z h; norm_num at this, ?_⟩
    simp [R3.dot, zUp]; norm_num
  have low : loweredOverhangs 30 zUp 1 roofAndWall = [⟨⟨0, 0, 3⟩, ⟨0, 3, 3⟩, ⟨3, 0, 3⟩⟩] := by
    unfold loweredOverhangs roofAndWall
    rw [List.filter_cons_of_neg (by simpa using no), List.filter_cons_of_pos (by simpa using yes), List.filter_nil]
    have : ∀ x y : ℝ, (⟨x, y, 4⟩ : R3) + (-1 : ℝ) • zUp = ⟨x, y, 3⟩ := fun x y => by apply R3.ext <;> simp [zUp]; norm_num
    simp only [List.map_cons, List.map_nil, RTri.map, this]
  have border : borderSides (loweredOverhangs 30 zUp 1 roofAndWall) =
      [(⟨0, 0, 3⟩, ⟨0, 3, 3⟩), (⟨0, 0, 3⟩, ⟨3, 0, 3⟩), (⟨3, 0, 3⟩, ⟨0, 3, 3⟩)] := by
    rw [low]
    simp [borderSides, RTri.sides, List.countP_cons]
  refine ⟨border, ?_⟩
  intro e he
  rw [border] at he
  have free : ∀ p q : R3, 0 ≤ p.x → 0 ≤ q.x → p.z = 3 → q.z = 3 → ∀ r ∈ legs zUp 0 (p, q), intersectTriangles r.tri (rmesh roofAndWall).triangles = none := by
    intro p q hp hq hp3 hq3 r hr
    apply free_of_sides
    have hv : ∀ w ∈ r.verts, 0 ≤ w.x ∧ w.z ≤ 3 := by
      intro w hw
      simp only [legs, dropTo_z, List.mem_cons, List.not_mem_nil, or_false] at hr
      rcases hr with rfl | rfl <;> simp only [RTri.verts, List.mem_cons, List.not_mem_nil, or_false] at hw <;> rcases hw with rfl | rfl | rfl <;>
        refine ⟨?_, ?_⟩ <;> (try simp only) <;> first | assumption | linarith
    intro bt hbt
    simp only [roofAndWall, List.mem_cons, List.not_mem_nil, or_false] at hbt
    rcases hbt with rfl | rfl
    · left
      intro w hw
      obtain ⟨h1, h2⟩ := hv w hw
      simp [RTri.nrm, R3.cross, R3.dot]
      linarith
    · left
      intro w hw
      obtain ⟨h1, h2⟩ := hv w hw
      rw [n9]
      simp [R3.dot]
      linarith
  simp only [List.mem_cons, List.not_mem_nil, or_false] at he
  rcases he with rfl | rfl | rfl
  · exact ⟨by simp [R3.dot, zUp], by simp [R3.dot, zUp], free _ _ (by norm_num) (by norm_num) rfl rfl⟩
  · exact ⟨by simp [R3.dot, zUp], by simp [R3.dot, zUp], free _ _ (by norm_num) (by norm_num) rfl rfl⟩
  · exact ⟨by simp [R3.dot, zUp], by simp [R3.dot, zUp], free _ _ (by norm_num) (by norm_num) rfl rfl⟩

end Goosli
