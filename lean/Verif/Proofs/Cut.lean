import Verif.Model.Helpers
import Verif.Props.C09
import Verif.Props.C13
import Verif.Props.C17
import Verif.Props.C15
/-!
# CutMesh on meshes with real vertices
-/
set_option linter.unusedSectionVars false
namespace Goosli
open Flt

/-- the same triangle, starting from its second vertex -/
def RTri.rot (t : RTri) : RTri := ⟨t.b, t.c, t.a⟩

/-- the three ways to start the triangle, with the same orientation -/
def RTri.rots (t : RTri) : List RTri := [t, t.rot, t.rot.rot]

theorem pointInFront_pt (P N w : R3) : (Plane.mk P.pt N.vec).pointInFront w.pt = decide (0 ≤ R3.height P N w) := by
  simp only [Plane.pointInFront, vectorTo_pt, dot_vec, lit00, XR.fin_le]
  rfl

/-- what `splitOnThree` does: it starts the triangle at a vertex within `1e-6` of the given one and chooses the order of
the two cut points by a cross product -/
theorem split_spec (r : RTri) (o x y : R3) (ho : o ∈ r.verts) :
    ∃ s ∈ r.rots, s.a.near o ∧ ∃ m1 m2 : R3,
      ((m1 = x ∧ m2 = y ∧ tol ≤ ((s.b - s.a).cross (y - s.a)).norm) ∨
        (m1 = y ∧ m2 = x ∧ ((s.b - s.a).cross (y - s.a)).norm < tol)) ∧
      splitOnThree o.pt ⟨x.pt, y.pt⟩ r.tri =
        ((RTri.mk s.a m1 m2).tri, (RTri.mk m1 s.b s.c).tri, (RTri.mk s.c m2 m1).tri) := by
  have key : ∀ s : RTri, ∃ m1 m2 : R3,
      ((m1 = x ∧ m2 = y ∧ tol ≤ ((s.b - s.a).cross (y - s.a)).norm) ∨
        (m1 = y ∧ m2 = x ∧ ((s.b - s.a).cross (y - s.a)).norm < tol)) ∧
      (if almostZero ((s.a.pt.vectorTo s.b.pt).cross (s.a.pt.vectorTo y.pt)).length = true then (y.pt, x.pt) else (x.pt, y.pt)) =
        (m1.pt, m2.pt) := by
    intro s
    simp only [vectorTo_pt, cross_vec, length_vec, almostZero_fin, abs_of_nonneg (R3.norm_nonneg _), decide_eq_true_eq]
    by_cases h : ((s.b - s.a).cross (y - s.a)).norm < tol
    · exact ⟨y, x, Or.inr ⟨rfl, rfl, h⟩, by rw [if_pos h]⟩
    · exact ⟨x, y, Or.inl ⟨rfl, rfl, not_lt.1 h⟩, by rw [if_neg h]⟩
  have fin : ∀ s ∈ r.rots, s.a.near o →
      (if r.tri.p2.equal o.pt = true then (r.tri.p2, r.tri.p3, r.tri.p1)
        else if r.tri.p3.equal o.pt = true then (r.tri.p3, r.tri.p1, r.tri.p2) else (r.tri.p1, r.tri.p2, r.tri.p3)) =
        (s.a.pt, s.b.pt, s.c.pt) → ∃ s ∈ r.rots, s.a.near o ∧ ∃ m1 m2 : R3,
      ((m1 = x ∧ m2 = y ∧ tol ≤ ((s.b - s.a).cross (y - s.a)).norm) ∨
        (m1 = y ∧ m2 = x ∧ ((s.b - s.a).cross (y - s.a)).norm < tol)) ∧
      splitOnThree o.pt ⟨x.pt, y.pt⟩ r.tri =
        ((RTri.mk s.a m1 m2).tri, (RTri.mk m1 s.b s.c).tri, (RTri.mk s.c m2 m1).tri) := by
    intro s hs hn e
    obtain ⟨m1, m2, h1, h2⟩ := key s
    refine ⟨s, hs, hn, m1, m2, h1, ?_⟩
    unfold splitOnThree
    dsimp only
    rw [e]
    dsimp only
    rw [h2]
    dsimp only
    rw [newTriangle_tri, newTriangle_tri, newTriangle_tri]
  by_cases h2 : r.b.near o
  · refine fin r.rot (by simp [RTri.rots]) h2 ?_
    rw [if_pos (show r.tri.p2.equal o.pt = true from (equal_pt r.b o).2 h2)]; rfl
  · have e2 : ¬ r.tri.p2.equal o.pt = true := fun h => h2 ((equal_pt r.b o).1 h)
    by_cases h3 : r.c.near o
    · refine fin r.rot.rot (by simp [RTri.rots]) h3 ?_
      rw [if_neg e2, if_pos (show r.tri.p3.equal o.pt = true from (equal_pt r.c o).2 h3)]; rfl
    · have e3 : ¬ r.tri.p3.equal o.pt = true := fun h => h3 ((equal_pt r.c o).1 h)
      have h1 : r.a.near o := by
        simp only [RTri.verts, List.mem_cons, List.not_mem_nil, or_false] at ho
        rcases ho with rfl | rfl | rfl
        · exact R3.near_refl _
        · exact absurd (R3.near_refl _) h2
        · exact absurd (R3.near_refl _) h3
      refine fin r (by simp [RTri.rots]) h1 ?_
      rw [if_neg e2, if_neg e3]; rfl

/-- the four kinds of triangles -/
theorem cut_cases (P N : R3) (r : RTri) :
    (0 ≤ R3.height P N r.a ∧ 0 ≤ R3.height P N r.b ∧ 0 ≤ R3.height P N r.c ∧
      cutTriangle (Plane.mk P.pt N.vec) r.tri = ⟨[r.tri], [], []⟩) ∨
    (R3.height P N r.a < 0 ∧ R3.height P N r.b < 0 ∧ R3.height P N r.c < 0 ∧
      cutTriangle (Plane.mk P.pt N.vec) r.tri = ⟨[], [r.tri], []⟩) ∨
    (∃ s ∈ r.rots, 0 ≤ R3.height P N s.a ∧ R3.height P N s.b < 0 ∧ R3.height P N s.c < 0 ∧
      (((Plane.mk P.pt N.vec).intersectTriangle r.tri = none ∧ cutTriangle (Plane.mk P.pt N.vec) r.tri = ⟨[], [], []⟩) ∨
        ∃ l, (Plane.mk P.pt N.vec).intersectTriangle r.tri = some l ∧ cutTriangle (Plane.mk P.pt N.vec) r.tri =
          ⟨[(splitOnThree s.a.pt l r.tri).1], [(splitOnThree s.a.pt l r.tri).2.1, (splitOnThree s.a.pt l r.tri).2.2],
            [⟨[l.p1, l.p2]⟩]⟩)) ∨
    (∃ s ∈ r.rots, R3.height P N s.a < 0 ∧ 0 ≤ R3.height P N s.b ∧ 0 ≤ R3.height P N s.c ∧
      (((Plane.mk P.pt N.vec).intersectTriangle r.tri = none ∧ cutTriangle (Plane.mk P.pt N.vec) r.tri = ⟨[], [], []⟩) ∨
        ∃ l, (Plane.mk P.pt N.vec).intersectTriangle r.tri = some l ∧ cutTriangle (Plane.mk P.pt N.vec) r.tri =
          ⟨[(splitOnThree s.a.pt l r.tri).2.1, (splitOnThree s.a.pt l r.tri).2.2], [(splitOnThree s.a.pt l r.tri).1],
            [⟨[l.p1, l.p2]⟩]⟩)) := by
  have fa := pointInFront_pt P N r.a
  have fb := pointInFront_pt P N r.b
  have fc := pointInFront_pt P N r.c
  have e1 : r.tri.p1 = r.a.pt := rfl
  have e2 : r.tri.p2 = r.b.pt := rfl
  have e3 : r.tri.p3 = r.c.pt := rfl
  have m0 : r ∈ r.rots := by simp [RTri.rots]
  have m1 : r.rot ∈ r.rots := by simp [RTri.rots]
  have m2 : r.rot.rot ∈ r.rots := by simp [RTri.rots]
  rcases hi : (Plane.mk P.pt N.vec).intersectTriangle r.tri with _ | l <;>
  by_cases ha : 0 ≤ R3.height P N r.a <;> by_cases hb : 0 ≤ R3.height P N r.b <;> by_cases hc : 0 ≤ R3.height P N r.c <;>
  simp only [ha, hb, hc, decide_true, decide_false] at fa fb fc
  all_goals try (have ha := not_le.1 ha)
  all_goals try (have hb := not_le.1 hb)
  all_goals try (have hc := not_le.1 hc)
  all_goals first
    | exact Or.inl ⟨ha, hb, hc, by simp [cutTriangle, e1, e2, e3, fa, fb, fc, hi]⟩
    | exact Or.inr (Or.inl ⟨ha, hb, hc, by simp [cutTriangle, e1, e2, e3, fa, fb, fc, hi]⟩)
    | exact Or.inr (Or.inr (Or.inl ⟨_, m0, ha, hb, hc, Or.inl ⟨rfl, by simp [cutTriangle, e1, e2, e3, fa, fb, fc, hi]⟩⟩))
    | exact Or.inr (Or.inr (Or.inl ⟨_, m1, hb, hc, ha, Or.inl ⟨rfl, by simp [cutTriangle, e1, e2, e3, fa, fb, fc, hi]⟩⟩))
    | exact Or.inr (Or.inr (Or.inl ⟨_, m2, hc, ha, hb, Or.inl ⟨rfl, by simp [cutTriangle, e1, e2, e3, fa, fb, fc, hi]⟩⟩))
    | exact Or.inr (Or.inr (Or.inr ⟨_, m0, ha, hb, hc, Or.inl ⟨rfl, by simp [cutTriangle, e1, e2, e3, fa, fb, fc, hi]⟩⟩))
    | exact Or.inr (Or.inr (Or.inr ⟨_, m1, hb, hc, ha, Or.inl ⟨rfl, by simp [cutTriangle, e1, e2, e3, fa, fb, fc, hi]⟩⟩))
    | exact Or.inr (Or.inr (Or.inr ⟨_, m2, hc, ha, hb, Or.inl ⟨rfl, by simp [cutTriangle, e1, e2, e3, fa, fb, fc, hi]⟩⟩))
    | exact Or.inr (Or.inr (Or.inl ⟨_, m0, ha, hb, hc, Or.inr ⟨l, rfl, by simp [cutTriangle, e1, e2, e3, fa, fb, fc, hi]⟩⟩))
    | exact Or.inr (Or.inr (Or.inl ⟨_, m1, hb, hc, ha, Or.inr ⟨l, rfl, by simp [cutTriangle, e1, e2, e3, fa, fb, fc, hi, RTri.rot]⟩⟩))
    | exact Or.inr (Or.inr (Or.inl ⟨_, m2, hc, ha, hb, Or.inr ⟨l, rfl, by simp [cutTriangle, e1, e2, e3, fa, fb, fc, hi, RTri.rot]⟩⟩))
    | exact Or.inr (Or.inr (Or.inr ⟨_, m0, ha, hb, hc, Or.inr ⟨l, rfl, by simp [cutTriangle, e1, e2, e3, fa, fb, fc, hi]⟩⟩))
    | exact Or.inr (Or.inr (Or.inr ⟨_, m1, hb, hc, ha, Or.inr ⟨l, rfl, by simp [cutTriangle, e1, e2, e3, fa, fb, fc, hi, RTri.rot]⟩⟩))
    | exact Or.inr (Or.inr (Or.inr ⟨_, m2, hc, ha, hb, Or.inr ⟨l, rfl, by simp [cutTriangle, e1, e2, e3, fa, fb, fc, hi, RTri.rot]⟩⟩))

/-- joining never fails on paths with points, and its results consist of points of the input paths -/
theorem joinMin_ok {α : Type} [Flt α] (S : Sorter) (ps : List (Path α)) (h : ∀ q ∈ ps, q.points ≠ []) :
    ∃ out, joinPaths3AndMinimize S ps = .ok out ∧ ∀ q ∈ out, ∀ x ∈ q.points, ∃ q' ∈ ps, x ∈ q'.points := by
  obtain ⟨out, groups, h1, h2, _, h4, _, _⟩ := C13_join_conserves S ps h
  refine ⟨out.map Path.minimizeLines, by unfold joinPaths3AndMinimize; rw [h1]; rfl, ?_⟩
  intro q hq x hx
  obtain ⟨q0, hq0, rfl⟩ := List.mem_map.1 hq
  have hx0 : x ∈ q0.points := by
    obtain ⟨core, hc, hcase⟩ := C17_no_new_points q0
    rcases hcase with e | ⟨_, ⟨y, hy, e⟩ | ⟨y, hy, e⟩⟩
    · rw [e] at hx; exact hc.subset hx
    · rw [e] at hx
      rcases List.mem_append.1 hx with hx | hx
      · exact hc.subset hx
      · rw [List.mem_singleton] at hx; subst hx
        exact hc.subset (List.mem_of_mem_head? hy)
    · rw [e] at hx
      rcases List.mem_cons.1 hx with rfl | hx
      · exact hc.subset (List.mem_of_getLast? hy)
      · exact hc.subset hx
  rw [h4] at hq0
  obtain ⟨g, hg, rfl⟩ := List.mem_map.1 hq0
  obtain ⟨q', hq', hx'⟩ := mem_concatPath hx0
  exact ⟨q', h2.subset (List.mem_flatten.2 ⟨g, hg, hq'⟩), hx'⟩

/-- sum of the absolute coordinates -/
noncomputable def R3.l1 (N : R3) : ℝ := |N.x| + |N.y| + |N.z|

theorem height_close {P N x u : R3} {e : ℝ} (hx : |x.x - u.x| ≤ e) (hy : |x.y - u.y| ≤ e) (hz : |x.z - u.z| ≤ e) :
    |R3.height P N x - R3.height P N u| ≤ e * N.l1 := by
  have e1 : R3.height P N x - R3.height P N u = (x.x - u.x) * N.x + (x.y - u.y) * N.y + (x.z - u.z) * N.z := by
    simp [R3.height, R3.dot]; ring
  rw [e1]
  refine (abs_add_three _ _ _).trans ?_
  rw [abs_mul, abs_mul, abs_mul]
  unfold R3.l1
  have := mul_le_mul_of_nonneg_right hx (abs_nonneg N.x)
  have := mul_le_mul_of_nonneg_right hy (abs_nonneg N.y)
  have := mul_le_mul_of_nonneg_right hz (abs_nonneg N.z)
  linarith

theorem R3.l1_nonneg (N : R3) : 0 ≤ N.l1 := by unfold R3.l1; positivity

/-- the same triangle seen from the other side -/
def RTri.flip (t : RTri) : RTri := ⟨t.c, t.b, t.a⟩

theorem RTri.flip_nrm (t : RTri) : t.flip.nrm = -t.nrm := by
  apply R3.ext <;> simp [RTri.flip, RTri.nrm, R3.cross] <;> ring

theorem RTri.flip_flip (t : RTri) : t.flip.flip = t := rfl

/-- all vertices in the range where rounding works -/
def RTri.small (t : RTri) : Prop := t.a.small ∧ t.b.small ∧ t.c.small

/-- the section of a triangle: the ends are real and within `0.5e-8` of the plane -/
theorem section_near_plane (P N : R3) (r : RTri) (hr : r.small) (l : Line XR)
    (h : (Plane.mk P.pt N.vec).intersectTriangle r.tri = some l) :
    ∃ x y : R3, l = ⟨x.pt, y.pt⟩ ∧ (∃ u, R3.onPlane P N u ∧ x.within8 u) ∧ ∃ v, R3.onPlane P N v ∧ y.within8 v := by
  rw [show r.tri = newTriangle r.a.pt r.b.pt r.c.pt from (newTriangle_tri r.a r.b r.c).symm] at h
  obtain ⟨u, v, x, y, e, h1, h2, _, _, h3, h4, _⟩ := C08_sound P N r.a r.b r.c hr.1 hr.2.1 hr.2.2 l h
  exact ⟨x, y, e, ⟨u, h1, h3⟩, v, h2, h4⟩

theorem cut_inters (P N : R3) (r : RTri) (hr : r.small) : ∀ q ∈ (cutTriangle (Plane.mk P.pt N.vec) r.tri).inters,
    q.points ≠ [] ∧ ∀ p ∈ q.points, ∃ x : R3, p = x.pt ∧ ∃ u, R3.onPlane P N u ∧ x.within8 u := by
  have key : ∀ l, (Plane.mk P.pt N.vec).intersectTriangle r.tri = some l → ∀ q ∈ [Path.mk [l.p1, l.p2]],
      q.points ≠ [] ∧ ∀ p ∈ q.points, ∃ x : R3, p = x.pt ∧ ∃ u, R3.onPlane P N u ∧ x.within8 u := by
    intro l hl q hq
    obtain ⟨x, y, rfl, hx, hy⟩ := section_near_plane P N r hr l hl
    rw [List.mem_singleton] at hq
    subst hq
    refine ⟨by simp, ?_⟩
    intro p hp
    simp only [List.mem_cons, List.not_mem_nil, or_false] at hp
    rcases hp with rfl | rfl
    · exact ⟨x, rfl, hx⟩
    · exact ⟨y, rfl, hy⟩
  rcases cut_cases P N r with ⟨_, _, _, e⟩ | ⟨_, _, _, e⟩ | ⟨s, _, _, _, _, ⟨_, e⟩ | ⟨l, hl, e⟩⟩ | ⟨s, _, _, _, _, ⟨_, e⟩ | ⟨l, hl, e⟩⟩ <;>
    rw [e]
  · simp
  · simp
  · simp
  · exact key l hl
  · simp
  · exact key l hl

/-- triangles from the first point of a contour to its other segments -/
def fan : List R3 → List RTri
  | [] => []
  | w :: ws => (adjPairs ws).map fun q => ⟨w, q.1, q.2⟩

/-- the caps of a contour with real points -/
theorem caps_real (P N : R3) (ws : List R3) : ∃ caps : List RTri,
    capTriangles (Plane.mk P.pt N.vec) ⟨ws.map R3.pt⟩ = caps.map (fun c => (c.tri, c.flip.tri)) ∧
      List.Forall₂ (fun f c => c = f ∨ c = RTri.flip f) (fan ws) caps ∧
      ∀ c ∈ caps, c.nrm.dot N ≤ 0 ∧ ∀ v ∈ c.verts, v ∈ ws := by
  cases ws with
  | nil => exact ⟨[], rfl, by simp [fan], by simp⟩
  | cons p0 rest =>
    refine ⟨(adjPairs rest).map (fun q => if 0 ≤ (RTri.mk p0 q.1 q.2).nrm.dot N then (RTri.mk p0 q.1 q.2).flip else RTri.mk p0 q.1 q.2), ?_, ?_, ?_⟩
    rotate_left
    · rw [fan, List.forall₂_map_left_iff, List.forall₂_map_right_iff, List.forall₂_same]
      intro q _
      split
      · exact Or.inr rfl
      · exact Or.inl rfl
    rotate_left
    · simp only [capTriangles, List.map_cons, adjPairs, ← List.map_tail, List.zip_map', List.map_map]
      rw [List.zip_map, List.map_map]
      apply List.map_congr_left
      intro q _
      simp only [Function.comp, Prod.map]
      rw [newTriangle_tri, newTriangle_tri]
      have ec : (RTri.mk p0 q.1 q.2).tri.n.codirectedWith N.vec = decide (0 ≤ (RTri.mk p0 q.1 q.2).nrm.dot N) := by
        show (lit 0 0 ≤? (RTri.mk p0 q.1 q.2).nrm.vec.dot N.vec) = _
        rw [dot_vec, lit00, XR.fin_le]
      rw [ec]
      by_cases h : 0 ≤ (RTri.mk p0 q.1 q.2).nrm.dot N
      · simp only [h, decide_true, if_true]; rfl
      · simp only [h, decide_false, if_false]; rfl
    · intro c hc
      obtain ⟨q, hq, rfl⟩ := List.mem_map.1 hc
      have hm : q.1 ∈ rest ∧ q.2 ∈ rest := ⟨(List.of_mem_zip hq).1, List.mem_of_mem_tail (List.of_mem_zip hq).2⟩
      have hn : ∀ t : RTri, t.flip.nrm.dot N = -(t.nrm.dot N) := by
        intro t; rw [RTri.flip_nrm]; simp [R3.dot]; ring
      by_cases h : 0 ≤ (RTri.mk p0 q.1 q.2).nrm.dot N
      · rw [if_pos h]
        refine ⟨by rw [hn]; linarith, ?_⟩
        intro v hv
        simp only [RTri.verts, RTri.flip, List.mem_cons, List.not_mem_nil, or_false] at hv
        rcases hv with rfl | rfl | rfl <;> simp [hm]
      · rw [if_neg h]
        refine ⟨by linarith, ?_⟩
        intro v hv
        simp only [RTri.verts, List.mem_cons, List.not_mem_nil, or_false] at hv
        rcases hv with rfl | rfl | rfl <;> simp [hm]

theorem real_points {ps : List (Point XR)} {Q : R3 → Prop} (h : ∀ p ∈ ps, ∃ x : R3, p = x.pt ∧ Q x) :
    ∃ ws : List R3, ps = ws.map R3.pt ∧ ∀ w ∈ ws, Q w := by
  induction ps with
  | nil => exact ⟨[], rfl, by simp⟩
  | cons p ps ih =>
    obtain ⟨x, rfl, hx⟩ := h p (by simp)
    obtain ⟨ws, rfl, hw⟩ := ih (fun q hq => h q (by simp [hq]))
    exact ⟨x :: ws, rfl, by intro w hw'; rcases List.mem_cons.1 hw' with rfl | h'; exacts [hx, hw w h']⟩

/-- the sections of all triangles, as two-point paths, in the order of the triangles -/
noncomputable def cutSections (P N : R3) (ts : List RTri) : List (Path XR) :=
  ts.flatMap fun r => (cutTriangle ⟨P.pt, N.vec⟩ r.tri).inters

/-- the result of `CutMesh`: pieces of the triangles in order, then the caps -/
theorem cutMesh_shape (S : Sorter) (P N : R3) (ts : List RTri) (hs : ∀ r ∈ ts, r.small) :
    ∃ (contours : List (List R3)) (caps : List RTri),
      joinPaths3AndMinimize S (cutSections P N ts) = .ok (contours.map fun ws => ⟨ws.map R3.pt⟩) ∧
      cutMesh S (some (rmesh ts)) ⟨P.pt, N.vec⟩ =
        .ok (⟨ts.flatMap (fun r => (cutTriangle ⟨P.pt, N.vec⟩ r.tri).up) ++ caps.map RTri.tri⟩,
          ⟨ts.flatMap (fun r => (cutTriangle ⟨P.pt, N.vec⟩ r.tri).down) ++ caps.map (fun c => c.flip.tri)⟩) ∧
      List.Forall₂ (fun f c => c = f ∨ c = RTri.flip f) (contours.flatMap fan) caps ∧
      ∀ c ∈ caps, c.nrm.dot N ≤ 0 ∧ ∀ v ∈ c.verts, ∃ u, R3.onPlane P N u ∧ v.within8 u := by
  have hint : ∀ q ∈ cutSections P N ts,
      q.points ≠ [] ∧ ∀ p ∈ q.points, ∃ x : R3, p = x.pt ∧ ∃ u, R3.onPlane P N u ∧ x.within8 u := by
    intro q hq
    obtain ⟨r, hr, hq⟩ := List.mem_flatMap.1 hq
    exact cut_inters P N r (hs r hr) q hq
  obtain ⟨out, ho, hp⟩ := joinMin_ok S _ (fun q hq => (hint q hq).1)
  have hreal : ∀ q ∈ out, ∃ ws : List R3, q = ⟨ws.map R3.pt⟩ ∧ ∀ w ∈ ws, ∃ u, R3.onPlane P N u ∧ w.within8 u := by
    intro q hq
    obtain ⟨ws, e, hw⟩ := real_points (ps := q.points) (Q := fun w => ∃ u, R3.onPlane P N u ∧ w.within8 u) (by
      intro p hp'
      obtain ⟨q', hq', hx⟩ := hp q hq p hp'
      exact (hint q' hq').2 p hx)
    exact ⟨ws, by cases q; simp at e; rw [e], hw⟩
  obtain ⟨contours, caps, hcon, hcaps, hfan, hprop⟩ : ∃ (contours : List (List R3)) (caps : List RTri),
      out = contours.map (fun ws => ⟨ws.map R3.pt⟩) ∧
      out.flatMap (capTriangles ⟨P.pt, N.vec⟩) = caps.map (fun c => (c.tri, c.flip.tri)) ∧
      List.Forall₂ (fun f c => c = f ∨ c = RTri.flip f) (contours.flatMap fan) caps ∧
      ∀ c ∈ caps, c.nrm.dot N ≤ 0 ∧ ∀ v ∈ c.verts, ∃ u, R3.onPlane P N u ∧ v.within8 u := by
    clear ho hp
    induction out with
    | nil => exact ⟨[], [], rfl, rfl, by simp, by simp⟩
    | cons q out ih =>
      obtain ⟨contours, caps, e0, e, hf, h⟩ := ih (fun q' hq' => hreal q' (by simp [hq']))
      obtain ⟨ws, rfl, hw⟩ := hreal q (by simp)
      obtain ⟨caps', e', hf', h'⟩ := caps_real P N ws
      refine ⟨ws :: contours, caps' ++ caps, by rw [List.map_cons, ← e0], by rw [List.flatMap_cons, e, e', List.map_append],
        List.rel_append hf' hf, ?_⟩
      intro c hc
      rcases List.mem_append.1 hc with hc | hc
      · exact ⟨(h' c hc).1, fun v hv => hw v ((h' c hc).2 v hv)⟩
      · exact h c hc
  refine ⟨contours, caps, by rw [ho, hcon], ?_, hfan, hprop⟩
  unfold cutMesh
  dsimp only
  have e : ((rmesh ts).triangles.map (cutTriangle ⟨P.pt, N.vec⟩)).flatMap (·.inters) = cutSections P N ts := by
    simp only [rmesh, List.map_map, List.flatMap_map, cutSections]; rfl
  rw [e, ho]
  simp only [bind, Except.bind, pure, Except.pure]
  rw [hcaps]
  simp only [rmesh, List.map_map, List.flatMap_map]
  rfl

end Goosli
