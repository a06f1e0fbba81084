import Verif.Props.C14
import Verif.Props.C17
import Verif.Props.C10
/-!
# C15: slicing a watertight mesh gives closed contours
-/
set_option linter.unusedSectionVars false
namespace Goosli
open Flt

/-! ## specification -/

/-- the directed edges of a triangle -/
def RTri.edges (t : RTri) : List (R3 × R3) := [(t.a, t.b), (t.b, t.c), (t.c, t.a)]

/-- the directed edges of a mesh -/
def dirEdges (ts : List RTri) : List (R3 × R3) := ts.flatMap RTri.edges

/-- every directed edge occurs once, and so does its opposite -/
def Watertight (ts : List RTri) : Prop := (dirEdges ts).Nodup ∧ ∀ e ∈ dirEdges ts, e.swap ∈ dirEdges ts

/-- the edge crosses the plane upwards -/
def ascends (P N : R3) (e : R3 × R3) : Prop := R3.height P N e.1 < 0 ∧ 0 < R3.height P N e.2

/-- the edge crosses the plane downwards -/
def descends (P N : R3) (e : R3 × R3) : Prop := R3.height P N e.2 < 0 ∧ 0 < R3.height P N e.1

/-- where the line through the edge meets the plane -/
noncomputable def crossAt (P N : R3) (e : R3 × R3) : R3 :=
  e.1 + (R3.height P N e.1 / (R3.height P N e.1 - R3.height P N e.2)) • (e.2 - e.1)

/-- coordinates equal or clearly apart -/
def clearlyApart (x y : ℝ) : Prop := x = y ∨ 101 / 10 ^ 8 ≤ |x - y|

/-- the crossing points of different edges are different, and coordinates that differ do so by at least `1.01e-6` -/
def WellSeparated (P N : R3) (ts : List RTri) : Prop :=
  ∀ e ∈ dirEdges ts, ∀ f ∈ dirEdges ts, (ascends P N e ∨ descends P N e) → (ascends P N f ∨ descends P N f) →
    clearlyApart (crossAt P N e).x (crossAt P N f).x ∧ clearlyApart (crossAt P N e).y (crossAt P N f).y ∧
    clearlyApart (crossAt P N e).z (crossAt P N f).z ∧ (crossAt P N e = crossAt P N f → e = f ∨ e = f.swap)

/-! ## one triangle -/

theorem crossAt_swap {P N : R3} {e : R3 × R3} (h : R3.height P N e.1 ≠ R3.height P N e.2) :
    crossAt P N e.swap = crossAt P N e := by
  have h1 : R3.height P N e.1 - R3.height P N e.2 ≠ 0 := sub_ne_zero.2 h
  have h2 : R3.height P N e.2 - R3.height P N e.1 ≠ 0 := sub_ne_zero.2 h.symm
  unfold crossAt
  simp only [Prod.fst_swap, Prod.snd_swap]
  generalize R3.height P N e.1 = x at *
  generalize R3.height P N e.2 = y at *
  have e1 : y / (y - x) = 1 - x / (x - y) := by field_simp; ring
  rw [e1]
  apply R3.ext <;> simp <;> ring

theorem crosses_crossAt {P N : R3} {e : R3 × R3} (h : ascends P N e ∨ descends P N e) :
    crosses P N e.1 e.2 (crossAt P N e) := by
  have hne : R3.height P N e.1 - R3.height P N e.2 ≠ 0 := by
    rcases h with ⟨h1, h2⟩ | ⟨h1, h2⟩
    · exact (by linarith : R3.height P N e.1 - R3.height P N e.2 < 0).ne
    · exact (by linarith : 0 < R3.height P N e.1 - R3.height P N e.2).ne'
  refine ⟨sub_ne_zero.1 hne, ⟨_, ?_, ?_, rfl⟩, ?_⟩
  · rcases h with ⟨h1, h2⟩ | ⟨h1, h2⟩
    · exact div_nonneg_of_nonpos (by linarith) (by linarith)
    · exact div_nonneg (by linarith) (by linarith)
  · rcases h with ⟨h1, h2⟩ | ⟨h1, h2⟩
    · rw [div_le_one_of_neg (by linarith)]; linarith
    · rw [div_le_one (by linarith)]; linarith
  · unfold R3.onPlane crossAt
    rw [height_lerp]
    field_simp
    ring

theorem intersect_cross {P N : R3} {e : R3 × R3} (h : ascends P N e ∨ descends P N e) :
    (Plane.mk P.pt N.vec).intersectSegment e.1.pt e.2.pt = some (crossAt P N e).pt :=
  (intersectSegment_iff _ _ _ _ _).2 ⟨_, rfl, crosses_crossAt h⟩

theorem intersect_same {P N a b : R3} (h : 0 < R3.height P N a * R3.height P N b) :
    (Plane.mk P.pt N.vec).intersectSegment a.pt b.pt = none := by
  rw [← Option.not_isSome_iff_eq_none, C07_when]
  rintro ⟨_, h2⟩
  linarith

/-- the chord between two crossings is directed from the upward to the downward one -/
theorem apex_dir {P N a b c : R3} (hn : N.cross ((b - a).cross (c - a)) ≠ 0)
    (h : (0 < R3.height P N a ∧ R3.height P N b < 0 ∧ R3.height P N c < 0) ∨
      (R3.height P N a < 0 ∧ 0 < R3.height P N b ∧ 0 < R3.height P N c)) :
    (0 < R3.height P N a → (crossAt P N (a, b) - crossAt P N (c, a)).dot (N.cross ((b - a).cross (c - a))) < 0) ∧
    (R3.height P N a < 0 → (crossAt P N (c, a) - crossAt P N (a, b)).dot (N.cross ((b - a).cross (c - a))) < 0) := by
  have hca : crossAt P N (c, a) = crossAt P N (a, c) := by
    refine crossAt_swap (e := (a, c)) ?_
    rcases h with ⟨h1, h2, h3⟩ | ⟨h1, h2, h3⟩ <;> (intro hc; simp only at hc; linarith)
  have hw : N.cross ((b - a).cross (c - a)) =
      (R3.height P N c - R3.height P N a) • (b - a) - (R3.height P N b - R3.height P N a) • (c - a) := by
    apply R3.ext <;> simp [R3.cross, R3.height, R3.dot] <;> ring
  have hpos := R3.normSq_pos hn
  set w := N.cross ((b - a).cross (c - a)) with hwd
  generalize hA : R3.height P N a = A at *
  generalize hB : R3.height P N b = B at *
  generalize hC : R3.height P N c = C at *
  have key : ∀ k : ℝ, A - B ≠ 0 → A - C ≠ 0 → k = A / ((A - B) * (A - C)) →
      crossAt P N (a, b) - crossAt P N (c, a) = (-k) • w := by
    intro k h1 h2 hk
    rw [hca, hw]
    unfold crossAt
    simp only [hA, hB, hC]
    rw [hk]
    apply R3.ext <;> simp <;> field_simp <;> ring
  have hbc : 0 < (A - B) * (A - C) := by
    rcases h with ⟨h1, h2, h3⟩ | ⟨h1, h2, h3⟩
    · exact mul_pos (by linarith) (by linarith)
    · exact mul_pos_of_neg_of_neg (by linarith) (by linarith)
  have hb0 : A - B ≠ 0 := left_ne_zero_of_mul hbc.ne'
  have hc0 : A - C ≠ 0 := right_ne_zero_of_mul hbc.ne'
  have e := key _ hb0 hc0 rfl
  have sd : ∀ (t : ℝ) (v : R3), (t • v).dot v = t * v.normSq := by intro t v; simp [R3.dot, R3.normSq]; ring
  constructor
  · intro hp
    rw [e, sd]
    have : 0 < A / ((A - B) * (A - C)) := div_pos hp hbc
    nlinarith
  · intro hp
    have e' : crossAt P N (c, a) - crossAt P N (a, b) = (A / ((A - B) * (A - C))) • w := by
      have : crossAt P N (c, a) - crossAt P N (a, b) = (-1 : ℝ) • (crossAt P N (a, b) - crossAt P N (c, a)) := by
        apply R3.ext <;> simp
      rw [this, e]
      apply R3.ext <;> simp
    rw [e', sd]
    have : A / ((A - B) * (A - C)) < 0 := div_neg_of_neg_of_pos hp hbc
    nlinarith

/-- from the two crossings to the returned line -/
theorem line_of_ends {P N u v : R3} {t : RTri} (htn : t.nrm ≠ 0) (hsu : u.small) (hsv : v.small) (hn : ¬ u.near v)
    (hn8 : ¬ u.round8.near v.round8) (hpar : (v - u).cross (N.cross t.nrm) = 0) (hw : N.cross t.nrm ≠ 0)
    (hdir : (v - u).dot (N.cross t.nrm) < 0)
    (hce : (Plane.mk P.pt N.vec).chordEnds t.tri = some (u.pt, v.pt) ∨
      (Plane.mk P.pt N.vec).chordEnds t.tri = some (v.pt, u.pt)) :
    (Plane.mk P.pt N.vec).intersectTriangle t.tri = some ⟨u.round8.pt, v.round8.pt⟩ := by
  have h8 : ((v.round8 - u.round8).cross N).dot t.nrm < 0 := by
    rw [triple]
    rcases direction_stable u v u.round8 v.round8 (N.cross t.nrm) (round8_within u) (round8_within v) hn hw hpar with h | h
    · exact h.2
    · linarith [h.1]
  have neg8 : ((u.round8 - v.round8).cross N).dot t.nrm = -((v.round8 - u.round8).cross N).dot t.nrm := by
    simp [R3.dot, R3.cross]; ring
  have e1 : u.round8.pt.equal v.round8.pt = false := by
    rw [← Bool.not_eq_true]; exact fun hc => hn8 ((equal_pt _ _).1 hc)
  have e2 : v.round8.pt.equal u.round8.pt = false := by
    rw [← Bool.not_eq_true]; intro hc
    have hc := (equal_pt _ _).1 hc
    exact hn8 ⟨by rw [abs_sub_comm]; exact hc.1, by rw [abs_sub_comm]; exact hc.2.1, by rw [abs_sub_comm]; exact hc.2.2⟩
  unfold Plane.intersectTriangle
  rcases hce with h | h
  · rw [h]
    simp only [roundPlaces_pt u hsu, roundPlaces_pt v hsv, e1, Bool.false_eq_true, if_false]
    have ht : t.tri.n = t.nrm.vec := rfl
    simp only [ht, vectorTo_pt, cross_vec, dot_vec, lit00, XR.fin_lt]
    rw [if_pos (by simpa using h8)]
  · rw [h]
    simp only [roundPlaces_pt u hsu, roundPlaces_pt v hsv, e2, Bool.false_eq_true, if_false]
    have ht : t.tri.n = t.nrm.vec := rfl
    simp only [ht, vectorTo_pt, cross_vec, dot_vec, lit00, XR.fin_lt]
    rw [if_neg (by rw [neg8]; simp; linarith)]

theorem not_near_of_apart {u v : R3} (hx : clearlyApart u.x v.x) (hy : clearlyApart u.y v.y) (hz : clearlyApart u.z v.z)
    (hne : u ≠ v) : ¬ u.near v ∧ ¬ u.round8.near v.round8 := by
  have hc : 101 / 10 ^ 8 ≤ |u.x - v.x| ∨ 101 / 10 ^ 8 ≤ |u.y - v.y| ∨ 101 / 10 ^ 8 ≤ |u.z - v.z| := by
    by_contra hc
    push Not at hc
    exact hne (R3.ext (hx.resolve_right (by linarith)) (hy.resolve_right (by linarith)) (hz.resolve_right (by linarith)))
  have hr : ∀ x y : ℝ, 101 / 10 ^ 8 ≤ |x - y| → tol ≤ |x - y| ∧ tol ≤ |r8 x - r8 y| := by
    intro x y h
    have h1 := abs_le.1 (r8_bounds x)
    have h2 := abs_le.1 (r8_bounds y)
    unfold tol
    refine ⟨by norm_num at *; linarith, ?_⟩
    rcases le_abs.1 h with h | h
    · exact le_abs.2 (Or.inl (by norm_num at *; linarith))
    · exact le_abs.2 (Or.inr (by norm_num at *; linarith))
  constructor
  · rintro ⟨nx, ny, nz⟩
    rcases hc with h | h | h
    · linarith [(hr _ _ h).1]
    · linarith [(hr _ _ h).1]
    · linarith [(hr _ _ h).1]
  · rintro ⟨nx, ny, nz⟩
    simp only [R3.round8] at nx ny nz
    rcases hc with h | h | h
    · linarith [(hr _ _ h).2]
    · linarith [(hr _ _ h).2]
    · linarith [(hr _ _ h).2]

open Classical in
/-- the edges that cross upwards -/
noncomputable def ups (P N : R3) (l : List (R3 × R3)) : List (R3 × R3) := l.filter fun e => decide (ascends P N e)

open Classical in
/-- the edges that cross downwards -/
noncomputable def downs (P N : R3) (l : List (R3 × R3)) : List (R3 × R3) := l.filter fun e => decide (descends P N e)

theorem ups_cons_pos {P N : R3} {e : R3 × R3} {l : List (R3 × R3)} (h : ascends P N e) : ups P N (e :: l) = e :: ups P N l := by
  unfold ups; rw [List.filter_cons_of_pos (by simpa using h)]
theorem ups_cons_neg {P N : R3} {e : R3 × R3} {l : List (R3 × R3)} (h : ¬ ascends P N e) : ups P N (e :: l) = ups P N l := by
  unfold ups; rw [List.filter_cons_of_neg (by simpa using h)]
theorem downs_cons_pos {P N : R3} {e : R3 × R3} {l : List (R3 × R3)} (h : descends P N e) :
    downs P N (e :: l) = e :: downs P N l := by
  unfold downs; rw [List.filter_cons_of_pos (by simpa using h)]
theorem downs_cons_neg {P N : R3} {e : R3 × R3} {l : List (R3 × R3)} (h : ¬ descends P N e) : downs P N (e :: l) = downs P N l := by
  unfold downs; rw [List.filter_cons_of_neg (by simpa using h)]

theorem mem_edges {ts : List RTri} {t : RTri} (ht : t ∈ ts) {e : R3 × R3} (he : e ∈ t.edges) : e ∈ dirEdges ts :=
  List.mem_flatMap.2 ⟨t, ht, he⟩

theorem vert_mem {ts : List RTri} {t : RTri} (ht : t ∈ ts) {w : R3} (hw : w = t.a ∨ w = t.b ∨ w = t.c) : w ∈ allVerts ts :=
  List.mem_flatMap.2 ⟨t, ht, by simpa [RTri.verts] using hw⟩

/-- two crossing edges of a non-degenerate triangle cross in well separated points -/
theorem edge_pair {P N : R3} {ts : List RTri} {t : RTri} (ht : t ∈ ts) (hsm : ∀ w ∈ allVerts ts, w.small) (hdeg : t.nrm ≠ 0)
    (hsep : WellSeparated P N ts) {e f : R3 × R3} (he : e ∈ t.edges) (hf : f ∈ t.edges) (hef : e ≠ f) (hes : e ≠ f.swap)
    (hce : ascends P N e ∨ descends P N e) (hcf : ascends P N f ∨ descends P N f) :
    (crossAt P N e).small ∧ (crossAt P N f).small ∧ ¬ (crossAt P N e).near (crossAt P N f) ∧
      ¬ (crossAt P N e).round8.near (crossAt P N f).round8 ∧ N.cross t.nrm ≠ 0 ∧
      (crossAt P N f - crossAt P N e).cross (N.cross t.nrm) = 0 := by
  have hv : ∀ e ∈ t.edges, (e.1 = t.a ∨ e.1 = t.b ∨ e.1 = t.c) ∧ (e.2 = t.a ∨ e.2 = t.b ∨ e.2 = t.c) := by
    intro e he
    simp only [RTri.edges, List.mem_cons, List.not_mem_nil, or_false] at he
    rcases he with rfl | rfl | rfl <;> simp
  have hsmall : ∀ e ∈ t.edges, (ascends P N e ∨ descends P N e) → (crossAt P N e).small := fun e he hc =>
    small_of_onSegment (crosses_crossAt hc).2.1 (hsm _ (vert_mem ht (hv e he).1)) (hsm _ (vert_mem ht (hv e he).2))
  obtain ⟨hx, hy, hz, hinj⟩ := hsep e (mem_edges ht he) f (mem_edges ht hf) hce hcf
  obtain ⟨n1, n2⟩ := not_near_of_apart hx hy hz (fun hc => (hinj hc).elim hef hes)
  obtain ⟨w0, wp⟩ := chord_parallel (hv e he).1 (hv e he).2 (hv f hf).1 (hv f hf).2 (crosses_crossAt hce) (crosses_crossAt hcf) hdeg
  exact ⟨hsmall e he hce, hsmall f hf hcf, n1, n2, w0, wp⟩

theorem distinctPair_pts {u v : R3} (h : ¬ u.near v) : Plane.distinctPair (some u.pt) (some v.pt) = some (u.pt, v.pt) := by
  have : u.pt.equal v.pt = false := by rw [← Bool.not_eq_true]; exact fun hc => h ((equal_pt _ _).1 hc)
  simp [Plane.distinctPair, this]

theorem near_symm {u v : R3} (h : u.near v) : v.near u :=
  ⟨by rw [abs_sub_comm]; exact h.1, by rw [abs_sub_comm]; exact h.2.1, by rw [abs_sub_comm]; exact h.2.2⟩

theorem nrm_rot (t : RTri) : (RTri.mk t.b t.c t.a).nrm = t.nrm := by
  apply R3.ext <;> simp [RTri.nrm, R3.cross] <;> ring

/-- what one triangle of the mesh contributes -/
theorem triangle_section {P N : R3} {ts : List RTri} {t : RTri} (ht : t ∈ ts) (hsm : ∀ w ∈ allVerts ts, w.small)
    (hoff : ∀ w ∈ allVerts ts, R3.height P N w ≠ 0) (hdeg : t.nrm ≠ 0) (hsep : WellSeparated P N ts) :
    ((Plane.mk P.pt N.vec).intersectTriangle t.tri = none ∧ ups P N t.edges = [] ∧ downs P N t.edges = []) ∨
    ∃ e f, (Plane.mk P.pt N.vec).intersectTriangle t.tri = some ⟨(crossAt P N e).round8.pt, (crossAt P N f).round8.pt⟩ ∧
      ups P N t.edges = [e] ∧ downs P N t.edges = [f] := by
  have hA := hoff _ (vert_mem ht (w := t.a) (by simp))
  have hB := hoff _ (vert_mem ht (w := t.b) (by simp))
  have hC := hoff _ (vert_mem ht (w := t.c) (by simp))
  have m1 : (t.a, t.b) ∈ t.edges := by simp [RTri.edges]
  have m2 : (t.b, t.c) ∈ t.edges := by simp [RTri.edges]
  have m3 : (t.c, t.a) ∈ t.edges := by simp [RTri.edges]
  have nab : t.a ≠ t.b := by
    intro h; apply hdeg; unfold RTri.nrm; rw [h]; apply R3.ext <;> simp [R3.cross]
  have nbc : t.b ≠ t.c := by
    intro h; apply hdeg; unfold RTri.nrm; rw [h]; apply R3.ext <;> simp [R3.cross] <;> ring
  have nca : t.c ≠ t.a := by
    intro h; apply hdeg; unfold RTri.nrm; rw [h]; apply R3.ext <;> simp [R3.cross]
  have hce : (Plane.mk P.pt N.vec).chordEnds t.tri =
      (Plane.distinctPair ((Plane.mk P.pt N.vec).intersectSegment t.a.pt t.b.pt) ((Plane.mk P.pt N.vec).intersectSegment t.b.pt t.c.pt)).orElse
      fun _ => (Plane.distinctPair ((Plane.mk P.pt N.vec).intersectSegment t.a.pt t.b.pt) ((Plane.mk P.pt N.vec).intersectSegment t.c.pt t.a.pt)).orElse
      fun _ => Plane.distinctPair ((Plane.mk P.pt N.vec).intersectSegment t.b.pt t.c.pt) ((Plane.mk P.pt N.vec).intersectSegment t.c.pt t.a.pt) := rfl
  -- the three positions of the vertex that is alone on its side
  have apexA : 0 < R3.height P N t.b * R3.height P N t.c → (ascends P N (t.a, t.b) ∨ descends P N (t.a, t.b)) →
      (ascends P N (t.c, t.a) ∨ descends P N (t.c, t.a)) →
      (Plane.mk P.pt N.vec).chordEnds t.tri = some ((crossAt P N (t.a, t.b)).pt, (crossAt P N (t.c, t.a)).pt) := by
    intro h0 h1 h3
    obtain ⟨_, _, n1, _⟩ := edge_pair ht hsm hdeg hsep m1 m3 (by simp [nca.symm]) (by simp [nbc]) h1 h3
    rw [hce, intersect_same h0, intersect_cross h1, intersect_cross h3, distinctPair_pts n1]
    rfl
  have apexB : 0 < R3.height P N t.c * R3.height P N t.a → (ascends P N (t.a, t.b) ∨ descends P N (t.a, t.b)) →
      (ascends P N (t.b, t.c) ∨ descends P N (t.b, t.c)) →
      (Plane.mk P.pt N.vec).chordEnds t.tri = some ((crossAt P N (t.a, t.b)).pt, (crossAt P N (t.b, t.c)).pt) := by
    intro h0 h1 h3
    obtain ⟨_, _, n1, _⟩ := edge_pair ht hsm hdeg hsep m1 m2 (by simp [nab]) (by simp [nca.symm]) h1 h3
    rw [hce, intersect_cross h1, intersect_cross h3, distinctPair_pts n1]
    rfl
  have apexC : 0 < R3.height P N t.a * R3.height P N t.b → (ascends P N (t.b, t.c) ∨ descends P N (t.b, t.c)) →
      (ascends P N (t.c, t.a) ∨ descends P N (t.c, t.a)) →
      (Plane.mk P.pt N.vec).chordEnds t.tri = some ((crossAt P N (t.b, t.c)).pt, (crossAt P N (t.c, t.a)).pt) := by
    intro h0 h1 h3
    obtain ⟨_, _, n1, _⟩ := edge_pair ht hsm hdeg hsep m2 m3 (by simp [nbc]) (by simp [nab.symm]) h1 h3
    rw [hce, intersect_same h0, intersect_cross h1, intersect_cross h3, distinctPair_pts n1]
    rfl
  have mk : ∀ e f, e ∈ t.edges → f ∈ t.edges → e ≠ f → e ≠ f.swap → ascends P N e → descends P N f →
      (crossAt P N f - crossAt P N e).dot (N.cross t.nrm) < 0 →
      ((Plane.mk P.pt N.vec).chordEnds t.tri = some ((crossAt P N e).pt, (crossAt P N f).pt) ∨
        (Plane.mk P.pt N.vec).chordEnds t.tri = some ((crossAt P N f).pt, (crossAt P N e).pt)) →
      (Plane.mk P.pt N.vec).intersectTriangle t.tri = some ⟨(crossAt P N e).round8.pt, (crossAt P N f).round8.pt⟩ := by
    intro e f he hf h1 h2 ha hd hdir hce
    obtain ⟨s1, s2, n1, n2, w0, wp⟩ := edge_pair ht hsm hdeg hsep he hf h1 h2 (Or.inl ha) (Or.inr hd)
    exact line_of_ends hdeg s1 s2 n1 n2 wp w0 hdir hce
  have wA : N.cross ((t.b - t.a).cross (t.c - t.a)) = N.cross t.nrm := rfl
  have wB : N.cross ((t.c - t.b).cross (t.a - t.b)) = N.cross t.nrm := by rw [← nrm_rot t]; rfl
  have wC : N.cross ((t.a - t.c).cross (t.b - t.c)) = N.cross t.nrm := by
    rw [← nrm_rot t, ← nrm_rot ⟨t.b, t.c, t.a⟩]; rfl
  have none_of : (Plane.mk P.pt N.vec).chordEnds t.tri = none → (Plane.mk P.pt N.vec).intersectTriangle t.tri = none := by
    intro h; unfold Plane.intersectTriangle; rw [h]
  have up : ∀ {x y : R3}, R3.height P N x < 0 → 0 < R3.height P N y → ascends P N (x, y) := fun h1 h2 => ⟨h1, h2⟩
  have dn : ∀ {x y : R3}, 0 < R3.height P N x → R3.height P N y < 0 → descends P N (x, y) := fun h1 h2 => ⟨h2, h1⟩
  have nup1 : ∀ {x y : R3}, 0 < R3.height P N x → ¬ ascends P N (x, y) := fun h1 h => by have := h.1; simp only at this; linarith
  have nup2 : ∀ {x y : R3}, R3.height P N y < 0 → ¬ ascends P N (x, y) := fun h1 h => by have := h.2; simp only at this; linarith
  have ndn1 : ∀ {x y : R3}, R3.height P N x < 0 → ¬ descends P N (x, y) := fun h1 h => by have := h.2; simp only at this; linarith
  have ndn2 : ∀ {x y : R3}, 0 < R3.height P N y → ¬ descends P N (x, y) := fun h1 h => by have := h.1; simp only at this; linarith
  have nz : ∀ e f, e ∈ t.edges → f ∈ t.edges → e ≠ f → e ≠ f.swap → ascends P N e → descends P N f → N.cross t.nrm ≠ 0 := by
    intro e f he hf h1 h2 ha hd
    exact (edge_pair ht hsm hdeg hsep he hf h1 h2 (Or.inl ha) (Or.inr hd)).2.2.2.2.1
  rcases lt_or_gt_of_ne hA with ha | ha <;> rcases lt_or_gt_of_ne hB with hb | hb <;> rcases lt_or_gt_of_ne hC with hc | hc
  · -- - - -
    left
    refine ⟨none_of ?_, ?_, ?_⟩
    · rw [hce, intersect_same (mul_pos_of_neg_of_neg ha hb), intersect_same (mul_pos_of_neg_of_neg hb hc),
        intersect_same (mul_pos_of_neg_of_neg hc ha)]; rfl
    · rw [RTri.edges, ups_cons_neg (nup2 hb), ups_cons_neg (nup2 hc), ups_cons_neg (nup2 ha)]; rfl
    · rw [RTri.edges, downs_cons_neg (ndn1 ha), downs_cons_neg (ndn1 hb), downs_cons_neg (ndn1 hc)]; rfl
  · -- - - +
    right
    have u := up hb hc
    have d := dn hc ha
    have w := nz _ _ m2 m3 (by simp [nbc]) (by simp [nab.symm]) u d
    refine ⟨(t.b, t.c), (t.c, t.a), ?_, ?_, ?_⟩
    · refine mk _ _ m2 m3 (by simp [nbc]) (by simp [nab.symm]) u d ?_
        (Or.inl (apexC (mul_pos_of_neg_of_neg ha hb) (Or.inl u) (Or.inr d)))
      have := (apex_dir (P := P) (by rw [wC]; exact w) (Or.inl ⟨hc, ha, hb⟩)).1 hc
      rw [wC] at this; exact this
    · rw [RTri.edges, ups_cons_neg (nup2 hb), ups_cons_pos u, ups_cons_neg (nup2 ha)]; rfl
    · rw [RTri.edges, downs_cons_neg (ndn1 ha), downs_cons_neg (ndn1 hb), downs_cons_pos d]; rfl
  · -- - + -
    right
    have u := up ha hb
    have d := dn hb hc
    have w := nz _ _ m1 m2 (by simp [nab]) (by simp [nca.symm]) u d
    refine ⟨(t.a, t.b), (t.b, t.c), ?_, ?_, ?_⟩
    · refine mk _ _ m1 m2 (by simp [nab]) (by simp [nca.symm]) u d ?_
        (Or.inl (apexB (mul_pos_of_neg_of_neg hc ha) (Or.inl u) (Or.inr d)))
      have := (apex_dir (P := P) (by rw [wB]; exact w) (Or.inl ⟨hb, hc, ha⟩)).1 hb
      rw [wB] at this; exact this
    · rw [RTri.edges, ups_cons_pos u, ups_cons_neg (nup2 hc), ups_cons_neg (nup2 ha)]; rfl
    · rw [RTri.edges, downs_cons_neg (ndn1 ha), downs_cons_pos d, downs_cons_neg (ndn1 hc)]; rfl
  · -- - + +
    right
    have u := up ha hb
    have d := dn hc ha
    have w := nz _ _ m1 m3 (by simp [nca.symm]) (by simp [nbc]) u d
    refine ⟨(t.a, t.b), (t.c, t.a), ?_, ?_, ?_⟩
    · refine mk _ _ m1 m3 (by simp [nca.symm]) (by simp [nbc]) u d ?_
        (Or.inl (apexA (mul_pos hb hc) (Or.inl u) (Or.inr d)))
      have := (apex_dir (P := P) (by rw [wA]; exact w) (Or.inr ⟨ha, hb, hc⟩)).2 ha
      rw [wA] at this; exact this
    · rw [RTri.edges, ups_cons_pos u, ups_cons_neg (nup1 hb), ups_cons_neg (nup2 ha)]; rfl
    · rw [RTri.edges, downs_cons_neg (ndn1 ha), downs_cons_neg (ndn2 hc), downs_cons_pos d]; rfl
  · -- + - -
    right
    have u := up hc ha
    have d := dn ha hb
    have w := nz _ _ m3 m1 (by simp [nab.symm, nca]) (by simp [nbc.symm]) u d
    refine ⟨(t.c, t.a), (t.a, t.b), ?_, ?_, ?_⟩
    · refine mk _ _ m3 m1 (by simp [nab.symm, nca]) (by simp [nbc.symm]) u d ?_
        (Or.inr (apexA (mul_pos_of_neg_of_neg hb hc) (Or.inr d) (Or.inl u)))
      have := (apex_dir (P := P) (by rw [wA]; exact w) (Or.inl ⟨ha, hb, hc⟩)).1 ha
      rw [wA] at this; exact this
    · rw [RTri.edges, ups_cons_neg (nup1 ha), ups_cons_neg (nup2 hc), ups_cons_pos u]; rfl
    · rw [RTri.edges, downs_cons_pos d, downs_cons_neg (ndn1 hb), downs_cons_neg (ndn1 hc)]; rfl
  · -- + - +
    right
    have u := up hb hc
    have d := dn ha hb
    have w := nz _ _ m2 m1 (by simp [nab.symm]) (by simp [nca]) u d
    refine ⟨(t.b, t.c), (t.a, t.b), ?_, ?_, ?_⟩
    · refine mk _ _ m2 m1 (by simp [nab.symm]) (by simp [nca]) u d ?_
        (Or.inr (apexB (mul_pos hc ha) (Or.inr d) (Or.inl u)))
      have := (apex_dir (P := P) (by rw [wB]; exact w) (Or.inr ⟨hb, hc, ha⟩)).2 hb
      rw [wB] at this; exact this
    · rw [RTri.edges, ups_cons_neg (nup1 ha), ups_cons_pos u, ups_cons_neg (nup1 hc)]; rfl
    · rw [RTri.edges, downs_cons_pos d, downs_cons_neg (ndn1 hb), downs_cons_neg (ndn2 ha)]; rfl
  · -- + + -
    right
    have u := up hc ha
    have d := dn hb hc
    have w := nz _ _ m3 m2 (by simp [nbc.symm]) (by simp [nab]) u d
    refine ⟨(t.c, t.a), (t.b, t.c), ?_, ?_, ?_⟩
    · refine mk _ _ m3 m2 (by simp [nbc.symm]) (by simp [nab]) u d ?_
        (Or.inr (apexC (mul_pos ha hb) (Or.inr d) (Or.inl u)))
      have := (apex_dir (P := P) (by rw [wC]; exact w) (Or.inr ⟨hc, ha, hb⟩)).2 hc
      rw [wC] at this; exact this
    · rw [RTri.edges, ups_cons_neg (nup1 ha), ups_cons_neg (nup1 hb), ups_cons_pos u]; rfl
    · rw [RTri.edges, downs_cons_neg (ndn2 hb), downs_cons_pos d, downs_cons_neg (ndn1 hc)]; rfl
  · -- + + +
    left
    refine ⟨none_of ?_, ?_, ?_⟩
    · rw [hce, intersect_same (mul_pos ha hb), intersect_same (mul_pos hb hc), intersect_same (mul_pos hc ha)]; rfl
    · rw [RTri.edges, ups_cons_neg (nup1 ha), ups_cons_neg (nup1 hb), ups_cons_neg (nup1 hc)]; rfl
    · rw [RTri.edges, downs_cons_neg (ndn2 hb), downs_cons_neg (ndn2 hc), downs_cons_neg (ndn2 ha)]; rfl

/-! ## the whole mesh -/

/-- the section of the mesh, as a list of directed segments between crossing points -/
theorem mesh_section {P N : R3} {all : List RTri} (hsm : ∀ w ∈ allVerts all, w.small)
    (hoff : ∀ w ∈ allVerts all, R3.height P N w ≠ 0) (hdeg : ∀ t ∈ all, t.nrm ≠ 0) (hsep : WellSeparated P N all) :
    ∀ ts, (∀ t ∈ ts, t ∈ all) → ∃ segs : List (R3 × R3),
      List.Forall₂ runsFromTo (sectionPaths (Plane.mk P.pt N.vec) (rmesh ts).triangles) segs ∧
      segs.map Prod.fst = (ups P N (dirEdges ts)).map (fun e => (crossAt P N e).round8) ∧
      segs.map Prod.snd = (downs P N (dirEdges ts)).map (fun e => (crossAt P N e).round8) := by
  intro ts
  induction ts with
  | nil => intro _; exact ⟨[], List.Forall₂.nil, rfl, rfl⟩
  | cons t ts ih =>
    intro hsub
    obtain ⟨segs, h1, h2, h3⟩ := ih (fun t ht => hsub t (by simp [ht]))
    have hu : ups P N (dirEdges (t :: ts)) = ups P N t.edges ++ ups P N (dirEdges ts) := by
      unfold ups dirEdges; rw [List.flatMap_cons, List.filter_append]
    have hd : downs P N (dirEdges (t :: ts)) = downs P N t.edges ++ downs P N (dirEdges ts) := by
      unfold downs dirEdges; rw [List.flatMap_cons, List.filter_append]
    have ht := hsub t (by simp)
    have hcons : sectionPaths (Plane.mk P.pt N.vec) (rmesh (t :: ts)).triangles =
        (((Plane.mk P.pt N.vec).intersectTriangle t.tri).map fun l => (⟨[l.p1, l.p2]⟩ : Path XR)).toList ++
          sectionPaths (Plane.mk P.pt N.vec) (rmesh ts).triangles := by
      unfold sectionPaths rmesh
      rw [List.map_cons, List.filterMap_cons]
      cases (Plane.mk P.pt N.vec).intersectTriangle t.tri <;> rfl
    rcases triangle_section ht hsm hoff (hdeg t ht) hsep with ⟨e1, e2, e3⟩ | ⟨e, f, e1, e2, e3⟩
    · refine ⟨segs, ?_, ?_, ?_⟩
      · rw [hcons, e1]; exact h1
      · rw [hu, e2]; exact h2
      · rw [hd, e3]; exact h3
    · refine ⟨((crossAt P N e).round8, (crossAt P N f).round8) :: segs, ?_, ?_, ?_⟩
      · rw [hcons, e1]
        exact List.Forall₂.cons ⟨by simp, rfl, rfl⟩ h1
      · rw [hu, e2, List.map_cons, h2]; rfl
      · rw [hd, e3, List.map_cons, h3]; rfl

theorem clearlyApart_r8 {x y : ℝ} (h : clearlyApart x y) : r8 x = r8 y ∨ 1 / 10 ^ 6 ≤ |r8 x - r8 y| := by
  rcases h with rfl | h
  · exact Or.inl rfl
  · right
    have h1 := abs_le.1 (r8_bounds x)
    have h2 := abs_le.1 (r8_bounds y)
    rcases le_abs.1 h with h | h
    · exact le_abs.2 (Or.inl (by norm_num at *; linarith))
    · exact le_abs.2 (Or.inr (by norm_num at *; linarith))

theorem mem_ups {P N : R3} {l : List (R3 × R3)} {e : R3 × R3} : e ∈ ups P N l ↔ e ∈ l ∧ ascends P N e := by
  unfold ups; rw [List.mem_filter]; simp

theorem mem_downs {P N : R3} {l : List (R3 × R3)} {e : R3 × R3} : e ∈ downs P N l ↔ e ∈ l ∧ descends P N e := by
  unfold downs; rw [List.mem_filter]; simp

/-- **C15.** Let the mesh be watertight and consistently oriented, without degenerate triangles and with coordinates below
`9e10`; let the plane pass through no vertex and cross different edges in well separated points. Then assembling the
segments of the plane with the triangles, in any order and for every admissible sort, yields closed contours only: each
ends exactly where it starts. -/
theorem C15_closed (S : Sorter) (ts : List RTri) (P N : R3) (hw : Watertight ts) (hdeg : ∀ t ∈ ts, t.nrm ≠ 0)
    (hsm : ∀ w ∈ allVerts ts, w.small) (hoff : ∀ w ∈ allVerts ts, R3.height P N w ≠ 0) (hsep : WellSeparated P N ts)
    (p : List (Path XR)) (hp : p.Perm (sectionPaths (Plane.mk P.pt N.vec) (rmesh ts).triangles)) :
    ∃ out, joinPaths3 S p = .ok out ∧
      ∀ q ∈ out, q.isClosed = true ∧ 2 ≤ q.points.length ∧ q.points.head? = q.points.getLast? := by
  obtain ⟨segs0, h1, h2, h3⟩ := mesh_section hsm hoff hdeg hsep ts (fun t ht => ht)
  obtain ⟨segs, hf, hsp⟩ := List.perm_comp_forall₂ hp h1
  have hnd : (ups P N (dirEdges ts)).Nodup := hw.1.filter _
  have hndd : (downs P N (dirEdges ts)).Nodup := hw.1.filter _
  have hcr : ∀ e ∈ ups P N (dirEdges ts), ∀ f ∈ ups P N (dirEdges ts), (crossAt P N e).round8 = (crossAt P N f).round8 → e = f := by
    intro e he f hf heq
    obtain ⟨he, ha⟩ := mem_ups.1 he
    obtain ⟨hf, hb⟩ := mem_ups.1 hf
    obtain ⟨hx, hy, hz, hinj⟩ := hsep e he f hf (Or.inl ha) (Or.inl hb)
    by_contra hne
    have hX : crossAt P N e ≠ crossAt P N f := by
      intro hc
      rcases hinj hc with h | h
      · exact hne h
      · rw [h] at ha
        have := ha.1; have := hb.2
        simp only [Prod.fst_swap] at *
        linarith
    apply (not_near_of_apart hx hy hz hX).2
    rw [heq]
    exact R3.near_refl _
  have hst : (segs0.map Prod.fst).Nodup := by
    rw [h2]
    exact List.Nodup.map_on hcr hnd
  have hpr : (segs0.map Prod.snd).Perm (segs0.map Prod.fst) := by
    rw [h2, h3]
    have hperm : (downs P N (dirEdges ts)).Perm ((ups P N (dirEdges ts)).map Prod.swap) := by
      rw [List.perm_ext_iff_of_nodup hndd (hnd.map Prod.swap_injective)]
      intro e
      rw [mem_downs, List.mem_map]
      constructor
      · rintro ⟨he, hd⟩
        exact ⟨e.swap, mem_ups.2 ⟨hw.2 e he, hd⟩, Prod.swap_swap e⟩
      · rintro ⟨f, hf, rfl⟩
        obtain ⟨hf, ha⟩ := mem_ups.1 hf
        exact ⟨hw.2 f hf, ha⟩
    refine (hperm.map _).trans ?_
    rw [List.map_map]
    have : (ups P N (dirEdges ts)).map ((fun e => (crossAt P N e).round8) ∘ Prod.swap) =
        (ups P N (dirEdges ts)).map (fun e => (crossAt P N e).round8) := by
      refine List.map_congr_left fun e he => ?_
      obtain ⟨_, ha⟩ := mem_ups.1 he
      show (crossAt P N e.swap).round8 = _
      rw [crossAt_swap (by have := ha.1; have := ha.2; intro hc; linarith)]
    rw [this]
  refine C14_loops_close S segs p hf ?_ ?_ ?_
  · exact (hsp.map Prod.fst).nodup_iff.2 hst
  · exact ((hsp.map Prod.snd).trans hpr).trans (hsp.map Prod.fst).symm
  · have hmem : ∀ a ∈ segs.map Prod.fst, ∃ e ∈ ups P N (dirEdges ts), (crossAt P N e).round8 = a := by
      intro a ha
      have := (hsp.map Prod.fst).mem_iff.1 ha
      rw [h2] at this
      exact List.mem_map.1 this
    intro a ha b hb
    obtain ⟨e, he, rfl⟩ := hmem a ha
    obtain ⟨f, hf, rfl⟩ := hmem b hb
    obtain ⟨he, hae⟩ := mem_ups.1 he
    obtain ⟨hf, haf⟩ := mem_ups.1 hf
    obtain ⟨hx, hy, hz, _⟩ := hsep e he f hf (Or.inl hae) (Or.inl haf)
    exact ⟨clearlyApart_r8 hx, clearlyApart_r8 hy, clearlyApart_r8 hz⟩

theorem mem_concatPath {α : Type} [Flt α] {g : List (Path α)} {x : Point α} (h : x ∈ (concatPath g).points) :
    ∃ q ∈ g, x ∈ q.points := by
  cases g with
  | nil => simp [concatPath] at h
  | cons p ps =>
    simp only [concatPath, List.mem_append, List.mem_flatMap] at h
    rcases h with h | ⟨q, hq, h⟩
    · exact ⟨p, by simp, h⟩
    · exact ⟨q, by simp [hq], List.mem_of_mem_tail h⟩

/-- **C15 (slicing).** Under the same hypotheses on the plane of a job, the layer that `SliceByVector` computes for the job
consists of closed contours (supports off; after contour assembly and the removal of collinear points). -/
theorem C15_layer (S : Sorter) (ts : List RTri) (hne : ts ≠ []) (d : R3) (sett : Settings XR) (hs : sett.supportsOn = false)
    (hr : ∀ w ∈ allVerts ts, |w.dot d.unit| ≤ XR.maxF64R) (hw : Watertight ts) (hdeg : ∀ t ∈ ts, t.nrm ≠ 0)
    (hsm : ∀ w ∈ allVerts ts, w.small) (jobs : List (Job XR)) (hj : sliceJobs S (rmesh ts) d.vec.normalize sett = .ok jobs)
    (j : Job XR) (hm : j ∈ jobs) (Q : R3) (hQ : j.plane = ⟨Q.pt, d.unit.vec⟩)
    (hoff : ∀ w ∈ allVerts ts, R3.height Q d.unit w ≠ 0) (hsep : WellSeparated Q d.unit ts) :
    ∃ l : Layer XR, runJob S j = .ok l ∧ ∀ q ∈ l.paths, q.isClosed = true := by
  obtain ⟨sup, h1, h2⟩ := C10_sweep S ts hne d sett hr (fun h => by rw [hs] at h; cases h) jobs hj
  have hsup : sup = [] := by
    unfold supportsOf at h1
    rw [if_neg (by rw [hs]; simp)] at h1
    injection h1 with h1
    exact h1.symm
  have hperm := h2 j hm
  rw [hsup, List.nil_append, hQ] at hperm
  obtain ⟨out, ho, hcl⟩ := C15_closed S ts Q d.unit hw hdeg hsm hoff hsep (jobPaths j) hperm
  refine ⟨⟨j.order, j.plane.n, out.map Path.minimizeLines, [], [], []⟩, ?_, ?_⟩
  · unfold runJob joinPaths3AndMinimize
    rw [ho]; rfl
  · intro q hq
    obtain ⟨q0, hq0, rfl⟩ := List.mem_map.1 hq
    -- the points of the contour are points of the segments, hence finite
    obtain ⟨segs, hseg, _, _⟩ := mesh_section hsm hoff hdeg hsep ts (fun t ht => ht)
    have hfin : ∀ r ∈ jobPaths j, ∀ x ∈ r.points, ∃ w : R3, x = w.pt := by
      intro r hr x hx
      have hlen := jobPaths_two j r hr
      obtain ⟨s, hs, _, e1, e2⟩ : ∃ s ∈ segs, runsFromTo r s := by
        have hr := hperm.mem_iff.1 hr
        have : ∀ {l : List (Path XR)} {m : List (R3 × R3)}, List.Forall₂ runsFromTo l m → r ∈ l → ∃ s ∈ m, runsFromTo r s := by
          intro l m h
          induction h with
          | nil => intro h; simp at h
          | cons hab _ ih =>
            intro h
            rcases List.mem_cons.1 h with rfl | h
            · exact ⟨_, by simp, hab⟩
            · obtain ⟨s, hs, h⟩ := ih h; exact ⟨s, by simp [hs], h⟩
        exact this hseg hr
      match hp : r.points, hlen with
      | [y, z], _ =>
        rw [hp] at e1 e2 hx
        simp only [List.head?_cons, List.getLast?_cons_cons, List.getLast?_singleton, Option.some.injEq] at e1 e2
        rcases List.mem_cons.1 hx with rfl | hx
        · exact ⟨_, e1⟩
        · rw [List.mem_singleton] at hx; subst hx; exact ⟨_, e2⟩
    obtain ⟨out', groups, ho', hgp, _, hog, _⟩ := C13_join_conserves S (jobPaths j) (by
      intro q hq h; have := jobPaths_two j q hq; rw [h] at this; cases this)
    rw [ho] at ho'
    injection ho' with ho'
    subst ho'
    have hq0' := hq0
    rw [hog] at hq0'
    obtain ⟨g, hg, hgq⟩ := List.mem_map.1 hq0'
    have hfin0 : ∀ x ∈ q0.points, ∃ w : R3, w.pt = x := by
      intro x hx
      rw [← hgq] at hx
      obtain ⟨r, hr, hx⟩ := mem_concatPath hx
      obtain ⟨w, hw⟩ := hfin r (hgp.mem_iff.1 (List.mem_flatten.2 ⟨g, hg, hr⟩)) x hx
      exact ⟨w, hw.symm⟩
    obtain ⟨ws, hws⟩ : ∃ ws : List R3, ws.map R3.pt = q0.points := by
      have : q0.points ∈ Set.range (List.map R3.pt) := by
        rw [Set.range_list_map]; exact hfin0
      exact this
    have := C17_closed_stays_closed ws (by rw [hws]; exact (hcl q0 hq0).1)
    rw [hws] at this
    exact this

/-! ## Non-vacuity: a tetrahedron cut above its base -/

/-- a tetrahedron -/
def exTetra : List RTri :=
  [⟨⟨0, 0, 0⟩, ⟨0, 4, 0⟩, ⟨4, 0, 0⟩⟩, ⟨⟨0, 0, 0⟩, ⟨4, 0, 0⟩, ⟨0, 0, 4⟩⟩, ⟨⟨4, 0, 0⟩, ⟨0, 4, 0⟩, ⟨0, 0, 4⟩⟩,
    ⟨⟨0, 4, 0⟩, ⟨0, 0, 0⟩, ⟨0, 0, 4⟩⟩]

theorem exTetra_verts : ∀ w ∈ allVerts exTetra, w = ⟨0, 0, 0⟩ ∨ w = ⟨4, 0, 0⟩ ∨ w = ⟨0, 4, 0⟩ ∨ w = ⟨0, 0, 4⟩ := by
  intro w hw
  simp only [allVerts, RTri.verts, exTetra, List.flatMap_cons, List.flatMap_nil, List.append_nil, List.mem_cons, List.cons_append,
    List.nil_append, List.not_mem_nil, or_false] at hw
  rcases hw with h | h | h | h | h | h | h | h | h | h | h | h <;> simp [h]

theorem exTetra_edges : dirEdges exTetra =
    [(⟨0, 0, 0⟩, ⟨0, 4, 0⟩), (⟨0, 4, 0⟩, ⟨4, 0, 0⟩), (⟨4, 0, 0⟩, ⟨0, 0, 0⟩),
     (⟨0, 0, 0⟩, ⟨4, 0, 0⟩), (⟨4, 0, 0⟩, ⟨0, 0, 4⟩), (⟨0, 0, 4⟩, ⟨0, 0, 0⟩),
     (⟨4, 0, 0⟩, ⟨0, 4, 0⟩), (⟨0, 4, 0⟩, ⟨0, 0, 4⟩), (⟨0, 0, 4⟩, ⟨4, 0, 0⟩),
     (⟨0, 4, 0⟩, ⟨0, 0, 0⟩), (⟨0, 0, 0⟩, ⟨0, 0, 4⟩), (⟨0, 0, 4⟩, ⟨0, 4, 0⟩)] := rfl

theorem exTetra_ok : Watertight exTetra ∧ (∀ t ∈ exTetra, t.nrm ≠ 0) ∧ (∀ w ∈ allVerts exTetra, w.small) ∧
    (∀ w ∈ allVerts exTetra, R3.height ⟨0, 0, 1⟩ ⟨0, 0, 1⟩ w ≠ 0) ∧ WellSeparated ⟨0, 0, 1⟩ ⟨0, 0, 1⟩ exTetra := by
  have ext_iff : ∀ a b c x y z : ℝ, ((⟨a, b, c⟩ : R3) = ⟨x, y, z⟩) ↔ a = x ∧ b = y ∧ c = z := by
    intro a b c x y z; exact R3.mk.injEq .. ▸ Iff.rfl
  refine ⟨⟨?_, ?_⟩, ?_, ?_, ?_, ?_⟩
  · rw [exTetra_edges]
    simp [ext_iff]
  · rw [exTetra_edges]
    intro e he
    simp only [List.mem_cons, List.not_mem_nil, or_false] at he
    rcases he with h | h | h | h | h | h | h | h | h | h | h | h <;> rw [h] <;> simp [ext_iff]
  · intro t ht
    simp only [exTetra, List.mem_cons, List.not_mem_nil, or_false] at ht
    rcases ht with rfl | rfl | rfl | rfl <;> intro h <;> have hx := congrArg R3.x h <;> have hy := congrArg R3.y h <;>
      have hz := congrArg R3.z h <;> simp [RTri.nrm, R3.cross] at hx hy hz
  · intro w hw
    rcases exTetra_verts w hw with rfl | rfl | rfl | rfl <;> simp [R3.small, roundLimit] <;> norm_num
  · intro w hw
    rcases exTetra_verts w hw with rfl | rfl | rfl | rfl <;> simp [R3.height, R3.dot] <;> norm_num
  · have cr : ∀ e ∈ dirEdges exTetra, (ascends ⟨0, 0, 1⟩ ⟨0, 0, 1⟩ e ∨ descends ⟨0, 0, 1⟩ ⟨0, 0, 1⟩ e) →
        ((e = (⟨4, 0, 0⟩, ⟨0, 0, 4⟩) ∨ e = (⟨0, 0, 4⟩, ⟨4, 0, 0⟩)) ∧ crossAt ⟨0, 0, 1⟩ ⟨0, 0, 1⟩ e = ⟨3, 0, 1⟩) ∨
        ((e = (⟨0, 4, 0⟩, ⟨0, 0, 4⟩) ∨ e = (⟨0, 0, 4⟩, ⟨0, 4, 0⟩)) ∧ crossAt ⟨0, 0, 1⟩ ⟨0, 0, 1⟩ e = ⟨0, 3, 1⟩) ∨
        ((e = (⟨0, 0, 0⟩, ⟨0, 0, 4⟩) ∨ e = (⟨0, 0, 4⟩, ⟨0, 0, 0⟩)) ∧ crossAt ⟨0, 0, 1⟩ ⟨0, 0, 1⟩ e = ⟨0, 0, 1⟩) := by
      intro e he hc
      rw [exTetra_edges] at he
      simp only [List.mem_cons, List.not_mem_nil, or_false] at he
      rcases he with h | h | h | h | h | h | h | h | h | h | h | h
      · exfalso; rw [h] at hc; simp [ascends, descends, R3.height, R3.dot] at hc
        norm_num at hc
      · exfalso; rw [h] at hc; simp [ascends, descends, R3.height, R3.dot] at hc
        norm_num at hc
      · exfalso; rw [h] at hc; simp [ascends, descends, R3.height, R3.dot] at hc
        norm_num at hc
      · exfalso; rw [h] at hc; simp [ascends, descends, R3.height, R3.dot] at hc
        norm_num at hc
      · left; refine ⟨Or.inl h, ?_⟩; rw [h]; apply R3.ext <;> simp [crossAt, R3.height, R3.dot] <;> norm_num
      · right; right; refine ⟨Or.inr h, ?_⟩; rw [h]; apply R3.ext <;> simp [crossAt, R3.height, R3.dot] <;> norm_num
      · exfalso; rw [h] at hc; simp [ascends, descends, R3.height, R3.dot] at hc
        norm_num at hc
      · right; left; refine ⟨Or.inl h, ?_⟩; rw [h]; apply R3.ext <;> simp [crossAt, R3.height, R3.dot] <;> norm_num
      · left; refine ⟨Or.inr h, ?_⟩; rw [h]; apply R3.ext <;> simp [crossAt, R3.height, R3.dot] <;> norm_num
      · exfalso; rw [h] at hc; simp [ascends, descends, R3.height, R3.dot] at hc
        norm_num at hc
      · right; right; refine ⟨Or.inl h, ?_⟩; rw [h]; apply R3.ext <;> simp [crossAt, R3.height, R3.dot] <;> norm_num
      · right; left; refine ⟨Or.inr h, ?_⟩; rw [h]; apply R3.ext <;> simp [crossAt, R3.height, R3.dot] <;> norm_num
    intro e he f hf h1 h2
    have far : (101 : ℝ) / 10 ^ 8 ≤ |3 - 0| ∧ (101 : ℝ) / 10 ^ 8 ≤ |0 - 3| := by norm_num
    rcases cr e he h1 with ⟨h, ec⟩ | ⟨h, ec⟩ | ⟨h, ec⟩ <;> rcases cr f hf h2 with ⟨h', fc⟩ | ⟨h', fc⟩ | ⟨h', fc⟩ <;> rw [ec, fc]
    · refine ⟨Or.inl rfl, Or.inl rfl, Or.inl rfl, fun _ => ?_⟩
      rcases h with rfl | rfl <;> rcases h' with rfl | rfl <;> simp
    · exact ⟨Or.inr far.1, Or.inr far.2, Or.inl rfl, fun h => by simp [ext_iff] at h⟩
    · exact ⟨Or.inr far.1, Or.inl rfl, Or.inl rfl, fun h => by simp [ext_iff] at h⟩
    · exact ⟨Or.inr far.2, Or.inr far.1, Or.inl rfl, fun h => by simp [ext_iff] at h⟩
    · refine ⟨Or.inl rfl, Or.inl rfl, Or.inl rfl, fun _ => ?_⟩
      rcases h with rfl | rfl <;> rcases h' with rfl | rfl <;> simp
    · exact ⟨Or.inl rfl, Or.inr far.1, Or.inl rfl, fun h => by simp [ext_iff] at h⟩
    · exact ⟨Or.inr far.2, Or.inl rfl, Or.inl rfl, fun h => by simp [ext_iff] at h⟩
    · exact ⟨Or.inl rfl, Or.inr far.2, Or.inl rfl, fun h => by simp [ext_iff] at h⟩
    · refine ⟨Or.inl rfl, Or.inl rfl, Or.inl rfl, fun _ => ?_⟩
      rcases h with rfl | rfl <;> rcases h' with rfl | rfl <;> simp

end Goosli
