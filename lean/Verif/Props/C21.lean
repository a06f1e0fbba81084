import Verif.Props.C20
import Verif.Proofs.Norms
/-!
# C21: cutting loses no surface
-/
set_option linter.unusedSectionVars false
namespace Goosli
open Flt

/-- sum of the area vectors (normals with twice the area as length) -/
noncomputable def areaSum (l : List RTri) : R3 := (l.map RTri.nrm).foldr (· + ·) 0

/-- `s.a` is alone on its side; `U`, `V` are the points where the plane meets the edges from `s.a` to `s.b` and `s.c`.
They are more than `1.02e-6` apart, the edge to `s.b` is at most 100 long, and `V` is not close to the line through it. -/
structure CleanCut (P N : R3) (s : RTri) (U V : R3) : Prop where
  side : (0 < R3.height P N s.a ∧ R3.height P N s.b < 0 ∧ R3.height P N s.c < 0) ∨
    (R3.height P N s.a < 0 ∧ 0 ≤ R3.height P N s.b ∧ 0 ≤ R3.height P N s.c)
  onU : R3.onSegment s.a s.b U ∧ R3.onPlane P N U
  onV : R3.onSegment s.a s.c V ∧ R3.onPlane P N V
  apart : U.apart V
  short : (s.b - s.a).norm ≤ 100
  wide : 2 / 10 ^ 6 ≤ ((s.b - s.a).cross (V - s.a)).norm

theorem crosses_symm {P N a b w : R3} (h : crosses P N a b w) : crosses P N b a w :=
  ⟨h.1.symm, onSegment_symm h.2.1, h.2.2⟩

/-- a point of the segment, seen from its start, is parallel to it -/
theorem cross_onSegment {a b w : R3} (h : R3.onSegment a b w) : (b - a).cross (w - a) = 0 := by
  obtain ⟨t, _, _, rfl⟩ := h
  apply R3.ext <;> simp [R3.cross] <;> ring

/-- the rounding error of a point of an edge, as seen by the cross product -/
theorem cross_near {a b w x : R3} (h : R3.onSegment a b w) (hx : x.within8 w) :
    ((b - a).cross (x - a)).norm ≤ (b - a).norm * (9 / 10 ^ 9) := by
  have e : (b - a).cross (x - a) = (b - a).cross (x - w) := by
    have h0 := cross_onSegment h
    have hx := congrArg R3.x h0; have hy := congrArg R3.y h0; have hz := congrArg R3.z h0
    simp [R3.cross] at hx hy hz
    apply R3.ext <;> simp [R3.cross] <;> linarith
  rw [e]
  exact (R3.cross_norm_le _ _).trans (mul_le_mul_of_nonneg_left (within8_norm hx) (R3.norm_nonneg _))

/-- area vectors of the three pieces -/
theorem pieces_area (s : RTri) (m1 m2 : R3) :
    areaSum [⟨s.a, m1, m2⟩, ⟨m1, s.b, s.c⟩, ⟨s.c, m2, m1⟩] - s.nrm =
      -((s.b - s.a).cross (m1 - s.a)) + (s.c - s.a).cross (m2 - s.a) := by
  apply R3.ext <;> simp [areaSum, RTri.nrm, R3.cross] <;> ring

theorem rots_nrm {r s : RTri} (h : s ∈ r.rots) : s.nrm = r.nrm := by
  simp only [RTri.rots, List.mem_cons, List.not_mem_nil, or_false] at h
  rcases h with rfl | rfl | rfl <;> apply R3.ext <;> simp [RTri.rot, RTri.nrm, R3.cross] <;> ring

theorem rots_near {r s s' : RTri} (hd : r.distinct) (h1 : s ∈ r.rots) (h2 : s' ∈ r.rots) (hn : s.a.near s'.a) : s = s' := by
  obtain ⟨d1, d2, d3⟩ := hd
  simp only [RTri.rots, List.mem_cons, List.not_mem_nil, or_false] at h1 h2
  rcases h1 with rfl | rfl | rfl <;> rcases h2 with rfl | rfl | rfl <;> simp only [RTri.rot] at hn ⊢
  · exact absurd hn d1
  · exact absurd (R3.near_symm hn) d3
  · exact absurd (R3.near_symm hn) d1
  · exact absurd hn d2
  · exact absurd hn d3
  · exact absurd (R3.near_symm hn) d2

/-- the pieces of a cleanly cut triangle -/
theorem clean_pieces (P N : R3) (r : RTri) (hr : r.small) (hd : r.distinct) (s : RTri) (hs : s ∈ r.rots) (U V : R3)
    (h : CleanCut P N s U V) :
    (0 < R3.height P N s.a → (cutTriangle ⟨P.pt, N.vec⟩ r.tri).up = [(RTri.mk s.a U.round8 V.round8).tri] ∧
      (cutTriangle ⟨P.pt, N.vec⟩ r.tri).down = [(RTri.mk U.round8 s.b s.c).tri, (RTri.mk s.c V.round8 U.round8).tri]) ∧
    (R3.height P N s.a < 0 → (cutTriangle ⟨P.pt, N.vec⟩ r.tri).down = [(RTri.mk s.a U.round8 V.round8).tri] ∧
      (cutTriangle ⟨P.pt, N.vec⟩ r.tri).up = [(RTri.mk U.round8 s.b s.c).tri, (RTri.mk s.c V.round8 U.round8).tri]) := by
  have hU : crosses P N s.a s.b U := ⟨by rcases h.side with h | h <;> intro e <;> linarith [h.1, h.2.1, h.2.2], h.onU⟩
  have hV : crosses P N s.a s.c V := ⟨by rcases h.side with h | h <;> intro e <;> linarith [h.1, h.2.1, h.2.2], h.onV⟩
  have hV' := crosses_symm hV
  have lift : (crosses P N r.a r.b U ∨ crosses P N r.b r.c U ∨ crosses P N r.c r.a U) ∧
      (crosses P N r.a r.b V ∨ crosses P N r.b r.c V ∨ crosses P N r.c r.a V) := by
    simp only [RTri.rots, List.mem_cons, List.not_mem_nil, or_false] at hs
    rcases hs with rfl | rfl | rfl <;> (try simp only [RTri.rot] at hU hV') <;> tauto
  obtain ⟨l, hl, hlc⟩ := section_of_crossings P N r.a r.b r.c U V hr.1 hr.2.1 hr.2.2 lift.1 lift.2 h.apart
  rw [newTriangle_tri] at hl
  have hl : (Plane.mk P.pt N.vec).intersectTriangle r.tri = some l := hl
  have key : splitOnThree s.a.pt l r.tri =
      ((RTri.mk s.a U.round8 V.round8).tri, (RTri.mk U.round8 s.b s.c).tri, (RTri.mk s.c V.round8 U.round8).tri) := by
    have big : tol ≤ ((s.b - s.a).cross (V.round8 - s.a)).norm := by
      have e : (s.b - s.a).cross (V - s.a) = (s.b - s.a).cross (V.round8 - s.a) + (s.b - s.a).cross (V - V.round8) := by
        apply R3.ext <;> simp [R3.cross] <;> ring
      have h1 := h.wide
      rw [e] at h1
      have h2 := R3.norm_add_le ((s.b - s.a).cross (V.round8 - s.a)) ((s.b - s.a).cross (V - V.round8))
      have h3 : ((s.b - s.a).cross (V - V.round8)).norm ≤ 100 * (9 / 10 ^ 9) := by
        refine (R3.cross_norm_le _ _).trans (mul_le_mul h.short ?_ (R3.norm_nonneg _) (by norm_num))
        have := within8_norm (round8_within V)
        rwa [← R3.norm_neg', show -(V.round8 - V) = V - V.round8 by apply R3.ext <;> simp] at this
      unfold tol
      norm_num at *
      linarith
    have small : ((s.b - s.a).cross (U.round8 - s.a)).norm < tol := by
      refine lt_of_le_of_lt (cross_near h.onU.1 (round8_within U)) ?_
      have := mul_le_mul_of_nonneg_right h.short (show (0 : ℝ) ≤ 9 / 10 ^ 9 by norm_num)
      refine lt_of_le_of_lt this ?_
      unfold tol; norm_num
    rcases hlc with rfl | rfl
    · obtain ⟨s', hs', hn, m1, m2, hm, e⟩ := split_spec r s.a U.round8 V.round8 (verts_rots hs).1
      obtain rfl := rots_near hd hs' hs hn
      rcases hm with ⟨rfl, rfl, _⟩ | ⟨rfl, rfl, hc⟩
      · exact e
      · exact absurd hc (not_lt.2 big)
    · obtain ⟨s', hs', hn, m1, m2, hm, e⟩ := split_spec r s.a V.round8 U.round8 (verts_rots hs).1
      obtain rfl := rots_near hd hs' hs hn
      rcases hm with ⟨rfl, rfl, hc⟩ | ⟨rfl, rfl, _⟩
      · exact absurd hc (not_le.2 small)
      · exact e
  -- which case of the loop applies
  have same : ∀ s' ∈ r.rots, (0 < R3.height P N s.a ∧ R3.height P N s.b < 0 ∧ R3.height P N s.c < 0 ∧ 0 ≤ R3.height P N s'.a) ∨
      (R3.height P N s.a < 0 ∧ 0 ≤ R3.height P N s.b ∧ 0 ≤ R3.height P N s.c ∧ R3.height P N s'.a < 0) → s' = s := by
    intro s' hs' hc
    have := rots_trans hs hs'
    simp only [RTri.rots, List.mem_cons, List.not_mem_nil, or_false] at this
    rcases this with rfl | rfl | rfl
    · rfl
    · simp only [RTri.rot] at hc
      rcases hc with hc | hc <;> linarith [hc.1, hc.2.1, hc.2.2.1, hc.2.2.2]
    · simp only [RTri.rot] at hc
      rcases hc with hc | hc <;> linarith [hc.1, hc.2.1, hc.2.2.1, hc.2.2.2]
  have allr : ∀ Q : R3 → Prop, Q r.a → Q r.b → Q r.c → Q s.a ∧ Q s.b ∧ Q s.c := by
    intro Q q1 q2 q3
    simp only [RTri.rots, List.mem_cons, List.not_mem_nil, or_false] at hs
    rcases hs with rfl | rfl | rfl <;> simp [RTri.rot, q1, q2, q3]
  have none_ne : (Plane.mk P.pt N.vec).intersectTriangle r.tri ≠ none := by rw [hl]; simp
  rcases cut_cases P N r with ⟨h1, h2, h3, e⟩ | ⟨h1, h2, h3, e⟩ | ⟨s', hs', i1, i2, i3, ⟨e, _⟩ | ⟨l', hl', e⟩⟩ |
    ⟨s', hs', i1, i2, i3, ⟨e, _⟩ | ⟨l', hl', e⟩⟩
  · have := allr (fun v => 0 ≤ R3.height P N v) h1 h2 h3
    rcases h.side with h | h <;> linarith [h.1, h.2.1, h.2.2, this.1, this.2.1]
  · have := allr (fun v => R3.height P N v < 0) h1 h2 h3
    rcases h.side with h | h <;> linarith [h.1, h.2.1, h.2.2, this.1, this.2.1]
  · exact absurd e none_ne
  · rw [hl] at hl'; obtain rfl := Option.some.inj hl'
    rcases h.side with hh | hh
    · obtain rfl := same s' hs' (Or.inl ⟨hh.1, hh.2.1, hh.2.2, i1⟩)
      rw [e, key]
      exact ⟨fun _ => ⟨rfl, rfl⟩, fun hc => by linarith [hh.1]⟩
    · exfalso
      have := rots_trans hs hs'
      simp only [RTri.rots, List.mem_cons, List.not_mem_nil, or_false] at this
      rcases this with rfl | rfl | rfl <;> (try simp only [RTri.rot] at i1 i2 i3) <;> linarith [hh.1, hh.2.1, hh.2.2]
  · exact absurd e none_ne
  · rw [hl] at hl'; obtain rfl := Option.some.inj hl'
    rcases h.side with hh | hh
    · exfalso
      have := rots_trans hs hs'
      simp only [RTri.rots, List.mem_cons, List.not_mem_nil, or_false] at this
      rcases this with rfl | rfl | rfl <;> (try simp only [RTri.rot] at i1 i2 i3) <;> linarith [hh.1, hh.2.1, hh.2.2]
    · obtain rfl := same s' hs' (Or.inr ⟨hh.1, hh.2.1, hh.2.2, i1⟩)
      rw [e, key]
      exact ⟨fun hc => by linarith [hh.1], fun _ => ⟨rfl, rfl⟩⟩

/-- how the claim is met for one triangle: it is on one side, or cleanly cut -/
def CutKind (P N : R3) (r : RTri) : Prop :=
  (∀ v ∈ r.verts, 0 ≤ R3.height P N v) ∨ (∀ v ∈ r.verts, R3.height P N v < 0) ∨
    (r.distinct ∧ ∃ s ∈ r.rots, ∃ U V, CleanCut P N s U V)

/-- the longest edge is at most `L` -/
def RTri.edgesLe (r : RTri) (L : ℝ) : Prop := (r.b - r.a).norm ≤ L ∧ (r.c - r.b).norm ≤ L ∧ (r.a - r.c).norm ≤ L

/-- the pieces of one triangle -/
theorem cut_area (P N : R3) (r : RTri) (hr : r.small) (hk : CutKind P N r) :
    ∃ up down : List RTri, (cutTriangle ⟨P.pt, N.vec⟩ r.tri).up = up.map RTri.tri ∧
      (cutTriangle ⟨P.pt, N.vec⟩ r.tri).down = down.map RTri.tri ∧
      ∀ L, r.edgesLe L → (areaSum (up ++ down) - r.nrm).norm ≤ 2 / 10 ^ 8 * L := by
  have hL : ∀ L, r.edgesLe L → 0 ≤ L := fun L h => le_trans (R3.norm_nonneg _) h.1
  have one : (areaSum [r] - r.nrm).norm = 0 := by
    rw [R3.norm_eq_zero]; apply R3.ext <;> simp [areaSum]
  rcases hk with h | h | ⟨hd, s, hs, U, V, h⟩
  · have ha := h r.a (by simp [RTri.verts])
    refine ⟨[r], [], ?_, ?_, fun L hl => by rw [List.append_nil, one]; have := hL L hl; positivity⟩
    all_goals
      rcases cut_cases P N r with ⟨_, _, _, e⟩ | ⟨h', _⟩ | ⟨s, hs, _, h', _, _⟩ | ⟨s, hs, h', _⟩
      · rw [e]; rfl
      · linarith
      · exact absurd (h _ (verts_rots hs).2.1) (by linarith)
      · exact absurd (h _ (verts_rots hs).1) (by linarith)
  · have ha := h r.a (by simp [RTri.verts])
    refine ⟨[], [r], ?_, ?_, fun L hl => by rw [List.nil_append, one]; have := hL L hl; positivity⟩
    all_goals
      rcases cut_cases P N r with ⟨h', _⟩ | ⟨_, _, _, e⟩ | ⟨s, hs, h', _⟩ | ⟨s, hs, _, h', _⟩
      · linarith
      · rw [e]; rfl
      · exact absurd (h _ (verts_rots hs).1) (by linarith)
      · exact absurd (h _ (verts_rots hs).2.1) (by linarith)
  · obtain ⟨k1, k2⟩ := clean_pieces P N r hr hd s hs U V h
    have edges : ∀ L, r.edgesLe L → (s.b - s.a).norm ≤ L ∧ (s.c - s.a).norm ≤ L := by
      intro L hl
      have sw : ∀ p q : R3, (p - q).norm = (q - p).norm := by
        intro p q; rw [← R3.norm_neg', show -(p - q) = q - p by apply R3.ext <;> simp]
      obtain ⟨l1, l2, l3⟩ := hl
      simp only [RTri.rots, List.mem_cons, List.not_mem_nil, or_false] at hs
      rcases hs with rfl | rfl | rfl <;> (try simp only [RTri.rot])
      · exact ⟨l1, by rw [sw]; exact l3⟩
      · exact ⟨l2, by rw [sw]; exact l1⟩
      · exact ⟨l3, by rw [sw]; exact l2⟩
    have bound : ∀ L, r.edgesLe L →
        (areaSum [⟨s.a, U.round8, V.round8⟩, ⟨U.round8, s.b, s.c⟩, ⟨s.c, V.round8, U.round8⟩] - r.nrm).norm ≤ 2 / 10 ^ 8 * L := by
      intro L hl
      rw [← rots_nrm hs, pieces_area]
      have e1 := cross_near h.onU.1 (round8_within U)
      have e2 := cross_near h.onV.1 (round8_within V)
      have e3 := R3.norm_add_le (-((s.b - s.a).cross (U.round8 - s.a))) ((s.c - s.a).cross (V.round8 - s.a))
      rw [R3.norm_neg'] at e3
      have := edges L hl
      have := hL L hl
      norm_num at *
      linarith
    rcases h.side with hh | hh
    · obtain ⟨e1, e2⟩ := k1 hh.1
      exact ⟨[⟨s.a, U.round8, V.round8⟩], [⟨U.round8, s.b, s.c⟩, ⟨s.c, V.round8, U.round8⟩], e1, e2, bound⟩
    · obtain ⟨e1, e2⟩ := k2 hh.1
      refine ⟨[⟨U.round8, s.b, s.c⟩, ⟨s.c, V.round8, U.round8⟩], [⟨s.a, U.round8, V.round8⟩], e2, e1, ?_⟩
      intro L hl
      have := bound L hl
      rwa [show areaSum ([⟨U.round8, s.b, s.c⟩, ⟨s.c, V.round8, U.round8⟩] ++ [⟨s.a, U.round8, V.round8⟩]) =
        areaSum [⟨s.a, U.round8, V.round8⟩, ⟨U.round8, s.b, s.c⟩, ⟨s.c, V.round8, U.round8⟩] by
          apply R3.ext <;> simp [areaSum] <;> ring]

/-- **C21 (what holds for cleanly cut triangles).** If every triangle is on one side of the plane or cleanly cut, the two
halves consist of pieces of the triangles, in their order, followed by the caps, and the area vectors of the pieces of a
triangle add up to its own up to `2e-8` times its longest edge (the rounding of the cut points); triangles on one side
are their own single piece.  Missing to the full property: triangles touching the plane with one vertex from behind
(`C21_touching_dropped`), edges longer than about 100 (`C21_long_edge_violated`), chords shorter than about `1e-6`. -/
theorem C21_area_partial (S : Sorter) (P N : R3) (ts : List RTri) (hs : ∀ r ∈ ts, r.small) (hk : ∀ r ∈ ts, CutKind P N r) :
    ∃ (pieces : List (List RTri × List RTri)) (caps : List RTri),
      cutMesh S (some (rmesh ts)) ⟨P.pt, N.vec⟩ =
        .ok (⟨(pieces.flatMap (·.1)).map RTri.tri ++ caps.map RTri.tri⟩,
          ⟨(pieces.flatMap (·.2)).map RTri.tri ++ caps.map (fun c => c.flip.tri)⟩) ∧
      List.Forall₂ (fun r pc => ∀ L, r.edgesLe L → (areaSum (pc.1 ++ pc.2) - r.nrm).norm ≤ 2 / 10 ^ 8 * L) ts pieces := by
  obtain ⟨_, caps, h0, h1, _, _⟩ := cutMesh_shape S P N ts hs
  obtain ⟨pieces, e1, e2, h2⟩ : ∃ pieces : List (List RTri × List RTri),
      ts.flatMap (fun r => (cutTriangle ⟨P.pt, N.vec⟩ r.tri).up) = (pieces.flatMap (·.1)).map RTri.tri ∧
      ts.flatMap (fun r => (cutTriangle ⟨P.pt, N.vec⟩ r.tri).down) = (pieces.flatMap (·.2)).map RTri.tri ∧
      List.Forall₂ (fun r pc => ∀ L, r.edgesLe L → (areaSum (pc.1 ++ pc.2) - r.nrm).norm ≤ 2 / 10 ^ 8 * L) ts pieces := by
    clear h0 h1
    induction ts with
    | nil => exact ⟨[], rfl, rfl, .nil⟩
    | cons r ts ih =>
      obtain ⟨ps, e1, e2, h⟩ := ih (fun x hx => hs x (by simp [hx])) (fun x hx => hk x (by simp [hx]))
      obtain ⟨up, down, f1, f2, f3⟩ := cut_area P N r (hs r (by simp)) (hk r (by simp))
      exact ⟨(up, down) :: ps, by simp [e1, f1], by simp [e2, f2], .cons f3 h⟩
  exact ⟨pieces, caps, by rw [h1, e1, e2], h2⟩

/-- **C21 (violated: touching triangles are dropped).** A triangle with one vertex on the plane and the other two strictly
behind it contributes to neither half. -/
theorem C21_touching_dropped (P N : R3) (r s : RTri) (hs : s ∈ r.rots) (h0 : R3.height P N s.a = 0)
    (h1 : R3.height P N s.b < 0) (h2 : R3.height P N s.c < 0) :
    cutTriangle ⟨P.pt, N.vec⟩ r.tri = ⟨[], [], []⟩ := by
  have ends : ∀ a b : R3, R3.onSegment a b a := fun a b => ⟨0, le_refl _, zero_le_one, by apply R3.ext <;> simp⟩
  have prod : ∀ {a b q : R3}, crosses P N a b q → R3.height P N a * R3.height P N b ≤ 0 := by
    intro a b q h
    exact ((C07_when P N a b).1 (by rw [(intersectSegment_iff P N a b q.pt).2 ⟨q, rfl, h⟩]; rfl)).2
  have bc : ∀ q, ¬ crosses P N s.b s.c q := fun q h => by nlinarith [prod h]
  have ab : ∀ q, crosses P N s.a s.b q → q = s.a := fun q h => crossing_unique h.1 h.2.1 h.2.2 (ends _ _) h0
  have ca : ∀ q, crosses P N s.c s.a q → q = s.a := fun q h =>
    crossing_unique (crosses_symm h).1 (crosses_symm h).2.1 h.2.2 (ends _ _) h0
  have all : ∀ q, crosses P N r.a r.b q ∨ crosses P N r.b r.c q ∨ crosses P N r.c r.a q → q = s.a := by
    intro q hq
    have hq : crosses P N s.a s.b q ∨ crosses P N s.b s.c q ∨ crosses P N s.c s.a q := by
      simp only [RTri.rots, List.mem_cons, List.not_mem_nil, or_false] at hs
      rcases hs with rfl | rfl | rfl <;> (try simp only [RTri.rot]) <;> tauto
    rcases hq with h | h | h
    · exact ab q h
    · exact absurd h (bc q)
    · exact ca q h
  have hno : (Plane.mk P.pt N.vec).intersectTriangle r.tri = none := by
    unfold Plane.intersectTriangle
    cases hce : (Plane.mk P.pt N.vec).chordEnds r.tri with
    | none => rfl
    | some q =>
      obtain ⟨x, y⟩ := q
      obtain ⟨u, v, _, _, hn, hc⟩ := chordEnds_spec P N r.a r.b r.c _ _ _ hce
      have e1 := all u (by tauto)
      have e2 := all v (by tauto)
      rw [e1, e2] at hn
      exact absurd (R3.near_refl _) hn
  have allr : ∀ Q : R3 → Prop, Q r.a → Q r.b → Q r.c → Q s.a ∧ Q s.b ∧ Q s.c := by
    intro Q q1 q2 q3
    simp only [RTri.rots, List.mem_cons, List.not_mem_nil, or_false] at hs
    rcases hs with rfl | rfl | rfl <;> simp [RTri.rot, q1, q2, q3]
  rcases cut_cases P N r with ⟨h1, h2, h3, e⟩ | ⟨h1, h2, h3, e⟩ | ⟨s', hs', i1, i2, i3, ⟨_, e⟩ | ⟨l', hl', e⟩⟩ |
    ⟨s', hs', i1, i2, i3, ⟨_, e⟩ | ⟨l', hl', e⟩⟩
  · have := allr (fun v => 0 ≤ R3.height P N v) h1 h2 h3
    linarith [this.2.1]
  · have := allr (fun v => R3.height P N v < 0) h1 h2 h3
    linarith [this.1]
  · exact e
  · rw [hno] at hl'; cases hl'
  · exact e
  · rw [hno] at hl'; cases hl'

/-- a triangle with edges of length 1000 -/
noncomputable def longTri : RTri := ⟨⟨0, 0, 1⟩, ⟨8 / 10 ^ 9, 1000, -1⟩, ⟨1000, 0, -1⟩⟩

/-- **C21 (violated for long edges).** `splitOnThree` decides by an absolute tolerance which cut point lies on which edge.
For edges of length 1000 the rounding of the cut point is enough to mislead it: the pieces of `longTri` cut by the plane
`z = 0` overlap, and their area vectors add up to a vector with vertical component 0 instead of `-1000000`. -/
theorem C21_long_edge_violated : longTri.small ∧ longTri.nrm.z = -1000000 ∧ ∃ up down : List RTri,
    cutTriangle ⟨(R3.mk 0 0 0).pt, (R3.mk 0 0 1).vec⟩ longTri.tri =
      ⟨up.map RTri.tri, down.map RTri.tri, (cutTriangle ⟨(R3.mk 0 0 0).pt, (R3.mk 0 0 1).vec⟩ longTri.tri).inters⟩ ∧
      (areaSum (up ++ down)).z = 0 := by
  have hsm : longTri.small := by
    refine ⟨?_, ?_, ?_⟩ <;> simp only [longTri, R3.small, roundLimit] <;> norm_num [abs_of_nonneg]
  refine ⟨hsm, by simp [longTri, RTri.nrm, R3.cross]; norm_num, ?_⟩
  set P : R3 := ⟨0, 0, 0⟩ with hP
  set N : R3 := ⟨0, 0, 1⟩ with hN
  have ha : R3.height P N longTri.a = 1 := by simp [R3.height, R3.dot, longTri, hP, hN]
  have hb : R3.height P N longTri.b = -1 := by simp [R3.height, R3.dot, longTri, hP, hN]
  have hc : R3.height P N longTri.c = -1 := by simp [R3.height, R3.dot, longTri, hP, hN]
  have hU : crosses P N longTri.a longTri.b ⟨4 / 10 ^ 9, 500, 0⟩ := by
    refine ⟨by rw [ha, hb]; norm_num, ⟨1 / 2, by norm_num, by norm_num, ?_⟩, by simp [R3.onPlane, R3.height, R3.dot, hP, hN]⟩
    apply R3.ext <;> simp [longTri] <;> norm_num
  have hV : crosses P N longTri.c longTri.a ⟨500, 0, 0⟩ := by
    refine ⟨by rw [ha, hc]; norm_num, ⟨1 / 2, by norm_num, by norm_num, ?_⟩, by simp [R3.onPlane, R3.height, R3.dot, hP, hN]⟩
    apply R3.ext <;> simp [longTri] <;> norm_num
  obtain ⟨l, hl, hlc⟩ := section_of_crossings P N longTri.a longTri.b longTri.c _ _
    hsm.1 hsm.2.1 hsm.2.2 (Or.inl hU) (Or.inr (Or.inr hV)) (Or.inl (by norm_num))
  have hU8 : (R3.mk (4 / 10 ^ 9) 500 0).round8 = ⟨0, 500, 0⟩ := by
    have h1 : r8 (4 / 10 ^ 9) = 0 := by
      have h := abs_le.1 (r8_bounds (4 / 10 ^ 9))
      unfold r8
      norm_num
    have h2 : r8 500 = 500 := by exact_mod_cast r8_int 500
    have h3 : r8 0 = 0 := by exact_mod_cast r8_int 0
    simp [R3.round8, h1, h2, h3]
  have hV8 : (R3.mk 500 0 0).round8 = ⟨500, 0, 0⟩ := by
    have h2 : r8 500 = 500 := by exact_mod_cast r8_int 500
    have h3 : r8 0 = 0 := by exact_mod_cast r8_int 0
    simp [R3.round8, h2, h3]
  rw [hU8, hV8] at hlc
  have hl2 : l = ⟨(R3.mk 500 0 0).pt, (R3.mk 0 500 0).pt⟩ := by
    rcases hlc with e | e
    · exfalso
      obtain ⟨u, v, x, y, e1, _, _, _, _, _, _, _, hdir⟩ := C08_sound P N _ _ _ hsm.1 hsm.2.1 hsm.2.2 l hl
      rw [e] at e1
      injection e1 with e1 e2
      have := R3.pt_inj e1; have := R3.pt_inj e2
      subst x y
      have hne : (longTri.b - longTri.a).cross (longTri.c - longTri.a) ≠ 0 := by
        intro h0
        have := congrArg R3.z h0
        simp [longTri, R3.cross] at this
      have h9 := (hdir hne).2
      simp [longTri, R3.cross, R3.dot, hN] at h9
      norm_num at h9
    · exact e
  rw [newTriangle_tri] at hl
  have hl : (Plane.mk P.pt N.vec).intersectTriangle longTri.tri = some l := hl
  have hd : longTri.distinct := by
    refine ⟨?_, ?_, ?_⟩
    · rintro ⟨_, h, _⟩; simp [tol, longTri] at h; norm_num at h
    · rintro ⟨_, h, _⟩; simp [tol, longTri] at h; norm_num at h
    · rintro ⟨h, _, _⟩; simp [tol, longTri] at h; norm_num at h
  have key : splitOnThree longTri.a.pt l longTri.tri =
      ((RTri.mk longTri.a ⟨500, 0, 0⟩ ⟨0, 500, 0⟩).tri, (RTri.mk ⟨500, 0, 0⟩ longTri.b longTri.c).tri,
        (RTri.mk longTri.c ⟨0, 500, 0⟩ ⟨500, 0, 0⟩).tri) := by
    rw [hl2]
    obtain ⟨s', hs', hn, m1, m2, hm, e⟩ := split_spec longTri longTri.a ⟨500, 0, 0⟩ ⟨0, 500, 0⟩ (by simp [RTri.verts])
    have : s' = longTri := rots_near hd hs' (by simp [RTri.rots]) hn
    subst this
    rcases hm with ⟨rfl, rfl, hc⟩ | ⟨rfl, rfl, hc⟩
    · exact e
    · exfalso
      have h1 : (4 / 10 ^ 6 : ℝ) ≤ ((longTri.b - longTri.a).cross (R3.mk 0 500 0 - longTri.a)).norm := by
        unfold R3.norm
        refine Real.le_sqrt_of_sq_le ?_
        simp [longTri, R3.cross, R3.normSq, R3.dot]
        norm_num
      unfold tol at hc
      norm_num at *
      linarith
  refine ⟨[⟨longTri.a, ⟨500, 0, 0⟩, ⟨0, 500, 0⟩⟩], [⟨⟨500, 0, 0⟩, longTri.b, longTri.c⟩, ⟨longTri.c, ⟨0, 500, 0⟩, ⟨500, 0, 0⟩⟩], ?_, ?_⟩
  · rcases cut_cases P N longTri with ⟨_, h, _⟩ | ⟨h, _⟩ | ⟨s, hs, i1, i2, i3, ⟨e, _⟩ | ⟨l', hl', e⟩⟩ |
      ⟨s, hs, i1, i2, i3, _⟩
    · rw [hb] at h; norm_num at h
    · rw [ha] at h; norm_num at h
    · rw [hl] at e; cases e
    · rw [hl] at hl'; obtain rfl := Option.some.inj hl'
      simp only [RTri.rots, List.mem_cons, List.not_mem_nil, or_false] at hs
      rcases hs with rfl | rfl | rfl
      · rw [e, key]; rfl
      · simp only [RTri.rot] at i1; rw [hb] at i1; norm_num at i1
      · simp only [RTri.rot] at i1; rw [hc] at i1; norm_num at i1
    · simp only [RTri.rots, List.mem_cons, List.not_mem_nil, or_false] at hs
      rcases hs with rfl | rfl | rfl
      · rw [ha] at i1; norm_num at i1
      · simp only [RTri.rot] at i2; rw [hc] at i2; norm_num at i2
      · simp only [RTri.rot] at i3; rw [hb] at i3; norm_num at i3
  · simp [areaSum, RTri.nrm, R3.cross, longTri]
    norm_num

/-- a triangle cleanly cut by the plane `z = 0` -/
example : CleanCut ⟨0, 0, 0⟩ ⟨0, 0, 1⟩ ⟨⟨0, 0, 1⟩, ⟨10, 0, -1⟩, ⟨0, 10, -1⟩⟩ ⟨5, 0, 0⟩ ⟨0, 5, 0⟩ := by
  refine ⟨Or.inl ?_, ⟨⟨1 / 2, ?_, ?_, ?_⟩, ?_⟩, ⟨⟨1 / 2, ?_, ?_, ?_⟩, ?_⟩, Or.inl ?_, ?_, ?_⟩
  · simp [R3.height, R3.dot]
  · norm_num
  · norm_num
  · apply R3.ext <;> simp <;> norm_num
  · simp [R3.onPlane, R3.height, R3.dot]
  · norm_num
  · norm_num
  · apply R3.ext <;> simp <;> norm_num
  · simp [R3.onPlane, R3.height, R3.dot]
  · norm_num
  · exact R3.norm_le_of_sq (by norm_num) (by simp [R3.normSq, R3.dot]; norm_num)
  · unfold R3.norm
    refine Real.le_sqrt_of_sq_le ?_
    simp [R3.cross, R3.normSq, R3.dot]
    norm_num

/-- a triangle touching the plane `z = 0` with one vertex from behind -/
example : cutTriangle ⟨(R3.mk 0 0 0).pt, (R3.mk 0 0 1).vec⟩ (RTri.mk ⟨0, 0, 0⟩ ⟨10, 0, -1⟩ ⟨0, 10, -1⟩).tri = ⟨[], [], []⟩ :=
  C21_touching_dropped _ _ _ (RTri.mk ⟨0, 0, 0⟩ ⟨10, 0, -1⟩ ⟨0, 10, -1⟩) (by simp [RTri.rots]) (by simp [R3.height, R3.dot])
    (by simp [R3.height, R3.dot]) (by simp [R3.height, R3.dot])

end Goosli
