import Verif.Props.C07
/-!
# C08: triangle/plane intersection is sound and oriented
-/
set_option linter.unusedSectionVars false
namespace Goosli
open Flt

/-- crossing of the plane with an edge, from its two ends, when the edge is not parallel to the plane -/
def crosses (P N a b w : R3) : Prop :=
  R3.height P N a ≠ R3.height P N b ∧ R3.onSegment a b w ∧ R3.onPlane P N w

theorem intersectSegment_iff (P N a b : R3) (q : Point XR) :
    (Plane.mk P.pt N.vec).intersectSegment a.pt b.pt = some q ↔ ∃ w : R3, q = w.pt ∧ crosses P N a b w := by
  constructor
  · intro h
    obtain ⟨w, rfl, h1, h2⟩ := (C07_exact P N a b).1 q h
    have := (C07_when P N a b).1 (by rw [h]; rfl)
    exact ⟨w, rfl, this.1, h1, h2⟩
  · rintro ⟨w, rfl, h1, h2, h3⟩
    exact (C07_exact P N a b).2 h1 w h2 h3

theorem orElse_some {β : Type} {o : Option β} {f : Unit → Option β} {x : β} (h : o.orElse f = some x) :
    o = some x ∨ (o = none ∧ f () = some x) := by
  cases o with
  | none => exact Or.inr ⟨rfl, h⟩
  | some y => exact Or.inl h

theorem distinctPair_some {o o' : Option (Point XR)} {x y : Point XR} (h : Plane.distinctPair o o' = some (x, y)) :
    o = some x ∧ o' = some y ∧ x.equal y = false := by
  cases o with
  | none => simp [Plane.distinctPair] at h
  | some o =>
    cases o' with
    | none => simp [Plane.distinctPair] at h
    | some o' =>
      by_cases he : o.equal o' = true
      · simp [Plane.distinctPair, he] at h
      · simp only [Bool.not_eq_true] at he
        simp only [Plane.distinctPair, he, Bool.not_false, if_true, Option.some.injEq, Prod.mk.injEq] at h
        obtain ⟨rfl, rfl⟩ := h
        exact ⟨rfl, rfl, he⟩

/-- the chord found by the code joins crossings of two different edges that are at least `1e-6` apart -/
theorem chordEnds_spec (P N a b c : R3) (n : Vec XR) (x y : Point XR)
    (h : (Plane.mk P.pt N.vec).chordEnds ⟨n, a.pt, b.pt, c.pt⟩ = some (x, y)) :
    ∃ u v : R3, x = u.pt ∧ y = v.pt ∧ ¬ u.near v ∧
      ((crosses P N a b u ∧ crosses P N b c v) ∨ (crosses P N a b u ∧ crosses P N c a v) ∨
        (crosses P N b c u ∧ crosses P N c a v)) := by
  unfold Plane.chordEnds at h
  simp only at h
  have key := fun (o o' : Option (Point XR)) => distinctPair_some (o := o) (o' := o') (x := x) (y := y)
  have fin2 : ∀ {s t s' t' : R3}, (Plane.mk P.pt N.vec).intersectSegment s.pt t.pt = some x →
      (Plane.mk P.pt N.vec).intersectSegment s'.pt t'.pt = some y → x.equal y = false →
      ∃ u v : R3, x = u.pt ∧ y = v.pt ∧ ¬ u.near v ∧ crosses P N s t u ∧ crosses P N s' t' v := by
    intro s t s' t' h1 h2 h3
    obtain ⟨u, rfl, hu⟩ := (intersectSegment_iff _ _ _ _ _).1 h1
    obtain ⟨v, rfl, hv⟩ := (intersectSegment_iff _ _ _ _ _).1 h2
    refine ⟨u, v, rfl, rfl, fun hn => ?_, hu, hv⟩
    rw [(equal_pt u v).2 hn] at h3; simp at h3
  rcases orElse_some h with h | ⟨_, h⟩
  · obtain ⟨h1, h2, h3⟩ := key _ _ h
    obtain ⟨u, v, e1, e2, e3, e4, e5⟩ := fin2 h1 h2 h3
    exact ⟨u, v, e1, e2, e3, Or.inl ⟨e4, e5⟩⟩
  · rcases orElse_some h with h | ⟨_, h⟩
    · obtain ⟨h1, h2, h3⟩ := key _ _ h
      obtain ⟨u, v, e1, e2, e3, e4, e5⟩ := fin2 h1 h2 h3
      exact ⟨u, v, e1, e2, e3, Or.inr (Or.inl ⟨e4, e5⟩)⟩
    · obtain ⟨h1, h2, h3⟩ := key _ _ h
      obtain ⟨u, v, e1, e2, e3, e4, e5⟩ := fin2 h1 h2 h3
      exact ⟨u, v, e1, e2, e3, Or.inr (Or.inr ⟨e4, e5⟩)⟩

theorem lerp_bound {a b t M : ℝ} (h0 : 0 ≤ t) (h1 : t ≤ 1) (ha : |a| ≤ M) (hb : |b| ≤ M) : |a + t * (b - a)| ≤ M := by
  rw [abs_le] at *
  constructor <;> nlinarith

theorem small_of_onSegment {a b w : R3} (h : R3.onSegment a b w) (ha : a.small) (hb : b.small) : w.small := by
  obtain ⟨t, h0, h1, rfl⟩ := h
  exact ⟨lerp_bound h0 h1 ha.1 hb.1, lerp_bound h0 h1 ha.2.1 hb.2.1, lerp_bound h0 h1 ha.2.2 hb.2.2⟩

/-- `x` is within `0.5e-8` of `u` in every coordinate -/
def R3.within8 (x u : R3) : Prop :=
  |x.x - u.x| ≤ 1 / 2 / 10 ^ 8 ∧ |x.y - u.y| ≤ 1 / 2 / 10 ^ 8 ∧ |x.z - u.z| ≤ 1 / 2 / 10 ^ 8

theorem round8_within (u : R3) : u.round8.within8 u := ⟨r8_bounds _, r8_bounds _, r8_bounds _⟩

/-- Rounding cannot turn a chord around: if the exact chord is parallel to `w` and at least `1e-6` long in some
coordinate then the rounded chord has the same strict direction. -/
theorem direction_stable (u v x y w : R3) (hx : x.within8 u) (hy : y.within8 v) (hn : ¬ u.near v) (hw : w ≠ 0)
    (hpar : (v - u).cross w = 0) :
    ((v - u).dot w < 0 ∧ (y - x).dot w < 0) ∨ (0 < (v - u).dot w ∧ 0 < (y - x).dot w) := by
  set d := v - u with hd
  have lag : d.dot w * d.dot w = d.normSq * w.normSq := by
    have e : d.dot w * d.dot w + (d.cross w).normSq = d.normSq * w.normSq := by
      simp [R3.dot, R3.cross, R3.normSq]; ring
    rw [hpar] at e
    rw [← e]; simp [R3.normSq, R3.dot]
  set er := (y - x) - d with her
  have cs : er.dot w * er.dot w ≤ er.normSq * w.normSq := by
    have e : er.dot w * er.dot w + (er.cross w).normSq = er.normSq * w.normSq := by
      simp [R3.dot, R3.cross, R3.normSq]; ring
    have := (er.cross w).normSq_nonneg
    linarith
  have herx : |er.x| ≤ 1 / 10 ^ 8 := by
    have h1 := abs_le.1 hx.1; have h2 := abs_le.1 hy.1
    rw [abs_le, her, hd]; simp only [R3.sub_x]; constructor <;> linarith
  have hery : |er.y| ≤ 1 / 10 ^ 8 := by
    have h1 := abs_le.1 hx.2.1; have h2 := abs_le.1 hy.2.1
    rw [abs_le, her, hd]; simp only [R3.sub_y]; constructor <;> linarith
  have herz : |er.z| ≤ 1 / 10 ^ 8 := by
    have h1 := abs_le.1 hx.2.2; have h2 := abs_le.1 hy.2.2
    rw [abs_le, her, hd]; simp only [R3.sub_z]; constructor <;> linarith
  have sq : ∀ {t M : ℝ}, |t| ≤ M → t * t ≤ M * M := by
    intro t M h
    have := abs_nonneg t
    rw [← abs_mul_abs_self t]; nlinarith
  have sq' : ∀ {t M : ℝ}, 0 ≤ M → M ≤ |t| → M * M ≤ t * t := by
    intro t M h0 h
    rw [← abs_mul_abs_self t]; nlinarith
  have her2 : er.normSq ≤ 3 / 10 ^ 16 := by
    unfold R3.normSq R3.dot
    have := sq herx; have := sq hery; have := sq herz
    norm_num at *; linarith
  have hd2 : 1 / 10 ^ 12 ≤ d.normSq := by
    have ht : tol = 1 / 10 ^ 6 := rfl
    have hcase : tol ≤ |d.x| ∨ tol ≤ |d.y| ∨ tol ≤ |d.z| := by
      by_contra hc
      push Not at hc
      apply hn
      refine ⟨?_, ?_, ?_⟩
      · rw [abs_sub_comm]; exact hc.1
      · rw [abs_sub_comm]; exact hc.2.1
      · rw [abs_sub_comm]; exact hc.2.2
    unfold R3.normSq R3.dot
    have hx0 := mul_self_nonneg d.x
    have hy0 := mul_self_nonneg d.y
    have hz0 := mul_self_nonneg d.z
    have e : tol * tol = 1 / 10 ^ 12 := by rw [ht]; norm_num
    rcases hcase with h | h | h
    · have := sq' tol_pos.le h; linarith
    · have := sq' tol_pos.le h; linarith
    · have := sq' tol_pos.le h; linarith
  have hwp := R3.normSq_pos hw
  have hlt : er.dot w * er.dot w < d.dot w * d.dot w := by
    rw [lag]
    refine lt_of_le_of_lt cs (mul_lt_mul_of_pos_right ?_ hwp)
    refine lt_of_le_of_lt her2 (lt_of_lt_of_le ?_ hd2)
    norm_num
  have esum : (y - x).dot w = d.dot w + er.dot w := by simp [her, R3.dot]; ring
  rw [esum]
  have habs := abs_lt_iff_mul_self_lt.2 hlt
  rcases lt_trichotomy (d.dot w) 0 with h | h | h
  · left; rw [abs_of_neg h] at habs; have := (abs_lt.1 habs).2; exact ⟨h, by linarith⟩
  · rw [h, abs_zero] at habs; exact absurd habs (not_lt.2 (abs_nonneg _))
  · right; rw [abs_of_pos h] at habs; have := (abs_lt.1 habs).1; exact ⟨h, by linarith⟩

theorem triple (d N t : R3) : (d.cross N).dot t = d.dot (N.cross t) := by
  simp [R3.dot, R3.cross]; ring

/-- geometry of a chord of a non-degenerate triangle: it is parallel to `N × normal`, which is not zero -/
theorem chord_parallel {P N a b c u v s t s' t' : R3} (hs : s = a ∨ s = b ∨ s = c) (ht : t = a ∨ t = b ∨ t = c)
    (hs' : s' = a ∨ s' = b ∨ s' = c) (ht' : t' = a ∨ t' = b ∨ t' = c)
    (hu : crosses P N s t u) (hv : crosses P N s' t' v) (htn : (b - a).cross (c - a) ≠ 0) :
    N.cross ((b - a).cross (c - a)) ≠ 0 ∧ (v - u).cross (N.cross ((b - a).cross (c - a))) = 0 := by
  set tn := (b - a).cross (c - a) with htnd
  have inpl : ∀ s, (s = a ∨ s = b ∨ s = c) → s.dot tn = a.dot tn := by
    rintro s (rfl | rfl | rfl) <;> simp [htnd, R3.dot, R3.cross] <;> ring
  have inseg : ∀ {s t w}, s.dot tn = a.dot tn → t.dot tn = a.dot tn → R3.onSegment s t w → w.dot tn = a.dot tn := by
    rintro s t w h1 h2 ⟨r, _, _, rfl⟩
    have : (s + r • (t - s)).dot tn = s.dot tn + r * (t.dot tn - s.dot tn) := by simp [R3.dot]; ring
    rw [this, h1, h2]; ring
  have bac : ∀ e : R3, e.cross (N.cross tn) = (e.dot tn) • N - (e.dot N) • tn := by
    intro e; apply R3.ext <;> simp [R3.cross, R3.dot] <;> ring
  have subdot : ∀ p q m : R3, (p - q).dot m = p.dot m - q.dot m := by intro p q m; simp [R3.dot]; ring
  constructor
  · intro h0
    have h1 := bac (t - s)
    have h2 : (t - s).dot tn = 0 := by rw [subdot, inpl t ht, inpl s hs]; ring
    rw [h0, h2] at h1
    have h3 : (t - s).dot N ≠ 0 := by
      rw [subdot]; intro hc
      exact hu.1 (by rw [R3.height_eq, R3.height_eq]; linarith)
    apply htn
    have hx := congrArg R3.x h1; have hy := congrArg R3.y h1; have hz := congrArg R3.z h1
    simp [R3.cross] at hx hy hz
    exact R3.ext (hx.resolve_left h3) (hy.resolve_left h3) (hz.resolve_left h3)
  · rw [bac]
    have h1 : (v - u).dot tn = 0 := by
      rw [subdot, inseg (inpl _ hs') (inpl _ ht') hv.2.1, inseg (inpl _ hs) (inpl _ ht) hu.2.1]; ring
    have h2 : (v - u).dot N = 0 := by
      have e1 := hv.2.2; have e2 := hu.2.2
      unfold R3.onPlane at e1 e2
      rw [R3.height_eq] at e1 e2
      rw [subdot]; linarith
    rw [h1, h2]
    apply R3.ext <;> simp

/-- **C08.** Whenever `IntersectTriangle` returns a line, its ends are within `0.5e-8` per coordinate of two points that
lie on the plane and on the boundary of the triangle, they differ by at least `1e-6` in some coordinate, and walking
along the line (both the returned and the exact one) with the plane normal up, the outward normal of the triangle
points to the left: `(direction × N) · normal < 0`. -/
theorem C08_sound (P N a b c : R3) (ha : a.small) (hb : b.small) (hc : c.small) (l : Line XR)
    (h : (Plane.mk P.pt N.vec).intersectTriangle (newTriangle a.pt b.pt c.pt) = some l) :
    ∃ u v x y : R3, l = ⟨x.pt, y.pt⟩ ∧ R3.onPlane P N u ∧ R3.onPlane P N v ∧ R3.onBoundary a b c u ∧
      R3.onBoundary a b c v ∧ x.within8 u ∧ y.within8 v ∧ ¬ x.near y ∧
      ((b - a).cross (c - a) ≠ 0 → ((v - u).cross N).dot ((b - a).cross (c - a)) < 0 ∧
        ((y - x).cross N).dot ((b - a).cross (c - a)) < 0) := by
  rw [newTriangle_pt] at h
  unfold Plane.intersectTriangle at h
  cases hce : (Plane.mk P.pt N.vec).chordEnds ⟨((b - a).cross (c - a)).vec, a.pt, b.pt, c.pt⟩ with
  | none => rw [hce] at h; simp at h
  | some q =>
    obtain ⟨p, q⟩ := q
    rw [hce] at h
    obtain ⟨u, v, rfl, rfl, hn, hcase⟩ := chordEnds_spec P N a b c _ _ _ hce
    have hall : ∃ s t s' t' : R3, (s = a ∨ s = b ∨ s = c) ∧ (t = a ∨ t = b ∨ t = c) ∧ (s' = a ∨ s' = b ∨ s' = c) ∧
        (t' = a ∨ t' = b ∨ t' = c) ∧ crosses P N s t u ∧ crosses P N s' t' v ∧ R3.onBoundary a b c u ∧
        R3.onBoundary a b c v := by
      rcases hcase with ⟨h1, h2⟩ | ⟨h1, h2⟩ | ⟨h1, h2⟩
      · exact ⟨a, b, b, c, by simp, by simp, by simp, by simp, h1, h2, Or.inl h1.2.1, Or.inr (Or.inl h2.2.1)⟩
      · exact ⟨a, b, c, a, by simp, by simp, by simp, by simp, h1, h2, Or.inl h1.2.1, Or.inr (Or.inr h2.2.1)⟩
      · exact ⟨b, c, c, a, by simp, by simp, by simp, by simp, h1, h2, Or.inr (Or.inl h1.2.1), Or.inr (Or.inr h2.2.1)⟩
    obtain ⟨s, t, s', t', e1, e2, e3, e4, hu, hv, bu, bv⟩ := hall
    have sm : ∀ w, (w = a ∨ w = b ∨ w = c) → w.small := by rintro w (rfl | rfl | rfl) <;> assumption
    have su := small_of_onSegment hu.2.1 (sm _ e1) (sm _ e2)
    have sv := small_of_onSegment hv.2.1 (sm _ e3) (sm _ e4)
    simp only [roundPlaces_pt u su, roundPlaces_pt v sv] at h
    by_cases heq : u.round8.pt.equal v.round8.pt = true
    · simp [heq] at h
    · have hnn : ¬ u.round8.near v.round8 := fun hc => heq ((equal_pt _ _).2 hc)
      rw [if_neg heq] at h
      simp only [vectorTo_pt, cross_vec, dot_vec, lit00, XR.fin_lt] at h
      have dir : (b - a).cross (c - a) ≠ 0 → (((v - u).cross N).dot ((b - a).cross (c - a)) < 0 ∧
          ((v.round8 - u.round8).cross N).dot ((b - a).cross (c - a)) < 0) ∨
          (0 < ((v - u).cross N).dot ((b - a).cross (c - a)) ∧
          0 < ((v.round8 - u.round8).cross N).dot ((b - a).cross (c - a))) := by
        intro htn
        obtain ⟨w0, wp⟩ := chord_parallel e1 e2 e3 e4 hu hv htn
        rw [triple, triple]
        exact direction_stable u v _ _ _ (round8_within u) (round8_within v) hn w0 wp
      by_cases hlt : ((v.round8 - u.round8).cross N).dot ((b - a).cross (c - a)) < 0
      · rw [if_pos (by simpa using hlt)] at h
        simp only [Option.some.injEq] at h
        refine ⟨u, v, u.round8, v.round8, h.symm, hu.2.2, hv.2.2, bu, bv, round8_within u, round8_within v, hnn, ?_⟩
        intro htn
        rcases dir htn with h | h
        · exact h
        · linarith [h.2]
      · rw [if_neg (by simpa using hlt)] at h
        simp only [Option.some.injEq] at h
        refine ⟨v, u, v.round8, u.round8, h.symm, hv.2.2, hu.2.2, bv, bu, round8_within v, round8_within u, ?_, ?_⟩
        · intro hc; apply hnn
          exact ⟨by rw [abs_sub_comm]; exact hc.1, by rw [abs_sub_comm]; exact hc.2.1, by rw [abs_sub_comm]; exact hc.2.2⟩
        · intro htn
          have neg : ∀ p q : R3, ((p - q).cross N).dot ((b - a).cross (c - a)) =
              -((q - p).cross N).dot ((b - a).cross (c - a)) := by
            intro p q; simp [R3.dot, R3.cross]; ring
          rcases dir htn with h | h
          · exact absurd h.2 hlt
          · rw [neg u v, neg u.round8 v.round8]; constructor <;> linarith [h.1, h.2]

end Goosli
