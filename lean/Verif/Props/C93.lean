import Verif.Props.C79
import Verif.Props.C81
import Verif.Props.C83
/-!
# C93: the line in which two triangles meet
-/
set_option autoImplicit false
namespace Goosli
open Flt R3

/-- the point of the segment at the parameter `r` -/
def lerpAt (p q : R3) (r : ℝ) : R3 := p + r • (q - p)

theorem orient_at (p q s t : R3) (r : ℝ) : orientVal (lerpAt p q r) s t = orientVal p s t + r * (orientVal q s t - orientVal p s t) :=
  orient_lerp p q s t r

/-- what `IntersectLine` returns where each segment separates the ends of the other: a new point, on the second segment and, seen from
above, on the line of the first -/
theorem side_value (s t p q : R3) (h1 : p.pt.orientation s.pt t.pt ≠ q.pt.orientation s.pt t.pt)
    (h2 : s.pt.orientation p.pt q.pt ≠ t.pt.orientation p.pt q.pt) :
    ∃ r : ℝ, (Line.mk s.pt t.pt).intersectLineP (Line.mk p.pt q.pt) = some ((lerpAt p q r).pt, .fresh) ∧ orientVal (lerpAt p q r) s t = 0 := by
  have hd : (t.x - s.x) * (q.y - p.y) - (t.y - s.y) * (q.x - p.x) ≠ 0 := by
    intro h0
    apply h1
    have e : orientVal p s t = orientVal q s t := by
      unfold orientVal; linear_combination h0
    rw [orientation_pt, orientation_pt, e]
  refine ⟨((t.y - s.y) * (p.x - s.x) - (t.x - s.x) * (p.y - s.y)) / ((t.x - s.x) * (q.y - p.y) - (t.y - s.y) * (q.x - p.x)), ?_, ?_⟩
  · unfold Line.intersectLineP
    simp only [if_pos (And.intro h1 h2), intersectParam_pt s t p q hd, line_toVector]
    simp [R3.pt, R3.vec, lerpAt, mul_comm]
  · rw [orient_at]
    unfold orientVal
    field_simp
    ring

/-- a side that is found: the point returned is on the side, hence in the triangle -/
theorem side_inside (s t p q : R3) (h1 : tol ≤ |orientVal p s t|) (h2 : tol ≤ |orientVal q s t|) (h3 : tol ≤ |orientVal s p q|)
    (h4 : tol ≤ |orientVal t p q|) (x : Point XR × Line.Prov) (h : (Line.mk s.pt t.pt).intersectLineP (Line.mk p.pt q.pt) = some x) :
    ∃ r u : ℝ, x = ((lerpAt p q r).pt, .fresh) ∧ 0 ≤ r ∧ r ≤ 1 ∧ orientVal (lerpAt p q r) s t = 0 ∧ 0 ≤ u ∧ u ≤ 1 ∧
      (lerpAt p q r).x = s.x + u * (t.x - s.x) ∧ (lerpAt p q r).y = s.y + u * (t.y - s.y) := by
  have hc := (side_crossed s t p q h1 h2 h3 h4).1 (by rw [h]; rfl)
  obtain ⟨r, hr, h0⟩ := side_value s t p q ((orientation_differ h1 h2).2 hc.1) ((orientation_differ h3 h4).2 hc.2)
  obtain ⟨w, u, ⟨r', r0, r1, rfl⟩, u0, u1, hx, hy⟩ := side_meets s t p q h1 h2 h3 h4 (by rw [h]; rfl)
  have hz : orientVal (p + r' • (q - p)) s t = 0 := by simp only [orientVal]; rw [hx, hy]; ring
  have : r' = r := by
    rw [orient_lerp] at hz
    rw [orient_at] at h0
    have hne : orientVal q s t - orientVal p s t ≠ 0 := by
      intro e
      have : orientVal q s t = orientVal p s t := by linarith
      rw [this] at hc
      nlinarith [hc.1, mul_self_nonneg (orientVal p s t)]
    exact mul_right_cancel₀ hne (by linarith)
  subst this
  rw [h] at hr
  exact ⟨r', u, Option.some.inj hr, r0, r1, h0, u0, u1, hx, hy⟩

section
variable {t : RTri} {p q : R3}

/-- the parameters of the segment at which it is, seen from above, in the triangle -/
def At (t : RTri) (p q : R3) (r : ℝ) : Prop := InShadow t (lerpAt p q r)

theorem At.between {r1 r2 r : ℝ} (h1 : At t p q r1) (h2 : At t p q r2) (a : r1 ≤ r) (b : r ≤ r2) : At t p q r := by
  obtain ⟨u, v, s, u0, v0, s0, hs, hx, hy⟩ := h1
  obtain ⟨u', v', s', u0', v0', s0', hs', hx', hy'⟩ := h2
  rcases eq_or_lt_of_le (a.trans b) with e | e
  · have : r = r1 := by linarith
    subst this
    exact ⟨u, v, s, u0, v0, s0, hs, hx, hy⟩
  · have hd : 0 < r2 - r1 := by linarith
    obtain ⟨k, hk⟩ : ∃ k, k = (r - r1) / (r2 - r1) := ⟨_, rfl⟩
    have hk' : k * (r2 - r1) = r - r1 := by rw [hk]; field_simp
    have k0 : 0 ≤ k := by rw [hk]; exact div_nonneg (by linarith) hd.le
    have k1 : 0 ≤ 1 - k := by rw [hk, sub_nonneg, div_le_one hd]; linarith
    refine ⟨(1 - k) * u + k * u', (1 - k) * v + k * v', (1 - k) * s + k * s', by positivity, by positivity, by positivity, ?_, ?_, ?_⟩
    · linear_combination (1 - k) * hs + k * hs'
    · simp only [lerpAt, R3.add_x, R3.smul_x, R3.sub_x] at hx hx' ⊢
      linear_combination (1 - k) * hx + k * hx' - (q.x - p.x) * hk'
    · simp only [lerpAt, R3.add_y, R3.smul_y, R3.sub_y] at hy hy' ⊢
      linear_combination (1 - k) * hy + k * hy' - (q.y - p.y) * hk'

/-- a line of a side bounds the parameters on one side of where it is crossed -/
theorem At.bound {s e : R3} {k r0 : ℝ} (hin : ∀ r, At t p q r → 0 ≤ k * orientVal (lerpAt p q r) s e) (hk : k ≠ 0)
    (h0 : orientVal (lerpAt p q r0) s e = 0) (hp : orientVal p s e ≠ 0) :
    (r0 ≠ 0) ∧ ((∀ r, At t p q r → r ≤ r0) ∨ (∀ r, At t p q r → r0 ≤ r)) := by
  rw [orient_at] at h0
  have hr : r0 ≠ 0 := by rintro rfl; apply hp; linarith
  refine ⟨hr, ?_⟩
  have hD : orientVal q s e - orientVal p s e ≠ 0 := by
    intro hD; rw [hD] at h0; apply hp; linarith
  have hf : ∀ r, k * orientVal (lerpAt p q r) s e = (k * (orientVal q s e - orientVal p s e)) * (r - r0) := by
    intro r; rw [orient_at]; linear_combination k * h0
  rcases lt_or_gt_of_ne (mul_ne_zero hk hD) with h | h
  · left; intro r hr; have := hin r hr; rw [hf] at this; by_contra hc; push Not at hc; nlinarith
  · right; intro r hr; have := hin r hr; rw [hf] at this; by_contra hc; push Not at hc; nlinarith

theorem segment_of_params {r1 r2 : ℝ} (a0 : 0 ≤ r1) (b1 : r2 ≤ 1) (hlo : ∀ r, 0 ≤ r → r ≤ 1 → At t p q r → r1 ≤ r)
    (hhi : ∀ r, 0 ≤ r → r ≤ 1 → At t p q r → r ≤ r2) (h1 : At t p q r1) (h2 : At t p q r2) (h12 : r1 ≤ r2) (w : R3) :
    (onSegment p q w ∧ InShadow t w) ↔ onSegment (lerpAt p q r1) (lerpAt p q r2) w := by
  constructor
  · rintro ⟨⟨r, r0, r1', rfl⟩, hw⟩
    have l := hlo r r0 r1' hw
    have h := hhi r r0 r1' hw
    rcases eq_or_lt_of_le h12 with e | e
    · have : r = r1 := by linarith
      subst this
      exact onSegment_left _ _
    · have hd : 0 < r2 - r1 := by linarith
      refine ⟨(r - r1) / (r2 - r1), div_nonneg (by linarith) hd.le, by rw [div_le_one hd]; linarith, ?_⟩
      apply R3.ext <;> simp [lerpAt] <;> field_simp <;> ring
  · rintro ⟨k, k0, k1, rfl⟩
    have e : lerpAt p q r1 + k • (lerpAt p q r2 - lerpAt p q r1) = lerpAt p q (r1 + k * (r2 - r1)) := by
      apply R3.ext <;> simp [lerpAt] <;> ring
    rw [e]
    have l : r1 ≤ r1 + k * (r2 - r1) := by nlinarith [mul_nonneg k0 (sub_nonneg.2 h12)]
    have h : r1 + k * (r2 - r1) ≤ r2 := by nlinarith [mul_nonneg (sub_nonneg.2 k1) (sub_nonneg.2 h12)]
    exact ⟨⟨_, by linarith, by linarith, rfl⟩, h1.between h2 l h⟩

/-- a side that is found, in terms of parameters -/
structure Cross (t : RTri) (p q s e : R3) (x : Point XR × Line.Prov) (r : ℝ) : Prop where
  val : x = ((lerpAt p q r).pt, .fresh)
  r0 : 0 ≤ r
  r1 : r ≤ 1
  at' : At t p q r
  zero : orientVal (lerpAt p q r) s e = 0
  bound : r ≠ 0 ∧ ((∀ r', At t p q r' → r' ≤ r) ∨ (∀ r', At t p q r' → r ≤ r'))
  bound1 : r ≠ 1

theorem in_orient (hz : t.nrm.z ≠ 0) {r : ℝ} (h : At t p q r) : 0 ≤ -t.nrm.z * orientVal (lerpAt p q r) t.a t.b ∧
    0 ≤ t.nrm.z * orientVal (lerpAt p q r) t.a t.c ∧ 0 ≤ -t.nrm.z * orientVal (lerpAt p q r) t.b t.c := by
  obtain ⟨h1, h2, h3⟩ := (inShadow_iff t hz _).1 h
  rw [orient_edge, orient_swap _ t.c t.a, orient_edge, orient_edge]
  refine ⟨by linarith, by linarith, by linarith⟩

theorem cross_ab (hz : t.nrm.z ≠ 0) (hg : GenericTo t p q) {x : Point XR × Line.Prov} (h : qAB t p q = some x) :
    ∃ r, Cross t p q t.a t.b x r := by
  obtain ⟨r, u, hx, r0, r1, h0, u0, u1, wx, wy⟩ := side_inside t.a t.b p q hg.pab hg.qab hg.a hg.b x h
  refine ⟨r, hx, r0, r1, ⟨1 - u, u, 0, by linarith, u0, le_rfl, by ring, by rw [wx]; ring, by rw [wy]; ring⟩, h0,
    At.bound (k := -t.nrm.z) (fun r hr => (in_orient hz hr).1) (neg_ne_zero.2 hz) h0 (orientVal_ne hg.pab), ?_⟩
  rintro rfl
  rw [orient_at] at h0
  exact orientVal_ne hg.qab (by linarith)

theorem cross_ac (hz : t.nrm.z ≠ 0) (hg : GenericTo t p q) {x : Point XR × Line.Prov} (h : qAC t p q = some x) :
    ∃ r, Cross t p q t.a t.c x r := by
  obtain ⟨r, u, hx, r0, r1, h0, u0, u1, wx, wy⟩ := side_inside t.a t.c p q hg.pac hg.qac hg.a hg.c x h
  refine ⟨r, hx, r0, r1, ⟨1 - u, 0, u, by linarith, le_rfl, u0, by ring, by rw [wx]; ring, by rw [wy]; ring⟩, h0,
    At.bound (k := t.nrm.z) (fun r hr => (in_orient hz hr).2.1) hz h0 (orientVal_ne hg.pac), ?_⟩
  rintro rfl
  rw [orient_at] at h0
  exact orientVal_ne hg.qac (by linarith)

theorem cross_bc (hz : t.nrm.z ≠ 0) (hg : GenericTo t p q) {x : Point XR × Line.Prov} (h : qBC t p q = some x) :
    ∃ r, Cross t p q t.b t.c x r := by
  obtain ⟨r, u, hx, r0, r1, h0, u0, u1, wx, wy⟩ := side_inside t.b t.c p q hg.pbc hg.qbc hg.b hg.c x h
  refine ⟨r, hx, r0, r1, ⟨0, 1 - u, u, le_rfl, by linarith, u0, by ring, by rw [wx]; ring, by rw [wy]; ring⟩, h0,
    At.bound (k := -t.nrm.z) (fun r hr => (in_orient hz hr).2.2) (neg_ne_zero.2 hz) h0 (orientVal_ne hg.pbc), ?_⟩
  rintro rfl
  rw [orient_at] at h0
  exact orientVal_ne hg.qbc (by linarith)

/-- a point on the lines of two sides is their common corner -/
theorem two_sides {c s e w : R3} (hn : orientVal s c e ≠ 0) (h1 : orientVal w c s = 0) (h2 : orientVal w c e = 0) : w.x = c.x ∧ w.y = c.y := by
  unfold orientVal at *
  constructor
  · apply sub_eq_zero.1
    apply (mul_eq_zero.1 ?_).resolve_right hn
    linear_combination (c.x - e.x) * h1 - (c.x - s.x) * h2
  · apply sub_eq_zero.1
    apply (mul_eq_zero.1 ?_).resolve_right hn
    linear_combination (c.y - e.y) * h1 - (c.y - s.y) * h2

theorem orient_on_line (r : ℝ) : orientVal (lerpAt p q r) p q = 0 := by rw [orient_at]; simp [orientVal]; ring

theorem cross_ne {s e s' e' : R3} {x x' : Point XR × Line.Prov} {r r' : ℝ} (h : Cross t p q s e x r) (h' : Cross t p q s' e' x' r')
    (hne : r ≠ r') : ∀ w, (onSegment p q w ∧ InShadow t w) ↔ onSegment (lerpAt p q r) (lerpAt p q r') w := by
  intro w
  rcases h.bound.2 with b | b <;> rcases h'.bound.2 with b' | b'
  · exact absurd (le_antisymm (b' _ h.at') (b _ h'.at')) hne
  · rw [onSegment_comm (lerpAt p q r)]
    exact segment_of_params h'.r0 h.r1 (fun r _ _ hr => b' r hr) (fun r _ _ hr => b r hr) h'.at' h.at' (b' _ h.at') w
  · exact segment_of_params h.r0 h'.r1 (fun r _ _ hr => b r hr) (fun r _ _ hr => b' r hr) h.at' h'.at' (b _ h'.at') w
  · exact absurd (le_antisymm (b _ h'.at') (b' _ h.at')) hne

theorem cross_first {s e : R3} {x : Point XR × Line.Prov} {r : ℝ} (h : Cross t p q s e x r) (h0 : InShadow t p) :
    ∀ w, (onSegment p q w ∧ InShadow t w) ↔ onSegment p (lerpAt p q r) w := by
  intro w
  have e0 : lerpAt p q 0 = p := by apply R3.ext <;> simp [lerpAt]
  have a0 : At t p q 0 := by unfold At; rw [e0]; exact h0
  have := segment_of_params (t := t) (p := p) (q := q) (r1 := 0) (r2 := r) le_rfl h.r1 (fun r h _ _ => h) (fun r' _ _ hr => by
    rcases h.bound.2 with b | b
    · exact b r' hr
    · exact absurd (le_antisymm (b _ a0) h.r0) h.bound.1) a0 h.at' h.r0 w
  rwa [e0] at this

theorem cross_second {s e : R3} {x : Point XR × Line.Prov} {r : ℝ} (h : Cross t p q s e x r) (h1 : InShadow t q) :
    ∀ w, (onSegment p q w ∧ InShadow t w) ↔ onSegment (lerpAt p q r) q w := by
  intro w
  have e1 : lerpAt p q 1 = q := by apply R3.ext <;> simp [lerpAt]
  have a1 : At t p q 1 := by unfold At; rw [e1]; exact h1
  have := segment_of_params (t := t) (p := p) (q := q) (r1 := r) (r2 := 1) h.r0 le_rfl (fun r' _ _ hr => by
    rcases h.bound.2 with b | b
    · exact absurd (le_antisymm h.r1 (b _ a1)) h.bound1
    · exact b r' hr) (fun r _ h _ => h) h.at' a1 h.r1 w
  rwa [e1] at this
end

/-- what `IntersectTriangle` says about a segment: its answer is nil exactly if no point of the segment is in the triangle, otherwise
the answer is the line of exactly the points of the segment in the triangle -/
def ExactAnswer (t : RTri) (p q : R3) (o : Option (Line XR)) : Prop :=
  (o = none ∧ ¬ ∃ w, onSegment p q w ∧ InShadow t w) ∨
  ∃ u v : R3, o = some ⟨u.pt, v.pt⟩ ∧ ∀ w, (onSegment p q w ∧ InShadow t w) ↔ onSegment u v w

/-- **C93, what holds.** Let the plane of the triangle `t`, not vertical, cut the triangle `t2` in the segment from `p` to `q`, in general
position to the sides of `t`. Then `IntersectTriangle` returns exactly the part of the segment that is in `t`, and nil if there is none. -/
theorem C93_segment_partial (t : RTri) (hz : t.nrm.z ≠ 0) (t2 : Triangle XR) (p q : R3)
    (hc : (Plane.mk t.a.pt t.nrm.vec).intersectTriangle t2 = some ⟨p.pt, q.pt⟩) (hp : InPlane t p) (hq : InPlane t q) (hg : GenericTo t p q) :
    ExactAnswer t p q (t.tri.intersectTriangle t2) := by
  have hb1 := belongs_iff t hz p hp
  have hb2 := belongs_iff t hz q hq
  have hn1 : orientVal t.b t.a t.c ≠ 0 := by
    have : orientVal t.b t.a t.c = t.nrm.z := by simp [orientVal, RTri.nrm, R3.cross]; ring
    rw [this]; exact hz
  have hn2 : orientVal t.a t.b t.c ≠ 0 := by
    have : orientVal t.a t.b t.c = -t.nrm.z := by simp [orientVal, RTri.nrm, R3.cross]; ring
    rw [this]; exact neg_ne_zero.2 hz
  have hn3 : orientVal t.a t.c t.b ≠ 0 := by
    have : orientVal t.a t.c t.b = t.nrm.z := by simp [orientVal, RTri.nrm, R3.cross]; ring
    rw [this]; exact hz
  have corner : ∀ {c w : R3}, w.x = c.x ∧ w.y = c.y → orientVal c p q = orientVal w p q := by
    intro c w h; simp [orientVal, h.1, h.2]
  have n12 : ∀ {x x' r r'}, Cross t p q t.a t.b x r → Cross t p q t.a t.c x' r' → r ≠ r' := by
    rintro x x' r r' h h' rfl
    apply orientVal_ne hg.a
    rw [corner (two_sides hn1 h.zero h'.zero)]
    exact orient_on_line r
  have n13 : ∀ {x x' r r'}, Cross t p q t.a t.b x r → Cross t p q t.b t.c x' r' → r ≠ r' := by
    rintro x x' r r' h h' rfl
    apply orientVal_ne hg.b
    rw [corner (two_sides (s := t.a) hn2 (by rw [orient_swap, h.zero, neg_zero]) h'.zero)]
    exact orient_on_line r
  have n23 : ∀ {x x' r r'}, Cross t p q t.a t.c x r → Cross t p q t.b t.c x' r' → r ≠ r' := by
    rintro x x' r r' h h' rfl
    apply orientVal_ne hg.c
    rw [corner (two_sides (s := t.a) hn3 (by rw [orient_swap, h.zero, neg_zero]) (by rw [orient_swap, h'.zero, neg_zero]))]
    exact orient_on_line r
  have hall : ∀ {x x' x'' r r' r''}, Cross t p q t.a t.b x r → Cross t p q t.a t.c x' r' → Cross t p q t.b t.c x'' r'' → False := by
    intro x x' x'' r r' r'' h1 h2 h3
    rcases h1.bound.2 with b1 | b1 <;> rcases h2.bound.2 with b2 | b2
    · exact n12 h1 h2 (le_antisymm (b2 _ h1.at') (b1 _ h2.at'))
    · rcases h3.bound.2 with b3 | b3
      · exact n13 h1 h3 (le_antisymm (b3 _ h1.at') (b1 _ h3.at'))
      · exact n23 h2 h3 (le_antisymm (b2 _ h3.at') (b3 _ h2.at'))
    · rcases h3.bound.2 with b3 | b3
      · exact n23 h2 h3 (le_antisymm (b3 _ h2.at') (b2 _ h3.at'))
      · exact n13 h1 h3 (le_antisymm (b1 _ h3.at') (b3 _ h1.at'))
    · exact n12 h1 h2 (le_antisymm (b1 _ h2.at') (b2 _ h1.at'))
  have cab := fun x => cross_ab (x := x) hz hg
  have cac := fun x => cross_ac (x := x) hz hg
  have cbc := fun x => cross_bc (x := x) hz hg
  have hmeet := C79_meets t hz t2 p q hc hp hq hg
  unfold Triangle.intersectTriangle at hmeet ⊢
  have hc' : (Plane.mk t.tri.p1 t.tri.n).intersectTriangle t2 = some ⟨p.pt, q.pt⟩ := hc
  simp only [hc'] at hmeet ⊢
  have e1 : (Line.mk t.tri.p1 t.tri.p2).intersectLineP (Line.mk p.pt q.pt) = qAB t p q := rfl
  have e2 : (Line.mk t.tri.p1 t.tri.p3).intersectLineP (Line.mk p.pt q.pt) = qAC t p q := rfl
  have e3 : (Line.mk t.tri.p2 t.tri.p3).intersectLineP (Line.mk p.pt q.pt) = qBC t p q := rfl
  simp only [e1, e2, e3] at hmeet ⊢
  have near : ∀ w, onSegment p q w → |t.nrm.dot (w - t.a)| < tol := by
    rintro w ⟨r, r0, r1, rfl⟩
    have e : t.nrm.dot (p + r • (q - p) - t.a) = t.nrm.dot (p - t.a) + r * (t.nrm.dot (q - t.a) - t.nrm.dot (p - t.a)) := by
      simp [R3.dot]; ring
    rw [e]
    have h1 := abs_lt.1 hp
    have h2 := abs_lt.1 hq
    rw [abs_lt]
    constructor <;> nlinarith [mul_nonneg r0 (sub_nonneg.2 h2.2.le), mul_nonneg (sub_nonneg.2 r1) (sub_nonneg.2 h1.2.le),
      mul_nonneg r0 (by linarith : (0 : ℝ) ≤ t.nrm.dot (q - t.a) + tol), mul_nonneg (sub_nonneg.2 r1) (by linarith : (0 : ℝ) ≤ t.nrm.dot (p - t.a) + tol)]
  have whole : InShadow t p → InShadow t q → ∀ w, (onSegment p q w ∧ InShadow t w) ↔ onSegment p q w := by
    intro h1 h2 w
    refine ⟨fun h => h.1, fun h => ⟨h, ?_⟩⟩
    obtain ⟨r, r0, r1, rfl⟩ := h
    refine At.between (r1 := 0) (r2 := 1) ?_ ?_ r0 r1
    · have e0 : lerpAt p q 0 = p := by apply R3.ext <;> simp [lerpAt]
      unfold At; rw [e0]; exact h1
    · have e1 : lerpAt p q 1 = q := by apply R3.ext <;> simp [lerpAt]
      unfold At; rw [e1]; exact h2
  have first : InShadow t p → ∀ {s e x r}, Cross t p q s e x r → ∀ y : Line XR, y = ⟨p.pt, x.1⟩ → ExactAnswer t p q (some y) := by
    rintro h s e x r hx y rfl
    exact Or.inr ⟨p, lerpAt p q r, by rw [hx.val], cross_first hx h⟩
  have second : InShadow t q → ∀ {s e x r}, Cross t p q s e x r → ∀ y : Line XR, y = ⟨x.1, q.pt⟩ → ExactAnswer t p q (some y) := by
    rintro h s e x r hx y rfl
    exact Or.inr ⟨lerpAt p q r, q, by rw [hx.val], cross_second hx h⟩
  have both : ∀ {s e x r s' e' x' r'}, Cross t p q s e x r → Cross t p q s' e' x' r' → r ≠ r' → ∀ y : Line XR, y = ⟨x.1, x'.1⟩ →
      ExactAnswer t p q (some y) := by
    rintro s e x r s' e' x' r' hx hx' hne y rfl
    exact Or.inr ⟨lerpAt p q r, lerpAt p q r', by rw [hx.val, hx'.val], cross_ne hx hx' hne⟩
  have hb1' : t.tri.pointBelongs p.pt = true → InShadow t p := hb1.1
  have hb2' : t.tri.pointBelongs q.pt = true → InShadow t q := hb2.1
  generalize t.tri.pointBelongs p.pt = b1 at *
  generalize t.tri.pointBelongs q.pt = b2 at *
  have nothing : ∀ o : Option (Line XR), (o.isSome = true ↔ Hits t p q) → o = none → ExactAnswer t p q o := by
    rintro o h rfl
    refine Or.inl ⟨rfl, ?_⟩
    rintro ⟨w, hw, hi⟩
    have := h.2 ⟨w, hw, near w hw, hi⟩
    cases this
  generalize qAB t p q = q1 at *
  generalize qAC t p q = q2 at *
  generalize qBC t p q = q3 at *
  cases b1 <;> cases b2
  · rcases q1 with _ | x1 <;> rcases q2 with _ | x2 <;> rcases q3 with _ | x3
    · exact nothing _ hmeet rfl
    · exact nothing _ hmeet rfl
    · exact nothing _ hmeet rfl
    · obtain ⟨r2, h2⟩ := cac _ rfl
      obtain ⟨r3, h3⟩ := cbc _ rfl
      exact both h2 h3 (n23 h2 h3) _ rfl
    · exact nothing _ hmeet rfl
    · obtain ⟨r1, h1⟩ := cab _ rfl
      obtain ⟨r3, h3⟩ := cbc _ rfl
      exact both h1 h3 (n13 h1 h3) _ rfl
    · obtain ⟨r1, h1⟩ := cab _ rfl
      obtain ⟨r2, h2⟩ := cac _ rfl
      exact both h1 h2 (n12 h1 h2) _ rfl
    · obtain ⟨r1, h1⟩ := cab _ rfl
      obtain ⟨r2, h2⟩ := cac _ rfl
      obtain ⟨r3, h3⟩ := cbc _ rfl
      exact (hall h1 h2 h3).elim
  · rcases q1 with _ | x1
    · rcases q2 with _ | x2
      · rcases q3 with _ | x3
        · exact nothing _ hmeet rfl
        · obtain ⟨r3, h3⟩ := cbc _ rfl
          exact second (hb2' rfl) h3 _ rfl
      · obtain ⟨r2, h2⟩ := cac _ rfl
        exact second (hb2' rfl) h2 _ rfl
    · obtain ⟨r1, h1⟩ := cab _ rfl
      exact second (hb2' rfl) h1 _ rfl
  · rcases q1 with _ | x1
    · rcases q2 with _ | x2
      · rcases q3 with _ | x3
        · exact nothing _ hmeet rfl
        · obtain ⟨r3, h3⟩ := cbc _ rfl
          exact first (hb1' rfl) h3 _ rfl
      · obtain ⟨r2, h2⟩ := cac _ rfl
        exact first (hb1' rfl) h2 _ rfl
    · obtain ⟨r1, h1⟩ := cab _ rfl
      exact first (hb1' rfl) h1 _ rfl
  · exact Or.inr ⟨p, q, rfl, whole (hb1' rfl) (hb2' rfl)⟩

/-- **C93, corners are missed.** If the segment runs through a corner of the triangle and out through the opposite side, its ends outside,
`IntersectTriangle` returns nil: the three sides are found, but the code compares the pointers to the points, not the points. -/
theorem C93_corner (t : RTri) (hz : t.nrm.z ≠ 0) (t2 : Triangle XR) (p q : R3)
    (hc : (Plane.mk t.a.pt t.nrm.vec).intersectTriangle t2 = some ⟨p.pt, q.pt⟩) (hp : InPlane t p) (hq : InPlane t q)
    (op : ¬ InShadow t p) (oq : ¬ InShadow t q) (ha : orientVal t.a p q = 0) (hb : tol ≤ |orientVal t.b p q|) (hcc : tol ≤ |orientVal t.c p q|)
    (hbc : orientVal t.b p q * orientVal t.c p q < 0) (pab : tol ≤ |orientVal p t.a t.b|) (pac : tol ≤ |orientVal p t.a t.c|)
    (pbc : tol ≤ |orientVal p t.b t.c|) (qab : tol ≤ |orientVal q t.a t.b|) (qac : tol ≤ |orientVal q t.a t.c|) (qbc : tol ≤ |orientVal q t.b t.c|)
    (hab : orientVal p t.a t.b * orientVal q t.a t.b < 0) (hac : orientVal p t.a t.c * orientVal q t.a t.c < 0)
    (hcr : orientVal p t.b t.c * orientVal q t.b t.c < 0) : t.tri.intersectTriangle t2 = none := by
  have zero : t.a.pt.orientation p.pt q.pt = 0 := by rw [orientation_pt, ha]; simp [tol_pos]
  have nz : ∀ {w : R3}, tol ≤ |orientVal w p q| → t.a.pt.orientation p.pt q.pt ≠ w.pt.orientation p.pt q.pt := by
    intro w h
    rw [zero]
    rcases orientation_cases h with ⟨_, e⟩ | ⟨_, e⟩ <;> rw [e] <;> decide
  obtain ⟨r1, h1, -⟩ := side_value t.a t.b p q ((orientation_differ pab qab).2 hab) (nz hb)
  obtain ⟨r2, h2, -⟩ := side_value t.a t.c p q ((orientation_differ pac qac).2 hac) (nz hcc)
  obtain ⟨r3, h3, -⟩ := side_value t.b t.c p q ((orientation_differ pbc qbc).2 hcr) ((orientation_differ hb hcc).2 hbc)
  have b1 : t.tri.pointBelongs p.pt = false := by
    rw [Bool.eq_false_iff]; exact fun h => op ((belongs_iff t hz p hp).1 h)
  have b2 : t.tri.pointBelongs q.pt = false := by
    rw [Bool.eq_false_iff]; exact fun h => oq ((belongs_iff t hz q hq).1 h)
  unfold Triangle.intersectTriangle
  have hc' : (Plane.mk t.tri.p1 t.tri.n).intersectTriangle t2 = some ⟨p.pt, q.pt⟩ := hc
  have e1 : (Line.mk t.tri.p1 t.tri.p2).intersectLineP (Line.mk p.pt q.pt) = _ := h1
  have e2 : (Line.mk t.tri.p1 t.tri.p3).intersectLineP (Line.mk p.pt q.pt) = _ := h2
  have e3 : (Line.mk t.tri.p2 t.tri.p3).intersectLineP (Line.mk p.pt q.pt) = _ := h3
  simp only [hc', b1, b2, e1, e2, e3]
  rfl

/-- a level triangle -/
def wedge : RTri := ⟨⟨0, 0, 0⟩, ⟨4, -2, 0⟩, ⟨4, 2, 0⟩⟩
/-- an upright triangle through a corner of it -/
def blade : RTri := ⟨⟨-2, 0, 1⟩, ⟨-2, 0, -1⟩, ⟨14, 0, -1⟩⟩

theorem wedge_nrm : wedge.nrm = ⟨0, 0, 16⟩ := by apply R3.ext <;> norm_num [wedge, RTri.nrm, R3.cross]

theorem blade_small : blade.a.small ∧ blade.b.small ∧ blade.c.small := by
  refine ⟨⟨?_, ?_, ?_⟩, ⟨?_, ?_, ?_⟩, ⟨?_, ?_, ?_⟩⟩ <;> norm_num [blade, roundLimit]

theorem wedge_section : ∃ p q : R3, ((p = ⟨-2, 0, 0⟩ ∧ q = ⟨6, 0, 0⟩) ∨ (p = ⟨6, 0, 0⟩ ∧ q = ⟨-2, 0, 0⟩)) ∧
    (Plane.mk wedge.a.pt wedge.nrm.vec).intersectTriangle blade.tri = some ⟨p.pt, q.pt⟩ := by
  obtain ⟨s1, s2, s3⟩ := blade_small
  have r0 : r8 0 = 0 := by simpa using r8_int 0
  have r2 : r8 (-2) = -2 := by simpa using r8_int (-2)
  have r6 : r8 6 = 6 := by simpa using r8_int 6
  obtain ⟨l, hl, h⟩ := section_of_crossings wedge.a wedge.nrm blade.a blade.b blade.c ⟨-2, 0, 0⟩ ⟨6, 0, 0⟩ s1 s2 s3
    (Or.inl ⟨by rw [wedge_nrm]; norm_num [R3.height, R3.dot, wedge, blade], ⟨1 / 2, by norm_num, by norm_num, by apply R3.ext <;> norm_num [blade]⟩,
      by rw [wedge_nrm]; norm_num [R3.onPlane, R3.height, R3.dot, wedge]⟩)
    (Or.inr (Or.inr ⟨by rw [wedge_nrm]; norm_num [R3.height, R3.dot, wedge, blade], ⟨1 / 2, by norm_num, by norm_num, by apply R3.ext <;> norm_num [blade]⟩,
      by rw [wedge_nrm]; norm_num [R3.onPlane, R3.height, R3.dot, wedge]⟩))
    (Or.inl (by norm_num))
  rw [newTriangle_tri] at hl
  have e1 : (R3.mk (-2) 0 0).round8 = ⟨-2, 0, 0⟩ := by simp [R3.round8, r0, r2]
  have e2 : (R3.mk 6 0 0).round8 = ⟨6, 0, 0⟩ := by simp [R3.round8, r0, r6]
  rw [e1, e2] at h
  rcases h with rfl | rfl
  · exact ⟨_, _, Or.inl ⟨rfl, rfl⟩, hl⟩
  · exact ⟨_, _, Or.inr ⟨rfl, rfl⟩, hl⟩

/-- **C93 is violated.** Two triangles have a segment of length 4 in common, and `IntersectTriangle` returns nil. -/
theorem C93_violated : wedge.tri.intersectTriangle blade.tri = none ∧ OnTri wedge ⟨0, 0, 0⟩ ∧ OnTri blade ⟨0, 0, 0⟩ ∧
    OnTri wedge ⟨4, 0, 0⟩ ∧ OnTri blade ⟨4, 0, 0⟩ := by
  have hz : wedge.nrm.z = 16 := by rw [wedge_nrm]
  refine ⟨?_, ⟨1, 0, 0, by norm_num, by norm_num, by norm_num, by norm_num, ?_⟩, ⟨1 / 2, 3 / 8, 1 / 8, by norm_num, by norm_num, by norm_num, by norm_num, ?_⟩,
    ⟨0, 1 / 2, 1 / 2, by norm_num, by norm_num, by norm_num, by norm_num, ?_⟩, ⟨1 / 2, 1 / 8, 3 / 8, by norm_num, by norm_num, by norm_num, by norm_num, ?_⟩⟩
  · obtain ⟨p, q, hpq, hs⟩ := wedge_section
    have out : ∀ w : R3, w = ⟨-2, 0, 0⟩ ∨ w = ⟨6, 0, 0⟩ → ¬ InShadow wedge w := by
      rintro w hw ⟨u, v, s, hu, hv, hs, h1, hx, hy⟩
      simp only [wedge] at hx hy
      rcases hw with rfl | rfl <;> simp at hx hy <;> linarith
    have inp : ∀ w : R3, w = ⟨-2, 0, 0⟩ ∨ w = ⟨6, 0, 0⟩ → InPlane wedge w := by
      intro w hw
      unfold InPlane
      rw [wedge_nrm]
      rcases hw with rfl | rfl <;> simp [R3.dot, wedge, tol_pos]
    have hp : p = ⟨-2, 0, 0⟩ ∨ p = ⟨6, 0, 0⟩ := by rcases hpq with h | h; exacts [Or.inl h.1, Or.inr h.1]
    have hq : q = ⟨-2, 0, 0⟩ ∨ q = ⟨6, 0, 0⟩ := by rcases hpq with h | h; exacts [Or.inr h.2, Or.inl h.2]
    refine C93_corner wedge (by rw [hz]; norm_num) _ p q hs (inp p hp) (inp q hq) (out p hp) (out q hq) ?_ ?_ ?_ ?_ ?_ ?_ ?_ ?_ ?_ ?_ ?_ ?_ ?_ <;>
      rcases hpq with ⟨rfl, rfl⟩ | ⟨rfl, rfl⟩ <;> norm_num [orientVal, wedge, tol]
  all_goals apply R3.ext <;> norm_num [wedge, blade]

/-- a triangle and a segment through it in general position: the answer is the part between the two sides (the hypotheses of
`C93_segment_partial` are met by the example beside `C79_meets`) -/
example : ∃ p q : R3, GenericTo ⟨⟨0, 0, 0⟩, ⟨4, 0, 0⟩, ⟨0, 4, 0⟩⟩ p q ∧ InPlane ⟨⟨0, 0, 0⟩, ⟨4, 0, 0⟩, ⟨0, 4, 0⟩⟩ p ∧
    InPlane ⟨⟨0, 0, 0⟩, ⟨4, 0, 0⟩, ⟨0, 4, 0⟩⟩ q ∧
    (Plane.mk (R3.mk 0 0 0).pt (RTri.mk ⟨0, 0, 0⟩ ⟨4, 0, 0⟩ ⟨0, 4, 0⟩).nrm.vec).intersectTriangle (RTri.mk ⟨1, -1, 1⟩ ⟨1, -1, -1⟩ ⟨3, 11, -1⟩).tri =
      some ⟨p.pt, q.pt⟩ := by
  have hn : (RTri.mk ⟨0, 0, 0⟩ ⟨4, 0, 0⟩ ⟨0, 4, 0⟩).nrm = ⟨0, 0, 16⟩ := by apply R3.ext <;> norm_num [RTri.nrm, R3.cross]
  have sm : ∀ x y z : ℝ, |x| ≤ 11 → |y| ≤ 11 → |z| ≤ 11 → (R3.mk x y z).small := by
    intro x y z hx hy hz
    have : (11 : ℝ) ≤ roundLimit := by unfold roundLimit; norm_num
    exact ⟨hx.trans this, hy.trans this, hz.trans this⟩
  have r0 : r8 0 = 0 := by simpa using r8_int 0
  have r1 : r8 1 = 1 := by simpa using r8_int 1
  have rm : r8 (-1) = -1 := by simpa using r8_int (-1)
  have r2 : r8 2 = 2 := by simpa using r8_int 2
  have r5 : r8 5 = 5 := by simpa using r8_int 5
  obtain ⟨l, hl, h⟩ := section_of_crossings ⟨0, 0, 0⟩ ⟨0, 0, 16⟩ ⟨1, -1, 1⟩ ⟨1, -1, -1⟩ ⟨3, 11, -1⟩ ⟨1, -1, 0⟩ ⟨2, 5, 0⟩
    (sm _ _ _ (by norm_num) (by norm_num) (by norm_num)) (sm _ _ _ (by norm_num) (by norm_num) (by norm_num)) (sm _ _ _ (by norm_num) (by norm_num) (by norm_num))
    (Or.inl ⟨by norm_num [R3.height, R3.dot], ⟨1 / 2, by norm_num, by norm_num, by apply R3.ext <;> norm_num⟩, by norm_num [R3.onPlane, R3.height, R3.dot]⟩)
    (Or.inr (Or.inr ⟨by norm_num [R3.height, R3.dot], ⟨1 / 2, by norm_num, by norm_num, by apply R3.ext <;> norm_num⟩,
      by norm_num [R3.onPlane, R3.height, R3.dot]⟩))
    (Or.inl (by norm_num))
  rw [newTriangle_tri] at hl
  have e1 : (R3.mk 1 (-1) 0).round8 = ⟨1, -1, 0⟩ := by simp [R3.round8, r0, r1, rm]
  have e2 : (R3.mk 2 5 0).round8 = ⟨2, 5, 0⟩ := by simp [R3.round8, r0, r2, r5]
  rw [e1, e2] at h
  rw [hn]
  unfold InPlane
  rw [hn]
  rcases h with rfl | rfl
  · refine ⟨_, _, ⟨?_, ?_, ?_, ?_, ?_, ?_, ?_, ?_, ?_⟩, by simp [R3.dot, tol_pos], by simp [R3.dot, tol_pos], hl⟩ <;> norm_num [orientVal, tol]
  · refine ⟨_, _, ⟨?_, ?_, ?_, ?_, ?_, ?_, ?_, ?_, ?_⟩, by simp [R3.dot, tol_pos], by simp [R3.dot, tol_pos], hl⟩ <;> norm_num [orientVal, tol]

end Goosli
