import Verif.Props.C09
import Verif.Props.C55
import Verif.Props.C56
import Verif.Props.C78
import Verif.Spec.Shapes
/-!
# C79: supports are left out where they cut through the model
-/
set_option linter.unusedSectionVars false
set_option autoImplicit false
namespace Goosli
open Flt

/-! ## Specification -/

/-- seen from above, the point lies in the triangle -/
def InShadow (t : RTri) (w : R3) : Prop :=
  ∃ u v s : ℝ, 0 ≤ u ∧ 0 ≤ v ∧ 0 ≤ s ∧ u + v + s = 1 ∧ w.x = u * t.a.x + v * t.b.x + s * t.c.x ∧ w.y = u * t.a.y + v * t.b.y + s * t.c.y

/-- the segment `p q` has a point in common with the triangle: one in its plane (up to the tolerance of the code) that lies in
the triangle seen from above -/
def Hits (t : RTri) (p q : R3) : Prop := ∃ w : R3, R3.onSegment p q w ∧ |t.nrm.dot (w - t.a)| < tol ∧ InShadow t w

/-- the segment is in general position to the triangle, seen from above: no end of the segment on the line of a side, no corner
on the line of the segment -/
structure GenericTo (t : RTri) (p q : R3) : Prop where
  pab : tol ≤ |orientVal p t.a t.b|
  pac : tol ≤ |orientVal p t.a t.c|
  pbc : tol ≤ |orientVal p t.b t.c|
  qab : tol ≤ |orientVal q t.a t.b|
  qac : tol ≤ |orientVal q t.a t.c|
  qbc : tol ≤ |orientVal q t.b t.c|
  a : tol ≤ |orientVal t.a p q|
  b : tol ≤ |orientVal t.b p q|
  c : tol ≤ |orientVal t.c p q|

/-- the two ends lie in the plane of the triangle, up to the tolerance of the code -/
def InPlane (t : RTri) (p : R3) : Prop := |t.nrm.dot (p - t.a)| < tol

/-! ## One side -/

theorem orientVal_ne {r p q : R3} (h : tol ≤ |orientVal r p q|) : orientVal r p q ≠ 0 := by
  intro h0; rw [h0, abs_zero] at h; linarith [tol_pos]

theorem orientation_cases {r p q : R3} (h : tol ≤ |orientVal r p q|) :
    (0 < orientVal r p q ∧ r.pt.orientation p.pt q.pt = 1) ∨ (orientVal r p q < 0 ∧ r.pt.orientation p.pt q.pt = 2) := by
  rw [orientation_pt, if_neg (not_lt.2 h)]
  rcases lt_or_gt_of_ne (orientVal_ne h) with h0 | h0
  · right; exact ⟨h0, if_neg (not_lt.2 h0.le)⟩
  · left; exact ⟨h0, if_pos h0⟩

theorem orientation_differ {r s p q : R3} (hr : tol ≤ |orientVal r p q|) (hs : tol ≤ |orientVal s p q|) :
    r.pt.orientation p.pt q.pt ≠ s.pt.orientation p.pt q.pt ↔ orientVal r p q * orientVal s p q < 0 := by
  rcases orientation_cases hr with ⟨h1, e1⟩ | ⟨h1, e1⟩ <;> rcases orientation_cases hs with ⟨h2, e2⟩ | ⟨h2, e2⟩ <;> rw [e1, e2]
  · simp; positivity
  · simp [mul_neg_of_pos_of_neg h1 h2]
  · simp [mul_neg_of_neg_of_pos h1 h2]
  · simp; exact (mul_pos_of_neg_of_neg h1 h2).le

/-- for segments in general position `IntersectLine` finds a crossing exactly if each separates the ends of the other -/
theorem side_crossed (s t p q : R3) (h1 : tol ≤ |orientVal p s t|) (h2 : tol ≤ |orientVal q s t|) (h3 : tol ≤ |orientVal s p q|)
    (h4 : tol ≤ |orientVal t p q|) :
    ((Line.mk s.pt t.pt).intersectLineP (Line.mk p.pt q.pt)).isSome = true ↔
      orientVal p s t * orientVal q s t < 0 ∧ orientVal s p q * orientVal t p q < 0 := by
  have n1 : p.pt.orientation s.pt t.pt ≠ 0 := by rcases orientation_cases h1 with ⟨_, e⟩ | ⟨_, e⟩ <;> rw [e] <;> decide
  have n2 : q.pt.orientation s.pt t.pt ≠ 0 := by rcases orientation_cases h2 with ⟨_, e⟩ | ⟨_, e⟩ <;> rw [e] <;> decide
  have n3 : s.pt.orientation p.pt q.pt ≠ 0 := by rcases orientation_cases h3 with ⟨_, e⟩ | ⟨_, e⟩ <;> rw [e] <;> decide
  have n4 : t.pt.orientation p.pt q.pt ≠ 0 := by rcases orientation_cases h4 with ⟨_, e⟩ | ⟨_, e⟩ <;> rw [e] <;> decide
  rw [← orientation_differ h1 h2, ← orientation_differ h3 h4]
  unfold Line.intersectLineP
  simp only [n1, n2, n3, n4, false_and, if_false]
  split_ifs with h
  · simp only [Option.isSome_some, true_iff]; exact h
  · simp only [Option.isSome_none, Bool.false_eq_true, false_iff]; exact h

/-! ## The shadow of the triangle -/

theorem orient_edge (p s t : R3) : orientVal p s t = -edgeFn s t p := by simp [orientVal, edgeFn]; ring

theorem orient_swap (p s t : R3) : orientVal p t s = -orientVal p s t := by simp [orientVal]; ring

/-- the signs of the three edge functions decide whether a point is in the shadow -/
theorem inShadow_iff (t : RTri) (hz : t.nrm.z ≠ 0) (w : R3) : InShadow t w ↔
    0 ≤ t.nrm.z * edgeFn t.a t.b w ∧ 0 ≤ t.nrm.z * edgeFn t.b t.c w ∧ 0 ≤ t.nrm.z * edgeFn t.c t.a w := by
  constructor
  · rintro ⟨u, v, s, hu, hv, hs, h1, hx, hy⟩
    have hs' : s = 1 - u - v := by linarith
    have e1 : edgeFn t.a t.b w = s * t.nrm.z := by
      simp only [edgeFn, RTri.nrm, R3.cross, R3.sub_x, R3.sub_y, R3.sub_z, hx, hy]; rw [hs']; ring
    have e2 : edgeFn t.b t.c w = u * t.nrm.z := by
      simp only [edgeFn, RTri.nrm, R3.cross, R3.sub_x, R3.sub_y, R3.sub_z, hx, hy]; rw [hs']; ring
    have e3 : edgeFn t.c t.a w = v * t.nrm.z := by
      simp only [edgeFn, RTri.nrm, R3.cross, R3.sub_x, R3.sub_y, R3.sub_z, hx, hy]; rw [hs']; ring
    rw [e1, e2, e3]
    have := mul_self_nonneg t.nrm.z
    refine ⟨?_, ?_, ?_⟩
    · nlinarith [mul_nonneg hs this]
    · nlinarith [mul_nonneg hu this]
    · nlinarith [mul_nonneg hv this]
  · rintro ⟨h1, h2, h3⟩
    have hs := edge_sum t w
    have pos : 0 < t.nrm.z * t.nrm.z := mul_self_pos.2 hz
    have dv : ∀ {e : ℝ}, 0 ≤ t.nrm.z * e → 0 ≤ e / t.nrm.z := by
      intro e he
      have : e / t.nrm.z = t.nrm.z * e / (t.nrm.z * t.nrm.z) := by field_simp
      rw [this]; positivity
    refine ⟨edgeFn t.b t.c w / t.nrm.z, edgeFn t.c t.a w / t.nrm.z, edgeFn t.a t.b w / t.nrm.z, dv h2, dv h3, dv h1, ?_, ?_, ?_⟩
    · rw [← add_div, ← add_div, div_eq_iff hz]; linarith
    · field_simp
      simp only [edgeFn, RTri.nrm, R3.cross, R3.sub_x, R3.sub_y, R3.sub_z]; ring
    · field_simp
      simp only [edgeFn, RTri.nrm, R3.cross, R3.sub_x, R3.sub_y, R3.sub_z]; ring

/-- for points in the plane, the code's test is whether the point is in the shadow -/
theorem belongs_iff (t : RTri) (hz : t.nrm.z ≠ 0) (p : R3) (hp : InPlane t p) : t.tri.pointBelongs p.pt = true ↔ InShadow t p := by
  rw [pointBelongs_tri, decide_eq_true_eq, inShadow_iff t hz]
  unfold InPlane at hp
  simp only [hp, true_and]
  have hs := edge_sum t p
  constructor
  · rintro (h | h)
    · have : 0 ≤ t.nrm.z := by linarith
      exact ⟨mul_nonneg this h.1, mul_nonneg this h.2.1, mul_nonneg this h.2.2⟩
    · have : t.nrm.z ≤ 0 := by linarith
      exact ⟨mul_nonneg_of_nonpos_of_nonpos this h.1, mul_nonneg_of_nonpos_of_nonpos this h.2.1, mul_nonneg_of_nonpos_of_nonpos this h.2.2⟩
  · rintro ⟨h1, h2, h3⟩
    rcases lt_or_gt_of_ne hz with h | h
    · right; exact ⟨by by_contra hc; push Not at hc; nlinarith, by by_contra hc; push Not at hc; nlinarith, by by_contra hc; push Not at hc; nlinarith⟩
    · left; exact ⟨by by_contra hc; push Not at hc; nlinarith, by by_contra hc; push Not at hc; nlinarith, by by_contra hc; push Not at hc; nlinarith⟩

/-- going from a point where all functions are non-negative to one where some are negative, one of them vanishes first -/
theorem first_exit : ∀ l : List (ℝ × ℝ), (∀ x ∈ l, 0 ≤ x.1) → (∃ x ∈ l, x.2 < 0) →
    ∃ s : ℝ, 0 ≤ s ∧ s ≤ 1 ∧ ∃ x ∈ l, x.2 < 0 ∧ x.1 + s * (x.2 - x.1) = 0 ∧ ∀ y ∈ l, 0 ≤ y.1 + s * (y.2 - y.1)
  | [], _, h => by simp at h
  | z :: l, h0, hn => by
    have hz0 := h0 z (by simp)
    have hl0 : ∀ x ∈ l, 0 ≤ x.1 := fun x hx => h0 x (by simp [hx])
    -- where a function with negative end vanishes
    have root : z.2 < 0 → ∃ s, 0 ≤ s ∧ s ≤ 1 ∧ z.1 + s * (z.2 - z.1) = 0 := by
      intro hz
      have hd : 0 < z.1 - z.2 := by linarith
      refine ⟨z.1 / (z.1 - z.2), by positivity, by rw [div_le_one hd]; linarith, ?_⟩
      field_simp; ring
    by_cases hl : ∃ x ∈ l, x.2 < 0
    · obtain ⟨s, s0, s1, x, hx, hxn, hxz, hall⟩ := first_exit l hl0 hl
      by_cases hzs : 0 ≤ z.1 + s * (z.2 - z.1)
      · refine ⟨s, s0, s1, x, by simp [hx], hxn, hxz, ?_⟩
        intro y hy
        rcases List.mem_cons.1 hy with rfl | hy
        · exact hzs
        · exact hall y hy
      · push Not at hzs
        have hzn : z.2 < 0 := by by_contra hc; push Not at hc; nlinarith [mul_nonneg s0 hc, mul_nonneg (sub_nonneg.2 s1) hz0]
        obtain ⟨r, r0, r1, hr⟩ := root hzn
        have hrs : r ≤ s := by
          by_contra hc; push Not at hc
          have : z.2 - z.1 < 0 := by linarith
          nlinarith
        refine ⟨r, r0, r1, z, by simp, hzn, hr, ?_⟩
        intro y hy
        rcases List.mem_cons.1 hy with rfl | hy
        · exact hr.ge
        · have h1 := hall y hy
          have h2 := hl0 y hy
          by_cases hc : 0 ≤ y.2 - y.1
          · nlinarith [mul_nonneg r0 hc]
          · push Not at hc; nlinarith
    · push Not at hl
      have hzn : z.2 < 0 := by
        obtain ⟨x, hx, hxn⟩ := hn
        rcases List.mem_cons.1 hx with rfl | hx
        · exact hxn
        · linarith [hl x hx]
      obtain ⟨r, r0, r1, hr⟩ := root hzn
      refine ⟨r, r0, r1, z, by simp, hzn, hr, ?_⟩
      intro y hy
      rcases List.mem_cons.1 hy with rfl | hy
      · exact hr.ge
      · nlinarith [mul_nonneg r0 (hl y hy), mul_nonneg (sub_nonneg.2 r1) (hl0 y hy)]

/-- a value between two that are not zero vanishes only if they have opposite signs -/
theorem opposite {A B s : ℝ} (h0 : 0 ≤ s) (h1 : s ≤ 1) (hA : A ≠ 0) (hB : B ≠ 0) (h : A + s * (B - A) = 0) : A * B < 0 := by
  rcases lt_or_gt_of_ne hA with a | a <;> rcases lt_or_gt_of_ne hB with b | b
  · exfalso; nlinarith [mul_nonneg h0 (neg_nonneg.2 b.le), mul_nonneg (sub_nonneg.2 h1) (neg_nonneg.2 a.le), mul_nonneg h0 (sub_nonneg.2 h1)]
  · exact mul_neg_of_neg_of_pos a b
  · exact mul_neg_of_pos_of_neg a b
  · exfalso; nlinarith [mul_nonneg h0 b.le, mul_nonneg (sub_nonneg.2 h1) a.le]

theorem orient_lerp (a b c d : R3) (x : ℝ) : orientVal (a + x • (b - a)) c d = orientVal a c d + x * (orientVal b c d - orientVal a c d) := by
  simp [orientVal]; ring

/-- a common point of the segment and a side, seen from above, is found -/
theorem side_found (s t p q w : R3) (h1 : tol ≤ |orientVal p s t|) (h2 : tol ≤ |orientVal q s t|) (h3 : tol ≤ |orientVal s p q|)
    (h4 : tol ≤ |orientVal t p q|) (hw : R3.onSegment p q w) (u : ℝ) (hu0 : 0 ≤ u) (hu1 : u ≤ 1)
    (hx : w.x = s.x + u * (t.x - s.x)) (hy : w.y = s.y + u * (t.y - s.y)) :
    ((Line.mk s.pt t.pt).intersectLineP (Line.mk p.pt q.pt)).isSome = true := by
  obtain ⟨r, r0, r1, rfl⟩ := hw
  rw [side_crossed s t p q h1 h2 h3 h4]
  constructor
  · apply opposite r0 r1 (orientVal_ne h1) (orientVal_ne h2)
    rw [← orient_lerp]
    simp only [orientVal]
    rw [hx, hy]; ring
  · apply opposite hu0 hu1 (orientVal_ne h3) (orientVal_ne h4)
    rw [← orient_lerp]
    have e : orientVal (s + u • (t - s)) p q = orientVal (p + r • (q - p)) p q := by
      simp only [orientVal]
      rw [hx, hy]; simp
    rw [e, orient_lerp]
    simp [orientVal]; ring

/-- a side that is found has a point in common with the segment, seen from above -/
theorem side_meets (s t p q : R3) (h1 : tol ≤ |orientVal p s t|) (h2 : tol ≤ |orientVal q s t|) (h3 : tol ≤ |orientVal s p q|)
    (h4 : tol ≤ |orientVal t p q|) (h : ((Line.mk s.pt t.pt).intersectLineP (Line.mk p.pt q.pt)).isSome = true) :
    ∃ (w : R3) (u : ℝ), R3.onSegment p q w ∧ 0 ≤ u ∧ u ≤ 1 ∧ w.x = s.x + u * (t.x - s.x) ∧ w.y = s.y + u * (t.y - s.y) := by
  rw [side_crossed s t p q h1 h2 h3 h4] at h
  have frac : ∀ {A B : ℝ}, A * B < 0 → A - B ≠ 0 ∧ 0 ≤ A / (A - B) ∧ A / (A - B) ≤ 1 := by
    intro A B hab
    rcases lt_trichotomy A 0 with hA | hA | hA
    · have hB : 0 < B := by by_contra hc; push Not at hc; nlinarith
      have hd : A - B < 0 := by linarith
      exact ⟨hd.ne, div_nonneg_of_nonpos hA.le hd.le, by rw [div_le_one_of_neg hd]; linarith⟩
    · rw [hA] at hab; simp at hab
    · have hB : B < 0 := by by_contra hc; push Not at hc; nlinarith
      have hd : 0 < A - B := by linarith
      exact ⟨hd.ne', div_nonneg hA.le hd.le, by rw [div_le_one hd]; linarith⟩
  obtain ⟨d1, f0, f1⟩ := frac h.1
  obtain ⟨d2, g0, g1⟩ := frac h.2
  obtain ⟨D, hD⟩ : ∃ D, D = orientVal p s t - orientVal q s t := ⟨_, rfl⟩
  have hD2 : orientVal s p q - orientVal t p q = -D := by rw [hD]; simp only [orientVal]; ring
  have hD0 : D ≠ 0 := by rw [hD]; exact d1
  refine ⟨p + (orientVal p s t / (orientVal p s t - orientVal q s t)) • (q - p), orientVal s p q / (orientVal s p q - orientVal t p q),
    ⟨_, f0, f1, rfl⟩, g0, g1, ?_, ?_⟩
  · rw [hD2, ← hD]
    simp only [R3.add_x, R3.smul_x, R3.sub_x]
    field_simp
    rw [hD]; simp only [orientVal]; ring
  · rw [hD2, ← hD]
    simp only [R3.add_y, R3.smul_y, R3.sub_y]
    field_simp
    rw [hD]; simp only [orientVal]; ring

/-! ## The triangle and the segment -/

theorem edge_lerp (a b c d : R3) (x : ℝ) : edgeFn c d (a + x • (b - a)) = edgeFn c d a + x * (edgeFn c d b - edgeFn c d a) := by
  simp [edgeFn]; ring

theorem onSegment_left (p q : R3) : R3.onSegment p q p := ⟨0, le_refl _, zero_le_one, by apply R3.ext <;> simp⟩

theorem onSegment_right (p q : R3) : R3.onSegment p q q := ⟨1, zero_le_one, le_refl _, by apply R3.ext <;> simp⟩

/-- a segment contains what is between two of its points -/
theorem onSegment_between {p q u v w : R3} (hu : R3.onSegment p q u) (hv : R3.onSegment p q v) (hw : R3.onSegment u v w) : R3.onSegment p q w := by
  obtain ⟨a, a0, a1, rfl⟩ := hu
  obtain ⟨b, b0, b1, rfl⟩ := hv
  obtain ⟨r, r0, r1, rfl⟩ := hw
  refine ⟨a + r * (b - a), by nlinarith [mul_nonneg r0 b0, mul_nonneg (sub_nonneg.2 r1) a0],
    by nlinarith [mul_nonneg r0 (sub_nonneg.2 b1), mul_nonneg (sub_nonneg.2 r1) (sub_nonneg.2 a1)], ?_⟩
  apply R3.ext <;> simp <;> ring

/-- the crossings of the three sides found by the code -/
noncomputable def qAB (t : RTri) (p q : R3) := (Line.mk t.a.pt t.b.pt).intersectLineP (Line.mk p.pt q.pt)
/-- the crossings of the three sides found by the code -/
noncomputable def qAC (t : RTri) (p q : R3) := (Line.mk t.a.pt t.c.pt).intersectLineP (Line.mk p.pt q.pt)
/-- the crossings of the three sides found by the code -/
noncomputable def qBC (t : RTri) (p q : R3) := (Line.mk t.b.pt t.c.pt).intersectLineP (Line.mk p.pt q.pt)

/-- where the segment leaves the triangle a side is found -/
theorem exit_side (t : RTri) (hz : t.nrm.z ≠ 0) (p q w e : R3) (hg : GenericTo t p q) (hw : R3.onSegment p q w) (hi : InShadow t w)
    (he : R3.onSegment p q e) (ho : ¬ InShadow t e) :
    ((qAB t p q).isSome = true ∧ t.nrm.z * edgeFn t.a t.b e < 0) ∨ ((qBC t p q).isSome = true ∧ t.nrm.z * edgeFn t.b t.c e < 0) ∨
      ((qAC t p q).isSome = true ∧ t.nrm.z * edgeFn t.c t.a e < 0) := by
  have hi' := (inShadow_iff t hz w).1 hi
  rw [inShadow_iff t hz e] at ho
  obtain ⟨s, s0, s1, x, hx, hxn, hxz, hall⟩ := first_exit
    [(t.nrm.z * edgeFn t.a t.b w, t.nrm.z * edgeFn t.a t.b e), (t.nrm.z * edgeFn t.b t.c w, t.nrm.z * edgeFn t.b t.c e),
      (t.nrm.z * edgeFn t.c t.a w, t.nrm.z * edgeFn t.c t.a e)]
    (by simp only [List.mem_cons, List.not_mem_nil, or_false, forall_eq_or_imp, forall_eq]; exact hi')
    (by
      by_contra hc
      simp only [List.mem_cons, List.not_mem_nil, or_false, exists_eq_or_imp, exists_eq_left, not_or, not_lt] at hc
      exact ho hc)
  simp only [List.mem_cons, List.not_mem_nil, or_false, forall_eq_or_imp, forall_eq] at hall
  have val : ∀ c d : R3, t.nrm.z * edgeFn c d w + s * (t.nrm.z * edgeFn c d e - t.nrm.z * edgeFn c d w) =
      t.nrm.z * edgeFn c d (w + s • (e - w)) := by intro c d; rw [edge_lerp]; ring
  simp only [val] at hall
  have hin := (inShadow_iff t hz (w + s • (e - w))).2 hall
  have hseg : R3.onSegment p q (w + s • (e - w)) := onSegment_between hw he ⟨s, s0, s1, rfl⟩
  obtain ⟨k, l, m, hk, hl, hm, hsum, hwx, hwy⟩ := hin
  have zero : ∀ {c d : R3} {y : ℝ}, edgeFn c d (w + s • (e - w)) = y * t.nrm.z → t.nrm.z * edgeFn c d (w + s • (e - w)) = 0 → y = 0 := by
    intro c d y h1 h2
    rw [h1] at h2
    rcases mul_eq_zero.1 h2 with h | h
    · exact absurd h hz
    · rcases mul_eq_zero.1 h with h | h
      · exact h
      · exact absurd h hz
  have hm' : m = 1 - k - l := by linarith
  have e1 : edgeFn t.a t.b (w + s • (e - w)) = m * t.nrm.z := by
    simp only [edgeFn, RTri.nrm, R3.cross, R3.sub_x, R3.sub_y, R3.sub_z]; rw [hwx, hwy, hm']; ring
  have e2 : edgeFn t.b t.c (w + s • (e - w)) = k * t.nrm.z := by
    simp only [edgeFn, RTri.nrm, R3.cross, R3.sub_x, R3.sub_y, R3.sub_z]; rw [hwx, hwy, hm']; ring
  have e3 : edgeFn t.c t.a (w + s • (e - w)) = l * t.nrm.z := by
    simp only [edgeFn, RTri.nrm, R3.cross, R3.sub_x, R3.sub_y, R3.sub_z]; rw [hwx, hwy, hm']; ring
  simp only [List.mem_cons, List.not_mem_nil, or_false] at hx
  rcases hx with rfl | rfl | rfl
  · left
    refine ⟨?_, hxn⟩
    rw [val] at hxz
    have hm0 := zero e1 hxz
    exact side_found t.a t.b p q _ hg.pab hg.qab hg.a hg.b hseg l hl (by linarith) (by rw [hwx]; rw [hm0, show k = 1 - l by linarith]; ring)
      (by rw [hwy]; rw [hm0, show k = 1 - l by linarith]; ring)
  · right; left
    refine ⟨?_, hxn⟩
    rw [val] at hxz
    have hk0 := zero e2 hxz
    exact side_found t.b t.c p q _ hg.pbc hg.qbc hg.b hg.c hseg m hm (by linarith) (by rw [hwx]; rw [hk0, show l = 1 - m by linarith]; ring)
      (by rw [hwy]; rw [hk0, show l = 1 - m by linarith]; ring)
  · right; right
    refine ⟨?_, hxn⟩
    rw [val] at hxz
    have hl0 := zero e3 hxz
    exact side_found t.a t.c p q _ hg.pac hg.qac hg.a hg.c hseg m hm (by linarith) (by rw [hwx]; rw [hl0, show k = 1 - m by linarith]; ring)
      (by rw [hwy]; rw [hl0, show k = 1 - m by linarith]; ring)

/-- when `IntersectTriangle` returns a line, in terms of the two tests of the ends and the three sides -/
theorem intersectTriangle_cases {α : Type} [Flt α] (t t2 : Triangle α) (line : Line α) (hc : (Plane.mk t.p1 t.n).intersectTriangle t2 = some line) :
    (t.pointBelongs line.p1 = true → t.pointBelongs line.p2 = true → t.intersectTriangle t2 = some line) ∧
    ((t.pointBelongs line.p1 = true ∨ t.pointBelongs line.p2 = true) →
      (((Line.mk t.p1 t.p2).intersectLineP line).isSome = true ∨ ((Line.mk t.p1 t.p3).intersectLineP line).isSome = true ∨
        ((Line.mk t.p2 t.p3).intersectLineP line).isSome = true) → (t.intersectTriangle t2).isSome = true) ∧
    (¬ (((Line.mk t.p1 t.p2).intersectLineP line).isSome = true ∧ ((Line.mk t.p1 t.p3).intersectLineP line).isSome = true ∧
        ((Line.mk t.p2 t.p3).intersectLineP line).isSome = true) →
      ((((Line.mk t.p1 t.p2).intersectLineP line).isSome = true ∧ ((Line.mk t.p2 t.p3).intersectLineP line).isSome = true) ∨
        (((Line.mk t.p1 t.p2).intersectLineP line).isSome = true ∧ ((Line.mk t.p1 t.p3).intersectLineP line).isSome = true) ∨
        (((Line.mk t.p2 t.p3).intersectLineP line).isSome = true ∧ ((Line.mk t.p1 t.p3).intersectLineP line).isSome = true)) →
      (t.intersectTriangle t2).isSome = true) ∧
    ((t.intersectTriangle t2).isSome = true → t.pointBelongs line.p1 = true ∨ t.pointBelongs line.p2 = true ∨
      ((Line.mk t.p1 t.p2).intersectLineP line).isSome = true ∨ ((Line.mk t.p1 t.p3).intersectLineP line).isSome = true ∨
        ((Line.mk t.p2 t.p3).intersectLineP line).isSome = true) := by
  unfold Triangle.intersectTriangle
  simp only [hc]
  generalize t.pointBelongs line.p1 = b1
  generalize t.pointBelongs line.p2 = b2
  generalize (Line.mk t.p1 t.p2).intersectLineP line = q1
  generalize (Line.mk t.p1 t.p3).intersectLineP line = q2
  generalize (Line.mk t.p2 t.p3).intersectLineP line = q3
  cases b1 <;> cases b2 <;> rcases q1 with _ | ⟨a, pa⟩ <;> rcases q2 with _ | ⟨b, pb⟩ <;> rcases q3 with _ | ⟨c, pc⟩ <;> simp

/-- **C79 (one triangle).** Let the plane of the triangle `t`, not vertical, cut the triangle `t2` in the segment from `p` to `q`,
in general position to the sides of `t`.  Then `IntersectTriangle` returns a line exactly if the segment has a point in common
with `t`. -/
theorem C79_meets (t : RTri) (hz : t.nrm.z ≠ 0) (t2 : Triangle XR) (p q : R3)
    (hc : (Plane.mk t.a.pt t.nrm.vec).intersectTriangle t2 = some ⟨p.pt, q.pt⟩) (hp : InPlane t p) (hq : InPlane t q) (hg : GenericTo t p q) :
    (t.tri.intersectTriangle t2).isSome = true ↔ Hits t p q := by
  have hb1 := belongs_iff t hz p hp
  have hb2 := belongs_iff t hz q hq
  have near : ∀ w, R3.onSegment p q w → |t.nrm.dot (w - t.a)| < tol := by
    rintro w ⟨r, r0, r1, rfl⟩
    have e : t.nrm.dot (p + r • (q - p) - t.a) = t.nrm.dot (p - t.a) + r * (t.nrm.dot (q - t.a) - t.nrm.dot (p - t.a)) := by
      simp [R3.dot]; ring
    rw [e]
    have h1 := abs_lt.1 hp
    have h2 := abs_lt.1 hq
    rw [abs_lt]
    rcases le_total (t.nrm.dot (p - t.a)) (t.nrm.dot (q - t.a)) with h | h
    · have k1 := mul_nonneg r0 (sub_nonneg.2 h)
      have k2 := mul_nonneg (sub_nonneg.2 r1) (sub_nonneg.2 h)
      constructor <;> linarith
    · have k1 := mul_nonneg r0 (sub_nonneg.2 h)
      have k2 := mul_nonneg (sub_nonneg.2 r1) (sub_nonneg.2 h)
      constructor <;> linarith
  obtain ⟨cA, cB, cC, cD⟩ := intersectTriangle_cases t.tri t2 _ hc
  -- never all three sides
  have notAll : ¬ ((qAB t p q).isSome = true ∧ (qAC t p q).isSome = true ∧ (qBC t p q).isSome = true) := by
    rintro ⟨h1, h2, h3⟩
    have k1 := ((side_crossed _ _ _ _ hg.pab hg.qab hg.a hg.b).1 h1).2
    have k2 := ((side_crossed _ _ _ _ hg.pac hg.qac hg.a hg.c).1 h2).2
    have k3 := ((side_crossed _ _ _ _ hg.pbc hg.qbc hg.b hg.c).1 h3).2
    rcases lt_or_gt_of_ne (orientVal_ne hg.a) with ha | ha <;> rcases lt_or_gt_of_ne (orientVal_ne hg.b) with hb | hb <;>
      rcases lt_or_gt_of_ne (orientVal_ne hg.c) with hc | hc <;> nlinarith
  constructor
  · intro h
    -- an end or a side
    have some' : InShadow t p ∨ InShadow t q ∨ (qAB t p q).isSome = true ∨ (qAC t p q).isSome = true ∨ (qBC t p q).isSome = true := by
      rcases cD h with h | h | h
      · exact Or.inl (hb1.1 h)
      · exact Or.inr (Or.inl (hb2.1 h))
      · exact Or.inr (Or.inr h)
    rcases some' with h1 | h1 | h1 | h1 | h1
    · exact ⟨p, onSegment_left p q, near p (onSegment_left p q), h1⟩
    · exact ⟨q, onSegment_right p q, near q (onSegment_right p q), h1⟩
    · obtain ⟨w, u, hw, u0, u1, hx, hy⟩ := side_meets _ _ _ _ hg.pab hg.qab hg.a hg.b h1
      exact ⟨w, hw, near w hw, 1 - u, u, 0, by linarith, u0, le_refl _, by ring, by rw [hx]; ring, by rw [hy]; ring⟩
    · obtain ⟨w, u, hw, u0, u1, hx, hy⟩ := side_meets _ _ _ _ hg.pac hg.qac hg.a hg.c h1
      exact ⟨w, hw, near w hw, 1 - u, 0, u, by linarith, le_refl _, u0, by ring, by rw [hx]; ring, by rw [hy]; ring⟩
    · obtain ⟨w, u, hw, u0, u1, hx, hy⟩ := side_meets _ _ _ _ hg.pbc hg.qbc hg.b hg.c h1
      exact ⟨w, hw, near w hw, 0, 1 - u, u, le_refl _, by linarith, u0, by ring, by rw [hx]; ring, by rw [hy]; ring⟩
  · rintro ⟨w, hw, _, hi⟩
    have sw : ∀ {A B C : Prop} {X Y Z : Prop}, ((A ∧ X) ∨ (B ∧ Y) ∨ (C ∧ Z)) → A ∨ C ∨ B := by
      rintro A B C X Y Z (h | h | h)
      · exact Or.inl h.1
      · exact Or.inr (Or.inr h.1)
      · exact Or.inr (Or.inl h.1)
    by_cases i1 : InShadow t p
    · by_cases i2 : InShadow t q
      · rw [cA (hb1.2 i1) (hb2.2 i2)]; rfl
      · exact cB (Or.inl (hb1.2 i1)) (sw (exit_side t hz p q w q hg hw hi (onSegment_right p q) i2))
    · have x1 := exit_side t hz p q w p hg hw hi (onSegment_left p q) i1
      by_cases i2 : InShadow t q
      · exact cB (Or.inr (hb2.2 i2)) (sw x1)
      · have x2 := exit_side t hz p q w q hg hw hi (onSegment_right p q) i2
        -- the segment does not leave over the same side at both ends
        have diff : ∀ c d : R3, 0 ≤ t.nrm.z * edgeFn c d w → t.nrm.z * edgeFn c d p < 0 → t.nrm.z * edgeFn c d q < 0 → False := by
          intro c d h1 h2 h3
          obtain ⟨r, r0, r1, rfl⟩ := hw
          rw [edge_lerp] at h1
          nlinarith [mul_nonneg r0 (neg_nonneg.2 h3.le), mul_nonneg (sub_nonneg.2 r1) (neg_nonneg.2 h2.le)]
        have hi' := (inShadow_iff t hz w).1 hi
        have d1 := diff t.a t.b hi'.1
        have d2 := diff t.b t.c hi'.2.1
        have d3 := diff t.c t.a hi'.2.2
        have two : ((qAB t p q).isSome = true ∧ (qBC t p q).isSome = true) ∨ ((qAB t p q).isSome = true ∧ (qAC t p q).isSome = true) ∨
            ((qBC t p q).isSome = true ∧ (qAC t p q).isSome = true) := by
          rcases x1 with ⟨a1, b1⟩ | ⟨a1, b1⟩ | ⟨a1, b1⟩ <;> rcases x2 with ⟨a2, b2⟩ | ⟨a2, b2⟩ | ⟨a2, b2⟩
          · exact (d1 b1 b2).elim
          · exact Or.inl ⟨a1, a2⟩
          · exact Or.inr (Or.inl ⟨a1, a2⟩)
          · exact Or.inl ⟨a2, a1⟩
          · exact (d2 b1 b2).elim
          · exact Or.inr (Or.inr ⟨a1, a2⟩)
          · exact Or.inr (Or.inl ⟨a2, a1⟩)
          · exact Or.inr (Or.inr ⟨a2, a1⟩)
          · exact (d3 b1 b2).elim
        exact cC notAll two

/-! ## All triangles of the model -/

/-- **C79 (the test).** `IntersectTriangles` returns nil exactly if every triangle of the list either contains a corner of `t` or is
not met by it. -/
theorem C79_test {α : Type} [Flt α] (t : Triangle α) (ts : List (Triangle α)) :
    intersectTriangles t ts = none ↔ ∀ bt ∈ ts,
      (bt.pointBelongs t.p1 = true ∨ bt.pointBelongs t.p2 = true ∨ bt.pointBelongs t.p3 = true) ∨ bt.intersectTriangle t = none := by
  unfold intersectTriangles
  simp only
  have key : ∀ bt : Triangle α, (if bt.pointBelongs t.p1 || bt.pointBelongs t.p2 || bt.pointBelongs t.p3 then none else bt.intersectTriangle t) = none ↔
      ((bt.pointBelongs t.p1 = true ∨ bt.pointBelongs t.p2 = true ∨ bt.pointBelongs t.p3 = true) ∨ bt.intersectTriangle t = none) := by
    intro bt
    split_ifs with h
    · simp only [Bool.or_eq_true, or_assoc] at h
      simp [h]
    · simp only [Bool.or_eq_true, or_assoc] at h
      simp [h]
  constructor
  · intro h bt hbt
    rw [← key]
    split_ifs at h with hc
    rw [List.isEmpty_iff, List.filterMap_eq_nil_iff] at hc
    exact hc bt hbt
  · intro h
    rw [if_pos]
    rw [List.isEmpty_iff, List.filterMap_eq_nil_iff]
    intro bt hbt
    exact (key bt).2 (h bt hbt)

/-- **C79 (the supports).** Of the support triangles, two under each edge of the overhanging part, exactly those are sliced that no
triangle of the model meets (triangles that contain one of the corners aside). -/
theorem C79_supports {α : Type} [Flt α] (S : Sorter) (mesh : Mesh α) (Z : Vec α) (minz : α) (sett : Settings α) (out : List (Triangle α))
    (h : supportTriangles S mesh Z minz sett = .ok out) :
    ∃ under : List (Line α × Line α), (under.map (·.2) = makeUndoubledLines
        (if sett.supportOffset =? lit 0 0 then filterTrianglesByColor mesh sett.colorizedAngle sett.unitVector
          else (filterTrianglesByColor mesh sett.colorizedAngle sett.unitVector).map fun t => t.shift (sett.unitVector.mulScalar (-sett.supportOffset)))) ∧
      (∀ q ∈ under, (Plane.mk (Z.mulScalar minz).toPoint Z).proectionPointToPlane q.2.p1 = .ok q.1.p1 ∧
        (Plane.mk (Z.mulScalar minz).toPoint Z).proectionPointToPlane q.2.p2 = .ok q.1.p2) ∧
      ∀ tr, tr ∈ out ↔ (∃ q ∈ under, tr = newTriangle q.1.p1 q.2.p1 q.2.p2 ∨ tr = newTriangle q.1.p1 q.1.p2 q.2.p2) ∧
        ∀ bt ∈ mesh.triangles, (bt.pointBelongs tr.p1 = true ∨ bt.pointBelongs tr.p2 = true ∨ bt.pointBelongs tr.p3 = true) ∨
          bt.intersectTriangle tr = none := by
  unfold supportTriangles at h
  simp only at h
  generalize hcol : (if sett.supportOffset =? lit 0 0 then filterTrianglesByColor mesh sett.colorizedAngle sett.unitVector
    else (filterTrianglesByColor mesh sett.colorizedAngle sett.unitVector).map fun t => t.shift (sett.unitVector.mulScalar (-sett.supportOffset))) = col at h ⊢
  obtain ⟨sup, hsup, h⟩ := bind_ok h
  have h : (Except.ok _ : Go _) = .ok out := h
  injection h with h
  -- the projections belong to the edges
  have zipped : ∀ (ls : List (Line α)) (r : List (Line α)), makeSupportLines ls ⟨(Z.mulScalar minz).toPoint, Z⟩ = .ok r →
      (r.zip ls).map (·.2) = ls ∧ ∀ q ∈ r.zip ls, (Plane.mk (Z.mulScalar minz).toPoint Z).proectionPointToPlane q.2.p1 = .ok q.1.p1 ∧
        (Plane.mk (Z.mulScalar minz).toPoint Z).proectionPointToPlane q.2.p2 = .ok q.1.p2 := by
    intro ls
    induction ls with
    | nil => intro r _; simp
    | cons l ls ih =>
      intro r hr
      unfold makeSupportLines at hr
      rw [List.mapM_cons] at hr
      obtain ⟨x, hx, hr⟩ := bind_ok hr
      obtain ⟨r', hr', hr⟩ := bind_ok hr
      obtain ⟨a, ha, hx⟩ := bind_ok hx
      obtain ⟨b, hb, hx⟩ := bind_ok hx
      have hx : (Except.ok _ : Go _) = .ok x := hx
      have hr : (Except.ok _ : Go _) = .ok r := hr
      injection hx with hx
      injection hr with hr
      subst hr
      obtain ⟨i1, i2⟩ := ih r' hr'
      refine ⟨by simp [i1], ?_⟩
      intro q hq
      rw [List.zip_cons_cons, List.mem_cons] at hq
      rcases hq with rfl | hq
      · rw [← hx]; exact ⟨ha, hb⟩
      · exact i2 q hq
  obtain ⟨z1, z2⟩ := zipped _ _ hsup
  refine ⟨_, z1, z2, ?_⟩
  intro tr
  have perm : ∀ tr : Triangle α, (intersectTriangles tr (S.run (fun a b : Triangle α => b.minZ Z <? a.minZ Z) mesh.triangles)).isNone = true ↔
      ∀ bt ∈ mesh.triangles, (bt.pointBelongs tr.p1 = true ∨ bt.pointBelongs tr.p2 = true ∨ bt.pointBelongs tr.p3 = true) ∨ bt.intersectTriangle tr = none := by
    intro tr
    rw [Option.isNone_iff_eq_none, C79_test]
    constructor
    · intro h bt hbt; exact h bt ((S.perm _ _).mem_iff.2 hbt)
    · intro h bt hbt; exact h bt ((S.perm _ _).mem_iff.1 hbt)
  rw [← perm, ← h, List.mem_flatMap]
  constructor
  · rintro ⟨q, hq, hm⟩
    unfold supportPair at hm
    simp only [List.mem_append] at hm
    rcases hm with hm | hm
    · split_ifs at hm with hc
      · rw [List.mem_singleton] at hm
        rw [hm]; exact ⟨⟨q, hq, Or.inl rfl⟩, hc⟩
      · simp at hm
    · split_ifs at hm with hc
      · rw [List.mem_singleton] at hm
        rw [hm]; exact ⟨⟨q, hq, Or.inr rfl⟩, hc⟩
      · simp at hm
  · rintro ⟨⟨q, hq, rfl | rfl⟩, hc⟩
    · exact ⟨q, hq, by unfold supportPair; simp only; rw [if_pos hc]; simp⟩
    · exact ⟨q, hq, by unfold supportPair; simp only; rw [if_pos hc]; simp⟩

/-- the plane of `bt` cuts `t` in general position, if at all -/
def Regular (bt t : RTri) : Prop := bt.nrm.z ≠ 0 ∧ ∀ l, (Plane.mk bt.a.pt bt.nrm.vec).intersectTriangle t.tri = some l →
  ∃ p q : R3, l = ⟨p.pt, q.pt⟩ ∧ InPlane bt p ∧ InPlane bt q ∧ GenericTo bt p q

/-- **C79, the part that holds.** If no triangle of the model is vertical and all are in general position to the support triangle `t`,
`t` is kept exactly if each triangle of the model contains a corner of `t` or has no point in common with the segment in which
its plane cuts `t`. -/
theorem C79_exact_partial (t : RTri) (ts : List RTri) (hr : ∀ bt ∈ ts, Regular bt t) :
    intersectTriangles t.tri (rmesh ts).triangles = none ↔ ∀ bt ∈ ts, (∃ v ∈ t.verts, InPlane bt v ∧ InShadow bt v) ∨
      ¬ ∃ p q : R3, (Plane.mk bt.a.pt bt.nrm.vec).intersectTriangle t.tri = some ⟨p.pt, q.pt⟩ ∧ Hits bt p q := by
  rw [C79_test]
  simp only [rmesh, List.mem_map, forall_exists_index, and_imp, forall_apply_eq_imp_iff₂]
  apply forall₂_congr
  intro bt hbt
  obtain ⟨hz, hreg⟩ := hr bt hbt
  have bel : ∀ v : R3, bt.tri.pointBelongs v.pt = true ↔ InPlane bt v ∧ InShadow bt v := by
    intro v
    by_cases hv : InPlane bt v
    · simp [belongs_iff bt hz v hv, hv]
    · have : bt.tri.pointBelongs v.pt = false := by
        rw [pointBelongs_tri]; simp only [decide_eq_false_iff_not]; exact fun h => hv h.1
      simp [this, hv]
  apply or_congr
  · show (bt.tri.pointBelongs t.a.pt = true ∨ bt.tri.pointBelongs t.b.pt = true ∨ bt.tri.pointBelongs t.c.pt = true) ↔ _
    rw [bel, bel, bel]
    simp [RTri.verts]
  · rcases hl : (Plane.mk bt.a.pt bt.nrm.vec).intersectTriangle t.tri with _ | l
    · have : bt.tri.intersectTriangle t.tri = none := by
        unfold Triangle.intersectTriangle
        have hl' : (Plane.mk bt.tri.p1 bt.tri.n).intersectTriangle t.tri = none := hl
        simp only [hl']
      simp [this]
    · obtain ⟨p, q, rfl, hp, hq, hg⟩ := hreg l hl
      have := C79_meets bt hz t.tri p q hl hp hq hg
      rw [← Option.not_isSome_iff_eq_none, this, not_iff_not]
      constructor
      · intro h; exact ⟨p, q, rfl, h⟩
      · rintro ⟨p', q', h1, h2⟩
        simp only [Option.some.injEq, Line.mk.injEq] at h1
        rw [R3.pt_inj h1.1, R3.pt_inj h1.2]; exact h2

/-! ## Walls -/

/-- rounding to eight decimals does not leave the plane of the triangle -/
def KeepsPlane (bt : RTri) : Prop := ∀ w : R3, bt.nrm.dot (w - bt.a) = 0 → bt.nrm.dot (w.round8 - bt.a) = 0

/-- walls along the axes, at a multiple of `1e-8` -/
theorem keepsPlane_axis (bt : RTri) (h : (bt.nrm.y = 0 ∧ bt.nrm.z = 0 ∧ ∃ k : Int, bt.a.x = k / 10 ^ 8) ∨
    (bt.nrm.x = 0 ∧ bt.nrm.z = 0 ∧ ∃ k : Int, bt.a.y = k / 10 ^ 8)) : KeepsPlane bt := by
  intro w hw
  rcases h with ⟨h1, h2, k, hk⟩ | ⟨h1, h2, k, hk⟩
  · simp only [R3.dot, h1, h2, zero_mul, add_zero, R3.sub_x] at hw ⊢
    rcases mul_eq_zero.1 hw with h | h
    · rw [h, zero_mul]
    · have : w.x = k / 10 ^ 8 := by rw [← hk]; linarith
      show bt.nrm.x * (r8 w.x - bt.a.x) = 0
      rw [this, r8_grid, hk]; ring
  · simp only [R3.dot, h1, h2, zero_mul, add_zero, zero_add, R3.sub_y] at hw ⊢
    rcases mul_eq_zero.1 hw with h | h
    · rw [h, zero_mul]
    · have : w.y = k / 10 ^ 8 := by rw [← hk]; linarith
      show bt.nrm.y * (r8 w.y - bt.a.y) = 0
      rw [this, r8_grid, hk]; ring

/-- **C79 (walls).** A support triangle that crosses the *plane* of a vertical wall of the model is left out, no matter how far away
the wall itself is.  (The plane is one that rounding preserves, for example along an axis.) -/
theorem C79_wall (bt t : RTri) (ts : List (Triangle XR)) (hbt : bt.tri ∈ ts) (hz : bt.nrm.z = 0) (h0 : bt.nrm ≠ 0) (hk : KeepsPlane bt)
    (hsm : t.small) (hv : ∀ v ∈ t.verts, tol ≤ |bt.nrm.dot (v - bt.a)|) (u v : R3)
    (hu : crosses bt.a bt.nrm t.a t.b u ∨ crosses bt.a bt.nrm t.b t.c u ∨ crosses bt.a bt.nrm t.c t.a u)
    (hw : crosses bt.a bt.nrm t.a t.b v ∨ crosses bt.a bt.nrm t.b t.c v ∨ crosses bt.a bt.nrm t.c t.a v) (hap : u.apart v) :
    intersectTriangles t.tri ts ≠ none := by
  intro hn
  have off : ∀ v ∈ t.verts, bt.tri.pointBelongs v.pt = false := by
    intro v hv'
    rw [pointBelongs_tri]; simp only [decide_eq_false_iff_not]; exact fun h => absurd h.1 (not_lt.2 (hv v hv'))
  rcases (C79_test _ _).1 hn bt.tri hbt with (h | h | h) | h
  · have := off t.a (by simp [RTri.verts]); simp only [RTri.tri] at h this; rw [this] at h; cases h
  · have := off t.b (by simp [RTri.verts]); simp only [RTri.tri] at h this; rw [this] at h; cases h
  · have := off t.c (by simp [RTri.verts]); simp only [RTri.tri] at h this; rw [this] at h; cases h
  · obtain ⟨s1, s2, s3⟩ := hsm
    obtain ⟨l, hl, hcase⟩ := section_of_crossings bt.a bt.nrm t.a t.b t.c u v s1 s2 s3 hu hw hap
    rw [newTriangle_tri] at hl
    have plane : ∀ {w}, (crosses bt.a bt.nrm t.a t.b w ∨ crosses bt.a bt.nrm t.b t.c w ∨ crosses bt.a bt.nrm t.c t.a w) →
        bt.tri.pointBelongs w.round8.pt = true := by
      intro w hw
      have on : R3.onPlane bt.a bt.nrm w := by rcases hw with h | h | h <;> exact h.2.2
      apply C55_vertical bt _ hz h0
      apply hk
      unfold R3.onPlane R3.height at on
      simp only [R3.dot, R3.sub_x, R3.sub_y, R3.sub_z] at on ⊢
      linarith
    obtain ⟨cA, _⟩ := intersectTriangle_cases bt.tri t.tri l hl
    have := cA (by rcases hcase with rfl | rfl; exacts [plane hu, plane hw]) (by rcases hcase with rfl | rfl; exacts [plane hw, plane hu])
    rw [this] at h; cases h

/-- a wall at `x = 0`, beginning at `y = d` -/
def farWall (d : ℝ) : RTri := ⟨⟨0, d, 0⟩, ⟨0, d + 1, 0⟩, ⟨0, d, 1⟩⟩
/-- a triangle in the plane `y = 0` -/
def nearTri : RTri := ⟨⟨-1, 0, 0⟩, ⟨1, 0, 0⟩, ⟨1, 0, 1⟩⟩

/-- **C79 is violated.** For every distance there are a model and a support triangle farther from it that is left out as if the
model were in its way. -/
theorem C79_violated (d : ℝ) (hd : 0 ≤ d) : ∃ (bt t : RTri), t.small ∧ intersectTriangles t.tri (rmesh [bt]).triangles ≠ none ∧
    ∀ x ∈ bt.verts, ∀ y ∈ t.verts, d ≤ x.y - y.y := by
  have hnrm : (farWall d).nrm = ⟨1, 0, 0⟩ := by apply R3.ext <;> simp [farWall, RTri.nrm, R3.cross]
  have hsm : nearTri.small := by
    have : (1 : ℝ) ≤ roundLimit := by unfold roundLimit; norm_num
    have z : (0 : ℝ) ≤ roundLimit := by linarith
    refine ⟨⟨?_, ?_, ?_⟩, ⟨?_, ?_, ?_⟩, ⟨?_, ?_, ?_⟩⟩ <;> simp [nearTri] <;> assumption
  refine ⟨farWall d, nearTri, hsm, ?_, ?_⟩
  · refine C79_wall (farWall d) nearTri _ (by simp [rmesh]) (by rw [hnrm]) (by rw [hnrm]; intro h; have := congrArg R3.x h; simp at this)
      (keepsPlane_axis _ (Or.inl ⟨by rw [hnrm], by rw [hnrm], 0, by simp [farWall]⟩)) hsm ?_ ⟨0, 0, 0⟩ ⟨0, 0, 1 / 2⟩ (Or.inl ?_)
      (Or.inr (Or.inr ?_)) ?_
    · intro v hv
      rw [hnrm]
      simp only [RTri.verts, nearTri, List.mem_cons, List.not_mem_nil, or_false] at hv
      have : tol ≤ 1 := by unfold tol; norm_num
      rcases hv with rfl | rfl | rfl <;> simpa [R3.dot, farWall] using this
    · rw [hnrm]
      refine ⟨?_, ⟨1 / 2, by norm_num, by norm_num, ?_⟩, ?_⟩
      · simp [R3.height, R3.dot, farWall, nearTri]; norm_num
      · apply R3.ext <;> simp [nearTri]; norm_num
      · simp [R3.onPlane, R3.height, R3.dot, farWall]
    · rw [hnrm]
      refine ⟨?_, ⟨1 / 2, by norm_num, by norm_num, ?_⟩, ?_⟩
      · simp [R3.height, R3.dot, farWall, nearTri]; norm_num
      · apply R3.ext <;> simp [nearTri] <;> norm_num
      · simp [R3.onPlane, R3.height, R3.dot, farWall]
    · right; right; norm_num
  · intro x hx y hy
    simp only [RTri.verts, farWall, nearTri, List.mem_cons, List.not_mem_nil, or_false] at hx hy
    rcases hx with rfl | rfl | rfl <;> rcases hy with rfl | rfl | rfl <;> simp

/-! ## Examples -/

/-- a triangle of the model and a segment through it, in general position: the hypotheses of `C79_meets` and `C79_exact_partial` -/
example : GenericTo ⟨⟨0, 0, 0⟩, ⟨4, 0, 0⟩, ⟨0, 4, 0⟩⟩ ⟨1, -1, 0⟩ ⟨2, 5, 0⟩ ∧ Hits ⟨⟨0, 0, 0⟩, ⟨4, 0, 0⟩, ⟨0, 4, 0⟩⟩ ⟨1, -1, 0⟩ ⟨2, 5, 0⟩ := by
  refine ⟨⟨?_, ?_, ?_, ?_, ?_, ?_, ?_, ?_, ?_⟩, ⟨7 / 6, 0, 0⟩, ⟨1 / 6, by norm_num, by norm_num, by apply R3.ext <;> norm_num⟩, ?_,
    17 / 24, 7 / 24, 0, by norm_num, by norm_num, by norm_num, by norm_num, by norm_num, by norm_num⟩
  all_goals simp only [orientVal, tol, RTri.nrm, R3.dot, R3.cross, R3.sub_x, R3.sub_y, R3.sub_z]
  all_goals norm_num

/-- a floor of the model and a triangle that cuts through it -/
def floorTri : RTri := ⟨⟨0, 0, 0⟩, ⟨4, 0, 0⟩, ⟨0, 4, 0⟩⟩
/-- a floor of the model and a triangle that cuts through it -/
def cutsFloor : RTri := ⟨⟨1, -1, -1⟩, ⟨1, -1, 1⟩, ⟨3, 11, -1⟩⟩

/-- the hypothesis of `C79_exact_partial`, for a triangle that is left out -/
example : Regular floorTri cutsFloor ∧ ∃ p q : R3, (Plane.mk floorTri.a.pt floorTri.nrm.vec).intersectTriangle cutsFloor.tri = some ⟨p.pt, q.pt⟩ ∧
    Hits floorTri p q := by
  have hnrm : floorTri.nrm = ⟨0, 0, 16⟩ := by apply R3.ext <;> simp [floorTri, RTri.nrm, R3.cross]; norm_num
  have l11 : (11 : ℝ) ≤ roundLimit := by unfold roundLimit; norm_num
  have sm : ∀ v ∈ cutsFloor.verts, v.small := by
    intro v hv
    simp only [RTri.verts, cutsFloor, List.mem_cons, List.not_mem_nil, or_false] at hv
    rcases hv with rfl | rfl | rfl <;> refine ⟨?_, ?_, ?_⟩ <;> simp <;> linarith
  obtain ⟨l, hl, hcase⟩ := section_of_crossings floorTri.a floorTri.nrm cutsFloor.a cutsFloor.b cutsFloor.c ⟨1, -1, 0⟩ ⟨2, 5, 0⟩
    (sm _ (by simp [RTri.verts])) (sm _ (by simp [RTri.verts])) (sm _ (by simp [RTri.verts]))
    (Or.inl (by
      rw [hnrm]
      refine ⟨?_, ⟨1 / 2, by norm_num, by norm_num, ?_⟩, ?_⟩
      · simp [R3.height, R3.dot, floorTri, cutsFloor]; norm_num
      · apply R3.ext <;> simp [cutsFloor]; norm_num
      · simp [R3.onPlane, R3.height, R3.dot, floorTri]))
    (Or.inr (Or.inl (by
      rw [hnrm]
      refine ⟨?_, ⟨1 / 2, by norm_num, by norm_num, ?_⟩, ?_⟩
      · simp [R3.height, R3.dot, floorTri, cutsFloor]; norm_num
      · apply R3.ext <;> simp [cutsFloor] <;> norm_num
      · simp [R3.onPlane, R3.height, R3.dot, floorTri])))
    (by right; left; norm_num)
  rw [newTriangle_tri] at hl
  have r1 : (⟨1, -1, 0⟩ : R3).round8 = ⟨1, -1, 0⟩ := by
    have := r8_int 1; have h2 := r8_int (-1); have h3 := r8_int 0
    apply R3.ext <;> simp [R3.round8] <;> norm_cast at *
  have r2 : (⟨2, 5, 0⟩ : R3).round8 = ⟨2, 5, 0⟩ := by
    have := r8_int 2; have h2 := r8_int 5; have h3 := r8_int 0
    apply R3.ext <;> simp [R3.round8] <;> norm_cast at *
  rw [r1, r2] at hcase
  have gen : GenericTo floorTri ⟨1, -1, 0⟩ ⟨2, 5, 0⟩ ∧ GenericTo floorTri ⟨2, 5, 0⟩ ⟨1, -1, 0⟩ := by
    refine ⟨⟨?_, ?_, ?_, ?_, ?_, ?_, ?_, ?_, ?_⟩, ⟨?_, ?_, ?_, ?_, ?_, ?_, ?_, ?_, ?_⟩⟩
    all_goals simp only [orientVal, tol, floorTri]
    all_goals norm_num
  have inp : ∀ x y : ℝ, InPlane floorTri ⟨x, y, 0⟩ := by
    intro x y; unfold InPlane; rw [hnrm]; simp [R3.dot, floorTri, tol_pos]
  have hit : InShadow floorTri ⟨7 / 6, 0, 0⟩ := ⟨17 / 24, 7 / 24, 0, by norm_num, by norm_num, by norm_num, by norm_num, by norm_num [floorTri], by norm_num [floorTri]⟩
  constructor
  · refine ⟨by rw [hnrm]; norm_num, ?_⟩
    intro l' hl'
    have hl'' : (Plane.mk floorTri.a.pt floorTri.nrm.vec).intersectTriangle cutsFloor.tri = some l := hl
    rw [hl''] at hl'
    injection hl' with hl'
    rcases hcase with h | h
    · exact ⟨_, _, hl' ▸ h, inp _ _, inp _ _, gen.1⟩
    · exact ⟨_, _, hl' ▸ h, inp _ _, inp _ _, gen.2⟩
  · rcases hcase with h | h
    · exact ⟨_, _, h ▸ hl, ⟨7 / 6, 0, 0⟩, ⟨1 / 6, by norm_num, by norm_num, by apply R3.ext <;> norm_num⟩, inp _ _, hit⟩
    · exact ⟨_, _, h ▸ hl, ⟨7 / 6, 0, 0⟩, ⟨5 / 6, by norm_num, by norm_num, by apply R3.ext <;> norm_num⟩, inp _ _, hit⟩

namespace RatToy
attribute [local instance] flt

/-- an overhanging triangle at height 4 -/
def roof : List (Triangle Rat) := [newTriangle ⟨-2, 0, 4⟩ ⟨-2, 3, 4⟩ ⟨2, 0, 4⟩]
/-- a wall a metre away, in the plane `x = 0` or nearly so -/
def metreAway (dx : Rat) : List (Triangle Rat) := [newTriangle ⟨0, 1000, 0⟩ ⟨dx, 1001, 0⟩ ⟨0, 1000, 4⟩]

/-- **C79 is violated.** Six support triangles stand under the overhang.  A wall a metre away makes four of them disappear; if it is
turned a little, none. -/
theorem C79_violated_supports :
    (supportTriangles Sorter.insertion ⟨roof⟩ axisZ 0 plain).map List.length = .ok 6 ∧
    (supportTriangles Sorter.insertion ⟨roof ++ metreAway 0⟩ axisZ 0 plain).map List.length = .ok 2 ∧
    (supportTriangles Sorter.insertion ⟨roof ++ metreAway (1 / 2)⟩ axisZ 0 plain).map List.length = .ok 6 := by
  decide +kernel

end RatToy

end Goosli
