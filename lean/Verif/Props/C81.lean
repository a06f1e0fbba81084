import Verif.Props.C56
import Verif.Props.C79
/-!
# C81: two level segments, exact answer
-/
set_option autoImplicit false
namespace Goosli
open Flt R3

/-! ## Specification -/

/-- a number that the tolerance of the code does not blur: exactly zero or not below the tolerance -/
def Decided (x : ℝ) : Prop := x = 0 ∨ tol ≤ |x|

/-- the position of two segments is clear: each end of one is exactly on the line of the other or not near it -/
structure ClearPair (s t p q : R3) : Prop where
  hp : Decided (orientVal p s t)
  hq : Decided (orientVal q s t)
  hs : Decided (orientVal s p q)
  ht : Decided (orientVal t p q)

/-- in the box around two points -/
def InBox (p q x : R3) : Prop :=
  (min p.x q.x ≤ x.x ∧ x.x ≤ max p.x q.x) ∧ (min p.y q.y ≤ x.y ∧ x.y ≤ max p.y q.y) ∧ (min p.z q.z ≤ x.z ∧ x.z ≤ max p.z q.z)

/-! ## The box test -/

/-- **C81, box.** `IsCollinearPointOnSegment` tests the box around the ends of the segment. -/
theorem C81_box (p q x : R3) : (Line.mk p.pt q.pt).isCollinearPointOnSegment x.pt = true ↔ InBox p q x := by
  unfold Line.isCollinearPointOnSegment InBox
  simp only [R3.pt, XR.fin_fmax, XR.fin_fmin, XR.fin_le, Bool.and_eq_true, decide_eq_true_eq]
  tauto

/-- points of the segment are in the box -/
theorem inBox_of_on {p q x : R3} (h : onSegment p q x) : InBox p q x := by
  obtain ⟨t, t0, t1, rfl⟩ := h
  have key : ∀ a b : ℝ, min a b ≤ a + t * (b - a) ∧ a + t * (b - a) ≤ max a b := by
    intro a b
    rcases le_total a b with h | h
    · rw [min_eq_left h, max_eq_right h]; constructor <;> nlinarith [mul_nonneg t0 (sub_nonneg.2 h), mul_nonneg (sub_nonneg.2 t1) (sub_nonneg.2 h)]
    · rw [min_eq_right h, max_eq_left h]; constructor <;> nlinarith [mul_nonneg t0 (sub_nonneg.2 h), mul_nonneg (sub_nonneg.2 t1) (sub_nonneg.2 h)]
  exact ⟨by simpa using key p.x q.x, by simpa using key p.y q.y, by simpa using key p.z q.z⟩

/-- and points of the line that are in the box are on the segment -/
theorem on_of_inBox {p q x : R3} (hz : p.z = q.z) (h : InBox p q x) (hl : orientVal x p q = 0) : onSegment p q x := by
  obtain ⟨⟨hx1, hx2⟩, ⟨hy1, hy2⟩, ⟨hz1, hz2⟩⟩ := h
  have frac : ∀ {a b c : ℝ}, a ≠ b → min a b ≤ c → c ≤ max a b → 0 ≤ (c - a) / (b - a) ∧ (c - a) / (b - a) ≤ 1 := by
    intro a b c hab h1 h2
    rcases lt_or_gt_of_ne hab with h | h
    · rw [min_eq_left h.le] at h1; rw [max_eq_right h.le] at h2
      have hd : 0 < b - a := by linarith
      exact ⟨div_nonneg (by linarith) hd.le, by rw [div_le_one hd]; linarith⟩
    · rw [min_eq_right h.le] at h1; rw [max_eq_left h.le] at h2
      have hd : b - a < 0 := by linarith
      exact ⟨div_nonneg_of_nonpos (by linarith) hd.le, by rw [div_le_one_of_neg hd]; linarith⟩
  have ez : x.z = p.z := by rw [← hz] at hz1 hz2; simp at hz1 hz2; linarith
  unfold orientVal at hl
  by_cases hx : p.x = q.x
  · have ex : x.x = p.x := by rw [← hx] at hx1 hx2; simp at hx1 hx2; linarith
    by_cases hy : p.y = q.y
    · have ey : x.y = p.y := by rw [← hy] at hy1 hy2; simp at hy1 hy2; linarith
      exact ⟨0, le_rfl, zero_le_one, by apply R3.ext <;> simp [ex, ey, ez]⟩
    · obtain ⟨f0, f1⟩ := frac hy hy1 hy2
      have hd : q.y - p.y ≠ 0 := sub_ne_zero.2 (Ne.symm hy)
      exact ⟨_, f0, f1, by
        apply R3.ext
        · simp [ex, hx]
        · simp; field_simp; ring
        · simp [ez, hz]⟩
  · obtain ⟨f0, f1⟩ := frac hx hx1 hx2
    have hd : q.x - p.x ≠ 0 := sub_ne_zero.2 (Ne.symm hx)
    refine ⟨_, f0, f1, ?_⟩
    apply R3.ext
    · simp; field_simp; ring
    · simp; field_simp; linear_combination -hl
    · simp [ez, hz]

/-- **C81, on a segment.** For points on the line of a level segment `IsCollinearPointOnSegment` is right. -/
theorem C81_on_segment (p q x : R3) (hz : p.z = q.z) (hl : orientVal x p q = 0) :
    (Line.mk p.pt q.pt).isCollinearPointOnSegment x.pt = true ↔ onSegment p q x := by
  rw [C81_box]
  exact ⟨fun h => on_of_inBox hz h hl, inBox_of_on⟩

/-! ## The classes -/

theorem orientation_zero {r p q : R3} (h : Decided (orientVal r p q)) : r.pt.orientation p.pt q.pt = 0 ↔ orientVal r p q = 0 := by
  rcases h with h | h
  · rw [orientation_pt, h]; simp [tol_pos]
  · rcases orientation_cases h with ⟨h1, e⟩ | ⟨h1, e⟩ <;> rw [e] <;> simp [orientVal_ne h]

/-- the classes differ exactly if the numbers are not on the same side of zero -/
theorem orientation_sides {r s p q : R3} (hr : Decided (orientVal r p q)) (hs : Decided (orientVal s p q)) :
    r.pt.orientation p.pt q.pt ≠ s.pt.orientation p.pt q.pt ↔
      orientVal r p q * orientVal s p q ≤ 0 ∧ orientVal r p q ≠ orientVal s p q := by
  rcases hr with hr | hr
  · rw [(orientation_zero (Or.inl hr)).2 hr, hr, zero_mul, ne_comm, Ne, orientation_zero hs, ne_comm]; simp
  · rcases hs with hs | hs
    · rw [(orientation_zero (Or.inl hs)).2 hs, hs, mul_zero, Ne, orientation_zero (Or.inr hr)]; simp
    · rw [orientation_differ hr hs]
      have h1 := orientVal_ne hr
      have h2 := orientVal_ne hs
      constructor
      · intro h; refine ⟨h.le, fun e => ?_⟩
        rw [e] at h; nlinarith [mul_self_nonneg (orientVal s p q)]
      · rintro ⟨h, _⟩; exact lt_of_le_of_ne h (mul_ne_zero h1 h2)

/-- a point that is on both lines divides a segment whose ends are on different sides -/
theorem fraction {A B t : ℝ} (h : A * B ≤ 0) (hne : A ≠ B) (ht : A + t * (B - A) = 0) : 0 ≤ t ∧ t ≤ 1 := by
  have hd : 0 < (B - A) ^ 2 := by have := sub_ne_zero.2 (Ne.symm hne); positivity
  have e1 : t * (B - A) ^ 2 = A ^ 2 - A * B := by linear_combination (B - A) * ht
  have e2 : (1 - t) * (B - A) ^ 2 = B ^ 2 - A * B := by linear_combination -(B - A) * ht
  constructor
  · by_contra hc; push Not at hc
    nlinarith [sq_nonneg A]
  · by_contra hc; push Not at hc
    nlinarith [sq_nonneg B]

/-! ## Sound -/

/-- **C81, sound.** What `IntersectLine` returns for two level segments at the same height in clear position is a point of both. -/
theorem C81_sound (s t p q : R3) (z : ℝ) (hs : s.z = z) (ht : t.z = z) (hp : p.z = z) (hq : q.z = z) (hc : ClearPair s t p q)
    (i : Point XR) (h : (Line.mk s.pt t.pt).intersectLine (Line.mk p.pt q.pt) = some i) :
    ∃ w : R3, i = w.pt ∧ onSegment s t w ∧ onSegment p q w := by
  by_cases hg : p.pt.orientation s.pt t.pt ≠ q.pt.orientation s.pt t.pt ∧ s.pt.orientation p.pt q.pt ≠ t.pt.orientation p.pt q.pt
  · obtain ⟨w, hw, _, _, ⟨a, ha⟩, ⟨b, hb⟩⟩ := C56_crossing s t p q z hs ht hp hq hg.1 hg.2
    rw [hw] at h
    have k1 := (orientation_sides hc.hp hc.hq).1 hg.1
    have k2 := (orientation_sides hc.hs hc.ht).1 hg.2
    refine ⟨w, (Option.some.inj h).symm, ?_, ?_⟩
    · obtain ⟨f0, f1⟩ := fraction (t := a) k2.1 k2.2 (by
        rw [← orient_lerp, ← ha, hb]; simp [orientVal]; ring)
      exact ⟨a, f0, f1, ha⟩
    · obtain ⟨f0, f1⟩ := fraction (t := b) k1.1 k1.2 (by
        rw [← orient_lerp, ← hb, ha]; simp [orientVal]; ring)
      exact ⟨b, f0, f1, hb⟩
  · unfold Line.intersectLine Line.intersectLineP at h
    simp only [if_neg hg] at h
    split_ifs at h with h1 h2 h3 h4
    · simp at h
      exact ⟨p, h.symm, (C81_on_segment s t p (by rw [hs, ht]) ((orientation_zero hc.hp).1 h1.1)).1 h1.2, onSegment_left p q⟩
    · simp at h
      exact ⟨q, h.symm, (C81_on_segment s t q (by rw [hs, ht]) ((orientation_zero hc.hq).1 h2.1)).1 h2.2, onSegment_right p q⟩
    · simp at h
      exact ⟨s, h.symm, onSegment_left s t, (C81_on_segment p q s (by rw [hp, hq]) ((orientation_zero hc.hs).1 h3.1)).1 h3.2⟩
    · simp at h
      exact ⟨t, h.symm, onSegment_right s t, (C81_on_segment p q t (by rw [hp, hq]) ((orientation_zero hc.ht).1 h4.1)).1 h4.2⟩
    · simp at h

/-! ## Complete -/

/-- numbers on the same side of zero with a mean of zero are zero -/
theorem same_side {A B t : ℝ} (t0 : 0 ≤ t) (t1 : t ≤ 1) (ht : A + t * (B - A) = 0) (h : ¬ (A * B ≤ 0 ∧ A ≠ B)) : A = 0 ∧ B = 0 := by
  by_cases he : A = B
  · subst he; simp at ht; exact ⟨ht, ht⟩
  · exfalso
    apply h
    refine ⟨?_, he⟩
    have e : A * B = - (t * (1 - t)) * (B - A) ^ 2 := by
      have h1 : A = - (t * (B - A)) := by linarith
      have h2 : B = (1 - t) * (B - A) := by linarith
      calc A * B = (- (t * (B - A))) * ((1 - t) * (B - A)) := by rw [← h1, ← h2]
        _ = _ := by ring
    rw [e]
    have := mul_nonneg t0 (sub_nonneg.2 t1)
    nlinarith [mul_nonneg this (sq_nonneg (B - A))]

theorem on_line {s t p : R3} (hz : s.z = t.z) (hpz : p.z = s.z) (hne : s ≠ t) (h : orientVal p s t = 0) : ∃ a : ℝ, p = s + a • (t - s) := by
  unfold orientVal at h
  by_cases hx : s.x = t.x
  · have hy : t.y - s.y ≠ 0 := by
      intro hy; exact hne (R3.ext hx (by linarith) hz)
    refine ⟨(p.y - s.y) / (t.y - s.y), ?_⟩
    have ex : p.x = t.x := by
      rw [hx, sub_self, zero_mul, sub_zero] at h
      rcases mul_eq_zero.1 h with h | h
      · exact absurd h hy
      · linarith
    apply R3.ext
    · simp [ex, hx]
    · simp; field_simp; ring
    · simp [hpz, hz]
  · have hd : t.x - s.x ≠ 0 := sub_ne_zero.2 (Ne.symm hx)
    refine ⟨(p.x - s.x) / (t.x - s.x), ?_⟩
    apply R3.ext
    · simp; field_simp; ring
    · simp; field_simp; linear_combination -h
    · simp [hpz, hz]

/-- two segments on one line with a point in common: an end of one is on the other -/
theorem end_on {s t p q w : R3} (z : ℝ) (hs : s.z = z) (ht : t.z = z) (hp : p.z = z) (hq : q.z = z)
    (h1 : orientVal p s t = 0) (h2 : orientVal q s t = 0) (hw1 : onSegment s t w) (hw2 : onSegment p q w) :
    onSegment s t p ∨ onSegment s t q ∨ onSegment p q s := by
  by_cases hst : s = t
  · subst hst
    right; right
    obtain ⟨a, _, _, ha⟩ := hw1
    have : w = s := by rw [ha]; apply R3.ext <;> simp
    rwa [← this]
  · obtain ⟨a, rfl⟩ := on_line (by rw [hs, ht]) (by rw [hp, hs]) hst h1
    obtain ⟨b, rfl⟩ := on_line (by rw [hs, ht]) (by rw [hq, hs]) hst h2
    obtain ⟨u, u0, u1, hu⟩ := hw1
    obtain ⟨r, r0, r1, hr⟩ := hw2
    have hab : u = a + r * (b - a) := by
      by_contra hne
      apply hst
      have hx : (u - (a + r * (b - a))) * (t.x - s.x) = 0 := by
        have := congrArg R3.x (hu.symm.trans hr); simp at this; linear_combination this
      have hy : (u - (a + r * (b - a))) * (t.y - s.y) = 0 := by
        have := congrArg R3.y (hu.symm.trans hr); simp at this; linear_combination this
      have hn := sub_ne_zero.2 hne
      refine R3.ext ?_ ?_ (by rw [hs, ht])
      · rcases mul_eq_zero.1 hx with h | h
        · exact absurd h hn
        · linarith
      · rcases mul_eq_zero.1 hy with h | h
        · exact absurd h hn
        · linarith
    by_cases ha : 0 ≤ a ∧ a ≤ 1
    · left; exact ⟨a, ha.1, ha.2, rfl⟩
    by_cases hb : 0 ≤ b ∧ b ≤ 1
    · right; left; exact ⟨b, hb.1, hb.2, rfl⟩
    right; right
    have hne : a ≠ b := by
      rintro rfl
      apply ha
      rw [sub_self, mul_zero, add_zero] at hab
      rw [← hab]; exact ⟨u0, u1⟩
    have hfr : a * b ≤ 0 := by
      by_contra hpos; push Not at hpos
      rw [not_and_or, not_le, not_le] at ha hb
      rcases ha with ha | ha <;> rcases hb with hb | hb
      · have := mul_nonneg r0 (neg_nonneg.2 hb.le)
        rcases eq_or_lt_of_le r1 with h | h
        · rw [h] at hab; linarith
        · have := mul_neg_of_pos_of_neg (sub_pos.2 h) ha; linarith
      · nlinarith
      · nlinarith
      · have h1 := mul_nonneg r0 (sub_nonneg.2 hb.le)
        rcases eq_or_lt_of_le r1 with h | h
        · rw [h] at hab; linarith
        · have := mul_pos (sub_pos.2 h) (sub_pos.2 ha); linarith
    have hd : b - a ≠ 0 := sub_ne_zero.2 (Ne.symm hne)
    obtain ⟨f0, f1⟩ := fraction (t := -a / (b - a)) hfr hne (by field_simp; ring)
    refine ⟨-a / (b - a), f0, f1, ?_⟩
    have e : a + -a / (b - a) * (b - a) = 0 := by field_simp; ring
    apply R3.ext <;> simp
    · linear_combination (s.x - t.x) * e
    · linear_combination (s.y - t.y) * e
    · linear_combination (s.z - t.z) * e

/-- **C81, complete.** If two level segments at the same height in clear position have a point in common, `IntersectLine` finds one. -/
theorem C81_complete (s t p q w : R3) (z : ℝ) (hs : s.z = z) (ht : t.z = z) (hp : p.z = z) (hq : q.z = z) (hc : ClearPair s t p q)
    (h1 : onSegment s t w) (h2 : onSegment p q w) : ((Line.mk s.pt t.pt).intersectLine (Line.mk p.pt q.pt)).isSome = true := by
  have key : ¬ (p.pt.orientation s.pt t.pt ≠ q.pt.orientation s.pt t.pt ∧ s.pt.orientation p.pt q.pt ≠ t.pt.orientation p.pt q.pt) →
      (orientVal p s t = 0 ∧ (Line.mk s.pt t.pt).isCollinearPointOnSegment p.pt = true) ∨
      (orientVal q s t = 0 ∧ (Line.mk s.pt t.pt).isCollinearPointOnSegment q.pt = true) ∨
      (orientVal s p q = 0 ∧ (Line.mk p.pt q.pt).isCollinearPointOnSegment s.pt = true) ∨
      (orientVal t p q = 0 ∧ (Line.mk p.pt q.pt).isCollinearPointOnSegment t.pt = true) := by
    intro hg
    have z0 : ∀ {a b x : R3}, onSegment a b x → orientVal x a b = 0 := by
      rintro a b x ⟨r, _, _, rfl⟩; simp [orientVal]; ring
    have fin : onSegment s t p ∨ onSegment s t q ∨ onSegment p q s ∨ onSegment p q t := by
      rw [orientation_sides hc.hp hc.hq, orientation_sides hc.hs hc.ht, not_and_or] at hg
      rcases hg with hg | hg
      · obtain ⟨r, r0, r1, hr⟩ := h2
        have h0 := z0 h1
        rw [hr, orient_lerp] at h0
        obtain ⟨e1, e2⟩ := same_side r0 r1 h0 hg
        rcases end_on z hs ht hp hq e1 e2 h1 ⟨r, r0, r1, hr⟩ with h | h | h
        · left; exact h
        · right; left; exact h
        · right; right; left; exact h
      · obtain ⟨r, r0, r1, hr⟩ := h1
        have h0 := z0 h2
        rw [hr, orient_lerp] at h0
        obtain ⟨e1, e2⟩ := same_side r0 r1 h0 hg
        rcases end_on z hp hq hs ht e1 e2 h2 ⟨r, r0, r1, hr⟩ with h | h | h
        · right; right; left; exact h
        · right; right; right; exact h
        · left; exact h
    rcases fin with h | h | h | h
    · left; exact ⟨z0 h, (C81_box _ _ _).2 (inBox_of_on h)⟩
    · right; left; exact ⟨z0 h, (C81_box _ _ _).2 (inBox_of_on h)⟩
    · right; right; left; exact ⟨z0 h, (C81_box _ _ _).2 (inBox_of_on h)⟩
    · right; right; right; exact ⟨z0 h, (C81_box _ _ _).2 (inBox_of_on h)⟩
  unfold Line.intersectLine Line.intersectLineP
  by_cases hg : p.pt.orientation s.pt t.pt ≠ q.pt.orientation s.pt t.pt ∧ s.pt.orientation p.pt q.pt ≠ t.pt.orientation p.pt q.pt
  · simp only [if_pos hg]; rfl
  · simp only [if_neg hg, orientation_zero hc.hp, orientation_zero hc.hq, orientation_zero hc.hs, orientation_zero hc.ht]
    split_ifs with a b c d <;> try rfl
    rcases key hg with h | h | h | h
    · exact absurd h a
    · exact absurd h b
    · exact absurd h c
    · exact absurd h d

/-- **C81.** Two level segments at the same height in clear position: `IsIntersectingSegment` reports exactly whether they have a point
in common. -/
theorem C81_segments_partial (s t p q : R3) (z : ℝ) (hs : s.z = z) (ht : t.z = z) (hp : p.z = z) (hq : q.z = z) (hc : ClearPair s t p q) :
    (Line.mk s.pt t.pt).isIntersectingSegment (Line.mk p.pt q.pt) = true ↔ ∃ w, onSegment s t w ∧ onSegment p q w := by
  unfold Line.isIntersectingSegment
  constructor
  · intro h
    obtain ⟨i, hi⟩ := Option.isSome_iff_exists.1 h
    obtain ⟨w, _, h1, h2⟩ := C81_sound s t p q z hs ht hp hq hc i hi
    exact ⟨w, h1, h2⟩
  · rintro ⟨w, h1, h2⟩
    exact C81_complete s t p q w z hs ht hp hq hc h1 h2

/-! ## The property is false for very short segments -/

/-- no class, no box: nothing is found -/
theorem not_found (s t p q : R3) (h1 : |orientVal p s t| < tol) (h2 : |orientVal q s t| < tol) (h3 : |orientVal s p q| < tol)
    (h4 : |orientVal t p q| < tol) (b1 : ¬ InBox s t p) (b2 : ¬ InBox s t q) (b3 : ¬ InBox p q s) (b4 : ¬ InBox p q t) :
    (Line.mk s.pt t.pt).isIntersectingSegment (Line.mk p.pt q.pt) = false := by
  unfold Line.isIntersectingSegment Line.intersectLine Line.intersectLineP
  simp only [orientation_pt, if_pos h1, if_pos h2, if_pos h3, if_pos h4, C81_box, b1, b2, b3, b4]
  simp

/-- **C81, negation.** Two segments up to a thousandth long that cross in their middle are not found to meet; and two such segments that
do not meet are found to. -/
theorem C81_violated (d : ℝ) (h0 : 0 < d) (h1 : d ≤ 1 / 2000) :
    ((∃ w, onSegment ⟨-d, 0, 0⟩ ⟨d, 0, 0⟩ w ∧ onSegment ⟨0, -d, 0⟩ ⟨0, d, 0⟩ w) ∧
      (Line.mk (R3.mk (-d) 0 0).pt (R3.mk d 0 0).pt).isIntersectingSegment (Line.mk (R3.mk 0 (-d) 0).pt (R3.mk 0 d 0).pt) = false) ∧
    ((¬ ∃ w, onSegment ⟨0, 0, 0⟩ ⟨d, d, 0⟩ w ∧ onSegment ⟨d, 0, 0⟩ ⟨d, -d, 0⟩ w) ∧
      (Line.mk (R3.mk 0 0 0).pt (R3.mk d d 0).pt).isIntersectingSegment (Line.mk (R3.mk d 0 0).pt (R3.mk d (-d) 0).pt) = true) := by
  have hd : d * d ≤ 1 / 4000000 := by nlinarith
  have hd0 : 0 < d * d := by positivity
  refine ⟨⟨⟨0, ⟨1 / 2, by norm_num, by norm_num, ?_⟩, ⟨1 / 2, by norm_num, by norm_num, ?_⟩⟩, ?_⟩, ?_, ?_⟩
  · apply R3.ext <;> simp; ring
  · apply R3.ext <;> simp; ring
  · apply not_found
    · simp only [orientVal, tol]; rw [abs_lt]; constructor <;> nlinarith
    · simp only [orientVal, tol]; rw [abs_lt]; constructor <;> nlinarith
    · simp only [orientVal, tol]; rw [abs_lt]; constructor <;> nlinarith
    · simp only [orientVal, tol]; rw [abs_lt]; constructor <;> nlinarith
    · rintro ⟨_, ⟨h, _⟩, _⟩; simp at h; linarith
    · rintro ⟨_, ⟨_, h⟩, _⟩; simp at h; linarith
    · rintro ⟨⟨h, _⟩, _⟩; simp at h; linarith
    · rintro ⟨⟨_, h⟩, _⟩; simp at h; linarith
  · rintro ⟨w, ⟨a, a0, a1, rfl⟩, ⟨b, b0, b1, hb⟩⟩
    have hx := congrArg R3.x hb
    have hy := congrArg R3.y hb
    simp at hx hy
    have ha : a = 1 := by
      have : (a - 1) * d = 0 := by linarith
      rcases mul_eq_zero.1 this with h | h
      · linarith
      · linarith
    subst ha
    nlinarith
  · unfold Line.isIntersectingSegment Line.intersectLine Line.intersectLineP
    have e1 : |orientVal ⟨d, 0, 0⟩ ⟨0, 0, 0⟩ ⟨d, d, 0⟩| < tol := by
      simp only [orientVal, tol]; rw [abs_lt]; constructor <;> nlinarith
    have b1 : InBox ⟨0, 0, 0⟩ ⟨d, d, 0⟩ ⟨d, 0, 0⟩ := by
      refine ⟨⟨?_, ?_⟩, ⟨?_, ?_⟩, ⟨?_, ?_⟩⟩ <;> simp [h0.le]
    have o1 : (R3.mk d 0 0).pt.orientation (R3.mk 0 0 0).pt (R3.mk d d 0).pt = 0 := by rw [orientation_pt, if_pos e1]
    simp only [o1, C81_box, b1, and_self, if_true]
    split_ifs <;> rfl

/-! ## Non-vacuity -/

/-- an end on the middle of the other segment -/
example : (Line.mk (R3.mk 0 0 0).pt (R3.mk 4 0 0).pt).isIntersectingSegment (Line.mk (R3.mk 2 0 0).pt (R3.mk 2 3 0).pt) = true := by
  rw [C81_segments_partial _ _ _ _ 0 rfl rfl rfl rfl]
  · refine ⟨⟨2, 0, 0⟩, ⟨1 / 2, by norm_num, by norm_num, ?_⟩, onSegment_left _ _⟩
    apply R3.ext <;> simp; norm_num
  · constructor <;> simp only [Decided, orientVal, tol] <;> norm_num

/-- on one line, overlapping and apart -/
example : (Line.mk (R3.mk 0 0 0).pt (R3.mk 4 0 0).pt).isIntersectingSegment (Line.mk (R3.mk 5 0 0).pt (R3.mk (-1) 0 0).pt) = true ∧
    (Line.mk (R3.mk 0 0 0).pt (R3.mk 4 0 0).pt).isIntersectingSegment (Line.mk (R3.mk 5 0 0).pt (R3.mk 9 0 0).pt) = false := by
  constructor
  · rw [C81_segments_partial _ _ _ _ 0 rfl rfl rfl rfl]
    · refine ⟨⟨0, 0, 0⟩, onSegment_left _ _, ⟨5 / 6, by norm_num, by norm_num, ?_⟩⟩
      apply R3.ext <;> simp; norm_num
    · constructor <;> simp only [Decided, orientVal, tol] <;> norm_num
  · rw [Bool.eq_false_iff, Ne, C81_segments_partial _ _ _ _ 0 rfl rfl rfl rfl]
    · rintro ⟨w, ⟨a, a0, a1, rfl⟩, ⟨b, b0, b1, hb⟩⟩
      have hx := congrArg R3.x hb
      simp at hx
      linarith
    · constructor <;> simp only [Decided, orientVal, tol] <;> norm_num

end Goosli
