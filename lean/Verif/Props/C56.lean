import Verif.Proofs.Space
/-!
# C56: planar segment intersection
-/
set_option linter.unusedSectionVars false
namespace Goosli
open Flt

/-- twice the signed area of `p q r` as computed by `Orientation` -/
noncomputable def orientVal (r p q : R3) : ℝ := (q.y - p.y) * (r.x - q.x) - (q.x - p.x) * (r.y - q.y)

theorem orientation_pt (r p q : R3) :
    r.pt.orientation p.pt q.pt = if |orientVal r p q| < tol then 0 else if 0 < orientVal r p q then 1 else 2 := by
  unfold Point.orientation
  simp only [R3.pt, XR.fin_sub, XR.fin_mul, almostZero_fin, lit00, XR.fin_lt]
  simp [orientVal]

/-- the crossing parameter of the code, for directions `a`, `b` that are not parallel (with `a`, `b` horizontal) -/
theorem intersectParam_pt (p q r s : R3) (h : (q.x - p.x) * (s.y - r.y) - (q.y - p.y) * (s.x - r.x) ≠ 0) :
    (Line.mk p.pt q.pt).intersectParam (Line.mk r.pt s.pt) =
      XR.fin (((q.y - p.y) * (r.x - p.x) - (q.x - p.x) * (r.y - p.y)) /
        ((q.x - p.x) * (s.y - r.y) - (q.y - p.y) * (s.x - r.x))) := by
  unfold Line.intersectParam
  simp only [line_toVector]
  simp only [R3.pt, R3.vec, R3.sub_x, R3.sub_y, R3.sub_z, XR.fin_sub, XR.fin_mul]
  by_cases hx : q.x - p.x = 0
  · -- first formula is NaN, second applies
    have hy : q.y - p.y ≠ 0 := by intro hy; rw [hx, hy] at h; simp at h
    have hb : s.x - r.x ≠ 0 := by intro hb; rw [hx, hb] at h; simp at h
    have nan1 : ((XR.fin (r.y - p.y) - XR.fin (q.y - p.y) / XR.fin (q.x - p.x) * XR.fin (r.x - p.x)) /
        (XR.fin ((s.x - r.x) * (q.y - p.y)) / XR.fin (q.x - p.x) - XR.fin (s.y - r.y)) : XR) = XR.nan := by
      rw [hx]
      simp only [XR.fin_div', if_true]
      have inf : ∀ x : ℝ, x ≠ 0 → XR.infSign x = XR.pinf ∨ XR.infSign x = XR.ninf := by
        intro x hx
        unfold XR.infSign
        rcases lt_or_gt_of_ne hx with h | h
        · right; rw [if_neg (not_lt.2 h.le), if_pos h]
        · left; rw [if_pos h]
      have sp : ∀ (x y : ℝ), (XR.pinf * XR.fin x : XR) = XR.nan ∨ (XR.pinf * XR.fin x : XR) = XR.pinf ∨
          (XR.pinf * XR.fin x : XR) = XR.ninf := by
        intro x y
        show XR.infSign x = _ ∨ XR.infSign x = _ ∨ XR.infSign x = _
        unfold XR.infSign; split_ifs <;> simp
      have sn : ∀ (x y : ℝ), (XR.ninf * XR.fin x : XR) = XR.nan ∨ (XR.ninf * XR.fin x : XR) = XR.pinf ∨
          (XR.ninf * XR.fin x : XR) = XR.ninf := by
        intro x y
        show XR.infSign (-x) = _ ∨ XR.infSign (-x) = _ ∨ XR.infSign (-x) = _
        unfold XR.infSign; split_ifs <;> simp
      have hprod : (s.x - r.x) * (q.y - p.y) ≠ 0 := mul_ne_zero hb hy
      rcases inf _ hy with e | e <;> rcases inf _ hprod with e' | e' <;> rw [e, e']
      · rcases sp (r.x - p.x) 0 with e | e | e <;> rw [e] <;> rfl
      · rcases sp (r.x - p.x) 0 with e | e | e <;> rw [e] <;> rfl
      · rcases sn (r.x - p.x) 0 with e | e | e <;> rw [e] <;> rfl
      · rcases sn (r.x - p.x) 0 with e | e | e <;> rw [e] <;> rfl
    simp only [nan1]
    have hd : (q.x - p.x) * (s.y - r.y) / (q.y - p.y) - (s.x - r.x) ≠ 0 := by rw [hx]; simp only [zero_mul, zero_div, zero_sub]; exact neg_ne_zero.2 hb
    simp only [XR.nan_isNaN, if_true, XR.fin_div hy, XR.fin_mul, XR.fin_sub, XR.fin_div hd, XR.fin_isNaN,
      Bool.false_eq_true, if_false]
    congr 1
    rw [hx] at hd h ⊢
    rw [div_eq_div_iff hd h]
    field_simp
  · have hd : (s.x - r.x) * (q.y - p.y) / (q.x - p.x) - (s.y - r.y) ≠ 0 := by
      intro h0
      apply h
      field_simp at h0
      linarith
    simp only [XR.fin_div hx, XR.fin_mul, XR.fin_sub, XR.fin_div hd, XR.fin_isNaN, Bool.false_eq_true, if_false]
    congr 1
    rw [div_eq_div_iff hd h]
    field_simp; ring

/-- **C56.** For segments `p q` and `r s` in a horizontal plane whose orientation tests report a crossing (the ends of
each are classified differently with respect to the other), `IntersectLine` returns the common point of the two
lines — a point with finite coordinates in that plane — and so does the call with the roles exchanged. -/
theorem C56_crossing (p q r s : R3) (z : ℝ) (hp : p.z = z) (hq : q.z = z) (hr : r.z = z) (hs : s.z = z)
    (h1 : r.pt.orientation p.pt q.pt ≠ s.pt.orientation p.pt q.pt)
    (h2 : p.pt.orientation r.pt s.pt ≠ q.pt.orientation r.pt s.pt) :
    ∃ w : R3, (Line.mk p.pt q.pt).intersectLine (Line.mk r.pt s.pt) = some w.pt ∧
      (Line.mk r.pt s.pt).intersectLine (Line.mk p.pt q.pt) = some w.pt ∧ w.z = z ∧
      (∃ t : ℝ, w = p + t • (q - p)) ∧ (∃ t : ℝ, w = r + t • (s - r)) := by
  have hd : (q.x - p.x) * (s.y - r.y) - (q.y - p.y) * (s.x - r.x) ≠ 0 := by
    intro h0
    apply h1
    have e : orientVal r p q = orientVal s p q := by
      unfold orientVal; linear_combination h0
    rw [orientation_pt, orientation_pt, e]
  have hd' : (s.x - r.x) * (q.y - p.y) - (s.y - r.y) * (q.x - p.x) ≠ 0 := by
    intro h0; exact hd (by linarith)
  have hzq : q.z - p.z = 0 := by rw [hp, hq]; ring
  have hzs : s.z - r.z = 0 := by rw [hr, hs]; ring
  obtain ⟨D, hD⟩ : ∃ D, D = (q.x - p.x) * (s.y - r.y) - (q.y - p.y) * (s.x - r.x) := ⟨_, rfl⟩
  have hD' : (s.x - r.x) * (q.y - p.y) - (s.y - r.y) * (q.x - p.x) = -D := by rw [hD]; ring
  have hD0 : D ≠ 0 := by rw [hD]; exact hd
  have P1 := intersectParam_pt p q r s hd
  have P2 := intersectParam_pt r s p q hd'
  rw [← hD] at P1
  rw [hD'] at P2
  refine ⟨r + (((q.y - p.y) * (r.x - p.x) - (q.x - p.x) * (r.y - p.y)) / D) • (s - r), ?_, ?_, ?_,
    ⟨((s.y - r.y) * (p.x - r.x) - (s.x - r.x) * (p.y - r.y)) / (-D), ?_⟩, ⟨_, rfl⟩⟩
  · unfold Line.intersectLine Line.intersectLineP
    simp only [if_pos (And.intro h1 h2), P1, line_toVector, Option.map_some]
    simp [R3.pt, R3.vec, mul_comm]
  · unfold Line.intersectLine Line.intersectLineP
    simp only [if_pos (And.intro h2 h1), P2, line_toVector, Option.map_some]
    simp only [R3.pt, R3.vec, XR.fin_mul, XR.fin_add, R3.add_x, R3.add_y, R3.add_z, R3.smul_x, R3.smul_y, R3.smul_z,
      R3.sub_x, R3.sub_y, R3.sub_z, Option.some.injEq, Point.mk.injEq, XR.fin_inj, hzq, hzs]
    refine ⟨?_, ?_, by rw [hp, hr]; ring⟩
    · field_simp; rw [hD]; ring
    · field_simp; rw [hD]; ring
  · rw [R3.add_z, R3.smul_z, R3.sub_z, hzs, hr]; ring
  · apply R3.ext
    · simp only [R3.add_x, R3.smul_x, R3.sub_x]
      field_simp; rw [hD]; ring
    · simp only [R3.add_y, R3.smul_y, R3.sub_y]
      field_simp; rw [hD]; ring
    · rw [R3.add_z, R3.add_z, R3.smul_z, R3.smul_z, R3.sub_z, R3.sub_z, hzs, hzq, hp, hr]; ring

/-- **C56 (proper crossing).** If moreover no end is classified as collinear, the common point is strictly inside both
segments. -/
theorem C56_inside (p q r s w : R3)
    (h1 : r.pt.orientation p.pt q.pt ≠ s.pt.orientation p.pt q.pt)
    (h2 : p.pt.orientation r.pt s.pt ≠ q.pt.orientation r.pt s.pt)
    (hn : r.pt.orientation p.pt q.pt ≠ 0 ∧ s.pt.orientation p.pt q.pt ≠ 0 ∧ p.pt.orientation r.pt s.pt ≠ 0 ∧
      q.pt.orientation r.pt s.pt ≠ 0)
    {t u : ℝ} (hw1 : w = p + t • (q - p)) (hw2 : w = r + u • (s - r)) : 0 < t ∧ t < 1 ∧ 0 < u ∧ u < 1 := by
  have opp : ∀ {a b c d : R3}, a.pt.orientation c.pt d.pt ≠ b.pt.orientation c.pt d.pt → a.pt.orientation c.pt d.pt ≠ 0 →
      b.pt.orientation c.pt d.pt ≠ 0 → orientVal a c d * orientVal b c d < 0 := by
    intro a b c d h ha hb
    rw [orientation_pt, orientation_pt] at h
    rw [orientation_pt] at ha hb
    have ga : ¬ |orientVal a c d| < tol := fun g => ha (if_pos g)
    have gb : ¬ |orientVal b c d| < tol := fun g => hb (if_pos g)
    have za : orientVal a c d ≠ 0 := fun h0 => ga (by rw [h0, abs_zero]; exact tol_pos)
    have zb : orientVal b c d ≠ 0 := fun h0 => gb (by rw [h0, abs_zero]; exact tol_pos)
    rw [if_neg ga, if_neg gb] at h
    by_cases pa : 0 < orientVal a c d <;> by_cases pb : 0 < orientVal b c d
    · rw [if_pos pa, if_pos pb] at h; exact absurd rfl h
    · exact mul_neg_of_pos_of_neg pa (lt_of_le_of_ne (not_lt.1 pb) zb)
    · exact mul_neg_of_neg_of_pos (lt_of_le_of_ne (not_lt.1 pa) za) pb
    · rw [if_neg pa, if_neg pb] at h; exact absurd rfl h
  have k1 := opp h1 hn.1 hn.2.1
  have k2 := opp h2 hn.2.2.1 hn.2.2.2
  -- at the common point both areas vanish
  have lin : ∀ (a b c d : R3) (x : ℝ), orientVal (a + x • (b - a)) c d = orientVal a c d + x * (orientVal b c d - orientVal a c d) := by
    intro a b c d x; simp [orientVal]; ring
  have z1 : orientVal w p q = 0 := by rw [hw1]; simp [orientVal]; ring
  have z2 : orientVal w r s = 0 := by rw [hw2]; simp [orientVal]; ring
  have e1 := lin r s p q u
  rw [← hw2, z1] at e1
  have e2 := lin p q r s t
  rw [← hw1, z2] at e2
  have fin : ∀ {A B x : ℝ}, A * B < 0 → 0 = A + x * (B - A) → 0 < x ∧ x < 1 := by
    intro A B x hab h
    rcases lt_trichotomy A 0 with hA | hA | hA
    · have hB : 0 < B := by by_contra hc; push Not at hc; nlinarith
      constructor
      · by_contra hc; push Not at hc; nlinarith
      · by_contra hc; push Not at hc; nlinarith
    · subst hA; simp at hab
    · have hB : B < 0 := by by_contra hc; push Not at hc; nlinarith
      constructor
      · by_contra hc; push Not at hc; nlinarith
      · by_contra hc; push Not at hc; nlinarith
  exact ⟨(fin k2 e2).1, (fin k2 e2).2, (fin k1 e1).1, (fin k1 e1).2⟩

/-- **C56 (no NaN).** For segments in a horizontal plane every point returned by `IntersectLine` has finite coordinates. -/
theorem C56_finite (p q r s : R3) (z : ℝ) (hp : p.z = z) (hq : q.z = z) (hr : r.z = z) (hs : s.z = z) (i : Point XR)
    (h : (Line.mk p.pt q.pt).intersectLine (Line.mk r.pt s.pt) = some i) : ∃ w : R3, i = w.pt := by
  by_cases hc : r.pt.orientation p.pt q.pt ≠ s.pt.orientation p.pt q.pt ∧
      p.pt.orientation r.pt s.pt ≠ q.pt.orientation r.pt s.pt
  · obtain ⟨w, hw, _⟩ := C56_crossing p q r s z hp hq hr hs hc.1 hc.2
    rw [hw] at h
    exact ⟨w, (Option.some.inj h).symm⟩
  · unfold Line.intersectLine Line.intersectLineP at h
    simp only [if_neg hc] at h
    split_ifs at h <;> simp at h
    · exact ⟨r, h.symm⟩
    · exact ⟨s, h.symm⟩
    · exact ⟨p, h.symm⟩
    · exact ⟨q, h.symm⟩

/-- the diagonals of the square `[0,2]²` cross -/
example : (R3.mk 2 0 0).pt.orientation (R3.mk 0 0 0).pt (R3.mk 2 2 0).pt ≠
      (R3.mk 0 2 0).pt.orientation (R3.mk 0 0 0).pt (R3.mk 2 2 0).pt := by
  rw [orientation_pt, orientation_pt]
  simp [orientVal, tol]; norm_num

end Goosli
