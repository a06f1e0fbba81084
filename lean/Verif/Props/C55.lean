import Verif.Proofs.Solid
/-!
# C55: point in triangle
-/
set_option linter.unusedSectionVars false
namespace Goosli
open Flt

/-- the three edge functions of the code -/
noncomputable def edgeFn (a b p : R3) : ℝ := (a.x - p.x) * (b.y - a.y) - (b.x - a.x) * (a.y - p.y)

theorem pointBelongs_tri (t : RTri) (p : R3) :
    t.tri.pointBelongs p.pt = decide (|t.nrm.dot (p - t.a)| < tol ∧
      ((0 ≤ edgeFn t.a t.b p ∧ 0 ≤ edgeFn t.b t.c p ∧ 0 ≤ edgeFn t.c t.a p) ∨
       (edgeFn t.a t.b p ≤ 0 ∧ edgeFn t.b t.c p ≤ 0 ∧ edgeFn t.c t.a p ≤ 0))) := by
  have e : (Plane.mk t.a.pt t.nrm.vec).pointBelongs p.pt = decide (|t.nrm.dot (p - t.a)| < tol) := by
    simp only [Plane.pointBelongs, R3.pt, R3.vec, XR.fin_sub, XR.fin_mul, XR.fin_add, almostZero_fin, R3.dot, R3.sub_x, R3.sub_y, R3.sub_z]
    exact decide_eq_decide.2 Iff.rfl
  unfold Triangle.pointBelongs
  simp only [RTri.tri, e, lit00]
  by_cases h : |t.nrm.dot (p - t.a)| < tol
  · simp only [h, decide_true, if_true, true_and]
    simp [R3.pt, edgeFn, Bool.and_assoc]
  · simp [h]

theorem edge_sum (t : RTri) (p : R3) : edgeFn t.a t.b p + edgeFn t.b t.c p + edgeFn t.c t.a p = t.nrm.z := by
  simp [edgeFn, RTri.nrm, R3.cross]; ring

/-- **C55 (completeness).** Every point of the triangle is accepted. -/
theorem C55_accepts (t : RTri) (u v w : ℝ) (hu : 0 ≤ u) (hv : 0 ≤ v) (hw : 0 ≤ w) (hs : u + v + w = 1) :
    t.tri.pointBelongs (u • t.a + v • t.b + w • t.c).pt = true := by
  rw [pointBelongs_tri, decide_eq_true_eq]
  have hu' : u = 1 - v - w := by linarith
  constructor
  · have : t.nrm.dot (u • t.a + v • t.b + w • t.c - t.a) = 0 := by
      subst hu'; simp [RTri.nrm, R3.dot, R3.cross]; ring
    rw [this, abs_zero]; exact tol_pos
  · have e1 : edgeFn t.a t.b (u • t.a + v • t.b + w • t.c) = w * t.nrm.z := by
      subst hu'; simp [edgeFn, RTri.nrm, R3.cross]; ring
    have e2 : edgeFn t.b t.c (u • t.a + v • t.b + w • t.c) = u * t.nrm.z := by
      subst hu'; simp [edgeFn, RTri.nrm, R3.cross]; ring
    have e3 : edgeFn t.c t.a (u • t.a + v • t.b + w • t.c) = v * t.nrm.z := by
      subst hu'; simp [edgeFn, RTri.nrm, R3.cross]; ring
    rw [e1, e2, e3]
    rcases le_total 0 t.nrm.z with h | h
    · left; refine ⟨?_, ?_, ?_⟩ <;> nlinarith
    · right; refine ⟨?_, ?_, ?_⟩ <;> nlinarith

/-- **C55 (soundness).** For a triangle that is not vertical an accepted point is within tolerance of its plane (in the
units of the un-normalised normal) and its vertical projection is in the triangle. -/
theorem C55_rejects (t : RTri) (p : R3) (hz : t.nrm.z ≠ 0) (h : t.tri.pointBelongs p.pt = true) :
    |t.nrm.dot (p - t.a)| < tol ∧
      ∃ u v w : ℝ, 0 ≤ u ∧ 0 ≤ v ∧ 0 ≤ w ∧ u + v + w = 1 ∧
        p.x = u * t.a.x + v * t.b.x + w * t.c.x ∧ p.y = u * t.a.y + v * t.b.y + w * t.c.y := by
  rw [pointBelongs_tri, decide_eq_true_eq] at h
  obtain ⟨h1, h2⟩ := h
  refine ⟨h1, edgeFn t.b t.c p / t.nrm.z, edgeFn t.c t.a p / t.nrm.z, edgeFn t.a t.b p / t.nrm.z, ?_, ?_, ?_, ?_, ?_, ?_⟩
  · have hs := edge_sum t p
    rcases h2 with h2 | h2
    · exact div_nonneg h2.2.1 (by linarith [h2.1, h2.2.1, h2.2.2])
    · exact div_nonneg_of_nonpos h2.2.1 (by linarith [h2.1, h2.2.1, h2.2.2])
  · have hs := edge_sum t p
    rcases h2 with h2 | h2
    · exact div_nonneg h2.2.2 (by linarith [h2.1, h2.2.1, h2.2.2])
    · exact div_nonneg_of_nonpos h2.2.2 (by linarith [h2.1, h2.2.1, h2.2.2])
  · have hs := edge_sum t p
    rcases h2 with h2 | h2
    · exact div_nonneg h2.1 (by linarith [h2.1, h2.2.1, h2.2.2])
    · exact div_nonneg_of_nonpos h2.1 (by linarith [h2.1, h2.2.1, h2.2.2])
  · have hs := edge_sum t p
    rw [← add_div, ← add_div, div_eq_iff hz]; linarith
  · field_simp
    simp only [edgeFn, RTri.nrm, R3.cross, R3.sub_x, R3.sub_y, R3.sub_z]; ring
  · field_simp
    simp only [edgeFn, RTri.nrm, R3.cross, R3.sub_x, R3.sub_y, R3.sub_z]; ring

/-- **C55 (vertical triangles).** For a vertical triangle (normal horizontal, not degenerate) the code accepts every point of the
triangle's plane, however far away. -/
theorem C55_vertical (t : RTri) (p : R3) (hz : t.nrm.z = 0) (h0 : t.nrm ≠ 0) (hp : t.nrm.dot (p - t.a) = 0) :
    t.tri.pointBelongs p.pt = true := by
  rw [pointBelongs_tri, decide_eq_true_eq]
  refine ⟨by rw [hp, abs_zero]; exact tol_pos, Or.inl ?_⟩
  have hxy : t.nrm.x ≠ 0 ∨ t.nrm.y ≠ 0 := by
    by_contra hc; push Not at hc; exact h0 (R3.ext hc.1 hc.2 hz)
  have orth : ∀ s q : R3, t.nrm.dot (s - t.a) = 0 → t.nrm.dot (q - t.a) = 0 → edgeFn s q p = 0 := by
    intro s q hs hq
    have k1 : t.nrm.x * (q.x - s.x) + t.nrm.y * (q.y - s.y) = 0 := by
      simp [R3.dot, hz] at hs hq; linarith
    have k2 : t.nrm.x * (s.x - p.x) + t.nrm.y * (s.y - p.y) = 0 := by
      simp [R3.dot, hz] at hs hp; linarith
    unfold edgeFn
    rcases hxy with h | h
    · apply mul_left_cancel₀ h
      linear_combination (q.y - s.y) * k2 - (s.y - p.y) * k1
    · apply mul_left_cancel₀ h
      linear_combination (s.x - p.x) * k1 - (q.x - s.x) * k2
  have ha : t.nrm.dot (t.a - t.a) = 0 := by simp [R3.dot]
  have hb : t.nrm.dot (t.b - t.a) = 0 := by simp [RTri.nrm, R3.dot, R3.cross]; ring
  have hc : t.nrm.dot (t.c - t.a) = 0 := by simp [RTri.nrm, R3.dot, R3.cross]; ring
  rw [orth _ _ ha hb, orth _ _ hb hc, orth _ _ hc ha]
  simp

/-- a concrete wrong answer: the point `(1000, 0, 1000)` "belongs" to the small vertical triangle `(0,0,0) (1,0,0) (0,0,1)` -/
example : (RTri.mk ⟨0, 0, 0⟩ ⟨1, 0, 0⟩ ⟨0, 0, 1⟩).tri.pointBelongs (R3.mk 1000 0 1000).pt = true := by
  apply C55_vertical
  · simp [RTri.nrm, R3.cross]
  · intro h; have := congrArg R3.y h; simp [RTri.nrm, R3.cross] at this
  · simp [RTri.nrm, R3.cross, R3.dot]

/-- a non-vertical triangle, for `C55_rejects` -/
example : (RTri.mk ⟨0, 0, 0⟩ ⟨1, 0, 0⟩ ⟨0, 1, 0⟩).nrm.z ≠ 0 := by simp [RTri.nrm, R3.cross]

end Goosli
