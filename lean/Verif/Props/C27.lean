import Verif.Proofs.Space
/-!
# C27: angles are angles
-/
set_option linter.unusedSectionVars false
namespace Goosli
open Flt

theorem R3.cauchy (a b : R3) : |a.dot b| ≤ a.norm * b.norm := by
  apply abs_le_of_sq_le_sq' _ (mul_nonneg a.norm_nonneg b.norm_nonneg) |> abs_le.2
  have e : a.dot b * a.dot b + (a.cross b).normSq = a.normSq * b.normSq := by
    simp [R3.dot, R3.cross, R3.normSq]; ring
  have := (a.cross b).normSq_nonneg
  have h1 := R3.norm_sq a
  have h2 := R3.norm_sq b
  calc a.dot b ^ 2 = a.dot b * a.dot b := by ring
    _ ≤ a.normSq * b.normSq := by linarith
    _ = (a.norm * b.norm) ^ 2 := by rw [← h1, ← h2]; ring

/-- the angle in degrees, from the textbook definition `arccos (a·b / |a||b|)` -/
noncomputable def angleDeg (a b : R3) : ℝ := Real.arccos (a.dot b / (a.norm * b.norm)) * 180 / Real.pi

theorem angle_vec (a b : R3) (ha : a ≠ 0) (hb : b ≠ 0) : a.vec.angle b.vec = XR.fin (angleDeg a b) := by
  have hna := R3.norm_pos ha
  have hnb := R3.norm_pos hb
  have hc := abs_le.1 (R3.cauchy a b)
  have hp := mul_pos hna hnb
  have e : a.dot b / a.norm / b.norm = a.dot b / (a.norm * b.norm) := by rw [div_div]
  have h1 : -1 ≤ a.dot b / (a.norm * b.norm) := by rw [le_div_iff₀ hp]; linarith [hc.1]
  have h2 : a.dot b / (a.norm * b.norm) ≤ 1 := by rw [div_le_iff₀ hp]; linarith [hc.2]
  have l1 : (lit (-1) 0 : XR) = XR.fin (-1) := by simp
  have l2 : (lit 180 0 : XR) = XR.fin 180 := by simp
  unfold Vec.angle
  simp only [dot_vec, length_vec, XR.fin_div hna.ne', XR.fin_div hnb.ne', e, l1, lit10, l2, XR.fin_lt]
  rw [if_neg (by simp; exact ⟨h1, h2⟩), XR.fin_acos', if_neg (by push Not; exact ⟨h1, h2⟩), XR.fin_mul, XR.pi_def,
    XR.fin_div Real.pi_ne_zero]
  rfl

theorem R3.norm_smul (t : ℝ) (a : R3) : (t • a).norm = |t| * a.norm := by
  unfold R3.norm
  have : (t • a).normSq = t ^ 2 * a.normSq := by simp [R3.normSq, R3.dot]; ring
  rw [this, Real.sqrt_mul (sq_nonneg t), Real.sqrt_sq_eq_abs]

/-- **C27.** The angle of two non-zero vectors is a finite number between 0 and 180; its cosine times the lengths is the
scalar product (which determines it); it is symmetric, unchanged by positive scaling, and the angle with the
reversed vector is the supplement. -/
theorem C27_angle (a b : R3) (ha : a ≠ 0) (hb : b ≠ 0) :
    ∃ θ : ℝ, a.vec.angle b.vec = XR.fin θ ∧ 0 ≤ θ ∧ θ ≤ 180 ∧
      Real.cos (θ * Real.pi / 180) * (a.norm * b.norm) = a.dot b ∧
      b.vec.angle a.vec = XR.fin θ ∧
      (∀ s t : ℝ, 0 < s → 0 < t → (s • a).vec.angle (t • b).vec = XR.fin θ) ∧
      a.vec.angle b.vec.reverse = XR.fin (180 - θ) := by
  have hpi := Real.pi_pos
  have hna := R3.norm_pos ha
  have hnb := R3.norm_pos hb
  have hp := mul_pos hna hnb
  have hc := abs_le.1 (R3.cauchy a b)
  have h1 : -1 ≤ a.dot b / (a.norm * b.norm) := by rw [le_div_iff₀ hp]; linarith [hc.1]
  have h2 : a.dot b / (a.norm * b.norm) ≤ 1 := by rw [div_le_iff₀ hp]; linarith [hc.2]
  refine ⟨angleDeg a b, angle_vec a b ha hb, ?_, ?_, ?_, ?_, ?_, ?_⟩
  · exact div_nonneg (mul_nonneg (Real.arccos_nonneg _) (by norm_num)) hpi.le
  · unfold angleDeg
    rw [div_le_iff₀ hpi]
    have := Real.arccos_le_pi (a.dot b / (a.norm * b.norm))
    nlinarith
  · have : angleDeg a b * Real.pi / 180 = Real.arccos (a.dot b / (a.norm * b.norm)) := by
      unfold angleDeg; field_simp
    rw [this, Real.cos_arccos h1 h2]; field_simp
  · rw [angle_vec b a hb ha]
    unfold angleDeg
    rw [mul_comm b.norm, show b.dot a = a.dot b by simp [R3.dot]; ring]
  · intro s t hs ht
    have nz : ∀ {t : ℝ} {c : R3}, 0 < t → c ≠ 0 → t • c ≠ 0 := by
      intro t c ht hc h0
      have := R3.norm_smul t c
      rw [h0, R3.norm_eq_zero.2 rfl] at this
      exact (mul_pos (abs_pos.2 ht.ne') (R3.norm_pos hc)).ne this
    rw [angle_vec _ _ (nz hs ha) (nz ht hb)]
    unfold angleDeg
    rw [R3.norm_smul, R3.norm_smul, abs_of_pos hs, abs_of_pos ht]
    congr 4
    have : (s • a).dot (t • b) = s * t * a.dot b := by simp [R3.dot]; ring
    rw [this]; field_simp
  · have hnb' : -b ≠ 0 := by
      intro h; apply hb
      have e : b = - -b := by apply R3.ext <;> simp
      rw [e, h]; apply R3.ext <;> simp
    rw [reverse_vec, angle_vec a (-b) ha hnb']
    unfold angleDeg
    have e1 : (-b).norm = b.norm := by
      unfold R3.norm; congr 1; simp [R3.normSq, R3.dot]
    have e2 : a.dot (-b) = - a.dot b := by simp [R3.dot]; ring
    rw [e1, e2, neg_div, Real.arccos_neg]
    congr 1; field_simp

/-- **C27 (extremes).** The angle is 0 exactly for parallel vectors and 180 exactly for antiparallel ones. -/
theorem C27_extremes (a b : R3) (ha : a ≠ 0) (hb : b ≠ 0) :
    (a.vec.angle b.vec = XR.fin 0 ↔ ∃ k : ℝ, 0 < k ∧ b = k • a) ∧
      (a.vec.angle b.vec = XR.fin 180 ↔ ∃ k : ℝ, k < 0 ∧ b = k • a) := by
  have hpi := Real.pi_pos
  have hna := R3.norm_pos ha
  have hnb := R3.norm_pos hb
  have hp := mul_pos hna hnb
  obtain ⟨θ, h1, h2, h3, h4, _, _, _⟩ := C27_angle a b ha hb
  -- the sign of the scalar product at the extremes forces proportionality
  have prop : ∀ σ : ℝ, σ * σ = 1 → a.dot b = σ * (a.norm * b.norm) → b = (σ * b.norm / a.norm) • a := by
    intro σ hσ h
    have h0 : (b - (σ * b.norm / a.norm) • a).normSq = 0 := by
      have e : (b - (σ * b.norm / a.norm) • a).normSq =
          b.normSq - 2 * (σ * b.norm / a.norm) * a.dot b + (σ * b.norm / a.norm) ^ 2 * a.normSq := by
        simp [R3.normSq, R3.dot]; ring
      rw [e, h, ← R3.norm_sq a, ← R3.norm_sq b]
      field_simp
      linear_combination (-(b.norm ^ 2)) * hσ
    have := R3.normSq_eq_zero.1 h0
    have hx := congrArg R3.x this; have hy := congrArg R3.y this; have hz := congrArg R3.z this
    simp at hx hy hz
    apply R3.ext <;> simp <;> linarith
  have dotk : ∀ k : ℝ, a.dot (k • a) = k * (a.norm * a.norm) := by
    intro k; rw [R3.norm_sq]; simp [R3.dot, R3.normSq]; ring
  have val : ∀ k : ℝ, b = k • a → Real.cos (θ * Real.pi / 180) * |k| = k := by
    intro k hk
    rw [hk, R3.norm_smul, dotk] at h4
    have : (Real.cos (θ * Real.pi / 180) * |k| - k) * (a.norm * a.norm) = 0 := by linarith
    rcases mul_eq_zero.1 this with h | h
    · linarith
    · exact absurd h (mul_pos hna hna).ne'
  have range0 : 0 ≤ θ * Real.pi / 180 := by positivity
  have range1 : θ * Real.pi / 180 ≤ Real.pi := by rw [div_le_iff₀ (by norm_num)]; nlinarith
  rw [h1]
  simp only [XR.fin_inj]
  constructor
  · constructor
    · intro h; subst h
      have := prop 1 (by norm_num) (by rw [← h4]; simp)
      exact ⟨1 * b.norm / a.norm, by positivity, this⟩
    · rintro ⟨k, hk, hb'⟩
      have := val k hb'
      rw [abs_of_pos hk] at this
      have hcos : Real.cos (θ * Real.pi / 180) = Real.cos 0 := by
        rw [Real.cos_zero]
        have : (Real.cos (θ * Real.pi / 180) - 1) * k = 0 := by linarith
        rcases mul_eq_zero.1 this with h | h
        · linarith
        · exact absurd h hk.ne'
      have := Real.injOn_cos ⟨range0, range1⟩ ⟨le_refl _, hpi.le⟩ hcos
      have h0 : θ * Real.pi = 0 := by linarith
      rcases mul_eq_zero.1 h0 with h | h
      · exact h
      · exact absurd h hpi.ne'
  · constructor
    · intro h; subst h
      have e : (180 : ℝ) * Real.pi / 180 = Real.pi := by field_simp
      rw [e, Real.cos_pi] at h4
      have := prop (-1) (by norm_num) h4.symm
      exact ⟨-1 * b.norm / a.norm, by rw [neg_one_mul, neg_div]; exact neg_neg_of_pos (by positivity), this⟩
    · rintro ⟨k, hk, hb'⟩
      have := val k hb'
      rw [abs_of_neg hk] at this
      have hcos : Real.cos (θ * Real.pi / 180) = Real.cos Real.pi := by
        rw [Real.cos_pi]
        have : (Real.cos (θ * Real.pi / 180) + 1) * k = 0 := by linarith
        rcases mul_eq_zero.1 this with h | h
        · linarith
        · exact absurd h hk.ne
      have := Real.injOn_cos ⟨range0, range1⟩ ⟨hpi.le, le_refl _⟩ hcos
      have h0 : (θ - 180) * Real.pi = 0 := by linarith
      rcases mul_eq_zero.1 h0 with h | h
      · linarith
      · exact absurd h hpi.ne'

/-- **C27 (zero vector).** With a zero vector the angle is NaN. -/
theorem C27_zero (a : R3) : a.vec.angle (0 : R3).vec = XR.nan ∧ (0 : R3).vec.angle a.vec = XR.nan := by
  have n0 : (0 : R3).norm = 0 := R3.norm_eq_zero.2 rfl
  have d1 : a.dot 0 = 0 := by simp [R3.dot]
  have d2 : (0 : R3).dot a = 0 := by simp [R3.dot]
  have z : (XR.fin 0 / XR.fin 0 : XR) = XR.nan := by simp [XR.fin_div', XR.infSign]
  have nd : ∀ x : XR, (XR.nan / x : XR) = XR.nan := fun x => rfl
  have nm : ∀ x : XR, (XR.nan * x : XR) = XR.nan := fun x => rfl
  have n1 : ∀ x : XR, (XR.nan <? x) = false := fun x => rfl
  have n2 : ∀ x : XR, (x <? XR.nan) = false := by intro x; cases x <;> rfl
  have ac : Flt.acos XR.nan = XR.nan := rfl
  constructor
  · unfold Vec.angle
    simp only [dot_vec, length_vec, n0, d1]
    by_cases h : a.norm = 0
    · rw [h, z, nd]; simp only [n1, n2, Bool.or_self, Bool.false_eq_true, if_false, ac, nm, nd]
    · rw [XR.fin_div h, zero_div, z]; simp only [n1, n2, Bool.or_self, Bool.false_eq_true, if_false, ac, nm, nd]
  · unfold Vec.angle
    simp only [dot_vec, length_vec, n0, d2, z, nd]
    simp only [n1, n2, Bool.or_self, Bool.false_eq_true, if_false, ac, nm, nd]

/-- **C27 (rounding hazard).** In every arithmetic: if the computed cosine leaves `[-1,1]`, on either side, the code
answers 0 — so antiparallel vectors whose cosine is rounded below `-1` are reported as parallel. -/
theorem C27_out_of_range {α : Type} [Flt α] (a b : Vec α)
    (h : (a.dot b / a.length / b.length <? lit (-1) 0) = true ∨ (lit 1 0 <? a.dot b / a.length / b.length) = true) :
    a.angle b = lit 0 0 := by
  unfold Vec.angle
  rcases h with h | h <;> simp [h]

/-- orthogonal unit vectors: 90 degrees -/
example : (R3.mk 1 0 0).vec.angle (R3.mk 0 2 0).vec = XR.fin 90 := by
  rw [angle_vec _ _ (by intro h; have := congrArg R3.x h; simp at this) (by intro h; have := congrArg R3.y h; simp at this)]
  simp [angleDeg, R3.dot]
  have := Real.pi_ne_zero
  field_simp; norm_num

end Goosli
