import Verif.Proofs.Space
import Verif.Spec.Section
/-!
# C07: segment/plane intersection is exact
-/
set_option linter.unusedSectionVars false
namespace Goosli
open Flt

theorem R3.height_eq (P N w : R3) : R3.height P N w = w.dot N - P.dot N := by
  simp [R3.height, R3.dot]; ring

/-- what the code computes, in real terms -/
theorem intersectSegment_pt (P N a b : R3) :
    (Plane.mk P.pt N.vec).intersectSegment a.pt b.pt =
      if R3.height P N a = R3.height P N b then none
      else
        let t := R3.height P N a / (R3.height P N a - R3.height P N b)
        if t < 0 ∨ 1 < t then none else some (a + t • (b - a)).pt := by
  unfold Plane.intersectSegment
  simp only [toVector_pt, dot_vec, XR.fin_eq, R3.height_eq]
  by_cases h : a.dot N = b.dot N
  · simp [h]
  · have h' : ¬ (a.dot N - P.dot N = b.dot N - P.dot N) := by intro hc; exact h (by linarith)
    have hd : b.dot N - a.dot N ≠ 0 := by intro hc; exact h (by linarith)
    rw [if_neg (by simpa using h), if_neg h']
    simp only [XR.fin_sub, XR.fin_div hd, lit00, lit10, XR.fin_lt]
    have e : (P.dot N - a.dot N) / (b.dot N - a.dot N) =
        (a.dot N - P.dot N) / (a.dot N - P.dot N - (b.dot N - P.dot N)) := by
      rw [← neg_div_neg_eq]; congr 1 <;> ring
    rw [e]
    by_cases ht : (a.dot N - P.dot N) / (a.dot N - P.dot N - (b.dot N - P.dot N)) < 0 ∨
        1 < (a.dot N - P.dot N) / (a.dot N - P.dot N - (b.dot N - P.dot N))
    · rw [if_pos ht, if_pos (by simpa using ht)]
    · rw [if_neg ht, if_neg (by simpa using ht)]
      simp

/-- the position parameter of the crossing lies in `[0,1]` iff the ends are not strictly on the same side -/
theorem param_mem {u v : ℝ} (h : u ≠ v) : (¬ (u / (u - v) < 0 ∨ 1 < u / (u - v))) ↔ u * v ≤ 0 := by
  have hd : u - v ≠ 0 := sub_ne_zero.2 h
  push Not
  rcases lt_or_gt_of_ne hd with hd | hd
  · rw [le_div_iff_of_neg hd, div_le_iff_of_neg hd]
    constructor
    · rintro ⟨h1, h2⟩; nlinarith
    · intro h1
      constructor
      · by_contra hc; push Not at hc; nlinarith
      · by_contra hc; push Not at hc; nlinarith
  · rw [le_div_iff₀ hd, div_le_iff₀ hd]
    constructor
    · rintro ⟨h1, h2⟩; nlinarith
    · intro h1
      constructor
      · by_contra hc; push Not at hc; nlinarith
      · by_contra hc; push Not at hc; nlinarith

theorem height_lerp (P N a b : R3) (t : ℝ) :
    R3.height P N (a + t • (b - a)) = R3.height P N a + t * (R3.height P N b - R3.height P N a) := by
  simp [R3.height, R3.dot]; ring

/-- the crossing point is unique -/
theorem crossing_unique {P N a b w w' : R3} (h : R3.height P N a ≠ R3.height P N b) (hw : R3.onSegment a b w)
    (hp : R3.onPlane P N w) (hw' : R3.onSegment a b w') (hp' : R3.onPlane P N w') : w = w' := by
  obtain ⟨t, _, _, rfl⟩ := hw
  obtain ⟨t', _, _, rfl⟩ := hw'
  unfold R3.onPlane at hp hp'
  rw [height_lerp] at hp hp'
  have : t = t' := by
    have : (t - t') * (R3.height P N b - R3.height P N a) = 0 := by linarith
    rcases mul_eq_zero.1 this with h1 | h1
    · linarith
    · exact absurd (by linarith) h
  rw [this]

/-- **C07 (exactness).** A point is returned exactly when the segment is not parallel to the plane and its ends are
not strictly on the same side. -/
theorem C07_when (P N a b : R3) :
    ((Plane.mk P.pt N.vec).intersectSegment a.pt b.pt).isSome = true ↔
      R3.height P N a ≠ R3.height P N b ∧ R3.height P N a * R3.height P N b ≤ 0 := by
  rw [intersectSegment_pt]
  by_cases h : R3.height P N a = R3.height P N b
  · simp [h]
  · rw [if_neg h]
    by_cases ht : R3.height P N a / (R3.height P N a - R3.height P N b) < 0 ∨
        1 < R3.height P N a / (R3.height P N a - R3.height P N b)
    · have := (param_mem h).not.1 (not_not.2 ht)
      simp only [if_pos ht]
      simp [h, this]
    · have := (param_mem h).1 ht
      simp only [if_neg ht]
      simp [h, this]

/-- **C07 (soundness and completeness).** The point returned is *the* common point of plane and segment: every result is
of this kind, and for a segment not parallel to the plane every common point is the result. -/
theorem C07_exact (P N a b : R3) :
    (∀ q, (Plane.mk P.pt N.vec).intersectSegment a.pt b.pt = some q →
        ∃ w : R3, q = w.pt ∧ R3.onSegment a b w ∧ R3.onPlane P N w) ∧
      (R3.height P N a ≠ R3.height P N b → ∀ w, R3.onSegment a b w → R3.onPlane P N w →
        (Plane.mk P.pt N.vec).intersectSegment a.pt b.pt = some w.pt) := by
  have sound : ∀ q, (Plane.mk P.pt N.vec).intersectSegment a.pt b.pt = some q →
        ∃ w : R3, q = w.pt ∧ R3.onSegment a b w ∧ R3.onPlane P N w := by
    intro q hq
    rw [intersectSegment_pt] at hq
    by_cases h : R3.height P N a = R3.height P N b
    · simp [h] at hq
    · rw [if_neg h] at hq
      by_cases ht : R3.height P N a / (R3.height P N a - R3.height P N b) < 0 ∨
        1 < R3.height P N a / (R3.height P N a - R3.height P N b)
      · simp only [if_pos ht] at hq; exact absurd hq (by simp)
      · simp only [if_neg ht, Option.some.injEq] at hq
        push Not at ht
        refine ⟨_, hq.symm, ⟨_, ht.1, ht.2, rfl⟩, ?_⟩
        unfold R3.onPlane
        rw [height_lerp]
        have hd : R3.height P N a - R3.height P N b ≠ 0 := sub_ne_zero.2 h
        field_simp; ring
  refine ⟨sound, fun h w hw hp => ?_⟩
  have hsome : ((Plane.mk P.pt N.vec).intersectSegment a.pt b.pt).isSome = true := by
    rw [C07_when]
    refine ⟨h, ?_⟩
    obtain ⟨t, h0, h1, rfl⟩ := hw
    unfold R3.onPlane at hp
    rw [height_lerp] at hp
    have e : (1 - t) * R3.height P N a = - (t * R3.height P N b) := by linarith
    by_contra hc
    push Not at hc
    rcases eq_or_lt_of_le h0 with h0 | h0
    · subst h0; simp at hp; rw [hp] at hc; simp at hc
    · have : R3.height P N a * ((1 - t) * R3.height P N a) = - (t * (R3.height P N a * R3.height P N b)) := by
        rw [e]; ring
      have h2 : 0 ≤ (1 - t) * (R3.height P N a * R3.height P N a) :=
        mul_nonneg (by linarith) (mul_self_nonneg _)
      have h3 : 0 < t * (R3.height P N a * R3.height P N b) := mul_pos h0 hc
      nlinarith
  obtain ⟨q, hq⟩ := Option.isSome_iff_exists.1 hsome
  obtain ⟨w', rfl, hw', hp'⟩ := sound q hq
  rw [hq, crossing_unique h hw hp hw' hp']

theorem onSegment_symm {a b w : R3} (h : R3.onSegment a b w) : R3.onSegment b a w := by
  obtain ⟨t, h0, h1, rfl⟩ := h
  refine ⟨1 - t, by linarith, by linarith, ?_⟩
  apply R3.ext <;> simp <;> ring

/-- **C07 (symmetry).** The result does not depend on the order of the two ends. -/
theorem C07_symm (P N a b : R3) :
    (Plane.mk P.pt N.vec).intersectSegment a.pt b.pt = (Plane.mk P.pt N.vec).intersectSegment b.pt a.pt := by
  by_cases h : R3.height P N a = R3.height P N b
  · rw [intersectSegment_pt, intersectSegment_pt, if_pos h, if_pos h.symm]
  · cases hq : (Plane.mk P.pt N.vec).intersectSegment a.pt b.pt with
    | none =>
      have := (C07_when P N a b).not.1 (by rw [hq]; simp)
      rw [eq_comm, ← Option.not_isSome_iff_eq_none, C07_when]
      rintro ⟨h1, h2⟩
      exact this ⟨h, by rwa [mul_comm] at h2⟩
    | some q =>
      obtain ⟨w, rfl, hw, hp⟩ := (C07_exact P N a b).1 q hq
      exact ((C07_exact P N b a).2 (Ne.symm h) w (onSegment_symm hw) hp).symm

/-- the plane `z = 1/2` and a unit vertical segment: a non-trivial instance with a crossing -/
example : (Plane.mk (R3.mk 0 0 (1/2)).pt (R3.mk 0 0 1).vec).intersectSegment (R3.mk 0 0 0).pt (R3.mk 0 0 1).pt =
    some (R3.mk 0 0 (1/2)).pt := by
  apply (C07_exact _ _ _ _).2
  · simp [R3.height, R3.dot]; norm_num
  · exact ⟨1/2, by norm_num, by norm_num, by apply R3.ext <;> simp⟩
  · simp [R3.onPlane, R3.height, R3.dot]

end Goosli
