import Verif.Proofs.Space
import Verif.Spec.Section
/-!
# C26: projections are orthogonal and nearest
-/
set_option linter.unusedSectionVars false
namespace Goosli
open Flt

theorem R3.unit_norm {a : R3} (h : a ≠ 0) : a.unit.norm = 1 := by
  have hp := R3.norm_pos h
  have e : a.unit.normSq = 1 := by
    have : a.unit.normSq = (1 / a.norm) * (1 / a.norm) * a.normSq := by
      simp [R3.unit, R3.normSq, R3.dot]; ring
    rw [this, ← R3.norm_sq a]; field_simp
  rw [R3.norm, e, Real.sqrt_one]

/-- **C26 (normalisation).** `Normalize` returns a vector of length one with the same direction, or the zero vector. -/
theorem C26_normalize (a : R3) :
    ∃ u : R3, a.vec.normalize = u.vec ∧ (a ≠ 0 → u.norm = 1 ∧ a = a.norm • u) ∧ (a = 0 → u = 0) := by
  refine ⟨a.unit, normalize_vec a, fun h => ⟨R3.unit_norm h, ?_⟩, fun h => by rw [h, R3.unit_zero]⟩
  have hp := (R3.norm_pos h).ne'
  apply R3.ext <;> simp [R3.unit] <;> field_simp

/-- **C26 (vector on plane).** The projection of a vector is orthogonal to the plane normal and differs from the
vector by a multiple of it. -/
theorem C26_vector_on_plane (a P N : R3) :
    ∃ r : R3, a.vec.projectOnPlane ⟨P.pt, N.vec⟩ = r.vec ∧ r.dot N = 0 ∧ ∃ k : ℝ, a = r + k • N := by
  refine ⟨a - (N.dot a / N.normSq) • N, ?_, ?_, N.dot a / N.normSq, ?_⟩
  · simp only [Vec.projectOnPlane, projectOn_vec, reverse_vec, add_vec]
    congr 1
  · by_cases h : N = 0
    · subst h; simp [R3.dot]
    · have hp := (R3.normSq_pos h).ne'
      have : (a - (N.dot a / N.normSq) • N).dot N = N.dot a - N.dot a / N.normSq * N.normSq := by
        simp [R3.dot, R3.normSq]; ring
      rw [this]; field_simp; ring
  · apply R3.ext <;> simp

/-- Pythagoras: a point from which the difference to every point of a set is orthogonal is nearest -/
theorem nearest_of_orth {a w w' : R3} (h : (a - w).dot (w' - w) = 0) : R3.dist a w ≤ R3.dist a w' := by
  unfold R3.dist R3.norm
  apply Real.sqrt_le_sqrt
  have : (w' - a).normSq = (w - a).normSq + (w' - w).normSq - 2 * (a - w).dot (w' - w) := by
    simp [R3.normSq, R3.dot]; ring
  rw [this, h]
  have := (w' - w).normSq_nonneg
  linarith

theorem projectOnLine_pt (a b c : R3) :
    a.pt.projectOnLine b.pt c.pt = (b + ((a - b).dot (c - b).unit) • (c - b).unit).pt := by
  simp [Point.projectOnLine]

/-- **C26 (point on line).** The projection of a point on the line through `b` and `c` is on that line, is the nearest
point of it, and projecting again changes nothing.  (For `b = c` the line is the point `b`.) -/
theorem C26_point_on_line (a b c : R3) :
    ∃ w : R3, a.pt.projectOnLine b.pt c.pt = w.pt ∧ (∃ t : ℝ, w = b + t • (c - b)) ∧
      (∀ t : ℝ, R3.dist a w ≤ R3.dist a (b + t • (c - b))) ∧ w.pt.projectOnLine b.pt c.pt = w.pt := by
  by_cases h : c - b = 0
  · refine ⟨b, ?_, ⟨0, by apply R3.ext <;> simp⟩, fun t => ?_, ?_⟩
    · rw [projectOnLine_pt, h, R3.unit_zero]; congr 1; apply R3.ext <;> simp
    · rw [h]
      have : b + t • (0 : R3) = b := by apply R3.ext <;> simp
      rw [this]
    · rw [projectOnLine_pt, h, R3.unit_zero]; congr 1; apply R3.ext <;> simp
  · have hp := (R3.norm_pos h).ne'
    have hu := R3.unit_norm h
    have hu2 : (c - b).unit.dot (c - b).unit = 1 := by
      have := R3.norm_sq (c - b).unit
      rw [hu] at this; simpa [R3.normSq] using this.symm
    have hcb : c - b = (c - b).norm • (c - b).unit := by
      apply R3.ext <;> simp only [R3.unit, R3.smul_x, R3.smul_y, R3.smul_z] <;> field_simp
    set u := (c - b).unit with hud
    set n := (c - b).norm with hn
    have lin : ∀ (x y z : R3), (x + y).dot z = x.dot z + y.dot z := by intro x y z; simp [R3.dot]; ring
    refine ⟨b + ((a - b).dot u) • u, projectOnLine_pt a b c, ⟨(a - b).dot u / n, ?_⟩, fun t => ?_, ?_⟩
    · conv_rhs => rw [hcb]
      apply R3.ext <;> simp <;> field_simp
    · apply nearest_of_orth
      rw [hcb]
      have : (a - (b + ((a - b).dot u) • u)).dot (b + t • n • u - (b + ((a - b).dot u) • u)) =
          (t * n - (a - b).dot u) * ((a - b).dot u - (a - b).dot u * u.dot u) := by
        simp [R3.dot]; ring
      rw [this, hu2]; ring
    · rw [projectOnLine_pt, ← hud]
      have : (b + ((a - b).dot u) • u - b).dot u = (a - b).dot u := by
        have : (b + ((a - b).dot u) • u - b).dot u = (a - b).dot u * u.dot u := by simp [R3.dot]; ring
        rw [this, hu2]; ring
      rw [this]

theorem proection_pt (P N m : R3) (h : N ≠ 0) :
    (Plane.mk P.pt N.vec).proectionPointToPlane m.pt = .ok (m + (N.dot (P - m) / N.normSq) • N).pt := by
  have hp := (R3.normSq_pos h).ne'
  have hp' : N.x * N.x + N.y * N.y + N.z * N.z ≠ 0 := hp
  unfold Plane.proectionPointToPlane
  simp only [R3.pt, R3.vec, XR.fin_sub, XR.fin_mul, XR.fin_add, XR.fin_div hp', XR.fin_isNaN]
  simp [R3.dot, R3.normSq]
  refine ⟨?_, ?_, ?_⟩ <;> ring

/-- **C26 (point on plane).** With a non-zero normal the projection of a point is on the plane, is the nearest point of
the plane, and projecting again changes nothing. -/
theorem C26_point_on_plane (P N m : R3) (h : N ≠ 0) :
    ∃ w : R3, (Plane.mk P.pt N.vec).proectionPointToPlane m.pt = .ok w.pt ∧ R3.onPlane P N w ∧
      (∀ w', R3.onPlane P N w' → R3.dist m w ≤ R3.dist m w') ∧
      (Plane.mk P.pt N.vec).proectionPointToPlane w.pt = .ok w.pt := by
  have hp := (R3.normSq_pos h).ne'
  have on : R3.onPlane P N (m + (N.dot (P - m) / N.normSq) • N) := by
    unfold R3.onPlane R3.height
    have : (m + (N.dot (P - m) / N.normSq) • N - P).dot N = N.dot (P - m) / N.normSq * N.normSq - N.dot (P - m) := by
      simp [R3.dot, R3.normSq]; ring
    rw [this]; field_simp; ring
  refine ⟨_, proection_pt P N m h, on, fun w' hw' => ?_, ?_⟩
  · apply nearest_of_orth
    set w := m + (N.dot (P - m) / N.normSq) • N with hw
    have e : (m - w).dot (w' - w) = -(N.dot (P - m) / N.normSq) * (R3.height P N w' - R3.height P N w) := by
      simp [hw, R3.dot, R3.height]; ring
    unfold R3.onPlane at on hw'
    rw [e, on, hw']; ring
  · rw [proection_pt P N _ h]
    congr 2
    have e : N.dot (P - (m + (N.dot (P - m) / N.normSq) • N)) = - R3.height P N (m + (N.dot (P - m) / N.normSq) • N) := by
      simp [R3.dot, R3.height]; ring
    unfold R3.onPlane at on
    rw [e, on]
    apply R3.ext <;> simp

/-- **C26 (zero normal).** A zero plane normal makes the point projection exit fatally. -/
theorem C26_zero_normal (P m : R3) :
    (Plane.mk P.pt (0 : R3).vec).proectionPointToPlane m.pt = .error .fatal := by
  unfold Plane.proectionPointToPlane
  have : (XR.fin 0 / XR.fin 0 : XR) = XR.nan := by simp [XR.fin_div', XR.infSign]
  simp [R3.pt, R3.vec, this]

/-- a concrete projection on the plane `z = 1` -/
example : (Plane.mk (R3.mk 0 0 1).pt (R3.mk 0 0 2).vec).proectionPointToPlane (R3.mk 3 4 5).pt = .ok (R3.mk 3 4 1).pt := by
  rw [proection_pt _ _ _ (by intro h; have := congrArg R3.z h; simp at this)]
  congr 2
  apply R3.ext <;> simp [R3.dot, R3.normSq] <;> norm_num

end Goosli
