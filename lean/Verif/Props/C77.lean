import Verif.Proofs.Crossing
import Verif.Props.C08
import Verif.Proofs.Rot
import Verif.Model.Path
/-!
# C77: the test whether a point is inside a contour
-/
set_option linter.unusedSectionVars false
set_option autoImplicit false
namespace Goosli
open Flt

/-! ## Specification -/

/-- The part of the contour behind the point (seen from above and away from the first side) is far enough: where the contour crosses the
line through `a` square to the first side behind `a`, the product of the distances of this crossing and of the line of the first side
`u v` from `a` is more than the square of the difference `h` in height. -/
def ClearBehind (a u v : R3) (h : ℝ) (ws : List R3) : Prop :=
  ∀ q ∈ sides ws, ∀ i, crosses a (v - u) q.1 q.2 i → (i - a).flat.dot (u - a).flat < 0 → (i - a).flat.dot (u - a).flat < - h ^ 2

/-! ## Proofs -/

/-- the test of `Point.Inside` on one side -/
noncomputable def insideTest (a u v : R3) (q : R3 × R3) : Bool :=
  match (Plane.mk a.pt (v - u).vec).intersectSegment q.1.pt q.2.pt with
  | some i => (a.pt.vectorTo i).codirectedWith ((a.pt.vectorTo u.pt).projectOnPlane ⟨a.pt, (v - u).vec⟩)
  | none => false

theorem adjPairs_sides (ws : List R3) : adjPairs (ws.map R3.pt) = (sides ws).map fun q => (q.1.pt, q.2.pt) := by
  unfold adjPairs sides
  rw [← List.map_tail, List.zip_map]; rfl

theorem inside_count (a u v w x : R3) (t : List R3) :
    a.pt.inside ⟨(u :: v :: w :: x :: t).map R3.pt⟩ = decide ((sides (u :: v :: w :: x :: t)).countP (insideTest a u v) % 2 ≠ 0) := by
  have e : adjPairs ((u :: v :: w :: x :: t).map R3.pt) = (sides (u :: v :: w :: x :: t)).map fun q => (q.1.pt, q.2.pt) := adjPairs_sides _
  unfold Point.inside
  simp only [List.map_cons] at e ⊢
  rw [e, List.countP_map]
  simp only [vectorTo_pt]
  refine congrArg (fun n : Nat => decide (n % 2 ≠ 0)) (List.countP_congr fun q _ => ?_)
  unfold insideTest
  simp only [vectorTo_pt, Function.comp_def]
  cases (Plane.mk a.pt (v - u).vec).intersectSegment q.1.pt q.2.pt <;> rfl

theorem projectOnPlane_dot (a u n i : R3) (hn : n ≠ 0) (hi : (i - a).dot n = 0) :
    (a.pt.vectorTo i.pt).codirectedWith ((a.pt.vectorTo u.pt).projectOnPlane ⟨a.pt, n.vec⟩) = decide (0 ≤ (i - a).dot (u - a)) := by
  unfold Vec.projectOnPlane
  simp only [vectorTo_pt, projectOn_vec, reverse_vec, add_vec, codirected_vec]
  congr 2
  have e : (i - a).dot (u - a + -((n.dot (u - a) / n.normSq) • n)) = (i - a).dot (u - a) - n.dot (u - a) / n.normSq * ((i - a).dot n) := by
    simp [R3.dot]; ring
  rw [e, hi]; simp

theorem insideTest_iff (a u v : R3) (q : R3 × R3) (hn : v - u ≠ 0) :
    insideTest a u v q = true ↔ ∃ i, crosses a (v - u) q.1 q.2 i ∧ 0 ≤ (i - a).dot (u - a) := by
  unfold insideTest
  cases hs : (Plane.mk a.pt (v - u).vec).intersectSegment q.1.pt q.2.pt with
  | none =>
    simp only [Bool.false_eq_true, false_iff, not_exists, not_and]
    intro i hi
    have := (intersectSegment_iff a (v - u) q.1 q.2 i.pt).2 ⟨i, rfl, hi⟩
    rw [hs] at this; cases this
  | some p =>
    obtain ⟨i, rfl, hi⟩ := (intersectSegment_iff a (v - u) q.1 q.2 p).1 hs
    have hi0 : (i - a).dot (v - u) = 0 := hi.2.2
    simp only [projectOnPlane_dot a u (v - u) i hn hi0, decide_eq_true_eq]
    constructor
    · intro h; exact ⟨i, hi, h⟩
    · rintro ⟨i', hi', h'⟩
      have := (intersectSegment_iff a (v - u) q.1 q.2 i'.pt).2 ⟨i', rfl, hi'⟩
      rw [hs] at this
      injection this with this
      rw [R3.pt_inj this]; exact h'

/-- the test on one side, by the signs of the heights of its ends -/
theorem insideTest_signs (a u v : R3) (q : R3 × R3) (hn : v - u ≠ 0) :
    insideTest a u v q = true ↔ (q.1 - a).dot (v - u) ≠ (q.2 - a).dot (v - u) ∧ (q.1 - a).dot (v - u) * (q.2 - a).dot (v - u) ≤ 0 ∧
      0 ≤ ((q.2 - a).dot (v - u) - (q.1 - a).dot (v - u)) *
        ((q.2 - a).dot (v - u) * (q.1 - a).dot (u - a) - (q.1 - a).dot (v - u) * (q.2 - a).dot (u - a)) := by
  rw [insideTest_iff a u v q hn]
  set A := (q.1 - a).dot (v - u) with hA
  set B := (q.2 - a).dot (v - u) with hB
  have lin : ∀ t (m : R3), (q.1 + t • (q.2 - q.1) - a).dot m = (q.1 - a).dot m + t * ((q.2 - a).dot m - (q.1 - a).dot m) := by
    intro t m; simp [R3.dot]; ring
  constructor
  · rintro ⟨i, ⟨h1, ⟨t, h0, ht, rfl⟩, h2⟩, h3⟩
    have h2' : A + t * (B - A) = 0 := by rw [hA, hB, ← lin]; exact h2
    have hne : A ≠ B := h1
    refine ⟨hne, ?_, ?_⟩
    · have e : A * B = - (t * (1 - t)) * (B - A) ^ 2 := by
        have : A = - (t * (B - A)) := by linarith
        have hB2 : B = (1 - t) * (B - A) := by linarith
        calc A * B = (- (t * (B - A))) * ((1 - t) * (B - A)) := by rw [← this, ← hB2]
          _ = _ := by ring
      rw [e]
      have := mul_nonneg h0 (sub_nonneg.2 ht)
      nlinarith [sq_nonneg (B - A), mul_nonneg this (sq_nonneg (B - A))]
    · rw [lin] at h3
      have e : (B - A) * (B * (q.1 - a).dot (u - a) - A * (q.2 - a).dot (u - a)) =
          (B - A) ^ 2 * ((q.1 - a).dot (u - a) + t * ((q.2 - a).dot (u - a) - (q.1 - a).dot (u - a))) := by
        linear_combination ((B - A) * ((q.1 - a).dot (u - a) - (q.2 - a).dot (u - a))) * h2'
      rw [e]; positivity
  · rintro ⟨h1, h2, h3⟩
    have hne : B - A ≠ 0 := sub_ne_zero.2 (Ne.symm h1)
    have hsq : 0 < (B - A) ^ 2 := by positivity
    refine ⟨q.1 + (-A / (B - A)) • (q.2 - q.1), ⟨h1, ⟨-A / (B - A), ?_, ?_, rfl⟩, ?_⟩, ?_⟩
    · have : -A / (B - A) = (A ^ 2 - A * B) / (B - A) ^ 2 := by field_simp; ring
      rw [this]; apply div_nonneg _ hsq.le; nlinarith [sq_nonneg A]
    · have : 0 ≤ 1 - -A / (B - A) := by
        have : 1 - -A / (B - A) = (B ^ 2 - A * B) / (B - A) ^ 2 := by field_simp; ring
        rw [this]; apply div_nonneg _ hsq.le; nlinarith [sq_nonneg B]
      linarith
    · show (q.1 + (-A / (B - A)) • (q.2 - q.1) - a).dot (v - u) = 0
      rw [lin, ← hA, ← hB]; field_simp; ring
    · rw [lin]
      have e : (q.1 - a).dot (u - a) + -A / (B - A) * ((q.2 - a).dot (u - a) - (q.1 - a).dot (u - a)) =
          (B - A) * (B * (q.1 - a).dot (u - a) - A * (q.2 - a).dot (u - a)) / (B - A) ^ 2 := by field_simp; ring
      rw [e]; exact div_nonneg h3 hsq.le

/-- the direction from `a` square to the line of the first side -/
noncomputable def towards (a u v : R3) : R3 := ⟨-((v - u).cross2 (u - a) * (v - u).y), (v - u).cross2 (u - a) * (v - u).x, 0⟩

theorem towards_cross (a u v w : R3) (hz : (v - u).z = 0) : (towards a u v).cross2 (w - a) = -((v - u).cross2 (u - a) * (w - a).dot (v - u)) := by
  have e : (w - a).dot (v - u) = (w - a).x * (v - u).x + (w - a).y * (v - u).y := by unfold R3.dot; rw [hz]; ring
  rw [e]
  unfold towards R3.cross2
  ring

theorem insideTest_ray (a u v : R3) (z : ℝ) (ws : List R3) (hz : ∀ w ∈ ws, w.z = z) (huz : u.z = z) (hvz : v.z = z)
    (hg : ∀ w ∈ ws, (w - a).dot (v - u) ≠ 0)
    (hd : (v - u).cross2 (u - a) ≠ 0) (hb : ClearBehind a u v (z - a.z) ws) (q : R3 × R3) (hq : q ∈ sides ws) :
    insideTest a u v q = true ↔ RayHits a (towards a u v) q := by
  have hn : v - u ≠ 0 := by intro h; apply hd; rw [h]; simp [R3.cross2]
  have hnz : (v - u).z = 0 := by simp [huz, hvz]
  obtain ⟨m1, m2⟩ := mem_sides hq
  rw [insideTest_iff a u v q hn]
  generalize hnn : v - u = n at *
  set σ := n.cross2 (u - a) with hσ
  have hN : 0 < n.x ^ 2 + n.y ^ 2 := by
    have : n.x ≠ 0 ∨ n.y ≠ 0 := by
      by_contra hc; rw [not_or, not_not, not_not] at hc
      exact hn (R3.ext hc.1 hc.2 hnz)
    rcases this with h | h
    · have := sq_pos_of_ne_zero h; have := sq_nonneg n.y; linarith
    · have := sq_pos_of_ne_zero h; have := sq_nonneg n.x; linarith
  have hσe : σ = n.x * (u.y - a.y) - n.y * (u.x - a.x) := by rw [hσ]; simp [R3.cross2]
  have htw : towards a u v = ⟨-(σ * n.y), σ * n.x, 0⟩ := by unfold towards; rw [hnn]
  rw [htw]
  constructor
  · rintro ⟨i, hi, hc⟩
    obtain ⟨_, ⟨t, h0, h1, hit⟩, hp⟩ := id hi
    have ix : i.x = q.1.x + t * (q.2.x - q.1.x) := by rw [hit]; simp
    have iy : i.y = q.1.y + t * (q.2.y - q.1.y) := by rw [hit]; simp
    have iz : i.z = z := by rw [hit]; simp [hz _ m1, hz _ m2]
    have hp' : (i.x - a.x) * n.x + (i.y - a.y) * n.y = 0 := by
      have : (i - a).dot n = 0 := hp
      simpa [R3.dot, hnz] using this
    have hflat : 0 ≤ (i - a).flat.dot (u - a).flat := by
      by_contra hneg
      have h2 := hb q hq i (by rw [hnn]; exact hi) (not_le.1 hneg)
      have e : (i - a).dot (u - a) = (i - a).flat.dot (u - a).flat + (z - a.z) ^ 2 := by
        simp [R3.dot, R3.flat, iz, huz]; ring
      rw [e] at hc
      linarith
    have hflat' : 0 ≤ (i.x - a.x) * (u.x - a.x) + (i.y - a.y) * (u.y - a.y) := by simpa [R3.dot, R3.flat] using hflat
    set μ := n.x * (i.y - a.y) - n.y * (i.x - a.x) with hμ
    have k1 : (n.x ^ 2 + n.y ^ 2) * ((i.x - a.x) * (u.x - a.x) + (i.y - a.y) * (u.y - a.y)) = μ * σ := by
      rw [hμ, hσe]; linear_combination (n.x * (u.x - a.x) + n.y * (u.y - a.y)) * hp'
    have k2 : 0 ≤ μ * σ := by rw [← k1]; positivity
    refine ⟨μ * σ / ((n.x ^ 2 + n.y ^ 2) * σ ^ 2), t, by positivity, h0, h1, ?_, ?_⟩
    · rw [← ix]
      field_simp
      rw [hμ]; linear_combination n.x * hp'
    · rw [← iy]
      field_simp
      rw [hμ]; linear_combination n.y * hp'
  · rintro ⟨s, t, hs, h0, h1, hx, hy⟩
    dsimp only at hx hy
    refine ⟨q.1 + t • (q.2 - q.1), ⟨?_, ⟨t, h0, h1, rfl⟩, ?_⟩, ?_⟩
    · intro heq
      unfold R3.height at heq
      apply hg _ m1
      have e1 : (q.1 - a).dot n = (q.1.x - a.x) * n.x + (q.1.y - a.y) * n.y := by simp [R3.dot, hnz]
      have e2 : (q.2 - a).dot n = (q.2.x - a.x) * n.x + (q.2.y - a.y) * n.y := by simp [R3.dot, hnz]
      rw [e1, e2] at heq
      rw [e1]
      linear_combination n.x * hx + n.y * hy + t * heq
    · show (q.1 + t • (q.2 - q.1) - a).dot n = 0
      simp only [R3.dot, R3.sub_x, R3.add_x, R3.smul_x, R3.sub_y, R3.add_y, R3.smul_y, hnz]
      linear_combination n.x * hx + n.y * hy
    · have e : (q.1 + t • (q.2 - q.1) - a).dot (u - a) = s * σ ^ 2 + (z - a.z) ^ 2 := by
        simp only [R3.dot, R3.sub_x, R3.add_x, R3.smul_x, R3.sub_y, R3.add_y, R3.smul_y, R3.sub_z, R3.add_z, R3.smul_z, hz _ m1, hz _ m2, huz]
        rw [hσe]
        linear_combination (u.x - a.x) * hx + (u.y - a.y) * hy + s * (n.x * (u.y - a.y) - n.y * (u.x - a.x)) * hσe
      rw [e]; positivity

/-! ## The properties -/

/-- **C77, the ray does not matter.** Whether a point is inside a closed contour, judged by the number of sides met by a ray, does not
depend on the ray, as long as the point is not on the contour and the ray avoids the corners. -/
theorem C77_ray (a d : R3) (ws : List R3) (h2 : 2 ≤ ws.length) (hc : ws.head? = ws.getLast?) (hon : ¬ OnContour a ws) (hd : Generic a d ws) :
    Within a ws ↔ OddHits a d ws :=
  ⟨fun ⟨e, he, ho⟩ => (oddHits_ray a e d ws h2 hc hon he hd).1 ho, fun h => ⟨d, hd, h⟩⟩

/-- the same for contours with any number of points -/
theorem within_oddHits (x d : R3) (c : List R3) (hc : c.head? = c.getLast?) (hon : ¬ OnContour x c) (hg : Generic x d c) :
    Within x c ↔ OddHits x d c := by
  by_cases h2 : 2 ≤ c.length
  · exact C77_ray x d c h2 hc hon hg
  · have hs : sides c = [] := by
      match c, h2 with
      | [], _ => rfl
      | [_], _ => rfl
      | _ :: _ :: _, h => exact absurd (by simp) h
    simp [Within, OddHits, hs]

/-- **C77.** `Point.Inside` is right for a point and a level closed contour with at least three sides if the point is not on the contour,
no corner is on the line through the point square to the first side, the point is not on the line of the first side, and the contour
behind the point is far enough. -/
theorem C77_inside_partial (a u v : R3) (t : List R3) (z : ℝ) (ht : 2 ≤ t.length) (hz : ∀ w ∈ u :: v :: t, w.z = z)
    (hc : (u :: v :: t).head? = (u :: v :: t).getLast?) (hon : ¬ OnContour a (u :: v :: t))
    (hg : ∀ w ∈ u :: v :: t, (w - a).dot (v - u) ≠ 0) (hd : (v - u).cross2 (u - a) ≠ 0)
    (hb : ClearBehind a u v (z - a.z) (u :: v :: t)) :
    a.pt.inside ⟨(u :: v :: t).map R3.pt⟩ = true ↔ Within a (u :: v :: t) := by
  have huz := hz u (by simp)
  have hvz := hz v (by simp)
  have hgen : Generic a (towards a u v) (u :: v :: t) := by
    intro w hw
    rw [towards_cross a u v w (by simp [huz, hvz])]
    exact neg_ne_zero.2 (mul_ne_zero hd (hg w hw))
  rw [C77_ray a (towards a u v) _ (by simp) hc hon hgen]
  obtain ⟨w, x, t', rfl⟩ : ∃ w x t', t = w :: x :: t' := by
    cases t with
    | nil => simp at ht
    | cons w t =>
      cases t with
      | nil => simp at ht
      | cons x t => exact ⟨w, x, t, rfl⟩
  rw [inside_count, decide_eq_true_eq]
  unfold OddHits
  have : (sides (u :: v :: w :: x :: t')).countP (insideTest a u v) =
      (sides (u :: v :: w :: x :: t')).countP (fun q => @decide (RayHits a (towards a u v) q) (Classical.propDecidable _)) := by
    apply List.countP_congr
    intro q hq
    rw [insideTest_ray a u v z _ hz huz hvz hg hd hb q hq]
    simp
  rw [this]
  omega

/-- at the height of the contour nothing has to be kept clear -/
theorem clearBehind_level (a u v : R3) (ws : List R3) : ClearBehind a u v 0 ws := by
  intro q _ i _ h; simpa using h

/-- **C77, on the line of the first side.** A point on the line of the first side is never found inside, even if it is. -/
theorem C77_line (a u v : R3) (t : List R3) (z : ℝ) (hz : ∀ w ∈ u :: v :: t, w.z = z)
    (hc : (u :: v :: t).head? = (u :: v :: t).getLast?) (hg : ∀ w ∈ u :: v :: t, (w - a).dot (v - u) ≠ 0)
    (hd : (v - u).cross2 (u - a) = 0) : a.pt.inside ⟨(u :: v :: t).map R3.pt⟩ = false := by
  have huz := hz u (by simp)
  have hvz := hz v (by simp)
  have hn : v - u ≠ 0 := by intro h; apply hg u (by simp); rw [h]; simp [R3.dot]
  have hnz : (v - u).z = 0 := by simp [huz, hvz]
  obtain ⟨w, x, t', rfl⟩ | hshort : (∃ w x t', t = w :: x :: t') ∨ t.length ≤ 1 := by
    rcases t with _ | ⟨w, _ | ⟨x, t⟩⟩
    · right; simp
    · right; simp
    · left; exact ⟨w, x, t, rfl⟩
  · rw [inside_count, decide_eq_false_iff_not, not_not, ← parity_closed (fun w => decide (0 < (w - a).dot (v - u))) _ hc]
    congr 1
    apply List.countP_congr
    intro q hq
    obtain ⟨m1, m2⟩ := mem_sides hq
    have g1 := hg _ m1
    have g2 := hg _ m2
    rw [insideTest_signs a u v q hn]
    have z1 := hz _ m1
    have z2 := hz _ m2
    have eA : (q.1 - a).dot (v - u) = (q.1.x - a.x) * (v - u).x + (q.1.y - a.y) * (v - u).y := by unfold R3.dot; rw [hnz]; simp
    have eB : (q.2 - a).dot (v - u) = (q.2.x - a.x) * (v - u).x + (q.2.y - a.y) * (v - u).y := by unfold R3.dot; rw [hnz]; simp
    have hd' : (v - u).x * (u.y - a.y) - (v - u).y * (u.x - a.x) = 0 := by simpa [R3.cross2] using hd
    generalize hAe : (q.1 - a).dot (v - u) = A at *
    generalize hBe : (q.2 - a).dot (v - u) = B at *
    generalize hme : v - u = n at *
    have key : B * (q.1 - a).dot (u - a) - A * (q.2 - a).dot (u - a) = (B - A) * (z - a.z) ^ 2 := by
      have k1 : (q.1 - a).dot (u - a) = (q.1.x - a.x) * (u.x - a.x) + (q.1.y - a.y) * (u.y - a.y) + (z - a.z) ^ 2 := by
        simp [R3.dot, z1, huz]; ring
      have k2 : (q.2 - a).dot (u - a) = (q.2.x - a.x) * (u.x - a.x) + (q.2.y - a.y) * (u.y - a.y) + (z - a.z) ^ 2 := by
        simp [R3.dot, z2, huz]; ring
      rw [k1, k2, eA, eB]
      linear_combination ((q.1.y - a.y) * (q.2.x - a.x) - (q.1.x - a.x) * (q.2.y - a.y)) * hd'
    rw [key]
    have h3 : 0 ≤ (B - A) * ((B - A) * (z - a.z) ^ 2) := by
      have : (B - A) * ((B - A) * (z - a.z) ^ 2) = (B - A) ^ 2 * (z - a.z) ^ 2 := by ring
      rw [this]; positivity
    simp only [h3, and_true]
    rcases lt_or_gt_of_ne g1 with p1 | p1 <;> rcases lt_or_gt_of_ne g2 with p2 | p2
    · have := mul_pos_of_neg_of_neg p1 p2
      simp [p1.not_gt, p2.not_gt, this]
    · simp [p1.not_gt, p2]; exact ⟨by linarith, (mul_neg_of_neg_of_pos p1 p2).le⟩
    · simp [p1, p2.not_gt]; exact ⟨by linarith, (mul_neg_of_pos_of_neg p1 p2).le⟩
    · have := mul_pos p1 p2
      simp [p1, p2, this]
  · rcases t with _ | ⟨w, _ | ⟨x, t⟩⟩
    · rfl
    · rfl
    · simp at hshort

/-! ## Inside means inside: triangles -/

/-- The specification is the usual one for triangles: a point that is on no side and at no corner line is `Within` if and only if it is on
the same side of all three sides. -/
theorem within_triangle (a p q r : R3) (hon : ¬ OnContour a [p, q, r, p]) :
    Within a [p, q, r, p] ↔
      (0 < (p - a).cross2 (q - a) ∧ 0 < (q - a).cross2 (r - a) ∧ 0 < (r - a).cross2 (p - a)) ∨
      ((p - a).cross2 (q - a) < 0 ∧ (q - a).cross2 (r - a) < 0 ∧ (r - a).cross2 (p - a) < 0) := by
  obtain ⟨d, hd, _⟩ := exists_generic a [p, q, r, p] (corner_ne (by simp) hon) [] (by simp)
  rw [C77_ray a d _ (by simp) rfl hon hd]
  have hP := hd p (by simp)
  have hQ := hd q (by simp)
  have hR := hd r (by simp)
  have not1 : ∀ u v : R3, (u, v) ∈ sides [p, q, r, p] → d.cross2 (u - a) * d.cross2 (v - a) < 0 → (u - a).cross2 (v - a) ≠ 0 := by
    intro u v h
    exact cross_ne_of_not_on a d u v (fun hh => hon ⟨(u, v), h, hh⟩)
  have n1 := not1 p q (by simp [sides])
  have n2 := not1 q r (by simp [sides])
  have n3 := not1 r p (by simp [sides])
  have rel : (q - a).cross2 (r - a) * d.cross2 (p - a) + (r - a).cross2 (p - a) * d.cross2 (q - a) +
      (p - a).cross2 (q - a) * d.cross2 (r - a) = 0 := by simp only [R3.cross2]; ring
  unfold OddHits
  have hs : sides [p, q, r, p] = [(p, q), (q, r), (r, p)] := rfl
  rw [hs]
  simp only [List.countP_cons, List.countP_nil, decide_eq_true_eq, rayHits_iff a d _ _ hP hQ, rayHits_iff a d _ _ hQ hR,
    rayHits_iff a d _ _ hR hP]
  generalize d.cross2 (p - a) = P at *
  generalize d.cross2 (q - a) = Q at *
  generalize d.cross2 (r - a) = R at *
  generalize (p - a).cross2 (q - a) = γ at *
  generalize (q - a).cross2 (r - a) = α at *
  generalize (r - a).cross2 (p - a) = β at *
  simp only [hit_signs _ _ _ n1, hit_signs _ _ _ n2, hit_signs _ _ _ n3]
  have key : ∀ P Q R α β γ : ℝ, 0 < P → Q < 0 → R < 0 → α * P + β * Q + γ * R = 0 → (0 < β → 0 < γ → 0 < α) ∧ (β < 0 → γ < 0 → α < 0) := by
    intro P Q R α β γ hP hQ hR h
    constructor
    · intro hb hc
      have : 0 < α * P := by nlinarith
      exact pos_of_mul_pos_left this hP.le
    · intro hb hc
      have : α * P < 0 := by nlinarith
      by_contra hn; nlinarith
  rcases lt_or_gt_of_ne hP with hP | hP <;> rcases lt_or_gt_of_ne hQ with hQ | hQ <;> rcases lt_or_gt_of_ne hR with hR | hR
  · have : ¬ ((0 < γ ∧ 0 < α ∧ 0 < β) ∨ (γ < 0 ∧ α < 0 ∧ β < 0)) := by
      rintro (⟨g1, g2, g3⟩ | ⟨g1, g2, g3⟩) <;> nlinarith
    simp only [this, iff_false]
    simp [hP, hQ, hR, hP.not_gt, hQ.not_gt, hR.not_gt]
  · have k := key R P Q γ α β (by linarith) (by linarith) (by linarith) (by linarith)
    have hb : α ≠ 0 := n2 (by nlinarith)
    have hc : β ≠ 0 := n3 (by nlinarith)
    rcases lt_or_gt_of_ne hb with hb | hb <;> rcases lt_or_gt_of_ne hc with hc | hc
    · have := k.2 hb hc; simp [hP, hQ, hR, hP.not_gt, hQ.not_gt, hR.not_gt, hb, hc, hb.not_gt, hc.not_gt, this, this.not_gt]
    · simp [hP, hQ, hR, hP.not_gt, hQ.not_gt, hR.not_gt, hb, hc, hb.not_gt, hc.not_gt]
    · simp [hP, hQ, hR, hP.not_gt, hQ.not_gt, hR.not_gt, hb, hc, hb.not_gt, hc.not_gt]
    · have := k.1 hb hc; simp [hP, hQ, hR, hP.not_gt, hQ.not_gt, hR.not_gt, hb, hc, hb.not_gt, hc.not_gt, this, this.not_gt]
  · have k := key Q R P β γ α (by linarith) (by linarith) (by linarith) (by linarith)
    have hb : γ ≠ 0 := n1 (by nlinarith)
    have hc : α ≠ 0 := n2 (by nlinarith)
    rcases lt_or_gt_of_ne hb with hb | hb <;> rcases lt_or_gt_of_ne hc with hc | hc
    · have := k.2 hb hc; simp [hP, hQ, hR, hP.not_gt, hQ.not_gt, hR.not_gt, hb, hc, hb.not_gt, hc.not_gt, this, this.not_gt]
    · simp [hP, hQ, hR, hP.not_gt, hQ.not_gt, hR.not_gt, hb, hc, hb.not_gt, hc.not_gt]
    · simp [hP, hQ, hR, hP.not_gt, hQ.not_gt, hR.not_gt, hb, hc, hb.not_gt, hc.not_gt]
    · have := k.1 hb hc; simp [hP, hQ, hR, hP.not_gt, hQ.not_gt, hR.not_gt, hb, hc, hb.not_gt, hc.not_gt, this, this.not_gt]
  · have k := key (-P) (-Q) (-R) α β γ (by linarith) (by linarith) (by linarith) (by linarith)
    have hb : β ≠ 0 := n3 (by nlinarith)
    have hc : γ ≠ 0 := n1 (by nlinarith)
    rcases lt_or_gt_of_ne hb with hb | hb <;> rcases lt_or_gt_of_ne hc with hc | hc
    · have := k.2 hb hc; simp [hP, hQ, hR, hP.not_gt, hQ.not_gt, hR.not_gt, hb, hc, hb.not_gt, hc.not_gt, this, this.not_gt]
    · simp [hP, hQ, hR, hP.not_gt, hQ.not_gt, hR.not_gt, hb, hc, hb.not_gt, hc.not_gt]
    · simp [hP, hQ, hR, hP.not_gt, hQ.not_gt, hR.not_gt, hb, hc, hb.not_gt, hc.not_gt]
    · have := k.1 hb hc; simp [hP, hQ, hR, hP.not_gt, hQ.not_gt, hR.not_gt, hb, hc, hb.not_gt, hc.not_gt, this, this.not_gt]
  · have k := key P Q R α β γ (by linarith) (by linarith) (by linarith) (by linarith)
    have hb : β ≠ 0 := n3 (by nlinarith)
    have hc : γ ≠ 0 := n1 (by nlinarith)
    rcases lt_or_gt_of_ne hb with hb | hb <;> rcases lt_or_gt_of_ne hc with hc | hc
    · have := k.2 hb hc; simp [hP, hQ, hR, hP.not_gt, hQ.not_gt, hR.not_gt, hb, hc, hb.not_gt, hc.not_gt, this, this.not_gt]
    · simp [hP, hQ, hR, hP.not_gt, hQ.not_gt, hR.not_gt, hb, hc, hb.not_gt, hc.not_gt]
    · simp [hP, hQ, hR, hP.not_gt, hQ.not_gt, hR.not_gt, hb, hc, hb.not_gt, hc.not_gt]
    · have := k.1 hb hc; simp [hP, hQ, hR, hP.not_gt, hQ.not_gt, hR.not_gt, hb, hc, hb.not_gt, hc.not_gt, this, this.not_gt]
  · have k := key (-Q) (-R) (-P) β γ α (by linarith) (by linarith) (by linarith) (by linarith)
    have hb : γ ≠ 0 := n1 (by nlinarith)
    have hc : α ≠ 0 := n2 (by nlinarith)
    rcases lt_or_gt_of_ne hb with hb | hb <;> rcases lt_or_gt_of_ne hc with hc | hc
    · have := k.2 hb hc; simp [hP, hQ, hR, hP.not_gt, hQ.not_gt, hR.not_gt, hb, hc, hb.not_gt, hc.not_gt, this, this.not_gt]
    · simp [hP, hQ, hR, hP.not_gt, hQ.not_gt, hR.not_gt, hb, hc, hb.not_gt, hc.not_gt]
    · simp [hP, hQ, hR, hP.not_gt, hQ.not_gt, hR.not_gt, hb, hc, hb.not_gt, hc.not_gt]
    · have := k.1 hb hc; simp [hP, hQ, hR, hP.not_gt, hQ.not_gt, hR.not_gt, hb, hc, hb.not_gt, hc.not_gt, this, this.not_gt]
  · have k := key (-R) (-P) (-Q) γ α β (by linarith) (by linarith) (by linarith) (by linarith)
    have hb : α ≠ 0 := n2 (by nlinarith)
    have hc : β ≠ 0 := n3 (by nlinarith)
    rcases lt_or_gt_of_ne hb with hb | hb <;> rcases lt_or_gt_of_ne hc with hc | hc
    · have := k.2 hb hc; simp [hP, hQ, hR, hP.not_gt, hQ.not_gt, hR.not_gt, hb, hc, hb.not_gt, hc.not_gt, this, this.not_gt]
    · simp [hP, hQ, hR, hP.not_gt, hQ.not_gt, hR.not_gt, hb, hc, hb.not_gt, hc.not_gt]
    · simp [hP, hQ, hR, hP.not_gt, hQ.not_gt, hR.not_gt, hb, hc, hb.not_gt, hc.not_gt]
    · have := k.1 hb hc; simp [hP, hQ, hR, hP.not_gt, hQ.not_gt, hR.not_gt, hb, hc, hb.not_gt, hc.not_gt, this, this.not_gt]
  · have : ¬ ((0 < γ ∧ 0 < α ∧ 0 < β) ∨ (γ < 0 ∧ α < 0 ∧ β < 0)) := by
      rintro (⟨g1, g2, g3⟩ | ⟨g1, g2, g3⟩) <;> nlinarith
    simp only [this, iff_false]
    simp [hP, hQ, hR, hP.not_gt, hQ.not_gt, hR.not_gt]

/-! ## The property is false in general -/

/-- the floor plan of an L, beginning at its inner corner -/
def lShape : List R3 := [⟨2, 2, 0⟩, ⟨2, 4, 0⟩, ⟨0, 4, 0⟩, ⟨0, 0, 0⟩, ⟨4, 0, 0⟩, ⟨4, 2, 0⟩, ⟨2, 2, 0⟩]

/-- a convex pentagon -/
def pentagon : List R3 := [⟨5, -5, 0⟩, ⟨15, -5, 0⟩, ⟨0, 10, 0⟩, ⟨-5, 0, 0⟩, ⟨0, -4, 0⟩, ⟨5, -5, 0⟩]

/-- a square, `2 r` wide -/
def box (r : ℝ) : List R3 := [⟨-r, -r, 0⟩, ⟨r, -r, 0⟩, ⟨r, r, 0⟩, ⟨-r, r, 0⟩, ⟨-r, -r, 0⟩]

theorem lShape_within : Within ⟨2, 1, 0⟩ lShape := by
  refine ⟨⟨1, 0, 0⟩, ?_, ?_⟩
  · intro w hw
    simp only [lShape, List.mem_cons, List.not_mem_nil, or_false] at hw
    rcases hw with rfl | rfl | rfl | rfl | rfl | rfl | rfl <;> simp [R3.cross2] <;> norm_num
  · unfold OddHits
    have hs : sides lShape = [(⟨2, 2, 0⟩, ⟨2, 4, 0⟩), (⟨2, 4, 0⟩, ⟨0, 4, 0⟩), (⟨0, 4, 0⟩, ⟨0, 0, 0⟩), (⟨0, 0, 0⟩, ⟨4, 0, 0⟩),
      (⟨4, 0, 0⟩, ⟨4, 2, 0⟩), (⟨4, 2, 0⟩, ⟨2, 2, 0⟩)] := rfl
    rw [hs]
    simp only [List.countP_cons, List.countP_nil, decide_eq_true_eq]
    repeat rw [rayHits_iff _ _ _ _ (by simp [R3.cross2]; try norm_num) (by simp [R3.cross2]; try norm_num)]
    simp only [R3.cross2, R3.sub_x, R3.sub_y]
    norm_num

theorem pentagon_within : Within ⟨0, 0, 0⟩ pentagon := by
  refine ⟨⟨1, 1, 0⟩, ?_, ?_⟩
  · intro w hw
    simp only [pentagon, List.mem_cons, List.not_mem_nil, or_false] at hw
    rcases hw with rfl | rfl | rfl | rfl | rfl | rfl <;> simp [R3.cross2] <;> norm_num
  · unfold OddHits
    have hs : sides pentagon = [(⟨5, -5, 0⟩, ⟨15, -5, 0⟩), (⟨15, -5, 0⟩, ⟨0, 10, 0⟩), (⟨0, 10, 0⟩, ⟨-5, 0, 0⟩), (⟨-5, 0, 0⟩, ⟨0, -4, 0⟩),
      (⟨0, -4, 0⟩, ⟨5, -5, 0⟩)] := rfl
    rw [hs]
    simp only [List.countP_cons, List.countP_nil, decide_eq_true_eq]
    repeat rw [rayHits_iff _ _ _ _ (by simp [R3.cross2]; try norm_num) (by simp [R3.cross2]; try norm_num)]
    simp only [R3.cross2, R3.sub_x, R3.sub_y]
    norm_num

theorem box_within (r h : ℝ) (hr : 0 < r) : Within ⟨0, 0, h⟩ (box r) := by
  refine ⟨⟨1, 0, 0⟩, ?_, ?_⟩
  · intro w hw
    simp only [box, List.mem_cons, List.not_mem_nil, or_false] at hw
    rcases hw with rfl | rfl | rfl | rfl | rfl <;> simp [R3.cross2] <;> linarith
  · unfold OddHits
    have hs : sides (box r) = [(⟨-r, -r, 0⟩, ⟨r, -r, 0⟩), (⟨r, -r, 0⟩, ⟨r, r, 0⟩), (⟨r, r, 0⟩, ⟨-r, r, 0⟩), (⟨-r, r, 0⟩, ⟨-r, -r, 0⟩)] := rfl
    rw [hs]
    simp only [List.countP_cons, List.countP_nil, decide_eq_true_eq]
    repeat rw [rayHits_iff _ _ _ _ (by simp [R3.cross2]; try linarith) (by simp [R3.cross2]; try linarith)]
    have h1 : 0 < r * r := by positivity
    have h4 : 0 ≤ (r * r + r * r) * (r + r) := by positivity
    have h5 : ¬ 0 ≤ (r * r + r * r) * (-r - r) := by intro h; nlinarith
    simp [R3.cross2, h1, h1.not_gt, h4, h5]

/-- **C77, negation.** Three points inside a closed level contour that `Point.Inside` does not find inside: the first on the line of the
first side, the second exactly opposite to a corner, the third above a part that is narrower than twice the difference in height. -/
theorem C77_violated :
    (Within ⟨2, 1, 0⟩ lShape ∧ (R3.mk 2 1 0).pt.inside ⟨lShape.map R3.pt⟩ = false) ∧
    (Within ⟨0, 0, 0⟩ pentagon ∧ (R3.mk 0 0 0).pt.inside ⟨pentagon.map R3.pt⟩ = false) ∧
    (∀ r h : ℝ, 0 < r → r ≤ h → Within ⟨0, 0, h⟩ (box r) ∧ (R3.mk 0 0 h).pt.inside ⟨(box r).map R3.pt⟩ = false) := by
  refine ⟨⟨lShape_within, ?_⟩, ⟨pentagon_within, ?_⟩, fun r h hr hh => ⟨box_within r h hr, ?_⟩⟩
  · apply C77_line (z := 0)
    · intro w hw
      simp only [List.mem_cons, List.not_mem_nil, or_false] at hw
      rcases hw with rfl | rfl | rfl | rfl | rfl | rfl | rfl <;> rfl
    · rfl
    · intro w hw
      simp only [List.mem_cons, List.not_mem_nil, or_false] at hw
      rcases hw with rfl | rfl | rfl | rfl | rfl | rfl | rfl <;> simp [R3.dot] <;> norm_num
    · simp [R3.cross2]
  · unfold pentagon
    rw [inside_count]
    have hn : (R3.mk 15 (-5) 0) - (R3.mk 5 (-5) 0) ≠ 0 := by intro h; have := congrArg R3.x h; simp at this; norm_num at this
    have t1 : ∀ q b, (insideTest ⟨0, 0, 0⟩ ⟨5, -5, 0⟩ ⟨15, -5, 0⟩ q = true ↔ b = true) → insideTest ⟨0, 0, 0⟩ ⟨5, -5, 0⟩ ⟨15, -5, 0⟩ q = b := by
      intro q b h; cases b <;> simp_all
    have e1 := t1 (⟨5, -5, 0⟩, ⟨15, -5, 0⟩) false (by rw [insideTest_signs _ _ _ _ hn]; simp [R3.dot]; norm_num)
    have e2 := t1 (⟨15, -5, 0⟩, ⟨0, 10, 0⟩) false (by rw [insideTest_signs _ _ _ _ hn]; simp [R3.dot]; norm_num)
    have e3 := t1 (⟨0, 10, 0⟩, ⟨-5, 0, 0⟩) false (by rw [insideTest_signs _ _ _ _ hn]; simp [R3.dot]; norm_num)
    have e4 := t1 (⟨-5, 0, 0⟩, ⟨0, -4, 0⟩) true (by rw [insideTest_signs _ _ _ _ hn]; simp [R3.dot]; norm_num)
    have e5 := t1 (⟨0, -4, 0⟩, ⟨5, -5, 0⟩) true (by rw [insideTest_signs _ _ _ _ hn]; simp [R3.dot]; norm_num)
    simp [sides, e1, e2, e3, e4, e5]
  · unfold box
    rw [inside_count]
    have hn : (R3.mk r (-r) 0) - (R3.mk (-r) (-r) 0) ≠ 0 := by intro h; have := congrArg R3.x h; simp at this; linarith
    have t1 : ∀ q b, (insideTest ⟨0, 0, h⟩ ⟨-r, -r, 0⟩ ⟨r, -r, 0⟩ q = true ↔ b = true) → insideTest ⟨0, 0, h⟩ ⟨-r, -r, 0⟩ ⟨r, -r, 0⟩ q = b := by
      intro q b h; cases b <;> simp_all
    have hq : 0 < r ^ 2 := by positivity
    have hrh : r ^ 2 ≤ h ^ 2 := by nlinarith
    have e1 := t1 (⟨-r, -r, 0⟩, ⟨r, -r, 0⟩) true (by
      rw [insideTest_signs _ _ _ _ hn]
      have a1 : (R3.mk (-r) (-r) 0 - R3.mk 0 0 h).dot (R3.mk r (-r) 0 - R3.mk (-r) (-r) 0) = -(2 * r ^ 2) := by simp [R3.dot]; ring
      have a2 : (R3.mk r (-r) 0 - R3.mk 0 0 h).dot (R3.mk r (-r) 0 - R3.mk (-r) (-r) 0) = 2 * r ^ 2 := by simp [R3.dot]; ring
      have a3 : (R3.mk (-r) (-r) 0 - R3.mk 0 0 h).dot (R3.mk (-r) (-r) 0 - R3.mk 0 0 h) = 2 * r ^ 2 + h ^ 2 := by simp [R3.dot]; ring
      have a4 : (R3.mk r (-r) 0 - R3.mk 0 0 h).dot (R3.mk (-r) (-r) 0 - R3.mk 0 0 h) = h ^ 2 := by simp [R3.dot]; ring
      dsimp only
      rw [a1, a2, a3, a4]
      simp only [iff_true]
      refine ⟨by intro e; linarith, by nlinarith, ?_⟩
      have : (2 * r ^ 2 - -(2 * r ^ 2)) * (2 * r ^ 2 * (2 * r ^ 2 + h ^ 2) - -(2 * r ^ 2) * h ^ 2) = 16 * (r ^ 2) ^ 2 * (r ^ 2 + h ^ 2) := by ring
      rw [this]; positivity)
    have e2 := t1 (⟨r, -r, 0⟩, ⟨r, r, 0⟩) false (by rw [insideTest_signs _ _ _ _ hn]; simp [R3.dot])
    have e3 := t1 (⟨r, r, 0⟩, ⟨-r, r, 0⟩) true (by
      rw [insideTest_signs _ _ _ _ hn]
      have a1 : (R3.mk r r 0 - R3.mk 0 0 h).dot (R3.mk r (-r) 0 - R3.mk (-r) (-r) 0) = 2 * r ^ 2 := by simp [R3.dot]; ring
      have a2 : (R3.mk (-r) r 0 - R3.mk 0 0 h).dot (R3.mk r (-r) 0 - R3.mk (-r) (-r) 0) = -(2 * r ^ 2) := by simp [R3.dot]; ring
      have a3 : (R3.mk r r 0 - R3.mk 0 0 h).dot (R3.mk (-r) (-r) 0 - R3.mk 0 0 h) = h ^ 2 - 2 * r ^ 2 := by simp [R3.dot]; ring
      have a4 : (R3.mk (-r) r 0 - R3.mk 0 0 h).dot (R3.mk (-r) (-r) 0 - R3.mk 0 0 h) = h ^ 2 := by simp [R3.dot]; ring
      dsimp only
      rw [a1, a2, a3, a4]
      simp only [iff_true]
      refine ⟨by intro e; linarith, by nlinarith, ?_⟩
      have : (-(2 * r ^ 2) - 2 * r ^ 2) * (-(2 * r ^ 2) * (h ^ 2 - 2 * r ^ 2) - 2 * r ^ 2 * h ^ 2) = 16 * (r ^ 2) ^ 2 * (h ^ 2 - r ^ 2) := by ring
      rw [this]
      exact mul_nonneg (by positivity) (by linarith))
    have e4 := t1 (⟨-r, r, 0⟩, ⟨-r, -r, 0⟩) false (by rw [insideTest_signs _ _ _ _ hn]; simp [R3.dot])
    simp [sides, e1, e2, e3, e4]

/-! ## Non-vacuity -/

/-- the hypotheses of `C77_inside_partial` hold for the middle of the square, at the height of the square -/
example : (R3.mk 0 0 0).pt.inside ⟨(box 1).map R3.pt⟩ = true := by
  refine (C77_inside_partial ⟨0, 0, 0⟩ ⟨-1, -1, 0⟩ ⟨1, -1, 0⟩ [⟨1, 1, 0⟩, ⟨-1, 1, 0⟩, ⟨-1, -1, 0⟩] 0 (by simp) ?_ rfl ?_ ?_ ?_ ?_).2
    (box_within 1 0 one_pos)
  · simp
  · rintro ⟨q, hq, t, h0, h1, hx, hy⟩
    simp [sides] at hq
    rcases hq with rfl | rfl | rfl | rfl <;> simp at hx hy
  · intro w hw
    simp only [List.mem_cons, List.not_mem_nil, or_false] at hw
    rcases hw with rfl | rfl | rfl | rfl | rfl <;> simp [R3.dot] <;> norm_num
  · simp [R3.cross2]
  · have : (0 : ℝ) - (R3.mk 0 0 0).z = 0 := by simp
    rw [this]; exact clearBehind_level _ _ _ _

end Goosli
