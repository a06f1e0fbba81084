import Verif.Props.C29
import Verif.Model.Vip
import Mathlib.Algebra.Order.BigOperators.Group.List
/-!
# C73: outside contours and holes
-/
set_option linter.unusedSectionVars false
set_option autoImplicit false
namespace Goosli
open Flt

/-! ## Specification -/

/-- twice the signed area of the triangle `a b w`: positive if `w` is to the left of the line from `a` to `b` -/
def leftOf (a b w : R3) : ℝ := (b.x - a.x) * (w.y - a.y) - (b.y - a.y) * (w.x - a.x)

/-- The contour with corners `ws` (closed, so the first corner is repeated at the end) runs counterclockwise around its first corner,
and has no corner to the right of its first side. Every convex counterclockwise contour is of this kind. -/
def RunsLeft (ws : List R3) : Prop :=
  ∃ a b t, ws = a :: b :: t ∧ (∀ q ∈ adjPairs ws, 0 ≤ leftOf a q.1 q.2) ∧ ∀ w ∈ ws, 0 ≤ leftOf a b w

/-- the same, clockwise, and the first side is not just a point -/
def RunsRight (ws : List R3) : Prop :=
  ∃ a b t, ws = a :: b :: t ∧ ¬ (a.x = b.x ∧ a.y = b.y) ∧ (∀ q ∈ adjPairs ws, leftOf a q.1 q.2 ≤ 0) ∧ ∀ w ∈ ws, leftOf a b w ≤ 0

/-- a closed horizontal contour with an area that is not negligible -/
def Contour (ws : List R3) : Prop := (∃ z, ∀ w ∈ ws, w.z = z) ∧ closedAt ws ∧ tol ≤ |fanArea 0 ws|

/-! ## Proofs -/

theorem looksLikeHole_real (a b c : R3) (t : List R3) :
    looksLikeHole ⟨(a :: b :: t).map R3.pt⟩ c.pt = true ↔ 0 ≤ leftOf a b c := by
  have h : (0 : ℝ) ≤ leftOf a b c ↔ 0 ≤ (b.y - a.y) * (a.x - c.x) + (a.x - b.x) * (a.y - c.y) := by
    unfold leftOf
    constructor <;> intro h <;> linarith
  rw [h]
  unfold looksLikeHole
  simp [Vec.codirectedWith, axisZ, V, Vec.cross, Vec.dot, R3.pt, Point.vectorTo]

/-- the side of the centroid, from the corners -/
theorem leftOf_centroid (ws : List R3) (a b c : R3) (h1 : ∀ o, c.x * fanArea o ws = fanMx o ws ∧ c.y * fanArea o ws = fanMy o ws) :
    leftOf a b c * fanArea a ws =
      ((adjPairs ws).map fun q => leftOf a q.1 q.2 / 2 * ((leftOf a b q.1 + leftOf a b q.2) / 3)).sum := by
  obtain ⟨hx, hy⟩ := h1 a
  have e : leftOf a b c * fanArea a ws = (b.x - a.x) * (fanMy a ws - a.y * fanArea a ws) - (b.y - a.y) * (fanMx a ws - a.x * fanArea a ws) := by
    rw [← hx, ← hy]; unfold leftOf; ring
  rw [e]
  unfold fanArea fanMx fanMy
  have s : ∀ k : ℝ, ∀ f : R3 × R3 → ℝ, ((adjPairs ws).map f).sum - k * ((adjPairs ws).map (triArea a)).sum =
      ((adjPairs ws).map fun q => f q + -k * triArea a q).sum := by
    intro k f
    rw [sum_map_add, sum_map_mul]; ring
  rw [s, s]
  have s2 : ∀ k l : ℝ, ∀ f g : R3 × R3 → ℝ, k * ((adjPairs ws).map f).sum - l * ((adjPairs ws).map g).sum =
      ((adjPairs ws).map fun q => k * f q + -l * g q).sum := by
    intro k l f g
    rw [sum_map_add, sum_map_mul, sum_map_mul]; ring
  rw [s2]
  congr 1
  apply List.map_congr_left
  intro q _
  unfold triArea leftOf
  ring

theorem fanArea_leftOf (a : R3) (ws : List R3) : 2 * fanArea a ws = ((adjPairs ws).map fun q => leftOf a q.1 q.2).sum := by
  unfold fanArea
  rw [← sum_map_mul]
  congr 1
  apply List.map_congr_left
  intro q _
  unfold triArea leftOf
  ring

theorem mem_of_adj {β : Type} {ws : List β} {q : β × β} (h : q ∈ adjPairs ws) : q.1 ∈ ws ∧ q.2 ∈ ws := by
  have := List.of_mem_zip (show (q.1, q.2) ∈ ws.zip ws.tail from h)
  exact ⟨this.1, List.mem_of_mem_tail this.2⟩

/-- a sum of summands that are not negative vanishes only if all of them do -/
theorem sum_pos_of {β : Type} (l : List β) (f : β → ℝ) (h : ∀ x ∈ l, 0 ≤ f x) (x : β) (hx : x ∈ l) (hp : 0 < f x) : 0 < (l.map f).sum := by
  induction l with
  | nil => cases hx
  | cons a t ih =>
    rw [List.map_cons, List.sum_cons]
    have ht : 0 ≤ (t.map f).sum := by
      apply List.sum_nonneg
      intro y hy
      obtain ⟨z, hz, rfl⟩ := List.mem_map.1 hy
      exact h z (by simp [hz])
    rcases List.mem_cons.1 hx with rfl | hx
    · linarith
    · have := ih (fun y hy => h y (by simp [hy])) hx
      have := h a (by simp)
      linarith

theorem sum_nonneg_of {β : Type} (l : List β) (f : β → ℝ) (h : ∀ x ∈ l, 0 ≤ f x) : 0 ≤ (l.map f).sum := by
  apply List.sum_nonneg
  intro y hy
  obtain ⟨z, hz, rfl⟩ := List.mem_map.1 hy
  exact h z hz

theorem centroid_left (ws : List R3) (hc : Contour ws) (h : RunsLeft ws) :
    ∃ c : R3, findCentroid ⟨ws.map R3.pt⟩ = .ok c.pt ∧ ∃ a b t, ws = a :: b :: t ∧ 0 ≤ leftOf a b c := by
  obtain ⟨⟨z, hz⟩, hcl, ha⟩ := hc
  obtain ⟨c, h1, _, h3⟩ := C29_centroid ws z hz hcl ha
  obtain ⟨a, b, t, hws, hs, hw⟩ := h
  refine ⟨c, h1, a, b, t, hws, ?_⟩
  have hA := fanArea_leftOf a ws
  have e := leftOf_centroid ws a b c h3
  have hA0 : 0 ≤ fanArea a ws := by
    have := sum_nonneg_of (adjPairs ws) (fun q => leftOf a q.1 q.2) hs
    linarith
  have hne : fanArea a ws ≠ 0 := by
    rw [(fan_indep a ws hcl).1]
    intro h0; rw [h0, abs_zero] at ha; linarith [tol_pos]
  have hpos : 0 < fanArea a ws := lt_of_le_of_ne hA0 (Ne.symm hne)
  have hn : 0 ≤ leftOf a b c * fanArea a ws := by
    rw [e]
    apply sum_nonneg_of
    intro q hq
    obtain ⟨m1, m2⟩ := mem_of_adj hq
    have h1 := hs q hq
    have h2 := hw q.1 m1
    have h3 := hw q.2 m2
    positivity
  exact nonneg_of_mul_nonneg_left hn hpos

theorem centroid_right (ws : List R3) (hc : Contour ws) (h : RunsRight ws) :
    ∃ c : R3, findCentroid ⟨ws.map R3.pt⟩ = .ok c.pt ∧ ∃ a b t, ws = a :: b :: t ∧ leftOf a b c < 0 := by
  obtain ⟨⟨z, hz⟩, hcl, ha⟩ := hc
  obtain ⟨c, h1, _, h3⟩ := C29_centroid ws z hz hcl ha
  obtain ⟨a, b, t, hws, hab, hs, hw⟩ := h
  refine ⟨c, h1, a, b, t, hws, ?_⟩
  have hA := fanArea_leftOf a ws
  have e := leftOf_centroid ws a b c h3
  have hA0 : fanArea a ws ≤ 0 := by
    have := sum_nonneg_of (adjPairs ws) (fun q => -leftOf a q.1 q.2) fun q hq => by linarith [hs q hq]
    rw [show (fun q : R3 × R3 => -leftOf a q.1 q.2) = fun q => (-1) * leftOf a q.1 q.2 by funext q; ring, sum_map_mul] at this
    linarith
  have hne : fanArea a ws ≠ 0 := by
    rw [(fan_indep a ws hcl).1]
    intro h0; rw [h0, abs_zero] at ha; linarith [tol_pos]
  have hneg : fanArea a ws < 0 := lt_of_le_of_ne hA0 hne
  -- a side that does not pass through the first corner
  obtain ⟨q, hq, hq0⟩ : ∃ q ∈ adjPairs ws, leftOf a q.1 q.2 < 0 := by
    by_contra hno
    push Not at hno
    have := sum_nonneg_of (adjPairs ws) (fun q => leftOf a q.1 q.2) hno
    linarith
  have hterm : ∀ q ∈ adjPairs ws, 0 ≤ leftOf a q.1 q.2 / 2 * ((leftOf a b q.1 + leftOf a b q.2) / 3) := by
    intro q hq
    obtain ⟨m1, m2⟩ := mem_of_adj hq
    have h1 := hs q hq
    have h2 := hw q.1 m1
    have h3 := hw q.2 m2
    nlinarith
  have hp : 0 < leftOf a b c * fanArea a ws := by
    rw [e]
    apply sum_pos_of _ _ hterm q hq
    obtain ⟨m1, m2⟩ := mem_of_adj hq
    have h2 := hw q.1 m1
    have h3 := hw q.2 m2
    have hsum : leftOf a b q.1 + leftOf a b q.2 < 0 := by
      rcases lt_or_eq_of_le h2 with h | h
      · linarith
      · rcases lt_or_eq_of_le h3 with h' | h'
        · linarith
        · exfalso
          refine hab ⟨?_, ?_⟩
          · by_contra hx
            have hx' : b.x - a.x ≠ 0 := sub_ne_zero.2 (Ne.symm hx)
            have k : (b.x - a.x) * leftOf a q.1 q.2 = 0 := by
              have : (b.x - a.x) * leftOf a q.1 q.2 = (q.1.x - a.x) * leftOf a b q.2 - (q.2.x - a.x) * leftOf a b q.1 := by
                unfold leftOf; ring
              rw [this, h, h']; ring
            rcases mul_eq_zero.1 k with k | k
            · exact hx' k
            · linarith
          · by_contra hy
            have hy' : b.y - a.y ≠ 0 := sub_ne_zero.2 (Ne.symm hy)
            have k : (b.y - a.y) * leftOf a q.1 q.2 = 0 := by
              have : (b.y - a.y) * leftOf a q.1 q.2 = (q.1.y - a.y) * leftOf a b q.2 - (q.2.y - a.y) * leftOf a b q.1 := by
                unfold leftOf; ring
              rw [this, h, h']; ring
            rcases mul_eq_zero.1 k with k | k
            · exact hy' k
            · linarith
    nlinarith
  by_contra hge
  push Not at hge
  nlinarith

theorem outsidePathes_cons {α : Type} [Flt α] (p : Path α) (rest : List (Path α)) (c : Point α) (h : findCentroid p = .ok c) :
    outsidePathes (p :: rest) = (outsidePathes rest).map fun r => if looksLikeHole p c then r else p :: r := by
  show (findCentroid p >>= _) = _
  rw [h]
  show (outsidePathes rest >>= _) = _
  cases outsidePathes rest <;> rfl

/-- **C73.** A counterclockwise contour is taken for a hole and left out. -/
theorem C73_hole (ws : List R3) (hc : Contour ws) (h : RunsLeft ws) (rest : List (Path XR)) :
    outsidePathes (⟨ws.map R3.pt⟩ :: rest) = outsidePathes rest := by
  obtain ⟨c, h1, a, b, t, hws, h2⟩ := centroid_left ws hc h
  rw [outsidePathes_cons _ _ _ h1]
  subst hws
  rw [(looksLikeHole_real a b c t).2 h2]
  cases outsidePathes rest <;> rfl

/-- **C73.** A clockwise contour is taken for an outside contour. -/
theorem C73_outside (ws : List R3) (hc : Contour ws) (h : RunsRight ws) (rest : List (Path XR)) :
    outsidePathes (⟨ws.map R3.pt⟩ :: rest) = (outsidePathes rest).map (⟨ws.map R3.pt⟩ :: ·) := by
  obtain ⟨c, h1, a, b, t, hws, h2⟩ := centroid_right ws hc h
  rw [outsidePathes_cons _ _ _ h1]
  subst hws
  have : looksLikeHole ⟨(a :: b :: t).map R3.pt⟩ c.pt = false := by
    rw [Bool.eq_false_iff]
    intro h
    rw [looksLikeHole_real] at h
    linarith
  rw [this]
  rfl

/-- **C73, the part that holds.** Of contours each of which runs around its first corner, clockwise or counterclockwise, the clockwise
ones are the outside contours. (Full claim: of all contours, wherever they start; see `C73_violated`.) -/
theorem C73_outside_partial (contours : List (Bool × List R3))
    (h : ∀ c ∈ contours, Contour c.2 ∧ if c.1 then RunsRight c.2 else RunsLeft c.2) :
    outsidePathes (contours.map fun c => (⟨c.2.map R3.pt⟩ : Path XR)) =
      .ok ((contours.filter fun c => c.1).map fun c => ⟨c.2.map R3.pt⟩) := by
  induction contours with
  | nil => rfl
  | cons c t ih =>
    obtain ⟨out, ws⟩ := c
    have ih := ih fun c hc => h c (by simp [hc])
    obtain ⟨h1, h2⟩ := h (out, ws) (by simp)
    cases out with
    | true => rw [List.map_cons, C73_outside ws h1 (by simpa using h2), ih]; simp [Except.map]
    | false => rw [List.map_cons, C73_hole ws h1 (by simpa using h2), ih]; simp

/-- a U, clockwise, that starts at its lower left corner -/
def uShape : List R3 := [⟨0, 0, 0⟩, ⟨0, 6, 0⟩, ⟨2, 6, 0⟩, ⟨2, 1, 0⟩, ⟨4, 1, 0⟩, ⟨4, 6, 0⟩, ⟨6, 6, 0⟩, ⟨6, 0, 0⟩, ⟨0, 0, 0⟩]
/-- the same U, clockwise, that starts at the bottom of its slot -/
def uShape' : List R3 := [⟨2, 1, 0⟩, ⟨4, 1, 0⟩, ⟨4, 6, 0⟩, ⟨6, 6, 0⟩, ⟨6, 0, 0⟩, ⟨0, 0, 0⟩, ⟨0, 6, 0⟩, ⟨2, 6, 0⟩, ⟨2, 1, 0⟩]

theorem uShape_area : fanArea 0 uShape = -26 ∧ fanMx 0 uShape = -78 ∧ fanMy 0 uShape = -73 ∧
    fanArea 0 uShape' = -26 ∧ fanMx 0 uShape' = -78 ∧ fanMy 0 uShape' = -73 := by
  refine ⟨?_, ?_, ?_, ?_, ?_, ?_⟩ <;> simp [fanArea, fanMx, fanMy, adjPairs, triArea, uShape, uShape'] <;> norm_num

/-- **C73, negation.** Whether a contour is taken for an outside contour depends on the corner it starts with: the same clockwise U is an
outside contour if it starts at an outer corner, and a hole if it starts at the bottom of its slot. -/
theorem C73_violated : Contour uShape ∧ Contour uShape' ∧ uShape'.tail = uShape.tail.rotate 3 ∧
    outsidePathes [⟨uShape.map R3.pt⟩] = .ok [⟨uShape.map R3.pt⟩] ∧ outsidePathes [(⟨uShape'.map R3.pt⟩ : Path XR)] = .ok [] := by
  obtain ⟨a1, a2, a3, b1, b2, b3⟩ := uShape_area
  have t26 : tol ≤ |(-26 : ℝ)| := by simp [tol]; norm_num
  have c1 : Contour uShape := ⟨⟨0, by simp [uShape]⟩, by simp [closedAt, uShape], by rw [a1]; exact t26⟩
  have c2 : Contour uShape' := ⟨⟨0, by simp [uShape']⟩, by simp [closedAt, uShape'], by rw [b1]; exact t26⟩
  refine ⟨c1, c2, by rfl, ?_, ?_⟩
  · obtain ⟨⟨z, hz⟩, hcl, ha⟩ := c1
    obtain ⟨c, h1, _, h3⟩ := C29_centroid _ z hz hcl ha
    obtain ⟨hx, hy⟩ := h3 0
    rw [a1, a2] at hx
    rw [a1, a3] at hy
    rw [outsidePathes_cons _ _ _ h1]
    have hf : looksLikeHole ⟨uShape.map R3.pt⟩ c.pt = false := by
      rw [Bool.eq_false_iff]
      intro h
      unfold uShape at h
      rw [looksLikeHole_real] at h
      unfold leftOf at h
      simp only at h
      linarith
    rw [hf]
    rfl
  · obtain ⟨⟨z, hz⟩, hcl, ha⟩ := c2
    obtain ⟨c, h1, _, h3⟩ := C29_centroid _ z hz hcl ha
    obtain ⟨hx, hy⟩ := h3 0
    rw [b1, b2] at hx
    rw [b1, b3] at hy
    rw [outsidePathes_cons _ _ _ h1]
    have hf : looksLikeHole ⟨uShape'.map R3.pt⟩ c.pt = true := by
      unfold uShape'
      rw [looksLikeHole_real]
      unfold leftOf
      simp only
      linarith
    rw [hf]
    rfl

/-- the hypotheses of `C73_outside_partial` hold: a clockwise square and a counterclockwise square in it -/
example : outsidePathes [(⟨[⟨0, 0, 7⟩, ⟨0, 3, 7⟩, ⟨3, 3, 7⟩, ⟨3, 0, 7⟩, ⟨0, 0, 7⟩].map R3.pt⟩ : Path XR),
      ⟨[⟨1, 1, 7⟩, ⟨2, 1, 7⟩, ⟨2, 2, 7⟩, ⟨1, 2, 7⟩, ⟨1, 1, 7⟩].map R3.pt⟩] =
    .ok [⟨[⟨0, 0, 7⟩, ⟨0, 3, 7⟩, ⟨3, 3, 7⟩, ⟨3, 0, 7⟩, ⟨0, 0, 7⟩].map R3.pt⟩] := by
  refine C73_outside_partial [(true, [⟨0, 0, 7⟩, ⟨0, 3, 7⟩, ⟨3, 3, 7⟩, ⟨3, 0, 7⟩, ⟨0, 0, 7⟩]),
    (false, [⟨1, 1, 7⟩, ⟨2, 1, 7⟩, ⟨2, 2, 7⟩, ⟨1, 2, 7⟩, ⟨1, 1, 7⟩])] ?_
  intro c hc
  simp only [List.mem_cons, List.not_mem_nil, or_false] at hc
  rcases hc with rfl | rfl
  · refine ⟨⟨⟨7, by simp⟩, by simp [closedAt], by simp [fanArea, adjPairs, triArea, tol]; norm_num⟩, ?_⟩
    refine ⟨_, _, _, rfl, by simp, ?_, ?_⟩ <;> simp [adjPairs, leftOf] <;> norm_num
  · refine ⟨⟨⟨7, by simp⟩, by simp [closedAt], by simp [fanArea, adjPairs, triArea, tol]; norm_num⟩, ?_⟩
    refine ⟨_, _, _, rfl, ?_, ?_⟩ <;> simp [adjPairs, leftOf] <;> norm_num

end Goosli
