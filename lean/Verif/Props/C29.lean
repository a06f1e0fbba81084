import Verif.Proofs.Space
import Verif.Model.Path
import Mathlib.Algebra.BigOperators.Group.List.Basic
/-!
# C29: centroid of a horizontal contour
-/
set_option linter.unusedSectionVars false
namespace Goosli
open Flt

/-! ## specification -/

/-- signed area (in the xy-plane) of the triangle `o p q` -/
noncomputable def triArea (o : R3) (q : R3 × R3) : ℝ :=
  ((q.1.x - o.x) * (q.2.y - o.y) - (q.2.x - o.x) * (q.1.y - o.y)) / 2

/-- signed area of a contour as seen from the apex `o`: the sum over the triangles `o p q` with `p q` a side -/
noncomputable def fanArea (o : R3) (ws : List R3) : ℝ := ((adjPairs ws).map (triArea o)).sum

/-- first moment of area, x component, from the centroids of the triangles `o p q` -/
noncomputable def fanMx (o : R3) (ws : List R3) : ℝ :=
  ((adjPairs ws).map fun q => triArea o q * ((o.x + q.1.x + q.2.x) / 3)).sum

/-- first moment of area, y component -/
noncomputable def fanMy (o : R3) (ws : List R3) : ℝ :=
  ((adjPairs ws).map fun q => triArea o q * ((o.y + q.1.y + q.2.y) / 3)).sum

/-- a closed contour: the last point is the first one -/
def closedAt (ws : List R3) : Prop := ws ≠ [] ∧ ws.head? = ws.getLast?

/-! ## list sums -/

theorem sum_map_add {β : Type} (Q : List β) (f g : β → ℝ) :
    (Q.map fun q => f q + g q).sum = (Q.map f).sum + (Q.map g).sum := by
  induction Q with
  | nil => simp
  | cons q t ih => simp only [List.map_cons, List.sum_cons, ih]; ring

theorem sum_map_mul {β : Type} (Q : List β) (c : ℝ) (f : β → ℝ) : (Q.map fun q => c * f q).sum = c * (Q.map f).sum := by
  induction Q with
  | nil => simp
  | cons q t ih => simp only [List.map_cons, List.sum_cons, ih]; ring

theorem telescope (f : R3 → ℝ) : ∀ (ws : List R3) (a b : R3), ws.head? = some a → ws.getLast? = some b →
    ((adjPairs ws).map fun q => f q.2 - f q.1).sum = f b - f a
  | [], _, _, h, _ => by simp at h
  | [x], a, b, h, h' => by
    simp at h h'; subst h h'; simp [adjPairs]
  | x :: y :: t, a, b, h, h' => by
    simp only [List.head?_cons, Option.some.injEq] at h; subst h
    rw [List.getLast?_cons_cons] at h'
    have ih := telescope f (y :: t) y b rfl h'
    have e : adjPairs (x :: y :: t) = (x, y) :: adjPairs (y :: t) := rfl
    rw [e, List.map_cons, List.sum_cons, ih]; ring

theorem telescope_closed (f : R3 → ℝ) (ws : List R3) (h : closedAt ws) :
    ((adjPairs ws).map fun q => f q.2 - f q.1).sum = 0 := by
  obtain ⟨a, t, rfl⟩ := List.exists_cons_of_ne_nil h.1
  have hl : (a :: t).getLast? = some a := by rw [← h.2]; rfl
  rw [telescope f (a :: t) a a rfl hl]; ring

/-! ## apex independence of the specification -/

theorem fan_indep (o : R3) (ws : List R3) (h : closedAt ws) :
    fanArea o ws = fanArea 0 ws ∧ fanMx o ws = fanMx 0 ws ∧ fanMy o ws = fanMy 0 ws := by
  have tx := telescope_closed (fun w => w.x) ws h
  have ty := telescope_closed (fun w => w.y) ws h
  have txx := telescope_closed (fun w => w.x * w.x) ws h
  have tyy := telescope_closed (fun w => w.y * w.y) ws h
  have txy := telescope_closed (fun w => w.x * w.y) ws h
  refine ⟨?_, ?_, ?_⟩
  · have e : fanArea o ws = fanArea 0 ws + ((o.y / 2) * ((adjPairs ws).map fun q => q.2.x - q.1.x).sum +
        (- o.x / 2) * ((adjPairs ws).map fun q => q.2.y - q.1.y).sum) := by
      unfold fanArea
      rw [← sum_map_mul, ← sum_map_mul, ← sum_map_add, ← sum_map_add]
      congr 1; apply List.map_congr_left; intro q _
      simp [triArea]; ring
    rw [e, tx, ty]; ring
  · have e : fanMx o ws = fanMx 0 ws +
        ((o.y * o.x / 6) * ((adjPairs ws).map fun q => q.2.x - q.1.x).sum +
        ((- o.x * o.x / 6) * ((adjPairs ws).map fun q => q.2.y - q.1.y).sum +
        ((o.y / 6) * ((adjPairs ws).map fun q => q.2.x * q.2.x - q.1.x * q.1.x).sum +
        (- o.x / 6) * ((adjPairs ws).map fun q => q.2.x * q.2.y - q.1.x * q.1.y).sum))) := by
      unfold fanMx
      rw [← sum_map_mul, ← sum_map_mul, ← sum_map_mul, ← sum_map_mul, ← sum_map_add, ← sum_map_add, ← sum_map_add, ← sum_map_add]
      congr 1; apply List.map_congr_left; intro q _
      simp [triArea]; ring
    rw [e, tx, ty, txx, txy]; ring
  · have e : fanMy o ws = fanMy 0 ws +
        ((o.y * o.y / 6) * ((adjPairs ws).map fun q => q.2.x - q.1.x).sum +
        ((- o.x * o.y / 6) * ((adjPairs ws).map fun q => q.2.y - q.1.y).sum +
        ((- o.x / 6) * ((adjPairs ws).map fun q => q.2.y * q.2.y - q.1.y * q.1.y).sum +
        (o.y / 6) * ((adjPairs ws).map fun q => q.2.x * q.2.y - q.1.x * q.1.y).sum))) := by
      unfold fanMy
      rw [← sum_map_mul, ← sum_map_mul, ← sum_map_mul, ← sum_map_mul, ← sum_map_add, ← sum_map_add, ← sum_map_add, ← sum_map_add]
      congr 1; apply List.map_congr_left; intro q _
      simp [triArea]; ring
    rw [e, tx, ty, tyy, txy]; ring

/-! ## the model -/

/-- the accumulators with real values -/
noncomputable def racc (v : Fin 9 → ℝ) : CentroidAcc XR :=
  ⟨XR.fin (v 0), XR.fin (v 1), XR.fin (v 2), XR.fin (v 3), XR.fin (v 4), XR.fin (v 5), XR.fin (v 6), XR.fin (v 7), XR.fin (v 8)⟩

/-- the nine summands of the code -/
noncomputable def terms (q : R3 × R3) : Fin 9 → ℝ :=
  let d := q.1.x * q.2.y - q.2.x * q.1.y
  let d2 := q.1.x * q.2.z - q.2.x * q.1.z
  let d3 := q.1.y * q.2.z - q.2.y * q.1.z
  ![d, (q.1.x + q.2.x) * d, (q.1.y + q.2.y) * d, d2, (q.1.x + q.2.x) * d2, (q.1.z + q.2.z) * d2,
    d3, (q.1.y + q.2.y) * d3, (q.1.z + q.2.z) * d3]

theorem foldl_acc (Q : List (R3 × R3)) (v : Fin 9 → ℝ) :
    (Q.map fun q => (q.1.pt, q.2.pt)).foldl CentroidAcc.step (racc v) =
      racc (fun i => v i + (Q.map fun q => terms q i).sum) := by
  induction Q generalizing v with
  | nil => simp
  | cons q t ih =>
    simp only [List.map_cons, List.foldl_cons, List.sum_cons]
    have : (racc v).step (q.1.pt, q.2.pt) = racc (fun i => v i + terms q i) := by
      simp [CentroidAcc.step, racc, terms, R3.pt]
    rw [this, ih]
    congr 1; funext i; ring

theorem findCentroid_racc (ws : List R3) (a : R3) (h : ws.head? = some a) :
    findCentroid ⟨ws.map R3.pt⟩ =
      .ok ((racc fun i => ((adjPairs ws).map fun q => terms q i).sum).finish a.pt) := by
  have hz : (CentroidAcc.zero : CentroidAcc XR) = racc fun _ => 0 := by simp [CentroidAcc.zero, racc]
  have hadj : adjPairs (ws.map R3.pt) = (adjPairs ws).map fun q => (q.1.pt, q.2.pt) := by
    unfold adjPairs
    rw [← List.map_tail, List.zip_map]; rfl
  unfold findCentroid
  cases ws with
  | nil => simp at h
  | cons b t =>
    simp only [List.head?_cons, Option.some.injEq] at h; subst h
    simp only [goAt, List.map_cons, List.getElem?_cons_zero, bind, Except.bind, pure, Except.pure]
    have e := foldl_acc (adjPairs (b :: t)) (fun _ => 0)
    rw [← hadj, ← hz] at e
    simp only [List.map_cons] at e
    rw [e]
    simp only [zero_add]

/-- **C29.** For every closed contour in a horizontal plane with area at least `1e-6`, `FindCentroid` returns the area
centroid in that plane: seen from *any* apex `o`, its coordinates are the average of the centroids of the triangles
`o p q` (one for each side `p q`) weighted by their signed areas. -/
theorem C29_centroid (ws : List R3) (z : ℝ) (hz : ∀ w ∈ ws, w.z = z) (hc : closedAt ws) (ha : tol ≤ |fanArea 0 ws|) :
    ∃ c : R3, findCentroid ⟨ws.map R3.pt⟩ = .ok c.pt ∧ c.z = z ∧
      ∀ o, c.x * fanArea o ws = fanMx o ws ∧ c.y * fanArea o ws = fanMy o ws := by
  obtain ⟨a, t, rfl⟩ := List.exists_cons_of_ne_nil hc.1
  set ws := a :: t with hws
  have hpair : ∀ q ∈ adjPairs ws, q.1.z = z ∧ q.2.z = z := by
    intro q hq
    have h1 := List.of_mem_zip (show (q.1, q.2) ∈ ws.zip ws.tail from hq)
    exact ⟨hz _ h1.1, hz _ (List.mem_of_mem_tail h1.2)⟩
  -- the sums
  have s0 : ((adjPairs ws).map fun q => terms q 0).sum = 2 * fanArea 0 ws := by
    unfold fanArea; rw [← sum_map_mul]; congr 1; apply List.map_congr_left; intro q _
    simp [terms, triArea]; ring
  have s1 : ((adjPairs ws).map fun q => terms q 1).sum = 6 * fanMx 0 ws := by
    unfold fanMx; rw [← sum_map_mul]; congr 1; apply List.map_congr_left; intro q _
    simp [terms, triArea]; ring
  have s2 : ((adjPairs ws).map fun q => terms q 2).sum = 6 * fanMy 0 ws := by
    unfold fanMy; rw [← sum_map_mul]; congr 1; apply List.map_congr_left; intro q _
    simp [terms, triArea]; ring
  have s3 : ((adjPairs ws).map fun q => terms q 3).sum = 0 := by
    have : ((adjPairs ws).map fun q => terms q 3).sum = (-z) * ((adjPairs ws).map fun q => q.2.x - q.1.x).sum := by
      rw [← sum_map_mul]; congr 1; apply List.map_congr_left; intro q hq
      have := hpair q hq
      simp [terms, this.1, this.2]; ring
    rw [this, telescope_closed (fun w => w.x) ws hc]; ring
  have s6 : ((adjPairs ws).map fun q => terms q 6).sum = 0 := by
    have : ((adjPairs ws).map fun q => terms q 6).sum = (-z) * ((adjPairs ws).map fun q => q.2.y - q.1.y).sum := by
      rw [← sum_map_mul]; congr 1; apply List.map_congr_left; intro q hq
      have := hpair q hq
      simp [terms, this.1, this.2]; ring
    rw [this, telescope_closed (fun w => w.y) ws hc]; ring
  have hA : fanArea 0 ws ≠ 0 := by
    intro h0; rw [h0, abs_zero] at ha; linarith [tol_pos]
  refine ⟨⟨fanMx 0 ws / fanArea 0 ws, fanMy 0 ws / fanArea 0 ws, z⟩, ?_, rfl, fun o => ?_⟩
  · rw [findCentroid_racc ws a rfl]
    congr 1
    have l5 : (lit 5 1 : XR) = XR.fin (1/2) := by simp; norm_num
    have l6 : (lit 6 0 : XR) = XR.fin 6 := by simp
    have na : ¬ |2 * fanArea 0 ws * (1/2)| < tol := by
      rw [show 2 * fanArea 0 ws * (1/2) = fanArea 0 ws by ring]; exact not_lt.2 ha
    have hA2 : 2 * fanArea 0 ws * (1/2) ≠ 0 := by
      rw [show 2 * fanArea 0 ws * (1/2) = fanArea 0 ws by ring]; exact hA
    have hz0 : a.z = z := hz a (by simp [hws])
    have t0 : |(0:ℝ)| < tol := by simpa using tol_pos
    simp only [CentroidAcc.finish, racc, s0, s1, s2, s3, s6, l5, l6, XR.fin_mul, almostZero_fin, zero_mul, na, t0,
      decide_false, decide_true, Bool.not_false, Bool.not_true, Bool.and_false, Bool.false_and, Bool.and_self,
      Bool.false_eq_true, if_false, if_true, XR.fin_div (show (6:ℝ) ≠ 0 by norm_num), XR.fin_div hA2]
    simp only [R3.pt, hz0, Point.mk.injEq, XR.fin_inj, and_true]
    constructor <;> field_simp
  · obtain ⟨e1, e2, e3⟩ := fan_indep o ws hc
    rw [e1, e2, e3]
    constructor <;> field_simp

theorem adjPairs_reverse (ws : List R3) : adjPairs ws.reverse = ((adjPairs ws).map Prod.swap).reverse := by
  induction ws with
  | nil => rfl
  | cons a t ih =>
    cases t with
    | nil => rfl
    | cons b t =>
      have e : adjPairs (a :: b :: t) = (a, b) :: adjPairs (b :: t) := rfl
      rw [e]
      conv_rhs => rw [List.map_cons, List.reverse_cons, ← ih]
      have app : ∀ (l : List R3) (x y : R3), adjPairs (l ++ [x, y]) = adjPairs (l ++ [x]) ++ [(x, y)] := by
        intro l
        induction l with
        | nil => intro x y; rfl
        | cons c l ihl =>
          intro x y
          cases l with
          | nil => rfl
          | cons d l =>
            have := ihl x y
            have h1 : adjPairs (c :: d :: l ++ [x, y]) = (c, d) :: adjPairs (d :: l ++ [x, y]) := rfl
            have h2 : adjPairs (c :: d :: l ++ [x]) = (c, d) :: adjPairs (d :: l ++ [x]) := rfl
            rw [h1, h2, this]; rfl
      have : (a :: b :: t).reverse = t.reverse ++ [b, a] := by simp
      rw [this, app]; simp

/-- **C29.** The centroid moves with the contour under horizontal translation and does not depend on the direction in
which the contour is traversed. -/
theorem C29_moves_along (ws : List R3) (z : ℝ) (hz : ∀ w ∈ ws, w.z = z) (hc : closedAt ws) (ha : tol ≤ |fanArea 0 ws|)
    (v : R3) (hv : v.z = 0) :
    ∃ c : R3, findCentroid ⟨ws.map R3.pt⟩ = .ok c.pt ∧
      findCentroid ⟨(ws.map (· + v)).map R3.pt⟩ = .ok (c + v).pt ∧
      findCentroid ⟨ws.reverse.map R3.pt⟩ = .ok c.pt := by
  obtain ⟨c, h1, h2, h3⟩ := C29_centroid ws z hz hc ha
  have hA : fanArea 0 ws ≠ 0 := by
    intro h0; rw [h0, abs_zero] at ha; linarith [tol_pos]
  refine ⟨c, h1, ?_, ?_⟩
  · have hadj : adjPairs (ws.map (· + v)) = (adjPairs ws).map fun q => (q.1 + v, q.2 + v) := by
      unfold adjPairs; rw [← List.map_tail, List.zip_map]; rfl
    have hc' : closedAt (ws.map (· + v)) := by
      refine ⟨by simpa using hc.1, ?_⟩
      rw [List.head?_map, List.getLast?_map, hc.2]
    have ea : fanArea v (ws.map (· + v)) = fanArea 0 ws := by
      unfold fanArea; rw [hadj, List.map_map]; congr 1; apply List.map_congr_left; intro q _
      simp [triArea]
    have ex : fanMx v (ws.map (· + v)) = fanMx 0 ws + v.x * fanArea 0 ws := by
      unfold fanMx fanArea; rw [hadj, List.map_map, ← sum_map_mul, ← sum_map_add]; congr 1
      apply List.map_congr_left; intro q _
      simp [triArea]; ring
    have ey : fanMy v (ws.map (· + v)) = fanMy 0 ws + v.y * fanArea 0 ws := by
      unfold fanMy fanArea; rw [hadj, List.map_map, ← sum_map_mul, ← sum_map_add]; congr 1
      apply List.map_congr_left; intro q _
      simp [triArea]; ring
    have ind := fan_indep v (ws.map (· + v)) hc'
    obtain ⟨c', g1, g2, g3⟩ := C29_centroid (ws.map (· + v)) z
      (by intro w hw; obtain ⟨w', hw', rfl⟩ := List.mem_map.1 hw; simp [hz w' hw', hv]) hc'
      (by rw [← ind.1, ea]; exact ha)
    rw [g1]
    congr 2
    have gx := (g3 v).1; have gy := (g3 v).2
    have hx := (h3 0).1; have hy := (h3 0).2
    rw [ea, ex] at gx; rw [ea, ey] at gy
    apply R3.ext
    · simp only [R3.add_x]
      apply mul_right_cancel₀ hA; linarith
    · simp only [R3.add_y]
      apply mul_right_cancel₀ hA; linarith
    · simp [g2, h2, hv]
  · have hc' : closedAt ws.reverse := by
      refine ⟨by simpa using hc.1, ?_⟩
      rw [List.head?_reverse, List.getLast?_reverse, hc.2]
    have rsum : ∀ f : R3 × R3 → ℝ, ((adjPairs ws.reverse).map f).sum = ((adjPairs ws).map fun q => f q.swap).sum := by
      intro f
      rw [adjPairs_reverse, ((List.reverse_perm _).map f).sum_eq, List.map_map]; rfl
    have ea : fanArea 0 ws.reverse = - fanArea 0 ws := by
      unfold fanArea
      rw [rsum, show -((adjPairs ws).map (triArea 0)).sum = (-1) * ((adjPairs ws).map (triArea 0)).sum by ring, ← sum_map_mul]
      congr 1; apply List.map_congr_left; intro q _; simp [triArea]; ring
    have ex : fanMx 0 ws.reverse = - fanMx 0 ws := by
      unfold fanMx
      rw [rsum, neg_eq_neg_one_mul, ← sum_map_mul]
      congr 1; apply List.map_congr_left; intro q _; simp [triArea]; ring
    have ey : fanMy 0 ws.reverse = - fanMy 0 ws := by
      unfold fanMy
      rw [rsum, neg_eq_neg_one_mul, ← sum_map_mul]
      congr 1; apply List.map_congr_left; intro q _; simp [triArea]; ring
    obtain ⟨c', g1, g2, g3⟩ := C29_centroid ws.reverse z (by intro w hw; exact hz w (by simpa using hw)) hc'
      (by rw [ea, abs_neg]; exact ha)
    rw [g1]
    congr 2
    have gx := (g3 0).1; have gy := (g3 0).2
    have hx := (h3 0).1; have hy := (h3 0).2
    rw [ea, ex] at gx; rw [ea, ey] at gy
    apply R3.ext
    · apply mul_right_cancel₀ hA; linarith
    · apply mul_right_cancel₀ hA; linarith
    · rw [g2, h2]

/-- the unit square at height 7 meets the hypotheses -/
example : tol ≤ |fanArea 0 [⟨0, 0, 7⟩, ⟨1, 0, 7⟩, ⟨1, 1, 7⟩, ⟨0, 1, 7⟩, ⟨0, 0, 7⟩]| ∧
    closedAt [⟨0, 0, 7⟩, ⟨1, 0, 7⟩, ⟨1, 1, 7⟩, ⟨0, 1, 7⟩, ⟨0, 0, 7⟩] := by
  constructor
  · simp [fanArea, adjPairs, triArea, tol]; norm_num
  · simp [closedAt]

end Goosli
