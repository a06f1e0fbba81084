import Verif.Props.C29
import Verif.Model.FiveAxes
/-!
# C80: centroid of a flat contour in any position, and the centre of a layer
-/
set_option linter.unusedSectionVars false
set_option autoImplicit false
namespace Goosli
open Flt

/-! ## Specification -/

/-- signed area of the triangle `o p q` as seen along `n` (times the length of `n`) -/
noncomputable def triArea3 (n o : R3) (q : R3 × R3) : ℝ := ((q.1 - o).cross (q.2 - o)).dot n / 2

/-- signed area of a contour, seen from the apex `o` along `n` -/
noncomputable def fanArea3 (n o : R3) (ws : List R3) : ℝ := ((adjPairs ws).map (triArea3 n o)).sum

/-- first moment of area of the coordinate `f` -/
noncomputable def fanMoment3 (n o : R3) (f : R3 → ℝ) (ws : List R3) : ℝ :=
  ((adjPairs ws).map fun q => triArea3 n o q * ((f o + f q.1 + f q.2) / 3)).sum

/-- the contour as seen along the y axis -/
def R3.seenY (w : R3) : R3 := ⟨w.x, w.z, w.y⟩
/-- the contour as seen along the x axis -/
def R3.seenX (w : R3) : R3 := ⟨w.y, w.z, w.x⟩

/-- the area of the contour seen along the axis is not lost in the tolerance: it is zero or at least `1e-6` -/
def Visible (c : ℝ) (ws : List R3) : Prop := c = 0 ∨ tol ≤ |fanArea 0 ws|

/-! ## Three views of a flat contour -/

theorem closedAt_map (f : R3 → R3) {ws : List R3} (h : closedAt ws) : closedAt (ws.map f) := by
  refine ⟨by simpa using h.1, ?_⟩
  rw [List.head?_map, List.getLast?_map, h.2]

theorem adjPairs_mapR (f : R3 → R3) (ws : List R3) : adjPairs (ws.map f) = (adjPairs ws).map fun q => (f q.1, f q.2) := by
  unfold adjPairs; rw [← List.map_tail, List.zip_map]; rfl

/-- the triangle over a side of a flat contour is parallel to the plane of the contour -/
theorem cross_flat {n p q o : R3} {k : ℝ} (hp : n.dot p = k) (hq : n.dot q = k) (ho : n.dot o = k) :
    ((p - o).cross (q - o)).x * n.normSq = ((p - o).cross (q - o)).dot n * n.x ∧
    ((p - o).cross (q - o)).y * n.normSq = ((p - o).cross (q - o)).dot n * n.y ∧
    ((p - o).cross (q - o)).z * n.normSq = ((p - o).cross (q - o)).dot n * n.z := by
  have h1 : n.x * (p.x - o.x) + n.y * (p.y - o.y) + n.z * (p.z - o.z) = 0 := by
    simp only [R3.dot] at hp ho; linarith
  have h2 : n.x * (q.x - o.x) + n.y * (q.y - o.y) + n.z * (q.z - o.z) = 0 := by
    simp only [R3.dot] at hq ho; linarith
  simp only [R3.cross, R3.dot, R3.normSq, R3.sub_x, R3.sub_y, R3.sub_z]
  refine ⟨?_, ?_, ?_⟩
  · linear_combination (n.y * (q.z - o.z) - n.z * (q.y - o.y)) * h1 - (n.y * (p.z - o.z) - n.z * (p.y - o.y)) * h2
  · linear_combination (n.z * (q.x - o.x) - n.x * (q.z - o.z)) * h1 - (n.z * (p.x - o.x) - n.x * (p.z - o.z)) * h2
  · linear_combination (n.x * (q.y - o.y) - n.y * (q.x - o.x)) * h1 - (n.x * (p.y - o.y) - n.y * (p.x - o.x)) * h2

/-- areas and moments of a view, from those in the plane of the contour -/
theorem views (n : R3) (k : ℝ) (ws : List R3) (hk : ∀ w ∈ ws, n.dot w = k) (o : R3) (ho : n.dot o = k) :
    (fanArea o ws * n.normSq = n.z * fanArea3 n o ws ∧ fanMx o ws * n.normSq = n.z * fanMoment3 n o R3.x ws ∧
      fanMy o ws * n.normSq = n.z * fanMoment3 n o R3.y ws) ∧
    (fanArea o.seenY (ws.map R3.seenY) * n.normSq = -n.y * fanArea3 n o ws ∧
      fanMx o.seenY (ws.map R3.seenY) * n.normSq = -n.y * fanMoment3 n o R3.x ws ∧
      fanMy o.seenY (ws.map R3.seenY) * n.normSq = -n.y * fanMoment3 n o R3.z ws) ∧
    (fanArea o.seenX (ws.map R3.seenX) * n.normSq = n.x * fanArea3 n o ws ∧
      fanMx o.seenX (ws.map R3.seenX) * n.normSq = n.x * fanMoment3 n o R3.y ws ∧
      fanMy o.seenX (ws.map R3.seenX) * n.normSq = n.x * fanMoment3 n o R3.z ws) := by
  have hpair : ∀ q ∈ adjPairs ws, n.dot q.1 = k ∧ n.dot q.2 = k := by
    intro q hq
    have h1 := List.of_mem_zip (show (q.1, q.2) ∈ ws.zip ws.tail from hq)
    exact ⟨hk _ h1.1, hk _ (List.mem_of_mem_tail h1.2)⟩
  have tz : ∀ q ∈ adjPairs ws, triArea o q * n.normSq = n.z * triArea3 n o q := by
    intro q hq
    have := (cross_flat (hpair q hq).1 (hpair q hq).2 ho).2.2
    unfold triArea triArea3
    simp only [R3.cross, R3.dot, R3.sub_x, R3.sub_y, R3.sub_z] at this ⊢
    linear_combination (1 / 2 : ℝ) * this
  have ty : ∀ q ∈ adjPairs ws, triArea o.seenY (q.1.seenY, q.2.seenY) * n.normSq = -n.y * triArea3 n o q := by
    intro q hq
    have := (cross_flat (hpair q hq).1 (hpair q hq).2 ho).2.1
    unfold triArea triArea3
    simp only [R3.cross, R3.dot, R3.sub_x, R3.sub_y, R3.sub_z, R3.seenY] at this ⊢
    linear_combination (-1 / 2 : ℝ) * this
  have tx : ∀ q ∈ adjPairs ws, triArea o.seenX (q.1.seenX, q.2.seenX) * n.normSq = n.x * triArea3 n o q := by
    intro q hq
    have := (cross_flat (hpair q hq).1 (hpair q hq).2 ho).1
    unfold triArea triArea3
    simp only [R3.cross, R3.dot, R3.sub_x, R3.sub_y, R3.sub_z, R3.seenX] at this ⊢
    linear_combination (1 / 2 : ℝ) * this
  have sum' : ∀ (Q : List (R3 × R3)) (f g : R3 × R3 → ℝ) (c d : ℝ), (∀ q ∈ Q, f q * c = d * g q) → (Q.map f).sum * c = d * (Q.map g).sum := by
    intro Q f g c d
    induction Q with
    | nil => intro _; simp
    | cons q t ih =>
      intro h
      simp only [List.map_cons, List.sum_cons]
      rw [add_mul, mul_add, h q (by simp), ih (fun q hq => h q (by simp [hq]))]
  refine ⟨⟨?_, ?_, ?_⟩, ⟨?_, ?_, ?_⟩, ⟨?_, ?_, ?_⟩⟩
  · exact sum' _ _ _ _ _ tz
  · exact sum' _ _ _ _ _ fun q hq => by rw [mul_right_comm, tz q hq]; ring
  · exact sum' _ _ _ _ _ fun q hq => by rw [mul_right_comm, tz q hq]; ring
  · unfold fanArea; rw [adjPairs_mapR, List.map_map]; exact sum' _ _ _ _ _ ty
  · unfold fanMx; rw [adjPairs_mapR, List.map_map]
    exact sum' _ _ _ _ _ fun q hq => by
      simp only [Function.comp]
      rw [mul_right_comm, ty q hq]; simp only [R3.seenY]; ring
  · unfold fanMy; rw [adjPairs_mapR, List.map_map]
    exact sum' _ _ _ _ _ fun q hq => by
      simp only [Function.comp]
      rw [mul_right_comm, ty q hq]; simp only [R3.seenY]; ring
  · unfold fanArea; rw [adjPairs_mapR, List.map_map]; exact sum' _ _ _ _ _ tx
  · unfold fanMx; rw [adjPairs_mapR, List.map_map]
    exact sum' _ _ _ _ _ fun q hq => by
      simp only [Function.comp]
      rw [mul_right_comm, tx q hq]; simp only [R3.seenX]; ring
  · unfold fanMy; rw [adjPairs_mapR, List.map_map]
    exact sum' _ _ _ _ _ fun q hq => by
      simp only [Function.comp]
      rw [mul_right_comm, tx q hq]; simp only [R3.seenX]; ring

/-- the nine sums of the code are areas and moments of the three views -/
theorem nine_sums (ws : List R3) :
    ((adjPairs ws).map fun q => terms q 0).sum = 2 * fanArea 0 ws ∧
    ((adjPairs ws).map fun q => terms q 1).sum = 6 * fanMx 0 ws ∧
    ((adjPairs ws).map fun q => terms q 2).sum = 6 * fanMy 0 ws ∧
    ((adjPairs ws).map fun q => terms q 3).sum = 2 * fanArea 0 (ws.map R3.seenY) ∧
    ((adjPairs ws).map fun q => terms q 4).sum = 6 * fanMx 0 (ws.map R3.seenY) ∧
    ((adjPairs ws).map fun q => terms q 5).sum = 6 * fanMy 0 (ws.map R3.seenY) ∧
    ((adjPairs ws).map fun q => terms q 6).sum = 2 * fanArea 0 (ws.map R3.seenX) ∧
    ((adjPairs ws).map fun q => terms q 7).sum = 6 * fanMx 0 (ws.map R3.seenX) ∧
    ((adjPairs ws).map fun q => terms q 8).sum = 6 * fanMy 0 (ws.map R3.seenX) := by
  unfold fanArea fanMx fanMy
  simp only [adjPairs_mapR, List.map_map, ← sum_map_mul]
  refine ⟨?_, ?_, ?_, ?_, ?_, ?_, ?_, ?_, ?_⟩ <;>
    (congr 1; apply List.map_congr_left; intro q _; simp [terms, triArea, R3.seenX, R3.seenY]; ring)

/-- which view each coordinate is taken from -/
theorem centroid_views (ws : List R3) (a : R3) (h : ws.head? = some a) :
    ∃ c : R3, findCentroid ⟨ws.map R3.pt⟩ = .ok c.pt ∧
      c.x = (if tol ≤ |fanArea 0 ws| then fanMx 0 ws / fanArea 0 ws
        else if tol ≤ |fanArea 0 (ws.map R3.seenY)| then fanMx 0 (ws.map R3.seenY) / fanArea 0 (ws.map R3.seenY)
        else if tol ≤ |fanArea 0 (ws.map R3.seenX)| then a.x else 0) ∧
      c.y = (if tol ≤ |fanArea 0 ws| then fanMy 0 ws / fanArea 0 ws
        else if tol ≤ |fanArea 0 (ws.map R3.seenX)| then fanMx 0 (ws.map R3.seenX) / fanArea 0 (ws.map R3.seenX) else a.y) ∧
      c.z = (if tol ≤ |fanArea 0 (ws.map R3.seenY)| then fanMy 0 (ws.map R3.seenY) / fanArea 0 (ws.map R3.seenY)
        else if tol ≤ |fanArea 0 (ws.map R3.seenX)| then fanMy 0 (ws.map R3.seenX) / fanArea 0 (ws.map R3.seenX) else a.z) := by
  rw [findCentroid_racc ws a h]
  obtain ⟨ax, ay, az⟩ := a
  obtain ⟨s0, s1, s2, s3, s4, s5, s6, s7, s8⟩ := nine_sums ws
  generalize fanArea 0 ws = A at *
  generalize fanMx 0 ws = Ax at *
  generalize fanMy 0 ws = Ay at *
  generalize fanArea 0 (ws.map R3.seenY) = B at *
  generalize fanMx 0 (ws.map R3.seenY) = Bx at *
  generalize fanMy 0 (ws.map R3.seenY) = Bz at *
  generalize fanArea 0 (ws.map R3.seenX) = C at *
  generalize fanMx 0 (ws.map R3.seenX) = Cy at *
  generalize fanMy 0 (ws.map R3.seenX) = Cz at *
  have l5 : (lit 5 1 : XR) = XR.fin (1/2) := by simp; norm_num
  have l6 : (lit 6 0 : XR) = XR.fin 6 := by simp
  have half : ∀ x : ℝ, 2 * x * (1 / 2) = x := by intro x; ring
  have ne : ∀ {x : ℝ}, tol ≤ |x| → x ≠ 0 := by rintro x h rfl; rw [abs_zero] at h; linarith [tol_pos]
  have six : ∀ x : ℝ, 6 * x / 6 = x := by intro x; ring
  simp only [CentroidAcc.finish, racc, s0, s1, s2, s3, s4, s5, s6, s7, s8, l5, l6, lit00, XR.fin_mul, almostZero_fin, half,
    XR.fin_div (show (6:ℝ) ≠ 0 by norm_num), six]
  by_cases hA : tol ≤ |A| <;> by_cases hB : tol ≤ |B| <;> by_cases hC : tol ≤ |C| <;>
    (have nA := hA; have nB := hB; have nC := hC
     first | rw [← not_lt] at nA | rw [not_le] at nA
     first | rw [← not_lt] at nB | rw [not_le] at nB
     first | rw [← not_lt] at nC | rw [not_le] at nC
     simp only [hA, hB, hC, if_true, if_false]
     refine ⟨⟨_, _, _⟩, ?_, rfl, rfl, rfl⟩
     congr 1
     simp [nA, nB, nC, R3.pt, XR.fin_div, ne, hA, hB, hC])

/-- **C80.** For every closed contour in a plane, in whatever position, whose views along the three axes are either empty or have an
area of at least `1e-6`, `FindCentroid` returns the area centroid: a point of that plane whose coordinates are, seen from any apex
`o` of the plane, the average of the centroids of the triangles `o p q` over the sides, weighted by their signed areas. -/
theorem C80_centroid (n : R3) (hn : n ≠ 0) (k : ℝ) (ws : List R3) (hc : closedAt ws) (hk : ∀ w ∈ ws, n.dot w = k)
    (hz : Visible n.z ws) (hy : Visible n.y (ws.map R3.seenY)) (hx : Visible n.x (ws.map R3.seenX)) :
    ∃ c : R3, findCentroid ⟨ws.map R3.pt⟩ = .ok c.pt ∧ n.dot c = k ∧ ∀ o, n.dot o = k → fanArea3 n o ws ≠ 0 ∧
      c.x * fanArea3 n o ws = fanMoment3 n o R3.x ws ∧ c.y * fanArea3 n o ws = fanMoment3 n o R3.y ws ∧
      c.z * fanArea3 n o ws = fanMoment3 n o R3.z ws := by
  obtain ⟨a, t, rfl⟩ := List.exists_cons_of_ne_nil hc.1
  set ws := a :: t with hws
  obtain ⟨c, h, cx, cy, cz⟩ := centroid_views ws a rfl
  have ha : n.dot a = k := hk a (by simp [hws])
  have nn : 0 < n.normSq := R3.normSq_pos hn
  have ne : ∀ {x : ℝ}, tol ≤ |x| → x ≠ 0 := by rintro x h rfl; rw [abs_zero] at h; linarith [tol_pos]
  -- everything from an apex in the plane
  have key : ∀ o, n.dot o = k → fanArea3 n o ws ≠ 0 ∧
      c.x * fanArea3 n o ws = fanMoment3 n o R3.x ws ∧ c.y * fanArea3 n o ws = fanMoment3 n o R3.y ws ∧
      c.z * fanArea3 n o ws = fanMoment3 n o R3.z ws := by
    intro o ho
    obtain ⟨⟨vz1, vz2, vz3⟩, ⟨vy1, vy2, vy3⟩, ⟨vx1, vx2, vx3⟩⟩ := views n k ws hk o ho
    obtain ⟨iz1, iz2, iz3⟩ := fan_indep o ws hc
    obtain ⟨iy1, iy2, iy3⟩ := fan_indep o.seenY (ws.map R3.seenY) (closedAt_map _ hc)
    obtain ⟨ix1, ix2, ix3⟩ := fan_indep o.seenX (ws.map R3.seenX) (closedAt_map _ hc)
    rw [iz1] at vz1; rw [iz2] at vz2; rw [iz3] at vz3
    rw [iy1] at vy1; rw [iy2] at vy2; rw [iy3] at vy3
    rw [ix1] at vx1; rw [ix2] at vx2; rw [ix3] at vx3
    -- a view is empty exactly if the plane contains the axis
    have hpair : ∀ q ∈ adjPairs ws, n.dot q.1 = k ∧ n.dot q.2 = k := by
      intro q hq
      have h1 := List.of_mem_zip (show (q.1, q.2) ∈ ws.zip ws.tail from hq)
      exact ⟨hk _ h1.1, hk _ (List.mem_of_mem_tail h1.2)⟩
    have sees : ∀ {m A : ℝ}, A * n.normSq = m * fanArea3 n o ws → (m = 0 ∨ tol ≤ |A|) → (tol ≤ |A| ↔ m ≠ 0) := by
      intro m A h1 h2
      constructor
      · rintro h3 rfl
        rw [zero_mul] at h1
        rcases mul_eq_zero.1 h1 with h | h
        · exact ne h3 h
        · exact nn.ne' h
      · intro h3; exact h2.resolve_left h3
    have sz := sees vz1 hz
    have sy := sees vy1 (by rcases hy with h | h; exacts [Or.inl (by rw [h]; ring), Or.inr h])
    have sx := sees vx1 hx
    -- the area does not vanish
    have area : fanArea3 n o ws ≠ 0 := by
      intro h0
      rw [h0, mul_zero] at vz1 vy1 vx1
      have z0 : ∀ {A : ℝ}, A * n.normSq = 0 → A = 0 := fun h => (mul_eq_zero.1 h).resolve_right nn.ne'
      apply hn
      have small : ¬ tol ≤ |(0 : ℝ)| := by rw [abs_zero]; exact not_le.2 tol_pos
      rw [z0 vz1] at sz; rw [z0 vy1] at sy; rw [z0 vx1] at sx
      apply R3.ext
      · by_contra hc; exact small (sx.2 hc)
      · by_contra hc; exact small (sy.2 (neg_ne_zero.2 hc))
      · by_contra hc; exact small (sz.2 hc)
    -- a coordinate read off a view
    have read : ∀ {m A M M' : ℝ}, A * n.normSq = m * fanArea3 n o ws → M * n.normSq = m * M' → m ≠ 0 → A ≠ 0 →
        M / A * fanArea3 n o ws = M' := by
      intro m A M M' h1 h2 hm hA
      rw [div_mul_eq_mul_div, div_eq_iff hA]
      apply mul_left_cancel₀ hm
      apply mul_left_cancel₀ nn.ne'
      linear_combination A * n.normSq * h2 - M * n.normSq * h1
    -- a coordinate that is the same everywhere
    have const : ∀ (f : R3 → ℝ), f o = f a → (∀ q ∈ adjPairs ws, f q.1 = f a ∧ f q.2 = f a) → f a * fanArea3 n o ws = fanMoment3 n o f ws := by
      intro f h1 h2
      unfold fanArea3 fanMoment3
      rw [← sum_map_mul]
      congr 1; apply List.map_congr_left
      intro q hq
      rw [h1, (h2 q hq).1, (h2 q hq).2]; ring
    refine ⟨area, ?_, ?_, ?_⟩
    · rw [cx]
      split_ifs with h1 h2 h3
      · exact read vz1 vz2 (sz.1 h1) (ne h1)
      · exact read vy1 vy2 (sy.1 h2) (ne h2)
      · have z0 : n.z = 0 := by by_contra hc; exact h1 (sz.2 hc)
        have y0 : n.y = 0 := by by_contra hc; exact h2 (sy.2 (neg_ne_zero.2 hc))
        have x0 : n.x ≠ 0 := sx.1 h3
        have same : ∀ w, n.dot w = k → w.x = a.x := by
          intro w hw
          simp only [R3.dot, z0, y0, zero_mul, add_zero] at hw ha
          exact mul_left_cancel₀ x0 (hw.trans ha.symm)
        exact const R3.x (same o ho) fun q hq => ⟨same _ (hpair q hq).1, same _ (hpair q hq).2⟩
      · exfalso; apply hn
        apply R3.ext
        · by_contra hc; exact h3 (sx.2 hc)
        · by_contra hc; exact h2 (sy.2 (neg_ne_zero.2 hc))
        · by_contra hc; exact h1 (sz.2 hc)
    · rw [cy]
      split_ifs with h1 h2
      · exact read vz1 vz3 (sz.1 h1) (ne h1)
      · exact read vx1 vx2 (sx.1 h2) (ne h2)
      · have z0 : n.z = 0 := by by_contra hc; exact h1 (sz.2 hc)
        have x0 : n.x = 0 := by by_contra hc; exact h2 (sx.2 hc)
        have y0 : n.y ≠ 0 := fun hc => hn (R3.ext x0 hc z0)
        have same : ∀ w, n.dot w = k → w.y = a.y := by
          intro w hw
          simp only [R3.dot, z0, x0, zero_mul, add_zero, zero_add] at hw ha
          exact mul_left_cancel₀ y0 (hw.trans ha.symm)
        exact const R3.y (same o ho) fun q hq => ⟨same _ (hpair q hq).1, same _ (hpair q hq).2⟩
    · rw [cz]
      split_ifs with h1 h2
      · exact read vy1 vy3 (sy.1 h1) (ne h1)
      · exact read vx1 vx3 (sx.1 h2) (ne h2)
      · have y0 : n.y = 0 := by by_contra hc; exact h1 (sy.2 (neg_ne_zero.2 hc))
        have x0 : n.x = 0 := by by_contra hc; exact h2 (sx.2 hc)
        have z0 : n.z ≠ 0 := fun hc => hn (R3.ext x0 y0 hc)
        have same : ∀ w, n.dot w = k → w.z = a.z := by
          intro w hw
          simp only [R3.dot, y0, x0, zero_mul, zero_add] at hw ha
          exact mul_left_cancel₀ z0 (hw.trans ha.symm)
        exact const R3.z (same o ho) fun q hq => ⟨same _ (hpair q hq).1, same _ (hpair q hq).2⟩
  refine ⟨c, h, ?_, key⟩
  obtain ⟨h0, k1, k2, k3⟩ := key a ha
  apply mul_right_cancel₀ h0
  have : n.dot c * fanArea3 n a ws = n.x * fanMoment3 n a R3.x ws + (n.y * fanMoment3 n a R3.y ws + n.z * fanMoment3 n a R3.z ws) := by
    rw [← k1, ← k2, ← k3]; simp only [R3.dot]; ring
  rw [this]
  unfold fanMoment3 fanArea3
  rw [← sum_map_mul, ← sum_map_mul, ← sum_map_mul, ← sum_map_mul, ← sum_map_add, ← sum_map_add]
  congr 1; apply List.map_congr_left
  intro q hq
  have h1 := List.of_mem_zip (show (q.1, q.2) ∈ ws.zip ws.tail from hq)
  have e1 := hk _ h1.1
  have e2 := hk _ (List.mem_of_mem_tail h1.2)
  have : n.x * (a.x + q.1.x + q.2.x) + n.y * (a.y + q.1.y + q.2.y) + n.z * (a.z + q.1.z + q.2.z) = 3 * k := by
    simp only [R3.dot] at e1 e2 ha; linarith
  linear_combination (triArea3 n a q / 3) * this

/-! ## Contours without area -/

/-- **C80.** If no view of the contour has an area of `1e-6`, `FindCentroid` returns a point with the x coordinate 0 and the other
coordinates of the first point, wherever the contour is. -/
theorem C80_degenerate (ws : List R3) (a : R3) (h : ws.head? = some a) (hz : |fanArea 0 ws| < tol) (hy : |fanArea 0 (ws.map R3.seenY)| < tol)
    (hx : |fanArea 0 (ws.map R3.seenX)| < tol) : findCentroid ⟨ws.map R3.pt⟩ = .ok (R3.mk 0 a.y a.z).pt := by
  obtain ⟨c, hc, cx, cy, cz⟩ := centroid_views ws a h
  rw [if_neg (not_le.2 hz), if_neg (not_le.2 hy), if_neg (not_le.2 hx)] at cx
  rw [if_neg (not_le.2 hz), if_neg (not_le.2 hx)] at cy
  rw [if_neg (not_le.2 hy), if_neg (not_le.2 hx)] at cz
  rw [hc, show c = ⟨0, a.y, a.z⟩ from R3.ext cx cy cz]

/-- a triangle with legs of a micrometre, ten centimetres from the origin -/
noncomputable def speck : List R3 := [⟨100, 0, 5⟩, ⟨100 + 1 / 1000, 0, 5⟩, ⟨100, 1 / 1000, 5⟩, ⟨100, 0, 5⟩]

/-- **C80 is violated** for tiny contours: the centroid of the speck at `x = 100` is returned with `x = 0`. -/
theorem C80_violated_speck : findCentroid ⟨speck.map R3.pt⟩ = .ok (R3.mk 0 0 5).pt ∧ ∀ w ∈ speck, 100 ≤ w.x := by
  constructor
  · refine C80_degenerate speck ⟨100, 0, 5⟩ rfl ?_ ?_ ?_ <;>
      simp only [speck, fanArea, adjPairs, triArea, R3.seenX, R3.seenY, List.map_cons, List.map_nil, List.tail_cons, List.zip_cons_cons,
        List.zip_nil_right, List.sum_cons, List.sum_nil, R3.zero_x, R3.zero_y, tol] <;> rw [abs_lt] <;> norm_num
  · intro w hw
    simp only [speck, List.mem_cons, List.not_mem_nil, or_false] at hw
    rcases hw with rfl | rfl | rfl | rfl <;> norm_num

/-! ## The centre of a layer -/

/-- **C80 (centre).** The centre of a layer is the plain mean of the centroids of its contours; for a layer without contours it is the
origin. -/
theorem C80_center (layer : Layer XR) (cs : List R3) (h : layer.paths.mapM findCentroid = .ok (cs.map R3.pt)) :
    calculateCenter layer = .ok (if cs = [] then (0 : R3) else
      ⟨(cs.map R3.x).sum / cs.length, (cs.map R3.y).sum / cs.length, (cs.map R3.z).sum / cs.length⟩).pt := by
  have sums : ∀ (cs : List R3) (x y z : ℝ), (cs.map R3.pt).foldl (fun s c => (s.1 + c.x, s.2.1 + c.y, s.2.2 + c.z)) (XR.fin x, XR.fin y, XR.fin z) =
      (XR.fin (x + (cs.map R3.x).sum), XR.fin (y + (cs.map R3.y).sum), XR.fin (z + (cs.map R3.z).sum)) := by
    intro cs
    induction cs with
    | nil => intro x y z; simp
    | cons c t ih =>
      intro x y z
      simp only [List.map_cons, List.foldl_cons, List.sum_cons]
      have : ((XR.fin x, XR.fin y, XR.fin z).1 + c.pt.x, (XR.fin x, XR.fin y, XR.fin z).2.1 + c.pt.y, (XR.fin x, XR.fin y, XR.fin z).2.2 + c.pt.z) =
          ((XR.fin (x + c.x), XR.fin (y + c.y), XR.fin (z + c.z)) : XR × XR × XR) := by simp [R3.pt]
      rw [this, ih]
      simp [add_assoc]
  unfold calculateCenter
  simp only [h, bind, Except.bind, lit00, sums, zero_add]
  by_cases hc : cs = []
  · subst hc
    simp [originPoint, R3.pt, pure, Except.pure]
  · have hl : (cs.length : ℝ) ≠ 0 := by
      intro h0; exact hc (List.length_eq_zero_iff.1 (by exact_mod_cast h0))
    have he : (cs.map R3.pt).isEmpty = false := by cases cs with
      | nil => exact absurd rfl hc
      | cons a t => rfl
    rw [he, if_neg hc]
    have hn : (ofInt ((cs.map R3.pt).length : Int) : XR) = XR.fin (cs.length : ℝ) := by simp [XR.ofInt_def]
    simp only [hn, Bool.false_eq_true, if_false, XR.fin_div hl]
    rfl

/-- the printed area of a layer with the contours `cs`: holes run the other way round and count negative -/
noncomputable def sectionArea (cs : List (List R3)) : ℝ := (cs.map (fanArea 0)).sum
/-- first moment of the printed area, x component -/
noncomputable def sectionMx (cs : List (List R3)) : ℝ := (cs.map (fanMx 0)).sum
/-- first moment of the printed area, y component -/
noncomputable def sectionMy (cs : List (List R3)) : ℝ := (cs.map (fanMy 0)).sum

/-- **C80, the part that holds.** The centre of a layer that consists of a single closed level contour is the centroid of what is printed,
at the height of the layer. -/
theorem C80_center_partial (layer : Layer XR) (ws : List R3) (hp : layer.paths = [⟨ws.map R3.pt⟩]) (z : ℝ) (hz : ∀ w ∈ ws, w.z = z)
    (hc : closedAt ws) (ha : tol ≤ |fanArea 0 ws|) :
    ∃ c : R3, calculateCenter layer = .ok c.pt ∧ c.z = z ∧ c.x * sectionArea [ws] = sectionMx [ws] ∧ c.y * sectionArea [ws] = sectionMy [ws] := by
  obtain ⟨c, h1, h2, h3⟩ := C29_centroid ws z hz hc ha
  refine ⟨c, ?_, h2, ?_, ?_⟩
  · rw [C80_center layer [c] (by rw [hp, List.mapM_cons, h1]; rfl)]
    simp
  · simpa [sectionArea, sectionMx] using (h3 0).1
  · simpa [sectionArea, sectionMy] using (h3 0).2

/-- a square of 10 mm -/
def square10 : List R3 := [⟨0, 0, 1⟩, ⟨10, 0, 1⟩, ⟨10, 10, 1⟩, ⟨0, 10, 1⟩, ⟨0, 0, 1⟩]
/-- a drilled hole near one of its corners -/
def hole2 : List R3 := [⟨1, 1, 1⟩, ⟨1, 3, 1⟩, ⟨3, 3, 1⟩, ⟨3, 1, 1⟩, ⟨1, 1, 1⟩]

/-- **C80 is violated.** A hole counts as much as the part it is drilled into: the centre of a square of 10 mm with a hole of 2 mm is
taken to be at `3.5`; it is at `5.125`. -/
theorem C80_violated_hole (layer : Layer XR) (hp : layer.paths = [⟨square10.map R3.pt⟩, ⟨hole2.map R3.pt⟩]) :
    ∃ c : R3, calculateCenter layer = .ok c.pt ∧ c.x = 7 / 2 ∧ sectionMx [square10, hole2] = 41 / 8 * sectionArea [square10, hole2] ∧
      sectionArea [square10, hole2] = 96 := by
  have aS : fanArea 0 square10 = 100 := by
    simp only [square10, fanArea, adjPairs, triArea, List.map_cons, List.map_nil, List.tail_cons, List.zip_cons_cons,
        List.zip_nil_right, List.sum_cons, List.sum_nil, R3.zero_x, R3.zero_y]; norm_num
  have mS : fanMx 0 square10 = 500 := by
    simp only [square10, fanMx, adjPairs, triArea, List.map_cons, List.map_nil, List.tail_cons, List.zip_cons_cons,
        List.zip_nil_right, List.sum_cons, List.sum_nil, R3.zero_x, R3.zero_y]; norm_num
  have aH : fanArea 0 hole2 = -4 := by
    simp only [hole2, fanArea, adjPairs, triArea, List.map_cons, List.map_nil, List.tail_cons, List.zip_cons_cons,
        List.zip_nil_right, List.sum_cons, List.sum_nil, R3.zero_x, R3.zero_y]; norm_num
  have mH : fanMx 0 hole2 = -8 := by
    simp only [hole2, fanMx, adjPairs, triArea, List.map_cons, List.map_nil, List.tail_cons, List.zip_cons_cons,
        List.zip_nil_right, List.sum_cons, List.sum_nil, R3.zero_x, R3.zero_y]; norm_num
  have t4 : tol ≤ 4 := by unfold tol; norm_num
  obtain ⟨c1, h1, _, g1⟩ := C29_centroid square10 1 (by simp [square10]) ⟨by simp [square10], by simp [square10]⟩
    (by rw [aS, abs_of_pos (by norm_num)]; linarith)
  obtain ⟨c2, h2, _, g2⟩ := C29_centroid hole2 1 (by simp [hole2]) ⟨by simp [hole2], by simp [hole2]⟩
    (by rw [aH, abs_of_neg (by norm_num)]; linarith)
  have x1 := (g1 0).1
  have x2 := (g2 0).1
  rw [aS, mS] at x1
  rw [aH, mH] at x2
  refine ⟨_, C80_center layer [c1, c2] (by rw [hp, List.mapM_cons, h1, List.mapM_cons, h2]; rfl), ?_, ?_, ?_⟩
  · simp only [reduceCtorEq, if_false, List.map_cons, List.map_nil, List.sum_cons, List.sum_nil, List.length_cons, List.length_nil]
    norm_num; linarith
  · simp only [sectionMx, sectionArea, List.map_cons, List.map_nil, List.sum_cons, List.sum_nil, aS, aH, mS, mH]; norm_num
  · simp only [sectionArea, List.map_cons, List.map_nil, List.sum_cons, List.sum_nil, aS, aH]; norm_num

/-! ## Examples -/

/-- a square in the tilted plane `y + z = 1` -/
def tiltedSquare : List R3 := [⟨0, 0, 1⟩, ⟨2, 0, 1⟩, ⟨2, 2, -1⟩, ⟨0, 2, -1⟩, ⟨0, 0, 1⟩]

/-- the hypotheses of `C80_centroid`, for a contour that is not level -/
example : closedAt tiltedSquare ∧ (∀ w ∈ tiltedSquare, R3.dot ⟨0, 1, 1⟩ w = 1) ∧ Visible 1 tiltedSquare ∧ Visible 1 (tiltedSquare.map R3.seenY) ∧
    Visible 0 (tiltedSquare.map R3.seenX) := by
  refine ⟨⟨by simp [tiltedSquare], by simp [tiltedSquare]⟩, ?_, Or.inr ?_, Or.inr ?_, Or.inl rfl⟩
  · intro w hw
    simp only [tiltedSquare, List.mem_cons, List.not_mem_nil, or_false] at hw
    rcases hw with rfl | rfl | rfl | rfl | rfl <;> norm_num [R3.dot]
  · simp only [tiltedSquare, fanArea, adjPairs, triArea, List.map_cons, List.map_nil, List.tail_cons, List.zip_cons_cons,
        List.zip_nil_right, List.sum_cons, List.sum_nil, R3.zero_x, R3.zero_y, tol]; rw [le_abs]; norm_num
  · simp only [tiltedSquare, fanArea, adjPairs, triArea, R3.seenY, List.map_cons, List.map_nil, List.tail_cons, List.zip_cons_cons,
        List.zip_nil_right, List.sum_cons, List.sum_nil, R3.zero_x, R3.zero_y, tol]; rw [le_abs]; norm_num

end Goosli
