import Verif.Proofs.BoxCut
import Mathlib.Order.Interval.Set.Infinite
/-!
# The material of a box
-/
set_option autoImplicit false
namespace Goosli
open Flt Spec

/-- near any direction there is one that misses finitely many points -/
theorem miss_points (L : List R3) (x d0 d1 : R3) (hind : d0.cross2 d1 ≠ 0) (hL : ∀ w ∈ L, w.x ≠ x.x ∨ w.y ≠ x.y) {M : ℝ} (hM : 0 < M) :
    ∃ δ, 0 < δ ∧ δ < M ∧ ∀ w ∈ L, (d0 + δ • d1).cross2 (w - x) ≠ 0 := by
  classical
  obtain ⟨δ, ⟨h0, h1⟩, hn⟩ := (Set.Ioo_infinite hM).exists_notMem_finset ((L.map fun w => -(d0.cross2 (w - x)) / d1.cross2 (w - x)).toFinset)
  refine ⟨δ, h0, h1, fun w hw h => hn ?_⟩
  rw [List.mem_toFinset]
  refine List.mem_map.2 ⟨w, hw, ?_⟩
  have e : d0.cross2 (w - x) + δ * d1.cross2 (w - x) = 0 := by
    rw [← h]; simp only [R3.cross2, R3.add_x, R3.add_y, R3.smul_x, R3.smul_y]; ring
  have hB : d1.cross2 (w - x) ≠ 0 := by
    intro hB
    have hA : d0.cross2 (w - x) = 0 := by rw [hB, mul_zero, add_zero] at e; exact e
    simp only [R3.cross2, R3.sub_x, R3.sub_y] at hA hB hind
    have k1 : (d0.x * d1.y - d0.y * d1.x) * (w.x - x.x) = 0 := by linear_combination d1.x * hA - d0.x * hB
    have k2 : (d0.x * d1.y - d0.y * d1.x) * (w.y - x.y) = 0 := by linear_combination d1.y * hA - d0.y * hB
    have k1 := (mul_eq_zero.1 k1).resolve_left hind
    have k2 := (mul_eq_zero.1 k2).resolve_left hind
    rcases hL w hw with h | h
    · exact h (by linarith)
    · exact h (by linarith)
  rw [div_eq_iff hB]
  linarith

theorem rising_side : ∀ e ∈ risingEdges, e.1.1 = e.2.1 ∨ e.1.2.1 = e.2.2.1 := by decide

theorem cut_outline {p q : R3} (hb : Below3 p q) {h : ℝ} (h0 : p.z < h) (h1 : h < q.z) {w : R3} (hc : CrossPoint (lvl h) zUp (brick p q) w) :
    OnOutline p q w := by
  obtain ⟨wz, e, he, wx, wy⟩ := box_cross h0 h1 hc
  obtain ⟨s0, s1⟩ := share_mem h0 h1
  have ix := between_along hb.1.le s0.le s1.le e.1.1 e.2.1
  have iy := between_along hb.2.1.le s0.le s1.le e.1.2.1 e.2.2.1
  rw [← wx] at ix
  rw [← wy] at iy
  obtain ⟨c1, c2, c3, c4⟩ := cut_const (e := e) (u := w) ⟨wz, wx, wy⟩
  refine ⟨ix.1, ix.2, iy.1, iy.2, ?_⟩
  rcases rising_side e he with hh | hh
  · rcases hv : e.2.1 with _ | _
    · exact Or.inl (c1 (hh.trans hv) hv)
    · exact Or.inr (Or.inl (c2 (hh.trans hv) hv))
  · rcases hv : e.2.2.1 with _ | _
    · exact Or.inr (Or.inr (Or.inl (c3 (hh.trans hv) hv)))
    · exact Or.inr (Or.inr (Or.inr (c4 (hh.trans hv) hv)))

theorem off_ne {p q x w : R3} (hx : OffOutline p q x) (hw : OnOutline p q w) : w.x ≠ x.x ∨ w.y ≠ x.y := by
  by_contra hc
  push Not at hc
  have := hx w hw
  simp only [R3.distSq2, hc.1, hc.2] at this
  norm_num at this

theorem off_cases {p q x : R3} (hx : OffOutline p q x) : InRectangle p q x ∨ q.x < x.x ∨ x.x < p.x ∨ q.y < x.y ∨ x.y < p.y := by
  by_contra hc
  push Not at hc
  obtain ⟨h1, h2, h3, h4, h5⟩ := hc
  have key : ¬ OnOutline p q x := fun h => by
    rcases off_ne hx h with h | h <;> exact h rfl
  apply key
  refine ⟨h3, h2, h5, h4, ?_⟩
  by_contra hc
  push Not at hc
  exact h1 ⟨lt_of_le_of_ne h3 (Ne.symm hc.1), lt_of_le_of_ne h2 hc.2.1, lt_of_le_of_ne h5 (Ne.symm hc.2.2.1), lt_of_le_of_ne h4 hc.2.2.2⟩

theorem none_odd {x d : R3} {ts : List RTri} (h : ∀ t ∈ ts, ¬ RayMeets x d t) : ¬ OddTris x d ts := by
  unfold OddTris
  rw [List.countP_eq_zero.2 fun t ht => by simpa using h t ht]
  simp

/-- the right side is the two triangles, without overlap: the diagonal divides it -/
theorem right_side {p q : R3} (hb : Below3 p q) {y : R3} (hy : y.x = q.x) (y0 : p.y ≤ y.y) (y1 : y.y ≤ q.y) (z0 : p.z ≤ y.z) (z1 : y.z ≤ q.z) :
    (OnTri ⟨cornerAt p q (true, false, false), cornerAt p q (true, true, false), cornerAt p q (true, true, true)⟩ y ↔
      (y.z - p.z) * (q.y - p.y) ≤ (y.y - p.y) * (q.z - p.z)) ∧
    (OnTri ⟨cornerAt p q (true, false, false), cornerAt p q (true, true, true), cornerAt p q (true, false, true)⟩ y ↔
      (y.y - p.y) * (q.z - p.z) ≤ (y.z - p.z) * (q.y - p.y)) := by
  have b := sub_pos.2 hb.2.1
  have c := sub_pos.2 hb.2.2
  constructor
  · constructor
    · rintro ⟨u, v, w, hu, hv, hw, hs, e⟩
      have ey := congrArg R3.y e
      have ez := congrArg R3.z e
      simp [cornerAt] at ey ez
      have e1 : y.y - p.y = (v + w) * (q.y - p.y) := by rw [ey]; linear_combination (p.y) * hs
      have e2 : y.z - p.z = w * (q.z - p.z) := by rw [ez]; linear_combination (p.z) * hs
      rw [e1, e2]
      nlinarith [mul_nonneg hv (mul_pos b c).le]
    · intro h
      refine ⟨1 - (y.y - p.y) / (q.y - p.y), (y.y - p.y) / (q.y - p.y) - (y.z - p.z) / (q.z - p.z), (y.z - p.z) / (q.z - p.z), ?_, ?_, ?_, by ring, ?_⟩
      · rw [sub_nonneg, div_le_one b]; linarith
      · rw [sub_nonneg, div_le_div_iff₀ c b]; exact h
      · exact div_nonneg (by linarith) c.le
      · apply R3.ext <;> simp [cornerAt]
        · rw [hy]; ring
        · field_simp; ring
        · field_simp; ring
  · constructor
    · rintro ⟨u, v, w, hu, hv, hw, hs, e⟩
      have ey := congrArg R3.y e
      have ez := congrArg R3.z e
      simp [cornerAt] at ey ez
      have e1 : y.y - p.y = v * (q.y - p.y) := by rw [ey]; linear_combination (p.y) * hs
      have e2 : y.z - p.z = (v + w) * (q.z - p.z) := by rw [ez]; linear_combination (p.z) * hs
      rw [e1, e2]
      nlinarith [mul_nonneg hw (mul_pos b c).le]
    · intro h
      refine ⟨1 - (y.z - p.z) / (q.z - p.z), (y.y - p.y) / (q.y - p.y), (y.z - p.z) / (q.z - p.z) - (y.y - p.y) / (q.y - p.y), ?_, ?_, ?_, by ring, ?_⟩
      · rw [sub_nonneg, div_le_one c]; linarith
      · exact div_nonneg (by linarith) b.le
      · rw [sub_nonneg, div_le_div_iff₀ b c]; exact h
      · apply R3.ext <;> simp [cornerAt]
        · rw [hy]; ring
        · field_simp; ring
        · field_simp; ring

/-- a ray from inside to the right meets one triangle -/
theorem one_odd {p q : R3} (hb : Below3 p q) {h : ℝ} (h0 : p.z < h) (h1 : h < q.z) {x : R3} (hz : x.z = h) (hx : InRectangle p q x) {δ : ℝ} (d0 : 0 < δ)
    (d1 : x.y + δ * (q.x - x.x) < q.y) (hne : (h - p.z) * (q.y - p.y) ≠ (x.y + δ * (q.x - x.x) - p.y) * (q.z - p.z)) :
    OddTris x ⟨1, δ, 0⟩ (brick p q) := by
  obtain ⟨x0, x1, y0, y1⟩ := hx
  -- the point of the right side
  have hit : ∀ {t : RTri}, (∀ y, OnTri t y → y.x = q.x) → (RayMeets x ⟨1, δ, 0⟩ t ↔ OnTri t ⟨q.x, x.y + δ * (q.x - x.x), h⟩) := by
    intro t ht
    have e : ∀ s : ℝ, s = q.x - x.x → x + s • (⟨1, δ, 0⟩ : R3) = ⟨q.x, x.y + δ * (q.x - x.x), h⟩ := by
      rintro s rfl
      apply R3.ext
      · simp
      · simp; ring
      · simp [hz]
    constructor
    · rintro ⟨s, hs, ho⟩
      have := ht _ ho
      rw [e s (by simp at this; linarith)] at ho
      exact ho
    · intro ho
      exact ⟨q.x - x.x, by linarith, by rw [e _ rfl]; exact ho⟩
  have onright : ∀ {a b c d e f : Bool} {y : R3}, OnTri ⟨cornerAt p q (true, a, b), cornerAt p q (true, c, d), cornerAt p q (true, e, f)⟩ y → y.x = q.x := by
    rintro a b c d e f y ⟨u, v, w, hu, hv, hw, hs, e⟩
    have ex := congrArg R3.x e
    simp [cornerAt] at ex
    rw [ex, ← add_mul, ← add_mul, hs, one_mul]
  obtain ⟨r1, r2⟩ := right_side hb (y := ⟨q.x, x.y + δ * (q.x - x.x), h⟩) rfl (by simp; nlinarith) d1.le h0.le h1.le
  -- the other sides
  have other : ∀ t, (t ∈ (brick p q).take 10) → ¬ RayMeets x ⟨1, δ, 0⟩ t := by
    intro t ht
    have ht : t ∈ (boxFaces.take 10).map fun f => (⟨cornerAt p q f.1, cornerAt p q f.2.1, cornerAt p q f.2.2⟩ : RTri) := ht
    obtain ⟨f, hf, rfl⟩ := List.mem_map.1 ht
    rintro ⟨s, hs, ho⟩
    have hmem := List.mem_map_of_mem (f := fun f => (⟨cornerAt p q f.1, cornerAt p q f.2.1, cornerAt p q f.2.2⟩ : RTri)) (List.mem_of_mem_take hf)
    have hbd := brick_bounds hb hmem ho
    obtain ⟨u, v, w, hu, hv, hw, h1', e⟩ := ho
    have one : ∀ c : ℝ, u * c + v * c + w * c = c := fun c => by rw [← add_mul, ← add_mul, h1', one_mul]
    have ex := congrArg R3.x e
    have ey := congrArg R3.y e
    have ez := congrArg R3.z e
    have b2 : x.x + s ≤ q.x := by have := hbd.2.1; simp at this; exact this
    have hsd : s * δ ≤ (q.x - x.x) * δ := mul_le_mul_of_nonneg_right (by linarith) d0.le
    have hsd0 : 0 ≤ s * δ := mul_nonneg hs d0.le
    simp only [boxFaces, List.take_succ_cons, List.take_zero, List.mem_cons, List.not_mem_nil, or_false] at hf
    rcases hf with rfl | rfl | rfl | rfl | rfl | rfl | rfl | rfl | rfl | rfl <;>
      simp [cornerAt, one, hz] at ex ey ez <;> first
      | (exfalso; linarith)
      | nlinarith
  have split : brick p q = (brick p q).take 10 ++
      [⟨cornerAt p q (true, false, false), cornerAt p q (true, true, false), cornerAt p q (true, true, true)⟩,
       ⟨cornerAt p q (true, false, false), cornerAt p q (true, true, true), cornerAt p q (true, false, true)⟩] := rfl
  unfold OddTris
  rw [split, List.countP_append, List.countP_eq_zero.2 fun t ht => by simpa using other t ht]
  rcases lt_or_gt_of_ne hne with hlt | hlt
  · rw [List.countP_cons_of_pos (by simpa only [decide_eq_true_eq] using (hit fun y hy => onright hy).2 (r1.2 hlt.le)),
      List.countP_cons_of_neg (by simpa only [decide_eq_true_eq] using fun hh => absurd (r2.1 ((hit fun y hy => onright hy).1 hh)) (not_le.2 hlt))]
    rfl
  · rw [List.countP_cons_of_neg (by simpa only [decide_eq_true_eq] using fun hh => absurd (r1.1 ((hit fun y hy => onright hy).1 hh)) (not_le.2 hlt)),
      List.countP_cons_of_pos (by simpa only [decide_eq_true_eq] using (hit fun y hy => onright hy).2 (r2.2 hlt.le))]
    rfl

end Goosli
