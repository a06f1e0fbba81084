import Verif.Spec.Inside
import Mathlib.Tactic.Linarith
import Mathlib.Tactic.Ring
import Mathlib.Tactic.FieldSimp
import Mathlib.Data.Set.Finite.Basic
import Mathlib.Data.Real.Basic
/-!
# Crossing numbers of closed contours: the direction of the ray does not matter
-/
set_option autoImplicit false
namespace Goosli

theorem rayHits_iff (a d u v : R3) (hu : d.cross2 (u - a) ≠ 0) (hv : d.cross2 (v - a) ≠ 0) :
    RayHits a d (u, v) ↔ d.cross2 (u - a) * d.cross2 (v - a) < 0 ∧
      0 ≤ (u - a).cross2 (v - a) * (d.cross2 (v - a) - d.cross2 (u - a)) := by
  have e1 : d.cross2 (u - a) = d.x * (u.y - a.y) - d.y * (u.x - a.x) := by simp [R3.cross2]
  have e2 : d.cross2 (v - a) = d.x * (v.y - a.y) - d.y * (v.x - a.x) := by simp [R3.cross2]
  have e3 : (u - a).cross2 (v - a) = (u.x - a.x) * (v.y - a.y) - (u.y - a.y) * (v.x - a.x) := by simp [R3.cross2]
  generalize hA : d.cross2 (u - a) = A at *
  generalize hB : d.cross2 (v - a) = B at *
  generalize hC : (u - a).cross2 (v - a) = C at *
  constructor
  · rintro ⟨s, t, hs, h0, h1, hx, hy⟩
    dsimp only at hx hy
    have k1 : A + t * (B - A) = 0 := by
      rw [e1, e2]; linear_combination d.x * hy - d.y * hx
    have k2 : C = s * (B - A) := by
      rw [e1, e2, e3]; linear_combination (v.y - u.y) * hx - (v.x - u.x) * hy
    refine ⟨?_, ?_⟩
    · have ht0 : t ≠ 0 := by rintro rfl; apply hu; linarith
      have ht1 : t ≠ 1 := by rintro rfl; apply hv; linarith
      have p0 : 0 < t := lt_of_le_of_ne h0 (Ne.symm ht0)
      have p1 : 0 < 1 - t := by have := lt_of_le_of_ne h1 ht1; linarith
      have k3 : (1 - t) * A = - (t * B) := by linarith
      have k4 : (1 - t) * (A * B) = - (t * B ^ 2) := by
        calc (1 - t) * (A * B) = ((1 - t) * A) * B := by ring
          _ = _ := by rw [k3]; ring
      have k5 : 0 < t * B ^ 2 := by positivity
      by_contra hn
      have := mul_nonneg p1.le (not_lt.1 hn)
      linarith
    · rw [k2]
      have : s * (B - A) * (B - A) = s * (B - A) ^ 2 := by ring
      rw [this]; positivity
  · rintro ⟨h1, h2⟩
    have hne : B - A ≠ 0 := by
      intro h; have : B = A := by linarith
      subst this; nlinarith [mul_self_nonneg B]
    have hsq : 0 < (B - A) ^ 2 := by positivity
    have t1 : -A / (B - A) = (A ^ 2 - A * B) / (B - A) ^ 2 := by field_simp; ring
    have t2 : 1 - -A / (B - A) = (B ^ 2 - A * B) / (B - A) ^ 2 := by field_simp; ring
    refine ⟨C / (B - A), -A / (B - A), ?_, ?_, ?_, ?_, ?_⟩
    · have : C / (B - A) = C * (B - A) / (B - A) ^ 2 := by field_simp
      rw [this]; positivity
    · rw [t1]; apply div_nonneg _ hsq.le; nlinarith [sq_nonneg A]
    · have : 0 ≤ 1 - -A / (B - A) := by rw [t2]; apply div_nonneg _ hsq.le; nlinarith [sq_nonneg B]
      linarith
    · dsimp only
      field_simp
      rw [e1, e2, e3]; ring
    · dsimp only
      field_simp
      rw [e1, e2, e3]; ring

/-- a side that is crossed by the line does not go through `a` -/
theorem cross_ne_of_not_on (a d u v : R3) (hn : ¬ ∃ t : ℝ, 0 ≤ t ∧ t ≤ 1 ∧ u.x + t * (v.x - u.x) = a.x ∧ u.y + t * (v.y - u.y) = a.y)
    (h : d.cross2 (u - a) * d.cross2 (v - a) < 0) : (u - a).cross2 (v - a) ≠ 0 := by
  intro hC
  have hu : d.cross2 (u - a) ≠ 0 := by intro e; rw [e] at h; simp at h
  have hv : d.cross2 (v - a) ≠ 0 := by intro e; rw [e] at h; simp at h
  -- both the ray and the opposite ray are hit, at the same point
  obtain ⟨s, t, hs, h0, h1, hx, hy⟩ := (rayHits_iff a d u v hu hv).2 ⟨h, by rw [hC]; simp⟩
  dsimp only at hx hy
  have e1 : d.cross2 (u - a) = d.x * (u.y - a.y) - d.y * (u.x - a.x) := by simp [R3.cross2]
  have e2 : d.cross2 (v - a) = d.x * (v.y - a.y) - d.y * (v.x - a.x) := by simp [R3.cross2]
  have e3 : (u - a).cross2 (v - a) = (u.x - a.x) * (v.y - a.y) - (u.y - a.y) * (v.x - a.x) := by simp [R3.cross2]
  have k2 : (u - a).cross2 (v - a) = s * (d.cross2 (v - a) - d.cross2 (u - a)) := by
    rw [e1, e2, e3]; linear_combination (v.y - u.y) * hx - (v.x - u.x) * hy
  rw [hC] at k2
  have hs0 : s = 0 := by
    rcases mul_eq_zero.1 k2.symm with h' | h'
    · exact h'
    · exfalso
      have : d.cross2 (v - a) = d.cross2 (u - a) := by linarith
      rw [this] at h; nlinarith [mul_self_nonneg (d.cross2 (u - a))]
  exact hn ⟨t, h0, h1, by rw [hx, hs0]; ring, by rw [hy, hs0]; ring⟩

theorem hit_signs (α β D : ℝ) (h : α * β < 0 → D ≠ 0) :
    (α * β < 0 ∧ 0 ≤ D * (β - α)) ↔ (α < 0 ∧ 0 < β ∧ 0 < D) ∨ (0 < α ∧ β < 0 ∧ D < 0) := by
  constructor
  · rintro ⟨h1, h2⟩
    have hD := h h1
    rcases mul_neg_iff.1 h1 with ⟨ha, hb⟩ | ⟨ha, hb⟩
    · right
      refine ⟨ha, hb, ?_⟩
      rcases lt_or_gt_of_ne hD with h' | h'
      · exact h'
      · nlinarith
    · left
      refine ⟨ha, hb, ?_⟩
      rcases lt_or_gt_of_ne hD with h' | h'
      · nlinarith
      · exact h'
  · rintro (⟨ha, hb, hd⟩ | ⟨ha, hb, hd⟩)
    · exact ⟨mul_neg_of_neg_of_pos ha hb, by nlinarith⟩
    · exact ⟨mul_neg_of_pos_of_neg ha hb, by nlinarith⟩

/-- the signs of one side with respect to two directions (coordinates multiplied by the cross product of the directions) -/
theorem sector_side (α β α' β' D : ℝ) (hD : D = α * β' - β * α') (ha : α ≠ 0) (hb : β ≠ 0) (ha' : α' ≠ 0) (hb' : β' ≠ 0)
    (h1 : α * β < 0 → D ≠ 0) (h2 : α' * β' < 0 → D ≠ 0) :
    ((α * β < 0 ∧ 0 ≤ D * (β - α)) ↔ (α' * β' < 0 ∧ 0 ≤ D * (β' - α'))) ↔ ((0 < α ∧ α' < 0) ↔ (0 < β ∧ β' < 0)) := by
  rw [hit_signs α β D h1, hit_signs α' β' D h2]
  have key : ∀ x y : ℝ, (x < 0 → 0 < y → x * y < 0) ∧ (x < 0 → y < 0 → 0 < x * y) ∧ (0 < x → 0 < y → 0 < x * y) ∧ (0 < x → y < 0 → x * y < 0) :=
    fun x y => ⟨mul_neg_of_neg_of_pos, mul_pos_of_neg_of_neg, mul_pos, mul_neg_of_pos_of_neg⟩
  have k1 := key α β'
  have k2 := key β α'
  have k3 := key α β
  have k4 := key α' β'
  rcases lt_or_gt_of_ne ha with ha | ha <;> rcases lt_or_gt_of_ne hb with hb | hb <;>
    rcases lt_or_gt_of_ne ha' with ha' | ha' <;> rcases lt_or_gt_of_ne hb' with hb' | hb' <;>
    simp only [ha, hb, ha', hb', ha.not_gt, hb.not_gt, ha'.not_gt, hb'.not_gt, true_and, and_true, false_and, and_false, or_false, false_or,
      forall_true_left, false_implies, iff_self, iff_true, iff_false, false_iff, not_true, or_self, and_self] at k1 k2 k3 k4 ⊢
  all_goals first | linarith | (intro h; linarith) |
    (intro h; rcases lt_or_gt_of_ne (h1 k3) with h' | h' <;> simp [h', h'.not_gt] at h)

/-! ## Counting -/

theorem parity_add {β : Type} (p q : β → Bool) (l : List β) : (l.countP p + l.countP q) % 2 = l.countP (fun x => p x != q x) % 2 := by
  induction l with
  | nil => rfl
  | cons x t ih =>
    simp only [List.countP_cons]
    cases p x <;> cases q x <;> simp <;> omega

/-- along a list a property changes an even number of times if and only if it is the same at both ends -/
theorem parity_changes {β : Type} (p : β → Bool) : ∀ (l : List β) (x : β),
    ((x :: l).zip l).countP (fun q => p q.1 != p q.2) % 2 = if p x != p ((x :: l).getLast (by simp)) then 1 else 0 := by
  intro l
  induction l with
  | nil => intro x; simp
  | cons y t ih =>
    intro x
    have h := ih y
    rw [List.zip_cons_cons, List.countP_cons, List.getLast_cons (by simp)]
    cases hx : p x <;> cases hy : p y <;> cases hz : p ((y :: t).getLast (by simp)) <;> simp [hx, hy, hz] at h ⊢ <;> omega

theorem parity_closed (p : R3 → Bool) (ws : List R3) (h : ws.head? = ws.getLast?) :
    (sides ws).countP (fun q => p q.1 != p q.2) % 2 = 0 := by
  cases ws with
  | nil => rfl
  | cons x t =>
    unfold sides
    rw [List.tail_cons, parity_changes p t x]
    rw [List.head?_cons, List.getLast?_eq_some_getLast (by simp)] at h
    injection h with h
    rw [← h]; simp

theorem mem_sides {ws : List R3} {q : R3 × R3} (h : q ∈ sides ws) : q.1 ∈ ws ∧ q.2 ∈ ws := by
  have := List.of_mem_zip (show (q.1, q.2) ∈ ws.zip ws.tail from h)
  exact ⟨this.1, List.mem_of_mem_tail this.2⟩

open Classical in
/-- two rays that are not parallel -/
theorem oddHits_sector (a d e : R3) (ws : List R3) (hc : ws.head? = ws.getLast?) (hon : ¬ OnContour a ws) (hd : Generic a d ws)
    (he : Generic a e ws) (hk : d.cross2 e ≠ 0) : OddHits a d ws ↔ OddHits a e ws := by
  set k := d.cross2 e with hkd
  have hsum := parity_add (fun q => decide (RayHits a d q)) (fun q => decide (RayHits a e q)) (sides ws)
  have hcl := parity_closed (fun w => decide (0 < k * d.cross2 (w - a) ∧ k * e.cross2 (w - a) < 0)) ws hc
  have hcong : (sides ws).countP (fun q => decide (RayHits a d q) != decide (RayHits a e q)) =
      (sides ws).countP (fun q => decide (0 < k * d.cross2 (q.1 - a) ∧ k * e.cross2 (q.1 - a) < 0) !=
        decide (0 < k * d.cross2 (q.2 - a) ∧ k * e.cross2 (q.2 - a) < 0)) := by
    apply List.countP_congr
    rintro ⟨u, v⟩ hq
    obtain ⟨mu, mv⟩ := mem_sides hq
    have hnot : ¬ ∃ t : ℝ, 0 ≤ t ∧ t ≤ 1 ∧ u.x + t * (v.x - u.x) = a.x ∧ u.y + t * (v.y - u.y) = a.y := fun h => hon ⟨_, hq, h⟩
    have hA := hd u mu
    have hB := hd v mv
    have hA' := he u mu
    have hB' := he v mv
    have hkk : 0 < k ^ 2 := by positivity
    have key := sector_side (k * d.cross2 (u - a)) (k * d.cross2 (v - a)) (k * e.cross2 (u - a)) (k * e.cross2 (v - a))
      (k ^ 3 * (u - a).cross2 (v - a)) (by
        rw [hkd]; simp only [R3.cross2]; ring) (mul_ne_zero hk hA) (mul_ne_zero hk hB) (mul_ne_zero hk hA') (mul_ne_zero hk hB')
      (by
        intro h
        refine mul_ne_zero (pow_ne_zero _ hk) (cross_ne_of_not_on a d u v hnot ?_)
        nlinarith)
      (by
        intro h
        refine mul_ne_zero (pow_ne_zero _ hk) (cross_ne_of_not_on a e u v hnot ?_)
        nlinarith)
    have conv : ∀ A B C : ℝ, (k * A * (k * B) < 0 ∧ 0 ≤ k ^ 3 * C * (k * B - k * A)) ↔ (A * B < 0 ∧ 0 ≤ C * (B - A)) := by
      intro A B C
      have e1 : k * A * (k * B) = k ^ 2 * (A * B) := by ring
      have e2 : k ^ 3 * C * (k * B - k * A) = (k ^ 2) ^ 2 * (C * (B - A)) := by ring
      have e3 : k ^ 2 * (A * B) < 0 ↔ A * B < 0 := ⟨fun h => by nlinarith, fun h => by nlinarith⟩
      rw [e1, e2, e3, mul_nonneg_iff_of_pos_left (by positivity)]
    rw [conv, conv] at key
    dsimp only
    rw [← rayHits_iff a d u v hA hB, ← rayHits_iff a e u v hA' hB'] at key
    by_cases p1 : RayHits a d (u, v) <;> by_cases p2 : RayHits a e (u, v) <;>
      by_cases p3 : 0 < k * d.cross2 (u - a) ∧ k * e.cross2 (u - a) < 0 <;>
      by_cases p4 : 0 < k * d.cross2 (v - a) ∧ k * e.cross2 (v - a) < 0 <;> simp [p1, p2, p3, p4] at key ⊢
  unfold OddHits
  rw [hcong] at hsum
  rw [hcl] at hsum
  omega

/-- a direction that avoids the corners and is not parallel to two given ones -/
theorem exists_generic (a : R3) (ws : List R3) (h : ∀ w ∈ ws, w.x ≠ a.x ∨ w.y ≠ a.y) (es : List R3) (hes : ∀ e ∈ es, e.x ≠ 0 ∨ e.y ≠ 0) :
    ∃ d, Generic a d ws ∧ ∀ e ∈ es, d.cross2 e ≠ 0 := by
  have hf : (((ws.map fun w => (w.y - a.y) / (w.x - a.x)) ++ es.map fun e => e.y / e.x).toFinset : Set ℝ).Finite := Finset.finite_toSet _
  obtain ⟨t, ht⟩ := hf.infinite_compl.nonempty
  have ht' : t ∉ (ws.map fun w => (w.y - a.y) / (w.x - a.x)) ++ es.map fun e => e.y / e.x := by simpa using ht
  rw [List.mem_append, not_or] at ht'
  have step : ∀ p q : ℝ, (p ≠ 0 ∨ q ≠ 0) → t ≠ q / p → 1 * q - t * p ≠ 0 := by
    intro p q hpq hne hz
    by_cases hp : p = 0
    · subst hp; simp at hz hpq; exact hpq hz
    · apply hne; field_simp; linarith
  refine ⟨⟨1, t, 0⟩, ?_, ?_⟩
  · intro w hw
    have := step (w.x - a.x) (w.y - a.y) (by
      rcases h w hw with h | h
      · left; exact sub_ne_zero.2 h
      · right; exact sub_ne_zero.2 h) (by
      intro e; exact ht'.1 (List.mem_map.2 ⟨w, hw, e.symm⟩))
    simpa [R3.cross2] using this
  · intro e hm
    have := step e.x e.y (hes e hm) (by
      intro h'; exact ht'.2 (List.mem_map.2 ⟨e, hm, h'.symm⟩))
    simpa [R3.cross2] using this

theorem corner_ne {a : R3} {ws : List R3} (h2 : 2 ≤ ws.length) (hon : ¬ OnContour a ws) : ∀ w ∈ ws, w.x ≠ a.x ∨ w.y ≠ a.y := by
  intro w hw
  by_contra hn
  rw [not_or, not_not, not_not] at hn
  apply hon
  obtain ⟨i, hi, rfl⟩ := List.getElem_of_mem hw
  by_cases hlast : i + 1 < ws.length
  · refine ⟨(ws[i], ws[i + 1]), ?_, 0, le_refl _, by norm_num, by simp [hn.1], by simp [hn.2]⟩
    unfold sides
    rw [List.mem_iff_getElem]
    refine ⟨i, by simp; omega, by simp⟩
  · have hi1 : i - 1 + 1 = i := by omega
    refine ⟨(ws[i - 1], ws[i]), ?_, 1, by norm_num, le_refl _, by simp [hn.1], by simp [hn.2]⟩
    unfold sides
    rw [List.mem_iff_getElem]
    refine ⟨i - 1, by simp; omega, by simp [hi1]⟩

theorem oddHits_ray (a d e : R3) (ws : List R3) (h2 : 2 ≤ ws.length) (hc : ws.head? = ws.getLast?) (hon : ¬ OnContour a ws)
    (hd : Generic a d ws) (he : Generic a e ws) : OddHits a d ws ↔ OddHits a e ws := by
  have hcorner := corner_ne h2 hon
  obtain ⟨w, hw⟩ : ∃ w, w ∈ ws := by
    cases ws with
    | nil => simp at h2
    | cons w t => exact ⟨w, by simp⟩
  have nz : ∀ f, Generic a f ws → f.x ≠ 0 ∨ f.y ≠ 0 := by
    intro f hf
    by_contra hn
    rw [not_or, not_not, not_not] at hn
    exact hf w hw (by simp [R3.cross2, hn.1, hn.2])
  obtain ⟨f, hf, hfk⟩ := exists_generic a ws hcorner [d, e] (by
    intro g hg
    rcases List.mem_cons.1 hg with rfl | hg
    · exact nz _ hd
    · rw [List.mem_singleton] at hg; rw [hg]; exact nz _ he)
  rw [← oddHits_sector a f d ws hc hon hf hd (hfk d (by simp)), oddHits_sector a f e ws hc hon hf he (hfk e (by simp))]

end Goosli
