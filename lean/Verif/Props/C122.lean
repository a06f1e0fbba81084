import Verif.Props.C47
import Verif.Props.C49
/-!
# C122: walls stay inside the part
-/
set_option autoImplicit false
namespace Goosli
open Flt R3

/-- the point `s` along and `t` to the right of the horizontal direction `u`, seen from `o` with the normal up -/
noncomputable def atST (o u : R3) (s t : ℝ) : R3 := ⟨o.x + s * u.x + t * u.y, o.y + s * u.y - t * u.x, o.z⟩

/-- the corners of a rectangle, clockwise as the contours of sliced models run -/
noncomputable def rectRun (o u : R3) (a b : ℝ) : List R3 := [atST o u 0 0, atST o u a 0, atST o u a b, atST o u 0 b, atST o u 0 0]

/-- the points of the rectangle -/
def InRect (o u : R3) (a b : ℝ) (x : R3) : Prop := ∃ s t : ℝ, 0 ≤ s ∧ s ≤ a ∧ 0 ≤ t ∧ t ≤ b ∧ x = atST o u s t

/-- a horizontal direction -/
structure Flat (u : R3) : Prop where
  z : u.z = 0
  one : u.x ^ 2 + u.y ^ 2 = 1

section
variable {o u : R3} (hu : Flat u)
include hu

theorem atST_inj {s t s' t' : ℝ} (h : atST o u s t = atST o u s' t') : s = s' ∧ t = t' := by
  have e1 := congrArg R3.x h
  have e2 := congrArg R3.y h
  simp only [atST] at e1 e2
  have := hu.one
  constructor
  · linear_combination u.x * e1 + u.y * e2 + (s' - s) * this
  · linear_combination u.y * e1 - u.x * e2 + (t' - t) * this

theorem st_dot (s t s' t' x y x' y' : ℝ) :
    (atST o u s' t' - atST o u s t).dot (atST o u x' y' - atST o u x y) = (s' - s) * (x' - x) + (t' - t) * (y' - y) := by
  have := hu.one
  simp [atST, R3.dot]
  linear_combination ((s' - s) * (x' - x) + (t' - t) * (y' - y)) * this

theorem st_cross (s t s' t' x y x' y' : ℝ) :
    ((atST o u s' t' - atST o u s t).cross (atST o u x' y' - atST o u x y)).norm = |(s' - s) * (y' - y) - (t' - t) * (x' - x)| := by
  have h := hu.one
  have : (atST o u s' t' - atST o u s t).cross (atST o u x' y' - atST o u x y) = ⟨0, 0, -((s' - s) * (y' - y) - (t' - t) * (x' - x))⟩ := by
    apply R3.ext <;> simp [atST, R3.cross]
    linear_combination (-((s' - s) * (y' - y)) + (t' - t) * (x' - x)) * h
  rw [this]
  simp [R3.norm, R3.normSq, R3.dot, Real.sqrt_mul_self_eq_abs]
  exact abs_sub_comm _ _

theorem st_dist (s t s' t' : ℝ) : R3.dist (atST o u s t) (atST o u s' t') = Real.sqrt ((s' - s) ^ 2 + (t' - t) ^ 2) := by
  unfold R3.dist R3.norm
  congr 1
  have h := hu.one
  simp [atST, R3.normSq, R3.dot]
  linear_combination ((s' - s) ^ 2 + (t' - t) ^ 2) * h

theorem st_shift_s {w s s' t : ℝ} (h : s < s') : sideShift w ⟨0, 0, 1⟩ (atST o u s t) (atST o u s' t) = ⟨w * u.y, -(w * u.x), 0⟩ := by
  have p : 0 < s' - s := sub_pos.2 h
  have e : (atST o u s' t - atST o u s t).cross ⟨0, 0, 1⟩ = ⟨(s' - s) * u.y, -((s' - s) * u.x), 0⟩ := by
    apply R3.ext <;> simp [atST, R3.cross] <;> ring
  have n : (⟨(s' - s) * u.y, -((s' - s) * u.x), 0⟩ : R3).norm = s' - s := by
    unfold R3.norm
    rw [show (⟨(s' - s) * u.y, -((s' - s) * u.x), 0⟩ : R3).normSq = (s' - s) ^ 2 by
      simp [R3.normSq, R3.dot]; linear_combination (s' - s) ^ 2 * hu.one, Real.sqrt_sq p.le]
  unfold sideShift R3.unit
  rw [e, n]
  have p' := p.ne'
  apply R3.ext <;> simp only [R3.smul_x, R3.smul_y, R3.smul_z] <;> field_simp <;> try ring1

theorem st_shift_s' {w s s' t : ℝ} (h : s' < s) : sideShift w ⟨0, 0, 1⟩ (atST o u s t) (atST o u s' t) = ⟨-(w * u.y), w * u.x, 0⟩ := by
  have p : 0 < s - s' := sub_pos.2 h
  have e : (atST o u s' t - atST o u s t).cross ⟨0, 0, 1⟩ = ⟨-((s - s') * u.y), (s - s') * u.x, 0⟩ := by
    apply R3.ext <;> simp [atST, R3.cross] <;> ring
  have n : (⟨-((s - s') * u.y), (s - s') * u.x, 0⟩ : R3).norm = s - s' := by
    unfold R3.norm
    rw [show (⟨-((s - s') * u.y), (s - s') * u.x, 0⟩ : R3).normSq = (s - s') ^ 2 by
      simp [R3.normSq, R3.dot]; linear_combination (s - s') ^ 2 * hu.one, Real.sqrt_sq p.le]
  unfold sideShift R3.unit
  rw [e, n]
  have p' := p.ne'
  apply R3.ext <;> simp only [R3.smul_x, R3.smul_y, R3.smul_z] <;> field_simp <;> try ring1

theorem st_shift_t {w s t t' : ℝ} (h : t < t') : sideShift w ⟨0, 0, 1⟩ (atST o u s t) (atST o u s t') = ⟨-(w * u.x), -(w * u.y), 0⟩ := by
  have p : 0 < t' - t := sub_pos.2 h
  have e : (atST o u s t' - atST o u s t).cross ⟨0, 0, 1⟩ = ⟨-((t' - t) * u.x), -((t' - t) * u.y), 0⟩ := by
    apply R3.ext <;> simp [atST, R3.cross] <;> ring
  have n : (⟨-((t' - t) * u.x), -((t' - t) * u.y), 0⟩ : R3).norm = t' - t := by
    unfold R3.norm
    rw [show (⟨-((t' - t) * u.x), -((t' - t) * u.y), 0⟩ : R3).normSq = (t' - t) ^ 2 by
      simp [R3.normSq, R3.dot]; linear_combination (t' - t) ^ 2 * hu.one, Real.sqrt_sq p.le]
  unfold sideShift R3.unit
  rw [e, n]
  have p' := p.ne'
  apply R3.ext <;> simp only [R3.smul_x, R3.smul_y, R3.smul_z] <;> field_simp <;> try ring1

theorem st_shift_t' {w s t t' : ℝ} (h : t' < t) : sideShift w ⟨0, 0, 1⟩ (atST o u s t) (atST o u s t') = ⟨w * u.x, w * u.y, 0⟩ := by
  have p : 0 < t - t' := sub_pos.2 h
  have e : (atST o u s t' - atST o u s t).cross ⟨0, 0, 1⟩ = ⟨(t - t') * u.x, (t - t') * u.y, 0⟩ := by
    apply R3.ext <;> simp [atST, R3.cross] <;> ring
  have n : (⟨(t - t') * u.x, (t - t') * u.y, 0⟩ : R3).norm = t - t' := by
    unfold R3.norm
    rw [show (⟨(t - t') * u.x, (t - t') * u.y, 0⟩ : R3).normSq = (t - t') ^ 2 by
      simp [R3.normSq, R3.dot]; linear_combination (t - t') ^ 2 * hu.one, Real.sqrt_sq p.le]
  unfold sideShift R3.unit
  rw [e, n]
  have p' := p.ne'
  apply R3.ext <;> simp only [R3.smul_x, R3.smul_y, R3.smul_z] <;> field_simp <;> try ring1

omit hu in
theorem st_add_s (s t w : ℝ) : atST o u s t + ⟨w * u.x, w * u.y, 0⟩ = atST o u (s + w) t := by apply R3.ext <;> simp [atST] <;> ring
omit hu in
theorem st_add_s' (s t w : ℝ) : atST o u s t + ⟨-(w * u.x), -(w * u.y), 0⟩ = atST o u (s - w) t := by apply R3.ext <;> simp [atST] <;> ring
omit hu in
theorem st_add_t (s t w : ℝ) : atST o u s t + ⟨w * u.y, -(w * u.x), 0⟩ = atST o u s (t + w) := by apply R3.ext <;> simp [atST] <;> ring
omit hu in
theorem st_add_t' (s t w : ℝ) : atST o u s t + ⟨-(w * u.y), w * u.x, 0⟩ = atST o u s (t - w) := by apply R3.ext <;> simp [atST] <;> ring

/-- the moved sides of a rectangle -/
theorem rect_moved {a b w : ℝ} (a0 : 0 < a) (b0 : 0 < b) : movedSides w ⟨0, 0, 1⟩ (rectRun o u a b) =
    [⟨(atST o u 0 w).pt, (atST o u a w).pt⟩, ⟨(atST o u (a - w) 0).pt, (atST o u (a - w) b).pt⟩,
      ⟨(atST o u a (b - w)).pt, (atST o u 0 (b - w)).pt⟩, ⟨(atST o u w b).pt, (atST o u w 0).pt⟩] := by
  unfold movedSides rectRun
  simp only [adjPairs, List.tail_cons, List.zip_cons_cons, List.zip_nil_right, List.map_cons, List.map_nil]
  rw [st_shift_s hu a0, st_shift_t hu b0, st_shift_s' hu a0, st_shift_t' hu b0]
  simp only [st_add_s, st_add_s', st_add_t, st_add_t', zero_add]

/-- where two moved sides meet: a side along `u`, then one across -/
theorem meet_st {s0 s1 t0 sx t1 t2 : ℝ} (h1 : 1 / 10 ^ 6 ≤ |t2 - t1| * |s1 - s0|) (h2 : 1 / 10 ^ 6 ≤ |t2 - t1| * |sx - s0|)
    (d1 : |sx - s1| ≤ 2) (d2 : |t0 - t1| ≤ 2) :
    (Line.mk (atST o u s0 t0).pt (atST o u s1 t0).pt).intersectLine2 (Line.mk (atST o u sx t1).pt (atST o u sx t2).pt) = some (atST o u sx t0).pt := by
  have n1 : s1 - s0 ≠ 0 := by intro e; rw [e] at h1; norm_num at h1
  have n2 : t2 - t1 ≠ 0 := by intro e; rw [e] at h1; norm_num at h1
  refine intersectLine2_meet (s := (sx - s0) / (s1 - s0)) (t := (t0 - t2) / (t2 - t1)) ?_ ?_ ?_ ?_ ?_ ?_
  · apply R3.ext <;> simp [atST] <;> field_simp <;> ring
  · apply R3.ext <;> simp [atST] <;> field_simp <;> ring
  · rw [st_cross hu, show (sx - sx) * (t0 - t0) - (t2 - t1) * (s1 - s0) = -((t2 - t1) * (s1 - s0)) by ring, abs_neg, abs_mul]; exact h1
  · rw [st_cross hu, show (sx - sx) * (t0 - t0) - (t2 - t1) * (sx - s0) = -((t2 - t1) * (sx - s0)) by ring, abs_neg, abs_mul]; exact h2
  · rw [st_dist hu, show (s1 - sx) ^ 2 + (t0 - t0) ^ 2 = (s1 - sx) ^ 2 by ring, Real.sqrt_sq_eq_abs, abs_sub_comm]; exact d1
  · rw [st_dist hu, show (sx - sx) ^ 2 + (t1 - t0) ^ 2 = (t1 - t0) ^ 2 by ring, Real.sqrt_sq_eq_abs, abs_sub_comm]; exact d2

/-- where two moved sides meet: a side across `u`, then one along -/
theorem meet_ts {t0 t1 s0 tx s1 s2 : ℝ} (h1 : 1 / 10 ^ 6 ≤ |s2 - s1| * |t1 - t0|) (h2 : 1 / 10 ^ 6 ≤ |s2 - s1| * |tx - t0|)
    (d1 : |tx - t1| ≤ 2) (d2 : |s0 - s1| ≤ 2) :
    (Line.mk (atST o u s0 t0).pt (atST o u s0 t1).pt).intersectLine2 (Line.mk (atST o u s1 tx).pt (atST o u s2 tx).pt) = some (atST o u s0 tx).pt := by
  have n1 : t1 - t0 ≠ 0 := by intro e; rw [e] at h1; norm_num at h1
  have n2 : s2 - s1 ≠ 0 := by intro e; rw [e] at h1; norm_num at h1
  refine intersectLine2_meet (s := (tx - t0) / (t1 - t0)) (t := (s0 - s2) / (s2 - s1)) ?_ ?_ ?_ ?_ ?_ ?_
  · apply R3.ext <;> simp [atST] <;> field_simp <;> ring
  · apply R3.ext <;> simp [atST] <;> field_simp <;> ring
  · rw [st_cross hu, show (s2 - s1) * (t1 - t0) - (tx - tx) * (s0 - s0) = (s2 - s1) * (t1 - t0) by ring, abs_mul]; exact h1
  · rw [st_cross hu, show (s2 - s1) * (tx - t0) - (tx - tx) * (s0 - s0) = (s2 - s1) * (tx - t0) by ring, abs_mul]; exact h2
  · rw [st_dist hu, show (s0 - s0) ^ 2 + (t1 - tx) ^ 2 = (t1 - tx) ^ 2 by ring, Real.sqrt_sq_eq_abs, abs_sub_comm]; exact d1
  · rw [st_dist hu, show (s1 - s0) ^ 2 + (tx - tx) ^ 2 = (s1 - s0) ^ 2 by ring, Real.sqrt_sq_eq_abs, abs_sub_comm]; exact d2

end

/-- no side of the rectangle is as long as one or two widths of a line, up to the tolerance of the code, and lines are at most two millimetres wide -/
structure ClearOf (w a b : ℝ) : Prop where
  w0 : 1 / 100 ≤ w
  w2 : w ≤ 2
  a0 : 1 / 100 ≤ a
  b0 : 1 / 100 ≤ b
  a1 : 1 / 10 ^ 3 ≤ |a - w|
  a2 : 1 / 10 ^ 3 ≤ |a - 2 * w|
  b1 : 1 / 10 ^ 3 ≤ |b - w|
  b2 : 1 / 10 ^ 3 ≤ |b - 2 * w|

/-- the sides of the wall of a rectangle, before those that point backwards are dropped -/
theorem rect_trimmed {o u : R3} (hu : Flat u) {a b w : ℝ} (h : ClearOf w a b) : trimmedLines true (movedSides w ⟨0, 0, 1⟩ (rectRun o u a b)) =
    [⟨(atST o u w w).pt, (atST o u a w).pt⟩, ⟨(atST o u (a - w) w).pt, (atST o u (a - w) (b - w)).pt⟩,
      ⟨(atST o u (a - w) (b - w)).pt, (atST o u w (b - w)).pt⟩, ⟨(atST o u w (b - w)).pt, (atST o u w w).pt⟩] := by
  obtain ⟨w0, w2, a0, b0, a1, a2, b1, b2⟩ := h
  have ea : |a| = a := abs_of_nonneg (by linarith)
  have eb : |b| = b := abs_of_nonneg (by linarith)
  have ew : |w| = w := abs_of_nonneg (by linarith)
  have m : ∀ {x y : ℝ}, 1 / 100 ≤ x → 1 / 10 ^ 3 ≤ y → 1 / 10 ^ 6 ≤ x * y := fun {x y} hx hy => by
    have := mul_le_mul hx hy (by norm_num) (by linarith)
    linarith
  rw [rect_moved hu (by linarith) (by linarith)]
  have m1 := meet_st (o := o) hu (s0 := 0) (s1 := a) (t0 := w) (sx := a - w) (t1 := 0) (t2 := b)
    (by rw [sub_zero, sub_zero, ea, eb]; exact m b0 (by linarith)) (by rw [sub_zero, sub_zero, eb]; exact m b0 a1)
    (by rw [show a - w - a = -w by ring, abs_neg, ew]; exact w2) (by rw [sub_zero, ew]; exact w2)
  have m2 := meet_ts (o := o) hu (t0 := w) (t1 := b) (s0 := a - w) (tx := b - w) (s1 := a) (s2 := 0)
    (by rw [zero_sub, abs_neg, ea]; exact m a0 b1) (by rw [zero_sub, abs_neg, ea, show b - w - w = b - 2 * w by ring]; exact m a0 b2)
    (by rw [show b - w - b = -w by ring, abs_neg, ew]; exact w2) (by rw [show a - w - a = -w by ring, abs_neg, ew]; exact w2)
  have m3 := meet_st (o := o) hu (s0 := a - w) (s1 := 0) (t0 := b - w) (sx := w) (t1 := b) (t2 := 0)
    (by rw [zero_sub, zero_sub, abs_neg, abs_neg, eb]; exact m b0 a1)
    (by rw [zero_sub, abs_neg, eb, show w - (a - w) = -(a - 2 * w) by ring, abs_neg]; exact m b0 a2)
    (by rw [sub_zero, ew]; exact w2) (by rw [show b - w - b = -w by ring, abs_neg, ew]; exact w2)
  have m4 := meet_ts (o := o) hu (t0 := b - w) (t1 := 0) (s0 := w) (tx := w) (s1 := 0) (s2 := a)
    (by rw [sub_zero, zero_sub, abs_neg, ea]; exact m a0 b1)
    (by rw [sub_zero, ea, show w - (b - w) = -(b - 2 * w) by ring, abs_neg]; exact m a0 b2)
    (by rw [sub_zero, ew]; exact w2) (by rw [sub_zero, ew]; exact w2)
  simp only [trimmedLines, if_true, List.cons_append, List.nil_append, trimLines, m1, m2, m3, m4]
  rfl

/-- which sides point forwards -/
theorem rect_kept {o u : R3} (hu : Flat u) {a b w : ℝ} (a0 : 0 < a) (b0 : 0 < b) (w0 : 0 ≤ w) :
    keptLines [⟨(atST o u w w).pt, (atST o u a w).pt⟩, ⟨(atST o u (a - w) w).pt, (atST o u (a - w) (b - w)).pt⟩,
      ⟨(atST o u (a - w) (b - w)).pt, (atST o u w (b - w)).pt⟩, ⟨(atST o u w (b - w)).pt, (atST o u w w).pt⟩]
      (movedSides w ⟨0, 0, 1⟩ (rectRun o u a b)) =
    (if w ≤ a then [⟨(atST o u w w).pt, (atST o u a w).pt⟩] else []) ++
    (if 2 * w ≤ b then [⟨(atST o u (a - w) w).pt, (atST o u (a - w) (b - w)).pt⟩] else []) ++
    (if 2 * w ≤ a then [⟨(atST o u (a - w) (b - w)).pt, (atST o u w (b - w)).pt⟩] else []) ++
    (if 2 * w ≤ b then [⟨(atST o u w (b - w)).pt, (atST o u w w).pt⟩] else []) := by
  rw [rect_moved hu a0 b0]
  have key : ∀ (s t s' t' x y x' y' : ℝ), (Line.mk (atST o u s t).pt (atST o u s' t').pt).toVector.codirectedWith
      (Line.mk (atST o u x y).pt (atST o u x' y').pt).toVector = decide (0 ≤ (s' - s) * (x' - x) + (t' - t) * (y' - y)) := fun s t s' t' x y x' y' => by
    rw [line_toVector, line_toVector, codirected_vec, st_dot hu]
  unfold keptLines
  simp only [List.zip_cons_cons, List.zip_nil_right, List.filter_cons, List.filter_nil, key]
  have c1 : (0 ≤ (a - w) * (a - 0) + (w - w) * (w - w)) ↔ w ≤ a := by
    rw [sub_self, mul_zero, add_zero, sub_zero, mul_nonneg_iff_of_pos_right a0, sub_nonneg]
  have c2 : (0 ≤ (a - w - (a - w)) * (a - w - (a - w)) + (b - w - w) * (b - 0)) ↔ 2 * w ≤ b := by
    rw [sub_self, mul_zero, zero_add, sub_zero, mul_nonneg_iff_of_pos_right b0]
    constructor <;> intro h <;> linarith
  have c3 : (0 ≤ (w - (a - w)) * (0 - a) + (b - w - (b - w)) * (b - w - (b - w))) ↔ 2 * w ≤ a := by
    rw [sub_self, mul_zero, add_zero, show (w - (a - w)) * (0 - a) = (a - 2 * w) * a by ring, mul_nonneg_iff_of_pos_right a0, sub_nonneg]
  have c4 : (0 ≤ (w - w) * (w - w) + (w - (b - w)) * (0 - b)) ↔ 2 * w ≤ b := by
    rw [sub_self, mul_zero, zero_add, show (w - (b - w)) * (0 - b) = (b - 2 * w) * b by ring, mul_nonneg_iff_of_pos_right b0, sub_nonneg]
  simp only [c1, c2, c3, c4, decide_eq_true_eq]
  split_ifs <;> rfl

theorem rect_closed (o u : R3) (a b : ℝ) : (Path.mk ((rectRun o u a b).map R3.pt)).isClosed = true := by
  have := (equal_pt (atST o u 0 0) (atST o u 0 0)).2 (R3.near_refl _)
  simp [Path.isClosed, rectRun, this]

/-- the wall of a rectangle, before points in line are dropped -/
theorem rect_wall {o u : R3} (hu : Flat u) {a b w : ℝ} (h : ClearOf w a b) : makeOffset (Path.mk ((rectRun o u a b).map R3.pt)) (XR.fin w) (R3.mk 0 0 1).vec =
    if 2 * w ≤ a then
      if 2 * w ≤ b then some (Path.mk ([atST o u w w, atST o u a w, atST o u (a - w) (b - w), atST o u w (b - w), atST o u w w].map R3.pt)).minimizeLines
      else some (Path.mk ([atST o u w w, atST o u a w, atST o u w (b - w)].map R3.pt)).minimizeLines
    else if 2 * w ≤ b then
      if w ≤ a then some (Path.mk ([atST o u w w, atST o u a w, atST o u (a - w) (b - w), atST o u w w].map R3.pt)).minimizeLines
      else some (Path.mk ([atST o u (a - w) w, atST o u (a - w) (b - w), atST o u w w].map R3.pt)).minimizeLines
    else none := by
  have := h.w0; have := h.a0; have := h.b0
  unfold makeOffset
  rw [if_neg (by simp [rectRun])]
  dsimp only
  rw [offsetLines_real, rect_closed, rect_trimmed hu h, rect_kept hu (by linarith) (by linarith) (by linarith)]
  by_cases x1 : 2 * w ≤ a
  · have x0 : w ≤ a := by linarith
    by_cases x2 : 2 * w ≤ b <;> simp [x0, x1, x2]
  · by_cases x2 : 2 * w ≤ b <;> by_cases x0 : w ≤ a <;> simp [x0, x1, x2]

/-- a path stays inside a rectangle -/
def PathIn (o u : R3) (a b : ℝ) (p : Path XR) : Prop := ∀ x ∈ p.points, ∃ r, InRect o u a b r ∧ x = r.pt

/-- points in line being dropped does not take a path outside -/
theorem minimize_in {o u : R3} {a b : ℝ} (ws : List R3) (h : ∀ r ∈ ws, InRect o u a b r) :
    PathIn o u a b (Path.mk (ws.map R3.pt)).minimizeLines := by
  intro x hx
  obtain ⟨core, hs, hc⟩ := C17_no_new_points (Path.mk (ws.map R3.pt))
  have hm : ∀ y ∈ core, ∃ r, InRect o u a b r ∧ y = r.pt := fun y hy => by
    obtain ⟨r, hr, rfl⟩ := List.mem_map.1 (hs.subset hy)
    exact ⟨r, h r hr, rfl⟩
  rcases hc with e | ⟨-, ⟨y, hy, e⟩ | ⟨y, hy, e⟩⟩
  · exact hm x (e ▸ hx)
  · rw [e, List.mem_append, List.mem_singleton] at hx
    rcases hx with hx | rfl
    · exact hm x hx
    · exact hm x (List.mem_of_mem_head? hy)
  · rw [e, List.mem_cons] at hx
    rcases hx with rfl | hx
    · exact hm x (List.mem_of_mem_getLast? hy)
    · exact hm x hx

/-- the wall of a rectangle both sides of which are at least one line wide stays inside it -/
theorem rect_wall_in {o u : R3} (hu : Flat u) {a b w : ℝ} (h : ClearOf w a b) (ha : w ≤ a) (hb : w ≤ b) (q : Path XR)
    (hq : makeOffset (Path.mk ((rectRun o u a b).map R3.pt)) (XR.fin w) (R3.mk 0 0 1).vec = some q) : PathIn o u a b q := by
  have w0 := h.w0
  rw [rect_wall hu h] at hq
  have i1 : InRect o u a b (atST o u w w) := ⟨w, w, by linarith, by linarith, by linarith, by linarith, rfl⟩
  have i2 : InRect o u a b (atST o u a w) := ⟨a, w, by linarith, by linarith, by linarith, by linarith, rfl⟩
  have i3 : InRect o u a b (atST o u (a - w) (b - w)) := ⟨a - w, b - w, by linarith, by linarith, by linarith, by linarith, rfl⟩
  have i4 : InRect o u a b (atST o u w (b - w)) := ⟨w, b - w, by linarith, by linarith, by linarith, by linarith, rfl⟩
  split_ifs at hq with x1 x2 x2
  · rw [← Option.some.inj hq]
    refine minimize_in _ fun r hr => ?_
    simp only [List.mem_cons, List.not_mem_nil, or_false] at hr
    rcases hr with rfl | rfl | rfl | rfl | rfl <;> assumption
  · rw [← Option.some.inj hq]
    refine minimize_in _ fun r hr => ?_
    simp only [List.mem_cons, List.not_mem_nil, or_false] at hr
    rcases hr with rfl | rfl | rfl <;> assumption
  · rw [← Option.some.inj hq]
    refine minimize_in _ fun r hr => ?_
    simp only [List.mem_cons, List.not_mem_nil, or_false] at hr
    rcases hr with rfl | rfl | rfl | rfl <;> assumption

/-- three points that do not lie on a line and do not close are all kept -/
theorem three_kept {o u : R3} (hu : Flat u) {s0 t0 s1 t1 s2 t2 : ℝ}
    (h : 1 / 10 ^ 6 ≤ |(s1 - s0) * (t2 - t1) - (t1 - t0) * (s2 - s1)|) :
    (Path.mk ([atST o u s0 t0, atST o u s1 t1, atST o u s2 t2].map R3.pt)).minimizeLines =
      Path.mk ([atST o u s0 t0, atST o u s1 t1, atST o u s2 t2].map R3.pt) := by
  apply C17_turning_unchanged
  · intro t ht
    simp only [triples, List.mem_singleton] at ht
    rw [ht]
    unfold turn
    rw [st_cross hu]
    exact h
  · intro _ pre x y x' y' post e1 e2
    have e3 : [atST o u s0 t0] ++ [atST o u s1 t1, atST o u s2 t2] = pre ++ [x, y] := e1
    obtain ⟨-, e4⟩ := List.append_inj' e3 rfl
    simp only [List.cons.injEq, and_true] at e2 e4
    rw [← e2.1, ← e2.2.1, ← e4.1, ← e4.2, st_cross hu]
    rw [← abs_neg]
    convert h using 2
    ring

/-- the wall of a long strip thinner than a line is three points, and leaves the strip -/
theorem strip_wall {o u : R3} (hu : Flat u) {a b w : ℝ} (h : ClearOf w a b) (ha : 2 * w ≤ a) (hb : b < w) :
    makeOffset (Path.mk ((rectRun o u a b).map R3.pt)) (XR.fin w) (R3.mk 0 0 1).vec =
      some (Path.mk ([atST o u w w, atST o u a w, atST o u w (b - w)].map R3.pt)) ∧ ¬ InRect o u a b (atST o u a w) := by
  have w0 := h.w0
  constructor
  · rw [rect_wall hu h, if_pos ha, if_neg (by linarith), three_kept hu]
    have e1 : (a - w) * (b - w - w) - (w - w) * (w - a) = -((a - w) * (2 * w - b)) := by ring
    rw [e1, abs_neg, abs_of_nonneg (mul_nonneg (by linarith) (by linarith))]
    have := mul_le_mul (show (1 / 100 : ℝ) ≤ a - w by linarith) (show (1 / 100 : ℝ) ≤ 2 * w - b by linarith) (by norm_num) (by linarith)
    linarith
  · rintro ⟨s, t, -, -, -, ht, e⟩
    have := (atST_inj hu e).2
    linarith

/-- so is the wall of a strip that runs the other way -/
theorem strip_wall' {o u : R3} (hu : Flat u) {a b w : ℝ} (h : ClearOf w a b) (ha : a < w) (hb : 2 * w ≤ b) :
    makeOffset (Path.mk ((rectRun o u a b).map R3.pt)) (XR.fin w) (R3.mk 0 0 1).vec =
      some (Path.mk ([atST o u (a - w) w, atST o u (a - w) (b - w), atST o u w w].map R3.pt)) ∧ ¬ InRect o u a b (atST o u (a - w) w) := by
  have w0 := h.w0; have b2 := h.b2; have b0 := h.b0
  constructor
  · rw [rect_wall hu h, if_neg (by linarith), if_pos hb, if_neg (by linarith), three_kept hu]
    have e1 : (a - w - (a - w)) * (w - (b - w)) - (b - w - w) * (w - (a - w)) = -((b - 2 * w) * (2 * w - a)) := by ring
    rw [abs_of_nonneg (by linarith)] at b2
    rw [e1, abs_neg, abs_of_nonneg (mul_nonneg (by linarith) (by linarith))]
    have := mul_le_mul (show (1 / 10 ^ 3 : ℝ) ≤ b - 2 * w by linarith) (show (1 / 100 : ℝ) ≤ 2 * w - a by linarith) (by norm_num) (by linarith)
    linarith
  · rintro ⟨s, t, hs, -, -, -, e⟩
    have := (atST_inj hu e).1
    linarith

/-- a layer with one contour and a wall of two lines: the contour gets the offset it has, if it has one -/
theorem one_wall (S : Sorter) (layers : List (Layer XR)) (sett : Settings XR) (sparse full : List (Plane XR))
    (hf : ∀ l ∈ layers, ∀ q ∈ l.fill, q.points ≠ []) {W w : ℝ} (hW : sett.wallThickness = XR.fin W) (hw : sett.gs.lineWidth = XR.fin w)
    (w0 : 0 < w) (h2 : 2 * w ≤ W) (h3 : W < 3 * w) :
    ∃ out, prepareLayers S layers sett sparse full = .ok out ∧ ∀ (i : ℕ) (l : Layer XR) (p : Path XR), layers[i]? = some l → l.paths = [p] →
      l.middlePs = [] → l.innerPs = [] → 2 ≤ p.points.length → ∃ o : Layer XR, out[i]? = some o ∧ o.paths = [p] ∧ o.middlePs = [] ∧
        o.innerPs = (makeOffset p (XR.fin w) l.norm).toList := by
  have hc : toInt (sett.wallThickness / sett.gs.lineWidth) - 1 = 1 := by
    rw [C47_count sett W w hW hw w0 (by linarith) (by rw [div_lt_iff₀ w0]; nlinarith)]
    have : ⌊W / w⌋ = 2 := by
      rw [Int.floor_eq_iff]
      push_cast
      constructor
      · rw [le_div_iff₀ w0]; exact h2
      · rw [div_lt_iff₀ w0]; linarith
    omega
  obtain ⟨out, e, -, ho⟩ := C47_walls S layers sett sparse full hf
  refine ⟨out, e, fun i l p hl hp hm hi h => ?_⟩
  obtain ⟨o, h1, -, -, h4, ⟨walls, h5, h6, h7⟩, -⟩ := ho i l hl
  refine ⟨o, h1, h4.trans hp, ?_⟩
  rw [hp] at h5
  obtain ⟨ws, rest, h8, h9, rfl⟩ := List.forall₂_cons_left_iff.1 h5
  rw [List.forall₂_nil_left_iff] at h9
  subst h9
  unfold WallsOf at h8
  simp only [hc] at h8
  rw [if_pos ⟨by norm_num, h⟩, hw] at h8
  obtain ⟨g1, g2, g3⟩ := h8
  rw [h6, h7, hm, hi]
  rcases ws with _ | ⟨x, _ | ⟨y, t⟩⟩
  · have := g3 (by simp) p rfl
    rw [this]; exact ⟨rfl, rfl⟩
  · have := g2 0 p x rfl rfl
    rw [this]; exact ⟨rfl, rfl⟩
  · simp only [List.length_cons] at g1; push_cast at g1; omega

/-- **C122, parts at least one line wide.** Where the contour of a layer is a rectangle, in any position and direction, with no side shorter
than a line is wide, the wall printed beside the contour stays inside the rectangle. (Wall of two lines; sides not within a thousandth of
one or two line widths.) -/
theorem C122_inside_partial (S : Sorter) (layers : List (Layer XR)) (sett : Settings XR) (sparse full : List (Plane XR))
    (hf : ∀ l ∈ layers, ∀ q ∈ l.fill, q.points ≠ []) {W w : ℝ} (hW : sett.wallThickness = XR.fin W) (hw : sett.gs.lineWidth = XR.fin w)
    (h2 : 2 * w ≤ W) (h3 : W < 3 * w) {o u : R3} (hu : Flat u) {a b : ℝ} (hab : ClearOf w a b) (ha : w ≤ a) (hb : w ≤ b)
    (i : ℕ) (l : Layer XR) (hl : layers[i]? = some l) (hn : l.norm = (R3.mk 0 0 1).vec) (hp : l.paths = [⟨(rectRun o u a b).map R3.pt⟩])
    (hm : l.middlePs = []) (hi : l.innerPs = []) :
    ∃ out, prepareLayers S layers sett sparse full = .ok out ∧ ∃ k : Layer XR, out[i]? = some k ∧ k.paths = l.paths ∧
      ∀ q ∈ k.middlePs ++ k.innerPs, PathIn o u a b q := by
  obtain ⟨out, e, H⟩ := one_wall S layers sett sparse full hf hW hw (by linarith [hab.w0]) h2 h3
  obtain ⟨k, g1, g2, g3, g4⟩ := H i l _ hl hp hm hi (by simp [rectRun])
  refine ⟨out, e, k, g1, g2.trans hp.symm, fun q hq => ?_⟩
  rw [g3, g4, hn, List.nil_append, Option.mem_toList] at hq
  exact rect_wall_in hu hab ha hb q hq

/-- **C122, thin parts.** Every rectangle with one side shorter than a line is wide and the other at least two lines long gets a wall with a
point outside the rectangle, by the difference between the width of the line and that of the part. The walls of a thin part stand beside
the part. -/
theorem C122_violated (S : Sorter) (layers : List (Layer XR)) (sett : Settings XR) (sparse full : List (Plane XR))
    (hf : ∀ l ∈ layers, ∀ q ∈ l.fill, q.points ≠ []) {W w : ℝ} (hW : sett.wallThickness = XR.fin W) (hw : sett.gs.lineWidth = XR.fin w)
    (h2 : 2 * w ≤ W) (h3 : W < 3 * w) {o u : R3} (hu : Flat u) {a b : ℝ} (hab : ClearOf w a b) (ht : (2 * w ≤ a ∧ b < w) ∨ (a < w ∧ 2 * w ≤ b))
    (i : ℕ) (l : Layer XR) (hl : layers[i]? = some l) (hn : l.norm = (R3.mk 0 0 1).vec) (hp : l.paths = [⟨(rectRun o u a b).map R3.pt⟩])
    (hm : l.middlePs = []) (hi : l.innerPs = []) :
    ∃ out, prepareLayers S layers sett sparse full = .ok out ∧ ∃ k : Layer XR, out[i]? = some k ∧ k.paths = l.paths ∧
      ∃ q ∈ k.innerPs, ¬ PathIn o u a b q := by
  obtain ⟨out, e, H⟩ := one_wall S layers sett sparse full hf hW hw (by linarith [hab.w0]) h2 h3
  obtain ⟨k, g1, g2, g3, g4⟩ := H i l _ hl hp hm hi (by simp [rectRun])
  refine ⟨out, e, k, g1, g2.trans hp.symm, ?_⟩
  rw [g4, hn]
  rcases ht with ⟨ha, hb⟩ | ⟨ha, hb⟩
  · obtain ⟨e1, e2⟩ := strip_wall (o := o) hu hab ha hb
    rw [e1]
    refine ⟨_, List.mem_singleton.2 rfl, fun hin => ?_⟩
    obtain ⟨r, hr, er⟩ := hin (atST o u a w).pt (by simp)
    rw [R3.pt_inj er] at e2
    exact e2 hr
  · obtain ⟨e1, e2⟩ := strip_wall' (o := o) hu hab ha hb
    rw [e1]
    refine ⟨_, List.mem_singleton.2 rfl, fun hin => ?_⟩
    obtain ⟨r, hr, er⟩ := hin (atST o u (a - w) w).pt (by simp)
    rw [R3.pt_inj er] at e2
    exact e2 hr

/-! ## Non-vacuity -/

/-- lines of two fifths, two of them in a wall -/
private noncomputable def exSett : Settings XR :=
  ⟨⟨XR.fin 1, XR.fin 1, XR.fin 1, XR.fin (2 / 5), true, 50, 20, 30, true, 40, XR.fin 5⟩, XR.fin 1, XR.fin (1 / 5), XR.fin (4 / 5), 20,
    ⟨XR.fin 0, XR.fin 0, XR.fin 0⟩, "Lines", XR.fin 30, ⟨XR.fin 0, XR.fin 0, XR.fin 1⟩, false, XR.fin 0, 1, 1, 0⟩

/-- a layer with a rectangle of ten by `b` millimetres, turned in the plane -/
private noncomputable def exLayer (b : ℝ) : Layer XR :=
  ⟨0, (R3.mk 0 0 1).vec, [⟨(rectRun ⟨1, 2, 1⟩ ⟨3 / 5, 4 / 5, 0⟩ 10 b).map R3.pt⟩], [], [], []⟩

private theorem ex_flat : Flat ⟨3 / 5, 4 / 5, 0⟩ := ⟨rfl, by norm_num⟩

/-- the wall of a strip three tenths wide is outside -/
example : ∃ out, prepareLayers Sorter.insertion [exLayer (3 / 10)] exSett [] [] = .ok out ∧ ∃ k : Layer XR, out[0]? = some k ∧
    k.paths = (exLayer (3 / 10)).paths ∧ ∃ q ∈ k.innerPs, ¬ PathIn ⟨1, 2, 1⟩ ⟨3 / 5, 4 / 5, 0⟩ 10 (3 / 10) q :=
  C122_violated Sorter.insertion [exLayer (3 / 10)] exSett [] [] (by simp [exLayer]) rfl rfl (by norm_num) (by norm_num) ex_flat
    ⟨by norm_num, by norm_num, by norm_num, by norm_num, by norm_num [abs_of_pos], by norm_num [abs_of_pos], by norm_num [abs_of_neg], by norm_num [abs_of_neg]⟩
    (Or.inl ⟨by norm_num, by norm_num⟩) 0 (exLayer (3 / 10)) rfl rfl rfl rfl rfl

/-- the wall of a rectangle three wide is inside -/
example : ∃ out, prepareLayers Sorter.insertion [exLayer 3] exSett [] [] = .ok out ∧ ∃ k : Layer XR, out[0]? = some k ∧
    k.paths = (exLayer 3).paths ∧ ∀ q ∈ k.middlePs ++ k.innerPs, PathIn ⟨1, 2, 1⟩ ⟨3 / 5, 4 / 5, 0⟩ 10 3 q :=
  C122_inside_partial Sorter.insertion [exLayer 3] exSett [] [] (by simp [exLayer]) rfl rfl (by norm_num) (by norm_num) ex_flat
    ⟨by norm_num, by norm_num, by norm_num, by norm_num, by norm_num [abs_of_pos], by norm_num [abs_of_pos], by norm_num [abs_of_pos], by norm_num [abs_of_pos]⟩
    (by norm_num) (by norm_num) 0 (exLayer 3) rfl rfl rfl rfl rfl

end Goosli
