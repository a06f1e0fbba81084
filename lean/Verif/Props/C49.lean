import Verif.Model.Vip
import Verif.Proofs.Paths
import Verif.Props.C08
import Verif.Props.C17
import Verif.Props.C18
import Mathlib.Tactic.LinearCombination
/-! # C49 Offset contours -/
set_option linter.unusedSectionVars false
namespace Goosli
open Flt

/-- the vector by which the side from `p` to `q` is moved: `w` long, in the layer plane, to the right of the side when the layer normal
points up -/
noncomputable def sideShift (w : ℝ) (N p q : R3) : R3 := w • ((q - p).cross N).unit

theorem offsetSide_real (w : ℝ) (N p q : R3) :
    offsetSide (XR.fin w) N.vec.reverse (p.pt, q.pt) = ⟨(p + sideShift w N p q).pt, (q + sideShift w N p q).pt⟩ := by
  have e : (-N).cross (q - p) = (q - p).cross N := by apply R3.ext <;> simp [R3.cross] <;> ring
  simp only [offsetSide, reverse_vec, toVector2_pt, cross_vec, normalize_vec, mulScalar_vec, shift_pt, e, sideShift]

/-- **C49 (sides).** Every side is moved parallel to itself, in the layer plane, by exactly the nozzle width: the shift is perpendicular to
the side and to the normal, `|w|` long, and (for `w > 0`) to the right of the side. -/
theorem C49_side (w : ℝ) (N p q : R3) (h : (q - p).cross N ≠ 0) :
    offsetSide (XR.fin w) N.vec.reverse (p.pt, q.pt) = ⟨(p + sideShift w N p q).pt, (q + sideShift w N p q).pt⟩ ∧
      (sideShift w N p q).dot (q - p) = 0 ∧ (sideShift w N p q).dot N = 0 ∧ (sideShift w N p q).norm = |w| ∧
      (0 < w → 0 < (sideShift w N p q).dot ((q - p).cross N)) := by
  refine ⟨offsetSide_real w N p q, ?_, ?_, ?_, ?_⟩
  · simp [sideShift, R3.unit, R3.dot, R3.cross]; ring
  · simp [sideShift, R3.unit, R3.dot, R3.cross]; ring
  · have hu := R3.unit_norm h
    have : (sideShift w N p q).normSq = w ^ 2 := by
      have h2 := R3.norm_sq ((q - p).cross N).unit
      rw [hu] at h2
      have : (sideShift w N p q).normSq = w ^ 2 * ((q - p).cross N).unit.normSq := by
        simp [sideShift, R3.normSq, R3.dot]; ring
      rw [this, ← h2]; ring
    unfold R3.norm
    rw [this, Real.sqrt_sq_eq_abs]
  · intro hw
    have hn := R3.norm_pos h
    have e : (sideShift w N p q).dot ((q - p).cross N) = w * ((q - p).cross N).norm := by
      have h2 := R3.norm_sq ((q - p).cross N)
      have : (sideShift w N p q).dot ((q - p).cross N) = w * (1 / ((q - p).cross N).norm) * ((q - p).cross N).normSq := by
        simp [sideShift, R3.unit, R3.normSq, R3.dot]; ring
      rw [this, ← h2]; field_simp
    rw [e]; positivity

/-- **C49 (inwards).** The side that a plane cuts out of a triangle is moved into the model: against the outward normal of the triangle. -/
theorem C49_inwards (P N a b c : R3) (ha : a.small) (hb : b.small) (hc : c.small) (hn : (b - a).cross (c - a) ≠ 0) (w : ℝ) (hw : 0 < w)
    (l : Line XR) (h : (Plane.mk P.pt N.vec).intersectTriangle (newTriangle a.pt b.pt c.pt) = some l) :
    ∃ (x y s : R3), l = ⟨x.pt, y.pt⟩ ∧ offsetSide (XR.fin w) N.vec.reverse (l.p1, l.p2) = ⟨(x + s).pt, (y + s).pt⟩ ∧
      s.dot ((b - a).cross (c - a)) < 0 ∧ s.norm = w := by
  obtain ⟨u, v, x, y, rfl, _, _, _, _, _, _, _, hdir⟩ := C08_sound P N a b c ha hb hc l h
  have hd := (hdir hn).2
  have hne : (y - x).cross N ≠ 0 := by
    intro e
    rw [e] at hd
    simp [R3.dot] at hd
  obtain ⟨h1, _, _, h4, _⟩ := C49_side w N x y hne
  refine ⟨x, y, sideShift w N x y, rfl, h1, ?_, by rw [h4, abs_of_pos hw]⟩
  have hnp := R3.norm_pos hne
  have e : (sideShift w N x y).dot ((b - a).cross (c - a)) =
      w / ((y - x).cross N).norm * ((y - x).cross N).dot ((b - a).cross (c - a)) := by
    simp only [sideShift, R3.unit, R3.dot, R3.smul_x, R3.smul_y, R3.smul_z]; ring
  rw [e]
  exact mul_neg_of_pos_of_neg (by positivity) hd

/-! ## Corners -/

theorem distanceToLine_on {a b x : R3} {s : ℝ} (hx : x = a + s • (b - a)) (hne : b - a ≠ 0) :
    x.pt.distanceToLine a.pt b.pt = XR.fin 0 := by
  unfold Point.distanceToLine
  rw [projectOnLine_pt, distanceTo_pt]
  have hp := (R3.norm_pos hne).ne'
  have h2 := R3.norm_sq (b - a)
  have e : (x - a).dot (b - a).unit = s * (b - a).norm := by
    have : (x - a).dot (b - a).unit = s * (1 / (b - a).norm) * (b - a).normSq := by
      rw [hx]; simp [R3.unit, R3.normSq, R3.dot]; ring
    rw [this, ← h2]; field_simp
  have : a + ((x - a).dot (b - a).unit) • (b - a).unit = x := by
    rw [e, hx]
    apply R3.ext <;> simp [R3.unit] <;> field_simp
  rw [this]
  simp [R3.dist, R3.norm, R3.normSq, R3.dot]

/-- Two lines that meet in `x`, and not at too small an angle: the intersection is found if it is within 2 mm of the end of the first and
of the beginning of the second segment. -/
theorem intersectLine2_meet {a b c d x : R3} {s t : ℝ} (h1 : x = a + s • (b - a)) (h2 : x = d + t • (d - c))
    (hb : 1 / 10 ^ 6 ≤ ((d - c).cross (b - a)).norm) (ha : 1 / 10 ^ 6 ≤ ((d - c).cross (x - a)).norm)
    (d1 : R3.dist x b ≤ 2) (d2 : R3.dist x c ≤ 2) :
    (Line.mk a.pt b.pt).intersectLine2 (Line.mk c.pt d.pt) = some x.pt := by
  set B := (d - c).cross (b - a) with hB
  have hBpos : 0 < B.norm := lt_of_lt_of_le (by norm_num) hb
  have hA : (d - c).cross (d - a) = s • B := by
    have hx : ∀ f : R3 → ℝ, f x = f (a + s • (b - a)) := fun f => by rw [h1]
    have hy : ∀ f : R3 → ℝ, f x = f (d + t • (d - c)) := fun f => by rw [h2]
    have x1 := hx R3.x; have x2 := hx R3.y; have x3 := hx R3.z
    have y1 := hy R3.x; have y2 := hy R3.y; have y3 := hy R3.z
    simp at x1 x2 x3 y1 y2 y3
    rw [hB]
    apply R3.ext <;> simp [R3.cross]
    · linear_combination (d.y - c.y) * (x3 - y3) - (d.z - c.z) * (x2 - y2)
    · linear_combination (d.z - c.z) * (x1 - y1) - (d.x - c.x) * (x3 - y3)
    · linear_combination (d.x - c.x) * (x2 - y2) - (d.y - c.y) * (x1 - y1)
  have hX : (d - c).cross (x - a) = s • B := by
    rw [hB, h1]; apply R3.ext <;> simp [R3.cross] <;> ring
  rw [hX, R3.norm_smul] at ha
  have hs : s ≠ 0 := by
    rintro rfl
    norm_num at ha
  have hfne : d - c ≠ 0 := by
    intro e
    rw [hB, e] at hBpos
    simp [R3.cross, R3.norm, R3.normSq, R3.dot] at hBpos
  have hene : b - a ≠ 0 := by
    intro e
    rw [hB, e] at hBpos
    simp [R3.cross, R3.norm, R3.normSq, R3.dot] at hBpos
  have hdot : (s • B).dot B = s * B.normSq := by simp [R3.dot, R3.normSq]; ring
  have hBsq : 0 < B.normSq := by rw [← R3.norm_sq]; positivity
  have hcod : (if (!(decide (0 ≤ (s • B).dot B))) = true then (lit (-1) 0 : XR) else lit 1 0) * XR.fin (s • B).norm / XR.fin B.norm = XR.fin s := by
    rw [R3.norm_smul, hdot]
    rcases lt_or_gt_of_ne hs with h | h
    · have : ¬ (0 ≤ s * B.normSq) := by
        have := mul_neg_of_neg_of_pos h hBsq
        linarith
      rw [if_pos (by simpa using this), abs_of_neg h]
      have l : (lit (-1) 0 : XR) = XR.fin (-1) := by simp
      rw [l, XR.fin_mul, XR.fin_div hBpos.ne']
      congr 1; field_simp
    · have : 0 ≤ s * B.normSq := (mul_pos h hBsq).le
      rw [if_neg (by simpa using this), abs_of_pos h, lit10, XR.fin_mul, XR.fin_div hBpos.ne']
      congr 1; field_simp
  unfold Line.intersectLine2
  simp only [line_toVector, cross_vec, length_vec, codirected_vec, hA, ← hB, almostZero_fin]
  rw [if_neg (by
    simp only [Bool.or_eq_true, decide_eq_true_eq, not_or, not_lt, tol]
    rw [R3.norm_smul, abs_of_nonneg (by positivity), abs_of_nonneg hBpos.le]
    exact ⟨by simpa using ha, by simpa using hb⟩)]
  have l2 : (lit 2 0 : XR) = XR.fin 2 := by simp
  rw [hcod, mulScalar_vec, shift_pt, ← h1]
  simp only [distanceTo_pt, l2, XR.fin_lt]
  rw [if_neg (by
    simp only [Bool.or_eq_true, decide_eq_true_eq, not_or, not_lt]
    exact ⟨⟨⟨⟨by simp [R3.pt], by simp [R3.pt]⟩, by simp [R3.pt]⟩, d1⟩, d2⟩)]
  rw [distanceToLine_on h1 hene, distanceToLine_on (a := c) (b := d) (x := x) (s := 1 + t) (by
    rw [h2]; apply R3.ext <;> simp <;> ring) hfne]
  simp [tol]

/-- The offset of an open run of sides: `x` is where the offset of the side from `p` to `q` begins, `rest` the further vertices. At every
vertex `q` the offset has the point `y` where the two moved sides meet, provided the corner is neither too flat nor too long: the three
cross products say that the sides are not parallel within the tolerance `1e-6`, the distances that the moved ends are within 2 mm of `y`;
and no side is turned around by the offset. At the end of the run the offset ends with the moved end of the last side. -/
inductive OffsetFrom (w : ℝ) (N : R3) : R3 → R3 → R3 → List R3 → List R3 → Prop
  | last {x p q : R3} (hdir : 0 ≤ (q + sideShift w N p q - x).dot (q - p)) : OffsetFrom w N x p q [] [q + sideShift w N p q]
  | corner {x p q r y : R3} {rest ys : List R3}
      (on1 : ∃ s : ℝ, y = p + sideShift w N p q + s • (q - p)) (on2 : ∃ t : ℝ, y = q + sideShift w N q r + t • (r - q))
      (flat1 : 1 / 10 ^ 6 ≤ ((r - q).cross (q + sideShift w N p q - x)).norm)
      (flat2 : 1 / 10 ^ 6 ≤ ((r - q).cross (y - x)).norm)
      (long1 : R3.dist y (q + sideShift w N p q) ≤ 2) (long2 : R3.dist y (q + sideShift w N q r) ≤ 2)
      (hdir : 0 ≤ (y - x).dot (q - p)) (h : OffsetFrom w N y q r rest ys) : OffsetFrom w N x p q (r :: rest) (y :: ys)

/-- the lines between consecutive points -/
noncomputable def linesOf (xs : List R3) : List (Line XR) := (adjPairs xs).map fun q => ⟨q.1.pt, q.2.pt⟩

/-- the moved sides of a contour -/
noncomputable def movedSides (w : ℝ) (N : R3) (ws : List R3) : List (Line XR) :=
  (adjPairs ws).map fun q => ⟨(q.1 + sideShift w N q.1 q.2).pt, (q.2 + sideShift w N q.1 q.2).pt⟩

theorem adjPairs_cons2 {β : Type} (a b : β) (t : List β) : adjPairs (a :: b :: t) = (a, b) :: adjPairs (b :: t) := rfl

theorem linesOf_cons (a b : R3) (t : List R3) : linesOf (a :: b :: t) = ⟨a.pt, b.pt⟩ :: linesOf (b :: t) := rfl

theorem movedSides_cons (w : ℝ) (N a b : R3) (t : List R3) : movedSides w N (a :: b :: t) =
    ⟨(a + sideShift w N a b).pt, (b + sideShift w N a b).pt⟩ :: movedSides w N (b :: t) := rfl

theorem offsetLines_real (w : ℝ) (N : R3) (ws : List R3) :
    (adjPairs (ws.map R3.pt)).map (offsetSide (XR.fin w) N.vec.reverse) = movedSides w N ws := by
  rw [adjPairs_map, List.map_map]
  unfold movedSides
  apply List.map_congr_left
  intro q _
  exact offsetSide_real w N q.1 q.2

theorem trimLines_run {w : ℝ} {N x p q : R3} {rest ys : List R3} (h : OffsetFrom w N x p q rest ys) :
    (∃ s : ℝ, x = p + sideShift w N p q + s • (q - p)) →
    trimLines ⟨x.pt, (q + sideShift w N p q).pt⟩ (movedSides w N (q :: rest)) = linesOf (x :: ys) := by
  induction h with
  | last => intro _; rfl
  | @corner x p q r y rest ys on1 on2 flat1 flat2 long1 long2 hdir h ih =>
    rintro ⟨s0, hx⟩
    obtain ⟨s, hy1⟩ := on1
    obtain ⟨t, hy2⟩ := on2
    rw [movedSides_cons]
    unfold trimLines
    have hs0 : (1 : ℝ) - s0 ≠ 0 := by
      intro e
      have : q + sideShift w N p q - x = 0 := by
        have e1 : s0 = 1 := by linarith
        rw [hx, e1]; apply R3.ext <;> simp <;> ring
      rw [this] at flat1
      have : ((r - q).cross (0 : R3)).norm = 0 := by simp [R3.cross, R3.norm, R3.normSq, R3.dot]
      rw [this] at flat1
      norm_num at flat1
    have e3 : (r + sideShift w N q r) - (q + sideShift w N q r) = r - q := by apply R3.ext <;> simp
    rw [intersectLine2_meet (x := y) (s := (s - s0) / (1 - s0)) (t := t - 1)
      (by rw [hy1, hx]; apply R3.ext <;> simp <;> field_simp <;> ring)
      (by rw [hy2]; apply R3.ext <;> simp <;> ring)
      (by rw [e3]; exact flat1) (by rw [e3]; exact flat2) long1 long2]
    simp only
    rw [linesOf_cons, ih ⟨t, hy2⟩]

theorem kept_run {w : ℝ} {N x p q : R3} {rest ys : List R3} (h : OffsetFrom w N x p q rest ys) :
    keptLines (linesOf (x :: ys)) (movedSides w N (p :: q :: rest)) = linesOf (x :: ys) := by
  have step : ∀ (a b p q : R3) (ls ms : List (Line XR)), 0 ≤ (b - a).dot (q - p) → keptLines ls ms = ls →
      keptLines (⟨a.pt, b.pt⟩ :: ls) (⟨(p + sideShift w N p q).pt, (q + sideShift w N p q).pt⟩ :: ms) = ⟨a.pt, b.pt⟩ :: ls := by
    intro a b p q ls ms hd hk
    unfold keptLines at hk ⊢
    have e : q + sideShift w N p q - (p + sideShift w N p q) = q - p := by apply R3.ext <;> simp
    rw [List.zip_cons_cons, List.filter_cons_of_pos (by simp only [line_toVector, codirected_vec, e]; simpa using hd), List.map_cons, hk]
  induction h with
  | last hdir => exact step _ _ _ _ [] [] hdir rfl
  | corner _ _ _ _ _ _ hdir _ ih => rw [linesOf_cons, movedSides_cons]; exact step _ _ _ _ _ _ hdir ih

theorem linesOf_p2 : ∀ (x : R3) (ys : List R3), (linesOf (x :: ys)).map (·.p2) = ys.map R3.pt := by
  intro x ys
  induction ys generalizing x with
  | nil => rfl
  | cons y ys ih => rw [linesOf_cons, List.map_cons, ih]; rfl

/-- **C49 (open contours).** An open contour of at least two sides is offset to the contour through the moved first point, the points where
neighbouring moved sides meet and the moved last point (then points in line are dropped), if every corner is as `OffsetFrom` asks. -/
theorem C49_open (w : ℝ) (N p q r : R3) (rest ys : List R3)
    (hopen : (Path.mk ((p :: q :: r :: rest).map R3.pt)).isClosed = false)
    (h : OffsetFrom w N (p + sideShift w N p q) p q (r :: rest) ys) :
    makeOffset (Path.mk ((p :: q :: r :: rest).map R3.pt)) (XR.fin w) N.vec =
      some (Path.mk (((p + sideShift w N p q) :: ys).map R3.pt)).minimizeLines := by
  have hlen : ¬ (Path.mk ((p :: q :: r :: rest).map R3.pt)).points.length < 2 := by simp
  unfold makeOffset
  rw [if_neg hlen]
  simp only
  rw [offsetLines_real, hopen]
  have ht := trimLines_run h ⟨0, by apply R3.ext <;> simp⟩
  have : trimmedLines false (movedSides w N (p :: q :: r :: rest)) = linesOf ((p + sideShift w N p q) :: ys) := by
    rw [movedSides_cons]; exact ht
  rw [this, kept_run h]
  cases h with
  | @corner _ _ _ _ y _ ys _ _ _ _ _ _ _ h =>
    have hne : ∀ (x p q : R3) (rest ys : List R3), OffsetFrom w N x p q rest ys → ys ≠ [] := by
      intro x p q rest ys h; cases h <;> simp
    cases ys with
    | nil => exact absurd rfl (hne _ _ _ _ _ h)
    | cons z zs =>
      rw [linesOf_cons, linesOf_cons]
      simp only [List.map_cons, linesOf_p2]

theorem linesOf_concat (x a b : R3) (ys : List R3) : linesOf (x :: ys ++ [a, b]) = linesOf (x :: ys ++ [a]) ++ [⟨a.pt, b.pt⟩] := by
  induction ys generalizing x with
  | nil => rfl
  | cons y ys ih =>
    rw [List.cons_append, List.cons_append, linesOf_cons, ← List.cons_append, ih y]
    rfl

theorem movedSides_concat (w : ℝ) (N x a b : R3) (ys : List R3) : movedSides w N (x :: ys ++ [a, b]) =
    movedSides w N (x :: ys ++ [a]) ++ [⟨(a + sideShift w N a b).pt, (b + sideShift w N a b).pt⟩] := by
  induction ys generalizing x with
  | nil => rfl
  | cons y ys ih =>
    rw [List.cons_append, List.cons_append, movedSides_cons, ← List.cons_append, ih y]
    rfl

/-- what is kept of two lists of lines, taken apart at the front -/
theorem keptLines_cons (a b : Line XR) (as bs : List (Line XR)) :
    keptLines (a :: as) (b :: bs) = if a.toVector.codirectedWith b.toVector then a :: keptLines as bs else keptLines as bs := by
  unfold keptLines
  rw [List.zip_cons_cons]
  by_cases h : a.toVector.codirectedWith b.toVector = true
  · rw [List.filter_cons_of_pos (by simpa using h), if_pos h]; rfl
  · rw [List.filter_cons_of_neg (by simpa using h), if_neg h]

theorem keptLines_all {as bs : List (Line XR)} (hl : as.length = bs.length) :
    keptLines as bs = as ↔ ∀ q ∈ as.zip bs, q.1.toVector.codirectedWith q.2.toVector = true := by
  unfold keptLines
  have hz : (as.zip bs).map (·.1) = as := List.map_fst_zip (by omega)
  constructor
  · intro h
    have h2 := congrArg List.length h
    rw [List.length_map] at h2
    exact List.length_filter_eq_length_iff.1 (by rw [h2, List.length_zip]; omega)
  · intro h
    rw [List.filter_eq_self.2 h, hz]

theorem linesOf_length (x : R3) (ys : List R3) : (linesOf (x :: ys)).length = ys.length := by
  simp [linesOf, adjPairs]

theorem movedSides_length (w : ℝ) (N x : R3) (ys : List R3) : (movedSides w N (x :: ys)).length = ys.length := by
  simp [movedSides, adjPairs]

theorem run_length {w : ℝ} {N x p q : R3} {rest ys : List R3} (h : OffsetFrom w N x p q rest ys) : ys.length = rest.length + 1 := by
  induction h with
  | last => rfl
  | corner _ _ _ _ _ _ _ _ ih => simp [ih]

/-- in a run of offset sides the last line of the result belongs to the last side -/
theorem run_last {w : ℝ} {N x p q : R3} {rest ys : List R3} (h : OffsetFrom w N x p q rest ys) :
    ∀ (a b : R3) (mid : List R3), q :: rest = mid ++ [a, b] → ∀ (z e : R3) (pre : List R3), x :: ys = pre ++ [z, e] →
      e = b + sideShift w N a b ∧ 0 ≤ (e - z).dot (b - a) := by
  induction h with
  | last => intro a b mid hm; cases mid with
    | nil => simp at hm
    | cons m t => simp at hm
  | @corner x p q r y rest ys _ _ _ _ _ _ _ h ih =>
    intro a b mid hm z e pre hp
    cases pre with
    | nil =>
      -- two points only: impossible, the run has at least two corners
      simp at hp
      obtain ⟨_, _, hys⟩ := hp
      cases h <;> simp at hys
    | cons u pre =>
      simp at hp
      cases mid with
      | nil =>
        simp at hm
        obtain ⟨rfl, rfl, rfl⟩ := hm
        cases h with
        | last hd =>
          cases pre with
          | nil =>
            simp at hp
            obtain ⟨_, rfl, rfl⟩ := hp
            exact ⟨rfl, hd⟩
          | cons u' pre =>
            cases pre <;> simp at hp
      | cons m mid =>
        simp at hm
        exact ih a b mid hm.2 z e pre hp.2

/-- `C49` is not true of closed contours. What is true: with `c₁, …, cₙ` the points where neighbouring moved sides meet (`c₁` after the
first side, `cₙ` before it), the offset goes through `cₙ`, then, instead of `c₁`, through the moved end of the first side, and then through
`c₂, …, cₙ`. So one corner of every closed offset is wrong. (Then points in line are dropped.) Missing: the corner `c₁`. -/
theorem C49_closed_partial (w : ℝ) (N p q c1 cn : R3) (mid cs : List R3)
    (h : OffsetFrom w N (p + sideShift w N p q) p q (mid ++ [p, q]) (c1 :: cs ++ [cn, q + sideShift w N p q])) :
    makeOffset (Path.mk ((p :: q :: mid ++ [p]).map R3.pt)) (XR.fin w) N.vec =
      some (Path.mk ((cn :: (q + sideShift w N p q) :: cs ++ [cn]).map R3.pt)).minimizeLines := by
  have hlen : ¬ (Path.mk ((p :: q :: mid ++ [p]).map R3.pt)).points.length < 2 := by simp
  have hclosed : (Path.mk ((p :: q :: mid ++ [p]).map R3.pt)).isClosed = true := by
    have := (equal_pt p p).2 (R3.near_refl p)
    unfold Path.isClosed
    have hl : ((p :: q :: mid ++ [p]).map R3.pt).getLast? = some p.pt := by
      rw [List.map_append, List.getLast?_append]; rfl
    simp only [hl]
    simp [this]
  unfold makeOffset
  rw [if_neg hlen]
  simp only
  rw [offsetLines_real, hclosed]
  have ht := trimLines_run h ⟨0, by apply R3.ext <;> simp⟩
  have hsides : movedSides w N (q :: (mid ++ [p, q])) = movedSides w N (q :: (mid ++ [p])) ++
      [⟨(p + sideShift w N p q).pt, (q + sideShift w N p q).pt⟩] := by
    have := movedSides_concat w N q p q mid
    simpa using this
  rw [hsides] at ht
  have hlines : linesOf ((p + sideShift w N p q) :: (c1 :: cs ++ [cn, q + sideShift w N p q])) =
      ⟨(p + sideShift w N p q).pt, c1.pt⟩ :: (linesOf (c1 :: cs ++ [cn]) ++ [⟨cn.pt, (q + sideShift w N p q).pt⟩]) := by
    rw [List.cons_append, linesOf_cons, ← List.cons_append, linesOf_concat]
  have htrim : trimmedLines true (movedSides w N (p :: q :: mid ++ [p])) =
      ⟨cn.pt, (q + sideShift w N p q).pt⟩ :: linesOf (c1 :: cs ++ [cn]) := by
    rw [List.cons_append, List.cons_append, movedSides_cons]
    unfold trimmedLines
    simp only [if_true]
    rw [ht, hlines]
    have hlast : (⟨(p + sideShift w N p q).pt, c1.pt⟩ :: (linesOf (c1 :: cs ++ [cn]) ++ [(⟨cn.pt, (q + sideShift w N p q).pt⟩ : Line XR)])).getLast? =
        some ⟨cn.pt, (q + sideShift w N p q).pt⟩ := by
      rw [← List.cons_append, List.getLast?_append]; rfl
    rw [hlast]
    simp only
    rw [← List.cons_append, List.dropLast_concat]
    rfl
  rw [htrim]
  have hk := kept_run h
  rw [hlines] at hk
  have hside1 : movedSides w N (p :: q :: (mid ++ [p, q])) = ⟨(p + sideShift w N p q).pt, (q + sideShift w N p q).pt⟩ ::
      (movedSides w N (q :: (mid ++ [p])) ++ [⟨(p + sideShift w N p q).pt, (q + sideShift w N p q).pt⟩]) := by
    rw [movedSides_cons, hsides]
  rw [hside1] at hk
  have hlast := run_last h p q (q :: mid) (by simp) cn (q + sideShift w N p q) ((p + sideShift w N p q) :: c1 :: cs) (by simp)
  have hcod : (Line.mk cn.pt (q + sideShift w N p q).pt).toVector.codirectedWith
      (Line.mk (p + sideShift w N p q).pt (q + sideShift w N p q).pt).toVector = true := by
    have e : q + sideShift w N p q - (p + sideShift w N p q) = q - p := by apply R3.ext <;> simp
    rw [line_toVector, line_toVector, codirected_vec, e]
    simpa using hlast.2
  have hlen2 : (linesOf (c1 :: cs ++ [cn])).length = (movedSides w N (q :: (mid ++ [p]))).length := by
    have hl := run_length h
    rw [List.cons_append, linesOf_length, movedSides_length]
    simp at hl ⊢
    omega
  have hk2 : keptLines (linesOf (c1 :: cs ++ [cn])) (movedSides w N (q :: (mid ++ [p]))) = linesOf (c1 :: cs ++ [cn]) := by
    rw [keptLines_all (by simp only [List.length_cons, List.length_append, hlen2])] at hk
    rw [keptLines_all hlen2]
    intro z hz
    apply hk z
    rw [List.zip_cons_cons, List.zip_append hlen2]
    exact List.mem_cons_of_mem _ (List.mem_append_left _ hz)
  have hms : movedSides w N (p :: q :: mid ++ [p]) = ⟨(p + sideShift w N p q).pt, (q + sideShift w N p q).pt⟩ ::
      movedSides w N (q :: (mid ++ [p])) := rfl
  rw [hms, keptLines_cons, if_pos hcod, hk2]
  have hp2 := linesOf_p2 c1 (cs ++ [cn])
  rw [← List.cons_append] at hp2
  cases hL : linesOf (c1 :: cs ++ [cn]) with
  | nil =>
    rw [hL] at hp2
    simp at hp2
  | cons b t =>
    rw [hL] at hp2
    simp only [List.map_cons] at hp2 ⊢
    rw [hp2]
    simp

/-- the sides of the example: a square of 10 mm, seen from above clockwise, as the contours of sliced models are -/
theorem squareRun : OffsetFrom 1 ⟨0, 0, 1⟩ (⟨0, 0, 0⟩ + sideShift 1 ⟨0, 0, 1⟩ ⟨0, 0, 0⟩ ⟨0, 10, 0⟩) ⟨0, 0, 0⟩ ⟨0, 10, 0⟩
    ([⟨10, 10, 0⟩, ⟨10, 0, 0⟩] ++ [⟨0, 0, 0⟩, ⟨0, 10, 0⟩])
    (⟨1, 9, 0⟩ :: [⟨9, 9, 0⟩, ⟨9, 1, 0⟩] ++ [⟨1, 1, 0⟩, ⟨0, 10, 0⟩ + sideShift 1 ⟨0, 0, 1⟩ ⟨0, 0, 0⟩ ⟨0, 10, 0⟩]) := by
  have sq : Real.sqrt (10 * 10) = 10 := Real.sqrt_mul_self (by norm_num)
  have v1 : sideShift 1 ⟨0, 0, 1⟩ ⟨0, 0, 0⟩ ⟨0, 10, 0⟩ = ⟨1, 0, 0⟩ := by
    apply R3.ext <;> simp [sideShift, R3.unit, R3.cross, R3.norm, R3.normSq, R3.dot, sq]
  have v2 : sideShift 1 ⟨0, 0, 1⟩ ⟨0, 10, 0⟩ ⟨10, 10, 0⟩ = ⟨0, -1, 0⟩ := by
    apply R3.ext <;> simp [sideShift, R3.unit, R3.cross, R3.norm, R3.normSq, R3.dot, sq]
  have v3 : sideShift 1 ⟨0, 0, 1⟩ ⟨10, 10, 0⟩ ⟨10, 0, 0⟩ = ⟨-1, 0, 0⟩ := by
    apply R3.ext <;> simp [sideShift, R3.unit, R3.cross, R3.norm, R3.normSq, R3.dot, sq]
  have v4 : sideShift 1 ⟨0, 0, 1⟩ ⟨10, 0, 0⟩ ⟨0, 0, 0⟩ = ⟨0, 1, 0⟩ := by
    apply R3.ext <;> simp [sideShift, R3.unit, R3.cross, R3.norm, R3.normSq, R3.dot, sq]
  refine .corner ⟨9 / 10, ?_⟩ ⟨1 / 10, ?_⟩ ?_ ?_ ?_ ?_ ?_ (.corner ⟨9 / 10, ?_⟩ ⟨1 / 10, ?_⟩ ?_ ?_ ?_ ?_ ?_
    (.corner ⟨9 / 10, ?_⟩ ⟨1 / 10, ?_⟩ ?_ ?_ ?_ ?_ ?_ (.corner ⟨9 / 10, ?_⟩ ⟨1 / 10, ?_⟩ ?_ ?_ ?_ ?_ ?_ (.last ?_))))
  all_goals (try simp only [v1, v2, v3, v4])
  all_goals first
    | (apply R3.ext <;> simp <;> norm_num; done)
    | (refine Real.le_sqrt_of_sq_le ?_; norm_num [R3.normSq, R3.dot, R3.cross]; done)
    | (refine Real.sqrt_le_iff.2 ⟨by norm_num, ?_⟩; norm_num [R3.normSq, R3.dot]; done)
    | (norm_num [R3.dot]; done)

/-- **C49 is violated** by the square of 10 mm with a line width of 1 mm: all its corners are as they should be, but the offset contour
goes through the point (1, 10), which is on the original contour and not 1 mm inside it. -/
theorem C49_closed_violated :
    ∃ (ws out : List R3) (a b x : R3), makeOffset (Path.mk (ws.map R3.pt)) (XR.fin 1) (R3.mk 0 0 1).vec = some (Path.mk (out.map R3.pt)) ∧
      (a, b) ∈ adjPairs ws ∧ x ∈ out ∧ R3.onSegment a b x ∧
      ws = [⟨0, 0, 0⟩, ⟨0, 10, 0⟩, ⟨10, 10, 0⟩, ⟨10, 0, 0⟩, ⟨0, 0, 0⟩] ∧ out = [⟨1, 1, 0⟩, ⟨1, 10, 0⟩, ⟨9, 9, 0⟩, ⟨9, 1, 0⟩, ⟨1, 1, 0⟩] := by
  refine ⟨_, _, ⟨0, 10, 0⟩, ⟨10, 10, 0⟩, ⟨1, 10, 0⟩, ?_, ?_, ?_, ?_, rfl, rfl⟩
  · have h := C49_closed_partial 1 ⟨0, 0, 1⟩ ⟨0, 0, 0⟩ ⟨0, 10, 0⟩ ⟨1, 9, 0⟩ ⟨1, 1, 0⟩ [⟨10, 10, 0⟩, ⟨10, 0, 0⟩] [⟨9, 9, 0⟩, ⟨9, 1, 0⟩] squareRun
    have sq : Real.sqrt (10 * 10) = 10 := Real.sqrt_mul_self (by norm_num)
    have v1 : (⟨0, 10, 0⟩ : R3) + sideShift 1 ⟨0, 0, 1⟩ ⟨0, 0, 0⟩ ⟨0, 10, 0⟩ = ⟨1, 10, 0⟩ := by
      apply R3.ext <;> simp [sideShift, R3.unit, R3.cross, R3.norm, R3.normSq, R3.dot, sq]
    rw [v1] at h
    have hm := C17_turning_unchanged [⟨1, 1, 0⟩, ⟨1, 10, 0⟩, ⟨9, 9, 0⟩, ⟨9, 1, 0⟩, ⟨1, 1, 0⟩] (by
      simp only [triples, List.mem_cons, List.not_mem_nil, or_false]
      rintro t (rfl | rfl | rfl)
      all_goals
        refine Real.le_sqrt_of_sq_le ?_
        simp [R3.normSq, R3.dot, R3.cross]; norm_num) (by
      intro _ pre u v a b post h1 h2
      have e1 : pre = [⟨1, 1, 0⟩, ⟨1, 10, 0⟩, ⟨9, 9, 0⟩] ∧ u = ⟨9, 1, 0⟩ ∧ v = ⟨1, 1, 0⟩ := by
        have h3 := congrArg List.reverse h1
        simp at h3
        obtain ⟨h3, h4, h5⟩ := h3
        refine ⟨?_, h4.symm, h3.symm⟩
        have := congrArg List.reverse h5
        simpa using this.symm
      simp at h2
      obtain ⟨rfl, rfl, rfl⟩ := h2
      obtain ⟨_, rfl, rfl⟩ := e1
      refine Real.le_sqrt_of_sq_le ?_
      simp [R3.normSq, R3.dot, R3.cross]; norm_num)
    have h' := h.trans (congrArg some hm)
    exact h'
  · simp [adjPairs]
  · simp
  · exact ⟨1 / 10, by norm_num, by norm_num, by apply R3.ext <;> simp <;> norm_num⟩

/-- the hypotheses of `C49_open` hold for two sides of that square -/
example : (Path.mk ([(⟨0, 0, 0⟩ : R3), ⟨0, 10, 0⟩, ⟨10, 10, 0⟩].map R3.pt)).isClosed = false ∧
    ∃ ys, OffsetFrom 1 ⟨0, 0, 1⟩ (⟨0, 0, 0⟩ + sideShift 1 ⟨0, 0, 1⟩ ⟨0, 0, 0⟩ ⟨0, 10, 0⟩) ⟨0, 0, 0⟩ ⟨0, 10, 0⟩ [⟨10, 10, 0⟩] ys := by
  constructor
  · have : ¬ (R3.mk 0 0 0).near ⟨10, 10, 0⟩ := by
      intro h
      have := h.1
      norm_num [tol] at this
    have h2 : (R3.mk 0 0 0).pt.equal (R3.mk 10 10 0).pt = false := by
      rw [← Bool.not_eq_true]; exact fun h => this ((equal_pt _ _).1 h)
    simp [Path.isClosed, h2]
  · cases squareRun with
    | corner a b c d e f g h =>
      refine ⟨_, .corner a b c d e f g (.last ?_)⟩
      have sq : Real.sqrt (10 * 10) = 10 := Real.sqrt_mul_self (by norm_num)
      have v2 : sideShift 1 ⟨0, 0, 1⟩ ⟨0, 10, 0⟩ ⟨10, 10, 0⟩ = ⟨0, -1, 0⟩ := by
        apply R3.ext <;> simp [sideShift, R3.unit, R3.cross, R3.norm, R3.normSq, R3.dot, sq]
      rw [v2]
      norm_num [R3.dot]

/-! ## The corners in every arithmetic -/

section Corners
variable {α : Type} [Flt α]

/-- the corners `cs` of a run of lines: it begins where the first line begins and ends where the last one ends; each corner in between is
the intersection of the current line, started at the previous corner, with the next line, or the end of the current line if the
two are not found to intersect -/
def Corners (lines : List (Line α)) (cs : List (Point α)) : Prop :=
  cs.length = lines.length + 1 ∧ cs[0]? = lines[0]?.map (·.p1) ∧ cs[lines.length]? = lines[lines.length - 1]?.map (·.p2) ∧
    ∀ (i : Nat) (a : Point α) (l m : Line α), cs[i]? = some a → lines[i]? = some l → lines[i + 1]? = some m →
      cs[i + 1]? = some (((Line.mk a l.p2).intersectLine2 m).getD l.p2)

theorem adjPairs_dropLast {β : Type} : ∀ l : List β, adjPairs l.dropLast = (adjPairs l).dropLast
  | [] => rfl
  | [_] => rfl
  | [_, _] => rfl
  | a :: b :: c :: t => by
    have := adjPairs_dropLast (b :: c :: t)
    simp only [adjPairs, List.dropLast_cons_cons, List.tail_cons, List.zip_cons_cons] at this ⊢
    rw [this]

theorem trimLines_corners : ∀ (t : List (Line α)) (l : Line α),
    ∃ cs, Corners (l :: t) cs ∧ trimLines l t = (adjPairs cs).map fun q => ⟨q.1, q.2⟩ := by
  intro t
  induction t with
  | nil =>
    intro l
    refine ⟨[l.p1, l.p2], ⟨rfl, rfl, rfl, ?_⟩, rfl⟩
    intro i a l' m h1 h2 h3
    simp at h3
  | cons m t ih =>
    intro l
    have key : ∃ c, c = (l.intersectLine2 m).getD l.p2 ∧ trimLines l (m :: t) = ⟨l.p1, c⟩ :: trimLines ⟨c, m.p2⟩ t := by
      rw [trimLines]
      cases h : l.intersectLine2 m with
      | none => exact ⟨_, rfl, rfl⟩
      | some i => exact ⟨_, rfl, rfl⟩
    obtain ⟨c, hc, ht⟩ := key
    obtain ⟨cs, ⟨k1, k2, k3, k4⟩, e⟩ := ih ⟨c, m.p2⟩
    cases cs with
    | nil => simp at k1
    | cons c0 cs =>
      have hc0 : c0 = c := by simpa using k2
      subst hc0
      cases cs with
      | nil => simp at k1
      | cons c1 cs =>
        refine ⟨l.p1 :: c0 :: c1 :: cs, ⟨?_, rfl, ?_, ?_⟩, ?_⟩
        · simpa using k1
        · cases t with
          | nil => simpa using k3
          | cons m' t => simpa using k3
        · intro i a l' m' h1 h2 h3
          cases i with
          | zero =>
            simp at h1 h2 h3 ⊢
            subst h1 h2 h3
            exact hc
          | succ i =>
            cases i with
            | zero =>
              simp at h1 h2 h3
              subst h1 h2
              have := k4 0 c0 ⟨c0, m.p2⟩ m' rfl rfl (by simpa using h3)
              simpa using this
            | succ i =>
              have := k4 (i + 1) a l' m' (by simpa using h1) (by simpa using h2) (by simpa using h3)
              simpa using this
        · rw [ht, e]; rfl

/-- the offset made of the cut lines `cut` of the moved sides `sides`: lines that run against their side are left out, at least two must
remain -/
def offsetFromCut (cut sides : List (Line α)) : Option (Path α) :=
  match ((cut.zip sides).filter fun q => q.1.toVector.codirectedWith q.2.toVector).map (·.1) with
  | a :: b :: t => some (Path.mk (a.p1 :: (a :: b :: t).map (·.p2))).minimizeLines
  | _ => none

/-- **C49 (corners).** In every arithmetic: the sides are moved and cut at the corners, an open path from its first to its last point; a
closed path as if the first side came once more after the last, but then the first line goes from the last corner to the end of the
uncut first side, not to the first corner. -/
theorem C49_corners (pth : Path α) (nozzle : α) (norm : Vec α) (h : 2 ≤ pth.points.length) :
    ∃ (side : Line α) (sides : List (Line α)), (adjPairs pth.points).map (offsetSide nozzle norm.reverse) = side :: sides ∧
      (pth.isClosed = false → ∃ cs, Corners (side :: sides) cs ∧
        makeOffset pth nozzle norm = offsetFromCut ((adjPairs cs).map fun q => ⟨q.1, q.2⟩) (side :: sides)) ∧
      (pth.isClosed = true → ∃ cs last, Corners (side :: sides ++ [side]) cs ∧ cs[sides.length + 1]? = some last ∧
        makeOffset pth nozzle norm =
          offsetFromCut (⟨last, side.p2⟩ :: (adjPairs (cs.tail.take (sides.length + 1))).map fun q => ⟨q.1, q.2⟩) (side :: sides)) := by
  obtain ⟨pts⟩ := pth
  match pts, h with
  | a :: b :: t, h =>
    refine ⟨offsetSide nozzle norm.reverse (a, b), (adjPairs (b :: t)).map (offsetSide nozzle norm.reverse), rfl, ?_, ?_⟩
    all_goals
      intro hcl
      have hm : makeOffset ⟨a :: b :: t⟩ nozzle norm = offsetFromCut (trimmedLines (Path.mk (a :: b :: t)).isClosed
          (offsetSide nozzle norm.reverse (a, b) :: (adjPairs (b :: t)).map (offsetSide nozzle norm.reverse)))
          (offsetSide nozzle norm.reverse (a, b) :: (adjPairs (b :: t)).map (offsetSide nozzle norm.reverse)) := by
        unfold makeOffset
        rw [if_neg (by simp)]
        rfl
      rw [hm, hcl]
      clear hm hcl h
      generalize offsetSide nozzle norm.reverse (a, b) = side
      generalize (adjPairs (b :: t)).map (offsetSide nozzle norm.reverse) = sides
    · obtain ⟨cs, h1, h2⟩ := trimLines_corners sides side
      exact ⟨cs, h1, by rw [← h2]; rfl⟩
    · obtain ⟨cs, h1, h2⟩ := trimLines_corners (sides ++ [side]) side
      have hlen := h1.1
      have hl : cs.length = sides.length + 3 := by simp at hlen; omega
      obtain ⟨last, hlast⟩ : ∃ last, cs[sides.length + 1]? = some last := ⟨_, List.getElem?_eq_getElem (by omega)⟩
      refine ⟨cs, last, h1, hlast, ?_⟩
      congr 1
      have hend : cs[sides.length + 2]? = some side.p2 := by
        have := h1.2.2.1
        simpa using this
      have hn : (adjPairs cs).length = sides.length + 2 := by simp [adjPairs, hl]
      unfold trimmedLines
      simp only [if_true, h2]
      have hgl : ((adjPairs cs).map fun q => (Line.mk q.1 q.2)).getLast? = some ⟨last, side.p2⟩ := by
        rw [List.getLast?_eq_getElem?, List.length_map, hn, List.getElem?_map]
        have : (adjPairs cs)[sides.length + 2 - 1]? = some (last, side.p2) := by
          simp only [adjPairs, List.getElem?_zip_eq_some, List.getElem?_tail]
          exact ⟨hlast, hend⟩
        rw [this]
        rfl
      rw [hgl]
      simp only [List.cons.injEq, true_and]
      have htk : cs.tail.take (sides.length + 1) = cs.tail.dropLast := by
        rw [List.dropLast_eq_take, List.length_tail, hl]
        rfl
      rw [htk, adjPairs_dropLast, ← List.map_dropLast, ← List.map_tail]
      congr 1
      cases cs with
      | nil => rfl
      | cons c cs => cases cs <;> simp [adjPairs, List.tail_dropLast]
  | [_], h => simp at h
  | [], h => simp at h

end Corners

end Goosli
