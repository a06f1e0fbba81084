import Verif.Props.C94
import Verif.Proofs.SweepAny
import Verif.Proofs.SweepJobs
/-!
# The sweep of `SliceByVector` in `float64`
-/
set_option linter.unusedSectionVars false
set_option autoImplicit false
namespace Goosli
open Flt

/-- the number of planes as it is computed for a model from height `lo` to `hi` and layers of height `t` -/
noncomputable def floatCount (lo hi t : ℝ) : ℤ := ⌈rd (rd (hi - lo) / t)⌉

/-- the distance of the planes as it is computed -/
noncomputable def floatStep (lo hi t : ℝ) : ℝ := rd (rd (hi - lo) * rd (1 / floatCount lo hi t))

/-- the heights of the planes as they are computed -/
noncomputable def floatLevel (lo hi t : ℝ) : ℕ → ℝ
  | 0 => rd (lo + rd (floatStep lo hi t * (1 / 2)))
  | m + 1 => rd (floatLevel lo hi t m + floatStep lo hi t)

/-- the sizes that occur: coordinates of at most a metre, layers from a micrometre to a metre, a model of visible height -/
structure FloatSizes (lo hi t : ℝ) : Prop where
  loF : IsF lo
  hiF : IsF hi
  tF : IsF t
  lo1 : |lo| ≤ 1000
  hi1 : |hi| ≤ 1000
  t0 : 1 / 1000 ≤ t
  t1 : t ≤ 1000
  high : 1 / 10 ^ 6 ≤ hi - lo

section sizes
variable {lo hi t : ℝ} (H : FloatSizes lo hi t)
include H

theorem FloatSizes.diff : hi - lo ≤ 2000 := by
  have := abs_le.1 H.lo1; have := abs_le.1 H.hi1; linarith

theorem FloatSizes.span_err : |rd (hi - lo) - (hi - lo)| ≤ (hi - lo) * (12 / 10 ^ 17) := by
  have h := H.high
  have h0 : 0 < hi - lo := lt_of_lt_of_le (by norm_num) h
  exact rd_err (le_trans (by norm_num) h) (by rw [abs_of_pos h0])

theorem FloatSizes.span_pos : 0 < rd (hi - lo) := by
  have h := H.high
  have e := abs_le.1 H.span_err
  nlinarith [e.1]

theorem FloatSizes.quot_pos : 0 < rd (rd (hi - lo) / t) := by
  have h := H.high
  have e := abs_le.1 H.span_err
  have t0 : 0 < t := lt_of_lt_of_le (by norm_num) H.t0
  have q : 1 / 10 ^ 10 ≤ rd (hi - lo) / t := by
    rw [le_div_iff₀ t0]
    have := H.t1
    nlinarith [e.1]
  have e2 := abs_le.1 (rd_err q (le_of_eq (abs_of_pos (lt_of_lt_of_le (by norm_num) q))))
  nlinarith [e2.1]

theorem FloatSizes.quot_le : rd (rd (hi - lo) / t) ≤ 2000001 := by
  have h := H.high
  have d := H.diff
  have e := abs_le.1 H.span_err
  have t0 : 0 < t := lt_of_lt_of_le (by norm_num) H.t0
  have : rd (hi - lo) / t ≤ 2000001 := by
    rw [div_le_iff₀ t0]
    have := H.t0
    nlinarith [e.2]
  refine rd_le ?_ this
  have := rep_int (n := 2000001) (by norm_num)
  simpa using this

theorem FloatSizes.count_pos : 1 ≤ floatCount lo hi t := Int.one_le_ceil_iff.2 H.quot_pos

theorem FloatSizes.count_le : floatCount lo hi t ≤ 2000001 := by
  unfold floatCount
  rw [Int.ceil_le]
  exact_mod_cast H.quot_le

theorem FloatSizes.quotF : IsF (rd (rd (hi - lo) / t)) :=
  isF_rep (rep_rd _) (by rw [abs_of_pos H.quot_pos]; exact H.quot_le.trans (by norm_num))

/-- one divided by the number of planes -/
theorem FloatSizes.inv_err : |rd (1 / (floatCount lo hi t : ℝ)) - 1 / floatCount lo hi t| ≤ 1 / floatCount lo hi t * (12 / 10 ^ 17) := by
  have h1 : (1 : ℝ) ≤ floatCount lo hi t := by exact_mod_cast H.count_pos
  have h2 : (floatCount lo hi t : ℝ) ≤ 2000001 := by exact_mod_cast H.count_le
  have h0 : (0 : ℝ) < 1 / floatCount lo hi t := by positivity
  refine rd_err ?_ (le_of_eq (abs_of_pos h0))
  apply div_le_div_of_nonneg_left (by norm_num) (by linarith)
  linarith

/-- the distance of the planes is the height of the model divided by their number, up to `1e-12` over the whole height -/
theorem FloatSizes.step_err : |floatStep lo hi t - (hi - lo) / floatCount lo hi t| ≤ 1 / 10 ^ 12 / floatCount lo hi t := by
  have h1 : (1 : ℝ) ≤ floatCount lo hi t := by exact_mod_cast H.count_pos
  have h2 : (floatCount lo hi t : ℝ) ≤ 2000001 := by exact_mod_cast H.count_le
  have hi' := H.inv_err
  have e := H.span_err
  have d := H.diff
  have hh := H.high
  unfold floatStep
  set N : ℝ := ((floatCount lo hi t : ℤ) : ℝ) with hN
  set D := hi - lo with hD
  set r := rd (1 / N) with hr
  set I := 1 / N with hI
  have hI0 : 0 < I := by rw [hI]; positivity
  have hIl : 1 / 2000001 ≤ I := by
    rw [hI]; exact div_le_div_of_nonneg_left (by norm_num) (by linarith) h2
  have i1 := abs_le.1 hi'
  have e1 := abs_le.1 e
  have hr0 : 0 ≤ r := by nlinarith [i1.1]
  have hd0 : 0 ≤ rd D := by nlinarith [e1.1]
  have hp : |rd D * r| ≤ 2100 * I := by
    rw [abs_of_nonneg (mul_nonneg hd0 hr0)]
    have a1 : rd D ≤ 2001 := by nlinarith [e1.2]
    have a2 : r ≤ I * (1 + 1 / 10 ^ 10) := by nlinarith [i1.2]
    calc rd D * r ≤ 2001 * (I * (1 + 1 / 10 ^ 10)) := mul_le_mul a1 a2 hr0 (by norm_num)
      _ ≤ 2100 * I := by nlinarith
  have er := rd_err (M := 2100 * I) (by
    have : (1 : ℝ) / 10 ^ 10 ≤ 2100 * (1 / 2000001) := by norm_num
    linarith) hp
  have em := abs_mul_sub_mul D I (rd D) r
  have hDI : D / N = D * I := by rw [hI]; ring
  have h3 : 1 / 10 ^ 12 / N = 1 / 10 ^ 12 * I := by rw [hI]; ring
  rw [hDI, h3]
  have tri : |rd (rd D * r) - D * I| ≤ |rd (rd D * r) - rd D * r| + |rd D * r - D * I| := by
    have := abs_add_le (rd (rd D * r) - rd D * r) (rd D * r - D * I)
    simpa using this
  have b1 : |rd D - D| * |r| ≤ 2000 * (12 / 10 ^ 17) * (I * (1 + 1 / 10 ^ 10)) := by
    apply mul_le_mul _ _ (abs_nonneg _) (by norm_num)
    · nlinarith
    · rw [abs_of_nonneg hr0]; nlinarith [i1.2]
  have b2 : |D| * |r - I| ≤ 2000 * (I * (12 / 10 ^ 17)) := by
    apply mul_le_mul _ hi' (abs_nonneg _) (by norm_num)
    rw [abs_of_pos (by linarith)]; exact d
  norm_num at b1 b2 em tri er ⊢
  nlinarith

theorem FloatSizes.step_nonneg : 0 ≤ floatStep lo hi t := by
  have h1 : (1 : ℝ) ≤ floatCount lo hi t := by exact_mod_cast H.count_pos
  exact rd_nonneg (mul_nonneg H.span_pos.le (rd_nonneg (by positivity)))

theorem FloatSizes.step_le : floatStep lo hi t ≤ 2001 := by
  have h1 : (1 : ℝ) ≤ floatCount lo hi t := by exact_mod_cast H.count_pos
  have e := abs_le.1 H.step_err
  have d := H.diff
  have hh := H.high
  have a : (hi - lo) / floatCount lo hi t ≤ 2000 := by
    rw [div_le_iff₀ (by linarith)]; nlinarith
  have b : (1 : ℝ) / 10 ^ 12 / floatCount lo hi t ≤ 1 := by
    rw [div_le_iff₀ (by linarith)]; nlinarith
  linarith [e.2]

theorem FloatSizes.stepF : IsF (floatStep lo hi t) :=
  isF_rep (rep_rd _) (by rw [abs_of_nonneg H.step_nonneg]; exact H.step_le.trans (by norm_num))

/-- the ideal height of a plane: the middle of its layer -/
theorem FloatSizes.level_err : ∀ m : ℕ, (m : ℤ) < floatCount lo hi t →
    |floatLevel lo hi t m - (lo + (m + 1 / 2) * ((hi - lo) / floatCount lo hi t))| ≤
      1 / 10 ^ 12 + m * (1 / 10 ^ 12 / floatCount lo hi t + 13 / 10 ^ 14) := by
  have h1 : (1 : ℝ) ≤ floatCount lo hi t := by exact_mod_cast H.count_pos
  have h2 : (floatCount lo hi t : ℝ) ≤ 2000001 := by exact_mod_cast H.count_le
  have se := H.step_err
  have s0 := H.step_nonneg
  have s1 := H.step_le
  have l1 := H.lo1
  have u1 := H.hi1
  have hh := H.high
  set N : ℝ := ((floatCount lo hi t : ℤ) : ℝ) with hN
  set s := floatStep lo hi t with hs
  set δ := (hi - lo) / N with hδ
  have hδ0 : 0 ≤ δ := by rw [hδ]; apply div_nonneg <;> linarith
  have hδN : δ * N = hi - lo := by rw [hδ]; field_simp
  set ε := 1 / 10 ^ 12 / N with hε
  have hε0 : 0 ≤ ε := by rw [hε]; positivity
  have hε1 : ε ≤ 1 / 10 ^ 12 := by rw [hε]; exact div_le_self (by norm_num) h1
  have hεN : ε * N = 1 / 10 ^ 12 := by rw [hε]; field_simp
  intro m
  induction m with
  | zero =>
    intro _
    show |rd (lo + rd (s * (1 / 2))) - _| ≤ _
    have a1 := rd_err (x := s * (1 / 2)) (M := 1001) (by norm_num) (by rw [abs_of_nonneg (by linarith)]; linarith)
    have a2 : |lo + rd (s * (1 / 2))| ≤ 2100 := by
      rw [abs_le] at *
      constructor <;> linarith [a1.1, a1.2, l1.1, l1.2]
    have a3 := rd_err (M := 2100) (by norm_num) a2
    simp only [Nat.cast_zero, zero_add, zero_mul, add_zero]
    rw [abs_le] at *
    constructor <;> linarith [a1.1, a1.2, a3.1, a3.2, se.1, se.2]
  | succ m ih =>
    intro hm
    push_cast at hm
    have ih := ih (by omega)
    have hm' : (m : ℝ) + 1 + 1 ≤ N := by rw [hN]; exact_mod_cast hm
    have hm0 : (0 : ℝ) ≤ m := Nat.cast_nonneg m
    show |rd (floatLevel lo hi t m + s) - _| ≤ _
    have mN : (m : ℝ) * ε ≤ 1 / 10 ^ 12 := by nlinarith
    have id1 : lo + (m + 1 / 2) * δ + δ ≤ hi := by nlinarith
    have id0 : lo ≤ lo + (m + 1 / 2) * δ := by nlinarith
    have eb : 1 / 10 ^ 12 + (m : ℝ) * (ε + 13 / 10 ^ 14) ≤ 1 / 2 := by nlinarith
    have a2 : |floatLevel lo hi t m + s| ≤ 1001 := by
      rw [abs_le] at *
      constructor <;> linarith [ih.1, ih.2, se.1, se.2, l1.1, u1.2]
    have a3 := rd_err (M := 1001) (by norm_num) a2
    push_cast
    rw [abs_le] at *
    constructor <;> linarith [ih.1, ih.2, a3.1, a3.2, se.1, se.2]

theorem FloatSizes.level_near (m : ℕ) (hm : (m : ℤ) < floatCount lo hi t) :
    |floatLevel lo hi t m - (lo + (m + 1 / 2) * ((hi - lo) / floatCount lo hi t))| ≤ (m + 10) * (2 / 10 ^ 13) := by
  have h1 : (1 : ℝ) ≤ floatCount lo hi t := by exact_mod_cast H.count_pos
  have h := H.level_err m hm
  have hm' : (m : ℝ) + 1 ≤ floatCount lo hi t := by exact_mod_cast hm
  have hm0 : (0 : ℝ) ≤ m := Nat.cast_nonneg m
  have mN : (m : ℝ) * (1 / 10 ^ 12 / floatCount lo hi t) ≤ 1 / 10 ^ 12 := by
    rw [mul_div_assoc', div_le_iff₀ (by linarith)]; nlinarith
  refine h.trans ?_
  linarith

theorem FloatSizes.level_range (m : ℕ) (hm : (m : ℤ) < floatCount lo hi t) :
    lo - 1 / 10 ^ 5 ≤ floatLevel lo hi t m ∧ floatLevel lo hi t m ≤ hi + 1 / 10 ^ 5 := by
  have h1 : (1 : ℝ) ≤ floatCount lo hi t := by exact_mod_cast H.count_pos
  have h2 : (floatCount lo hi t : ℝ) ≤ 2000001 := by exact_mod_cast H.count_le
  have h := abs_le.1 (H.level_near m hm)
  have hm' : (m : ℝ) + 1 ≤ floatCount lo hi t := by exact_mod_cast hm
  have hm0 : (0 : ℝ) ≤ m := Nat.cast_nonneg m
  have hh := H.high
  set δ := (hi - lo) / floatCount lo hi t with hδ
  have hδ0 : 0 ≤ δ := by rw [hδ]; apply div_nonneg <;> linarith
  have hδN : δ * floatCount lo hi t = hi - lo := by rw [hδ]; field_simp
  constructor
  · nlinarith [h.1]
  · nlinarith [h.2]

theorem FloatSizes.levelF (m : ℕ) (hm : (m : ℤ) < floatCount lo hi t) : IsF (floatLevel lo hi t m) := by
  have h := H.level_range m hm
  have a := abs_le.1 H.lo1
  have b := abs_le.1 H.hi1
  refine isF_rep ?_ ?_
  · cases m <;> exact rep_rd _
  · rw [abs_le]; constructor <;> linarith [h.1, h.2]

theorem FloatSizes.level_mono (m : ℕ) : floatLevel lo hi t m ≤ floatLevel lo hi t (m + 1) := by
  refine le_rd ?_ (by linarith [H.step_nonneg])
  cases m <;> exact rep_rd _

end sizes

/-! ## what the program computes -/

theorem dot_up {w : R3} (hw : w.isF) : (w.f64.toVector).dot zUp.f64v = B64.of w.z := dot_level hw

/-- the vertical is already normalised -/
theorem normalize_up : zUp.f64v.normalize = zUp.f64v := by
  have hl : zUp.f64v.length = B64.of 1 := by
    show Flt.sqrt (B64.of 0 * B64.of 0 + B64.of 0 * B64.of 0 + B64.of 1 * B64.of 1) = _
    rw [B64.mul_of isF_zero isF_zero, B64.mul_of isF_one isF_one, mul_zero, mul_one, rd_zero, rd_of_rep isF_one.1,
      B64.add_of isF_zero isF_zero, add_zero, rd_zero, B64.add_of isF_zero isF_one, zero_add, rd_of_rep isF_one.1,
      B64.sqrt_of isF_one (by norm_num), Real.sqrt_one, B64.of_rd]
  unfold Vec.normalize
  simp only [hl, B64.lit0]
  rw [B64.eq_of isF_one isF_zero]
  simp only [one_ne_zero, decide_false, Bool.false_eq_true, if_false]
  show Vec.mk (B64.of 0 / B64.of 1) (B64.of 0 / B64.of 1) (B64.of 1 / B64.of 1) = Vec.mk (B64.of 0) (B64.of 0) (B64.of 1)
  rw [B64.div_of isF_zero isF_one one_ne_zero, B64.div_of isF_one isF_one one_ne_zero]
  simp only [div_one, B64.of_rd]

theorem mulScalar_up {a b : ℝ} (ha : IsF a) (hb : IsF b) : (lvl a).f64v.mulScalar (B64.of b) = (lvl (rd (a * b))).f64v := by
  show Vec.mk (B64.of 0 * B64.of b) (B64.of 0 * B64.of b) (B64.of a * B64.of b) = Vec.mk (B64.of 0) (B64.of 0) (B64.of (rd (a * b)))
  rw [B64.mul_of isF_zero hb, B64.mul_of ha hb, zero_mul, rd_zero]

theorem mulScalar_zUp {b : ℝ} (hb : IsF b) : zUp.f64v.mulScalar (B64.of b) = (lvl b).f64v := by
  have := mulScalar_up isF_one hb
  rw [one_mul, rd_of_rep hb.1] at this
  exact this

theorem shift_up {a b : ℝ} (ha : IsF a) (hb : IsF b) : (lvl a).f64.shift (lvl b).f64v = (lvl (rd (a + b))).f64 := by
  show Point.mk (B64.of 0 + B64.of 0) (B64.of 0 + B64.of 0) (B64.of a + B64.of b) =
    Point.mk (B64.of 0) (B64.of 0) (B64.of (rd (a + b)))
  rw [B64.add_of isF_zero isF_zero, B64.add_of ha hb, add_zero, rd_zero]

theorem isF_min {x y : ℝ} (hx : IsF x) (hy : IsF y) : IsF (min x y) := by
  rcases min_choice x y with h | h <;> rw [h] <;> assumption

theorem isF_max' {x y : ℝ} (hx : IsF x) (hy : IsF y) : IsF (max x y) := by
  rcases max_choice x y with h | h <;> rw [h] <;> assumption

theorem dot_zUp (w : R3) : w.dot zUp = w.z := by simp [R3.dot, zUp]

/-- the three vertices are finite -/
def RTri.isF (t : RTri) : Prop := t.a.isF ∧ t.b.isF ∧ t.c.isF

theorem tri_isF {ts : List RTri} (h : ∀ w ∈ allVerts ts, w.isF) {t : RTri} (ht : t ∈ ts) : t.isF :=
  ⟨h _ (vert_mem ht (by simp)), h _ (vert_mem ht (by simp)), h _ (vert_mem ht (by simp))⟩

theorem lo_isF {t : RTri} (h : t.isF) : IsF (t.lo zUp) := by
  unfold RTri.lo; simp only [dot_zUp]
  exact isF_min h.1.2.2 (isF_min h.2.1.2.2 h.2.2.2.2)

theorem hi_isF {t : RTri} (h : t.isF) : IsF (t.hi zUp) := by
  unfold RTri.hi; simp only [dot_zUp]
  exact isF_max' h.1.2.2 (isF_max' h.2.1.2.2 h.2.2.2.2)

theorem minZ_f64 {t : RTri} (h : t.isF) : t.f64.minZ zUp.f64v = B64.of (t.lo zUp) := by
  show Flt.fmin (t.a.f64.toVector.dot zUp.f64v) (Flt.fmin (t.b.f64.toVector.dot zUp.f64v) (t.c.f64.toVector.dot zUp.f64v)) = _
  rw [dot_up h.1, dot_up h.2.1, dot_up h.2.2, B64.fmin_of h.2.1.2.2 h.2.2.2.2, B64.fmin_of h.1.2.2 (isF_min h.2.1.2.2 h.2.2.2.2)]
  unfold RTri.lo; simp only [dot_zUp]

theorem maxZ_f64 {t : RTri} (h : t.isF) : t.f64.maxZ zUp.f64v = B64.of (t.hi zUp) := by
  show Flt.fmax (t.a.f64.toVector.dot zUp.f64v) (Flt.fmax (t.b.f64.toVector.dot zUp.f64v) (t.c.f64.toVector.dot zUp.f64v)) = _
  rw [dot_up h.1, dot_up h.2.1, dot_up h.2.2, B64.fmax_of h.2.1.2.2 h.2.2.2.2, B64.fmax_of h.1.2.2 (isF_max' h.2.1.2.2 h.2.2.2.2)]
  unfold RTri.hi; simp only [dot_zUp]

theorem minMaxZ_tri_f64 {t : RTri} (h : t.isF) : t.f64.minMaxZ zUp.f64v = (B64.of (t.lo zUp), B64.of (t.hi zUp)) := by
  rw [← minZ_f64 h, ← maxZ_f64 h]; rfl

/-- the extent of the mesh is computed without error -/
theorem minMaxZ_f64 {ts : List RTri} (hF : ∀ w ∈ allVerts ts, w.isF) {lo hi : ℝ} (he : Extent ts zUp lo hi) :
    (fmesh ts).minMaxZ zUp.f64v = (B64.of lo, B64.of hi) := by
  have hx := minMaxZ_extent he (fun w hw => by rw [dot_zUp]; exact (hF w hw).2.2.2)
  have hne : ts ≠ [] := by
    rintro rfl; obtain ⟨w, hw, _⟩ := he.1.1; simp [allVerts] at hw
  unfold Mesh.minMaxZ at hx ⊢
  have e1 : (rmesh ts).triangles.isEmpty = false := by simp [rmesh, hne]
  have e2 : (fmesh ts).triangles.isEmpty = false := by simp [fmesh, hne]
  rw [if_neg (by rw [e1]; simp)] at hx
  rw [if_neg (by rw [e2]; simp)]
  have inner : ∀ (us : List RTri) (l h : ℝ), IsF l → IsF h → (∀ t ∈ us, t.isF) → ∃ l' h' : ℝ, IsF l' ∧ IsF h' ∧
      (us.map RTri.tri).foldl (fun acc t => (Flt.fmin acc.1 (t.minMaxZ zUp.vec).1, Flt.fmax acc.2 (t.minMaxZ zUp.vec).2))
        (XR.fin l, XR.fin h) = (XR.fin l', XR.fin h') ∧
      (us.map RTri.f64).foldl (fun acc t => (Flt.fmin acc.1 (t.minMaxZ zUp.f64v).1, Flt.fmax acc.2 (t.minMaxZ zUp.f64v).2))
        (B64.of l, B64.of h) = (B64.of l', B64.of h') := by
    intro us
    induction us with
    | nil => intro l h hl hh _; exact ⟨l, h, hl, hh, rfl, rfl⟩
    | cons t us ih =>
      intro l h hl hh hus
      have ht := hus t (by simp)
      obtain ⟨l', h', a1, a2, a3, a4⟩ := ih (min l (t.lo zUp)) (max h (t.hi zUp)) (isF_min hl (lo_isF ht)) (isF_max' hh (hi_isF ht))
        (fun x hx => hus x (by simp [hx]))
      refine ⟨l', h', a1, a2, ?_, ?_⟩
      · simp only [List.map_cons, List.foldl_cons]
        have : t.tri.minMaxZ zUp.vec = (XR.fin (t.lo zUp), XR.fin (t.hi zUp)) := by
          rw [← minZ_tri, ← maxZ_tri]; rfl
        rw [this]
        simpa using a3
      · simp only [List.map_cons, List.foldl_cons]
        rw [minMaxZ_tri_f64 ht]
        simp only
        rw [B64.fmin_of hl (lo_isF ht), B64.fmax_of hh (hi_isF ht)]
        exact a4
  obtain ⟨l', h', a1, a2, a3, a4⟩ := inner ts XR.maxF64R (-XR.maxF64R) isF_max isF_max.neg (fun t ht => tri_isF hF ht)
  have hx' : (XR.fin l', XR.fin h') = (XR.fin lo, XR.fin hi) := a3.symm.trans hx
  rw [Prod.mk.injEq, XR.fin_inj, XR.fin_inj] at hx'
  rw [← hx'.1, ← hx'.2, ← a4]
  have hm : (Flt.maxF64 : B64) = B64.of XR.maxF64R := rfl
  show List.foldl _ (Flt.maxF64, -Flt.maxF64) _ = _
  rw [hm, B64.neg_of isF_max]
  rfl

section prog
variable {ts : List RTri} {lo hi t : ℝ} (hF : ∀ w ∈ allVerts ts, w.isF) (he : Extent ts zUp lo hi) (H : FloatSizes lo hi t)
include hF he H

theorem count_f64 : layerCountOf (fmesh ts) zUp.f64v (B64.of t) = floatCount lo hi t := by
  unfold layerCountOf
  rw [minMaxZ_f64 hF he]
  simp only
  have t0 : t ≠ 0 := by have := H.t0; intro h; rw [h] at this; norm_num at this
  have dF : IsF (rd (hi - lo)) := isF_rd (by
    rw [abs_of_pos (lt_of_lt_of_le (by norm_num) H.high)]; exact H.diff.trans (by norm_num))
  rw [B64.sub_of H.hiF H.loF, B64.div_of dF H.tF t0, B64.ceil_of H.quotF, B64.toInt_of (isF_int (by
    show |floatCount lo hi t| ≤ _
    rw [abs_of_pos (by linarith [H.count_pos])]; exact H.count_le.trans (by norm_num)))]
  show XR.toInt (.fin ((floatCount lo hi t : ℤ) : ℝ)) = _
  have h1 := H.count_pos
  have h2 := H.count_le
  unfold XR.toInt
  simp only [Int.floor_intCast, Int.ceil_intCast, ite_self]
  rw [if_pos ⟨by linarith, by linarith⟩]

theorem shiftV_f64 : layerShift (fmesh ts) zUp.f64v (B64.of t) = (lvl (floatStep lo hi t)).f64v := by
  unfold layerShift
  rw [count_f64 hF he H, minMaxZ_f64 hF he]
  simp only
  have dF : IsF (rd (hi - lo)) := isF_rd (by
    rw [abs_of_pos (lt_of_lt_of_le (by norm_num) H.high)]; exact H.diff.trans (by norm_num))
  have h1 := H.count_pos
  have h2 := H.count_le
  have cF : IsF (floatCount lo hi t : ℝ) := isF_int (by rw [abs_of_pos (by linarith)]; linarith)
  have c0 : (floatCount lo hi t : ℝ) ≠ 0 := by have : (0:ℝ) < floatCount lo hi t := by exact_mod_cast h1
                                               exact this.ne'
  rw [B64.sub_of H.hiF H.loF, mulScalar_zUp dF, B64.lit1, B64.ofInt_of, B64.div_of isF_one cF c0]
  have c1 : (1 : ℝ) ≤ floatCount lo hi t := by exact_mod_cast h1
  rw [mulScalar_up dF (isF_rd (by rw [abs_of_nonneg (by positivity)]; exact (div_le_one₀ (by linarith)).2 c1 |>.trans (by norm_num)))]
  rfl

theorem first_f64 : firstPoint (fmesh ts) zUp.f64v (B64.of t) = (lvl (floatLevel lo hi t 0)).f64 := by
  unfold firstPoint
  rw [shiftV_f64 hF he H, minMaxZ_f64 hF he]
  simp only
  rw [mulScalar_zUp H.loF, B64.lit51, mulScalar_up H.stepF isF_half]
  have : (lvl lo).f64v.toPoint = (lvl lo).f64 := rfl
  rw [this, shift_up H.loF (isF_rd (by
    have a := H.step_nonneg
    have b := H.step_le
    rw [abs_of_nonneg (by linarith)]
    have : (2001 : ℝ) ≤ 2 ^ 100 := by norm_num
    linarith))]
  rfl

theorem point_f64 (m : ℕ) (hm : (m : ℤ) < floatCount lo hi t) :
    sweepPoint (layerShift (fmesh ts) zUp.f64v (B64.of t)) (firstPoint (fmesh ts) zUp.f64v (B64.of t)) m =
      (lvl (floatLevel lo hi t m)).f64 := by
  induction m with
  | zero => exact first_f64 hF he H
  | succ m ih =>
    push_cast at hm
    show (sweepPoint _ _ m).shift _ = _
    rw [ih (by omega), shiftV_f64 hF he H, shift_up (H.levelF m (by omega)) H.stepF]
    rfl

theorem sweepZ_f64 (m : ℕ) (hm : (m : ℤ) < floatCount lo hi t) :
    sweepZ zUp.f64v (layerShift (fmesh ts) zUp.f64v (B64.of t)) (firstPoint (fmesh ts) zUp.f64v (B64.of t)) m =
      B64.of (floatLevel lo hi t m) := by
  unfold sweepZ
  rw [point_f64 hF he H m hm]
  exact dot_up ⟨isF_zero, isF_zero, H.levelF m hm⟩

end prog

/-- a plane with all three vertices clearly on one side meets nothing -/
theorem side_none {h : ℝ} {t : RTri} (hh : IsF h) (rh : |h| ≤ 1000) (tF : t.isF) (ra : t.a.inRange) (rb : t.b.inRange)
    (rc : t.c.inRange) (off : ∀ w ∈ t.verts, 1 / 10 ^ 11 ≤ |w.z - h|) (hs : h < t.lo zUp ∨ t.hi zUp < h) :
    (levelF h).intersectTriangle t.f64 = none := by
  have oa := off t.a (by simp [RTri.verts])
  have ob := off t.b (by simp [RTri.verts])
  have oc := off t.c (by simp [RTri.verts])
  have key : (∀ w ∈ t.verts, h + 1 / 10 ^ 11 ≤ w.z) ∨ (∀ w ∈ t.verts, w.z + 1 / 10 ^ 11 ≤ h) := by
    unfold RTri.lo RTri.hi at hs
    simp only [dot_zUp, lt_min_iff, max_lt_iff] at hs
    rcases hs with ⟨a, b, c⟩ | ⟨a, b, c⟩
    · left
      rw [abs_of_pos (by linarith)] at oa ob oc
      intro w hw
      simp only [RTri.verts, List.mem_cons, List.not_mem_nil, or_false] at hw
      rcases hw with rfl | rfl | rfl <;> linarith
    · right
      rw [abs_of_neg (by linarith)] at oa ob oc
      intro w hw
      simp only [RTri.verts, List.mem_cons, List.not_mem_nil, or_false] at hw
      rcases hw with rfl | rfl | rfl <;> linarith
  have seg : ∀ {a b : R3}, a ∈ t.verts → b ∈ t.verts → a.isF → b.isF → a.inRange → b.inRange →
      (levelF h).intersectSegment a.f64 b.f64 = none := by
    intro a b va vb F1 F2 R1 R2
    rw [segment_level hh F1 F2 rh R1 R2]
    by_cases hz : a.z = b.z
    · rw [if_pos hz]
    · rw [if_neg hz, if_pos]
      refine paramF_out hh.1 F1.2.2.1 F2.2.2.1 rh R1.2.2 R2.2.2 hz ?_
      rcases key with k | k
      · exact Or.inr ⟨k a va, k b vb⟩
      · exact Or.inl ⟨k a va, k b vb⟩
  have i1 := seg (a := t.a) (b := t.b) (by simp [RTri.verts]) (by simp [RTri.verts]) tF.1 tF.2.1 ra rb
  have i2 := seg (a := t.b) (b := t.c) (by simp [RTri.verts]) (by simp [RTri.verts]) tF.2.1 tF.2.2 rb rc
  have i3 := seg (a := t.c) (b := t.a) (by simp [RTri.verts]) (by simp [RTri.verts]) tF.2.2 tF.1 rc ra
  have hce : (levelF h).chordEnds t.f64 = none := by
    show (Plane.distinctPair ((levelF h).intersectSegment t.a.f64 t.b.f64) ((levelF h).intersectSegment t.b.f64 t.c.f64)).orElse
      (fun _ => (Plane.distinctPair ((levelF h).intersectSegment t.a.f64 t.b.f64) ((levelF h).intersectSegment t.c.f64 t.a.f64)).orElse
      fun _ => Plane.distinctPair ((levelF h).intersectSegment t.b.f64 t.c.f64) ((levelF h).intersectSegment t.c.f64 t.a.f64)) = none
    rw [i1, i2, i3]; rfl
  unfold Plane.intersectTriangle
  rw [hce]

/-- the sort by lowest point in `float64` -/
theorem sortByMinZ_f64 (S : Sorter) {ts : List RTri} (hF : ∀ w ∈ allVerts ts, w.isF) {z : ℝ} (hz : IsF z) :
    (sortByMinZ S zUp.f64v (fmesh ts).triangles).Pairwise
      fun a b => (a.minZ zUp.f64v ≤? B64.of z) = false → (b.minZ zUp.f64v ≤? B64.of z) = false := by
  have hmem : ∀ x ∈ (fmesh ts).triangles, ∃ r : RTri, r.isF ∧ x = r.f64 := by
    intro x hx
    obtain ⟨r, hr, rfl⟩ := List.mem_map.1 hx
    exact ⟨r, tri_isF hF hr, rfl⟩
  have hsw : StrictWeakOn (fun a b : Triangle B64 => a.minZ zUp.f64v <? b.minZ zUp.f64v) (fmesh ts).triangles := by
    constructor
    · intro a ha
      obtain ⟨r, hr, rfl⟩ := hmem a ha
      rw [minZ_f64 hr, B64.lt_of (lo_isF hr) (lo_isF hr)]; simp
    · intro a ha b hb c hc h1 h2
      obtain ⟨r, hr, rfl⟩ := hmem a ha
      obtain ⟨s, hs, rfl⟩ := hmem b hb
      obtain ⟨q, hq, rfl⟩ := hmem c hc
      rw [minZ_f64 hr, minZ_f64 hs, B64.lt_of (lo_isF hr) (lo_isF hs), decide_eq_true_eq] at h1
      rw [minZ_f64 hs, minZ_f64 hq, B64.lt_of (lo_isF hs) (lo_isF hq), decide_eq_true_eq] at h2
      rw [minZ_f64 hr, minZ_f64 hq, B64.lt_of (lo_isF hr) (lo_isF hq), decide_eq_true_eq]
      linarith
    · intro a ha b hb c hc h1 h2 h3 h4
      obtain ⟨r, hr, rfl⟩ := hmem a ha
      obtain ⟨s, hs, rfl⟩ := hmem b hb
      obtain ⟨q, hq, rfl⟩ := hmem c hc
      rw [minZ_f64 hr, minZ_f64 hs, B64.lt_of (lo_isF hr) (lo_isF hs), decide_eq_false_iff_not, not_lt] at h1
      rw [minZ_f64 hr, minZ_f64 hs, B64.lt_of (lo_isF hs) (lo_isF hr), decide_eq_false_iff_not, not_lt] at h2
      rw [minZ_f64 hs, minZ_f64 hq, B64.lt_of (lo_isF hs) (lo_isF hq), decide_eq_false_iff_not, not_lt] at h3
      rw [minZ_f64 hs, minZ_f64 hq, B64.lt_of (lo_isF hq) (lo_isF hs), decide_eq_false_iff_not, not_lt] at h4
      rw [minZ_f64 hr, minZ_f64 hq, B64.lt_of (lo_isF hr) (lo_isF hq), B64.lt_of (lo_isF hq) (lo_isF hr),
        decide_eq_false_iff_not, not_lt, decide_eq_false_iff_not, not_lt]
      constructor <;> linarith
  have hp := S.perm (fun a b : Triangle B64 => a.minZ zUp.f64v <? b.minZ zUp.f64v) (fmesh ts).triangles
  refine List.Pairwise.imp_of_mem ?_ (S.sorted _ _ hsw)
  intro a b ha hb h h1
  obtain ⟨r, hr, rfl⟩ := hmem a (hp.mem_iff.1 ha)
  obtain ⟨s, hs, rfl⟩ := hmem b (hp.mem_iff.1 hb)
  rw [minZ_f64 hr, minZ_f64 hs, B64.lt_of (lo_isF hs) (lo_isF hr), decide_eq_false_iff_not, not_lt] at h
  rw [minZ_f64 hr, B64.le_of (lo_isF hr) hz, decide_eq_false_iff_not, not_le] at h1
  rw [minZ_f64 hs, B64.le_of (lo_isF hs) hz, decide_eq_false_iff_not, not_le]
  linarith

/-- the jobs of the sweep in `float64`: their number, their planes, and their segments -/
theorem jobs_f64 (S : Sorter) {ts : List RTri} {lo hi t : ℝ} (hF : ∀ w ∈ allVerts ts, w.isF) (hR : ∀ w ∈ allVerts ts, w.inRange)
    (he : Extent ts zUp lo hi) (H : FloatSizes lo hi t) (sett : Settings B64) (ht : sett.layerHeight = B64.of t)
    (hs : sett.supportsOn = false) :
    ∃ jobs, sliceJobs S (fmesh ts) zUp.f64v sett = .ok jobs ∧ (jobs.length : ℤ) = floatCount lo hi t ∧
      ∀ (m : ℕ) (j : Job B64), jobs[m]? = some j → (m : ℤ) < floatCount lo hi t ∧
        j.plane = levelF (floatLevel lo hi t m) ∧ j.order = m ∧
        (|floatLevel lo hi t m| ≤ 1000 → (∀ w ∈ allVerts ts, 1 / 10 ^ 11 ≤ |w.z - floatLevel lo hi t m|) →
          (jobPaths j).Perm (sectionPaths j.plane (fmesh ts).triangles)) := by
  have hc := count_f64 hF he H
  have hpos := H.count_pos
  have hj : sliceJobs S (fmesh ts) zUp.f64v sett = .ok (sweep zUp.f64v (layerShift (fmesh ts) zUp.f64v (B64.of t))
      (floatCount lo hi t).toNat 0 (firstPoint (fmesh ts) zUp.f64v (B64.of t)) [] (sortByMinZ S zUp.f64v (fmesh ts).triangles)) := by
    unfold sliceJobs
    rw [ht, hc, if_neg (by omega)]
    unfold supportsOf
    rw [if_neg (by rw [hs]; simp)]
    rfl
  refine ⟨_, hj, ?_, ?_⟩
  · rw [sweep_length]; omega
  · intro m j hm
    have hperm : (fmesh ts).triangles.Perm ([] ++ [] ++ sortByMinZ S zUp.f64v (fmesh ts).triangles) := by
      exact (S.perm _ _).symm
    have hmem : ∀ x ∈ (fmesh ts).triangles, ∃ r ∈ ts, r.isF ∧ x = r.f64 := by
      intro x hx
      obtain ⟨r, hr, rfl⟩ := List.mem_map.1 hx
      exact ⟨r, hr, tri_isF hF hr, rfl⟩
    obtain ⟨g0, g1, g2, g3⟩ := sweep_any zUp.f64v (layerShift (fmesh ts) zUp.f64v (B64.of t)) (fmesh ts).triangles
      (floatCount lo hi t).toNat 0 (firstPoint (fmesh ts) zUp.f64v (B64.of t)) [] _ [] hperm (by simp)
      (by
        intro n hn x hx hz
        obtain ⟨r, _, hr, rfl⟩ := hmem x hx
        have n1 : (n : ℤ) < floatCount lo hi t := by omega
        have n2 : ((n + 1 : ℕ) : ℤ) < floatCount lo hi t := by omega
        rw [sweepZ_f64 hF he H n n1, maxZ_f64 hr, B64.le_of (H.levelF n n1) (hi_isF hr), decide_eq_false_iff_not, not_le] at hz
        rw [sweepZ_f64 hF he H (n + 1) n2, maxZ_f64 hr, B64.le_of (H.levelF (n + 1) n2) (hi_isF hr), decide_eq_false_iff_not, not_le]
        exact lt_of_lt_of_le hz (H.level_mono n))
      (by
        intro n hn
        have n1 : (n : ℤ) < floatCount lo hi t := by omega
        rw [sweepZ_f64 hF he H n n1]
        exact sortByMinZ_f64 S hF (H.levelF n n1)) m j hm
    have m1 : (m : ℤ) < floatCount lo hi t := by omega
    have hpl : j.plane = levelF (floatLevel lo hi t m) := by
      rw [g1, point_f64 hF he H m m1]; rfl
    refine ⟨m1, hpl, by omega, fun hr hoff => g3 ?_⟩
    intro x hx hcase
    obtain ⟨r, hr', hrF, rfl⟩ := hmem x hx
    rw [hpl]
    have va := vert_mem hr' (w := r.a) (by simp)
    have vb := vert_mem hr' (w := r.b) (by simp)
    have vc := vert_mem hr' (w := r.c) (by simp)
    refine side_none (H.levelF m m1) hr hrF (hR _ va) (hR _ vb) (hR _ vc) ?_ ?_
    · intro w hw
      refine hoff w (vert_mem hr' ?_)
      simpa [RTri.verts] using hw
    · rw [sweepZ_f64 hF he H m m1] at hcase
      rcases hcase with hz | hz
      · right
        rw [maxZ_f64 hrF, B64.le_of (H.levelF m m1) (hi_isF hrF), decide_eq_false_iff_not, not_le] at hz
        exact hz
      · left
        rw [minZ_f64 hrF, B64.le_of (lo_isF hrF) (H.levelF m m1), decide_eq_false_iff_not, not_le] at hz
        exact hz

end Goosli
