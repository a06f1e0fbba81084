import Verif.Proofs.B64Err
import Verif.Proofs.Crossing
import Verif.Spec.Solid
/-!
# The primitives of the program in binary64, in the range of a printer
-/
set_option autoImplicit false
namespace Goosli
open Flt

theorem isF_rd {x : ℝ} (h : |x| ≤ 2 ^ 100) : IsF (rd x) := IsF.rd (le_max h)

theorem isF_rep {x : ℝ} (hr : Rep x) (h : |x| ≤ 2 ^ 100) : IsF x := ⟨hr, le_max h⟩

theorem isF_int {n : ℤ} (h : |n| ≤ 2 ^ 53) : IsF (n : ℝ) := by
  refine isF_rep (rep_int h) ?_
  have : |(n : ℝ)| ≤ 2 ^ 53 := by exact_mod_cast h
  exact this.trans (by norm_num)

theorem isF_zero : IsF 0 := by simpa using isF_int (n := 0) (by norm_num)
theorem isF_one : IsF 1 := by simpa using isF_int (n := 1) (by norm_num)

theorem isF_half : IsF (1 / 2) := by
  refine isF_rep ?_ (by rw [abs_of_pos] <;> norm_num)
  have := rep_zpow (e := -1) (by norm_num)
  norm_num at this ⊢
  exact this

namespace B64

/-- comparison of a possibly overflowing result with a finite number -/
theorem lt_of_left {x y : ℝ} (hy : IsF y) : (of x <? of y) = decide (rd x < y) := by
  by_cases h : |rd x| ≤ XR.maxF64R
  · rw [← of_rd x, lt_of ⟨rep_rd x, h⟩ hy]
  · have hv : (of x).1 = if 0 < x then .pinf else .ninf := by
      show (if |rd x| ≤ XR.maxF64R then XR.fin (rd x) else _) = _
      rw [if_neg h]
    show ((of x).1 <? (of y).1) = _
    rw [of_val hy, hv]
    have hy2 := abs_le.1 hy.2
    push Not at h
    by_cases hx : 0 < x
    · rw [if_pos hx]
      have : 0 ≤ rd x := rd_nonneg hx.le
      rw [abs_of_nonneg this] at h
      have : ¬ rd x < y := by linarith
      simp [this]; rfl
    · rw [if_neg hx]
      have : rd x ≤ 0 := rd_nonpos (not_lt.1 hx)
      rw [abs_of_nonpos this] at h
      have : rd x < y := by linarith
      simp [this]; rfl

theorem lt_of_right {x y : ℝ} (hy : IsF y) : (of y <? of x) = decide (y < rd x) := by
  by_cases h : |rd x| ≤ XR.maxF64R
  · rw [← of_rd x, lt_of hy ⟨rep_rd x, h⟩]
  · have hv : (of x).1 = if 0 < x then .pinf else .ninf := by
      show (if |rd x| ≤ XR.maxF64R then XR.fin (rd x) else _) = _
      rw [if_neg h]
    show ((of y).1 <? (of x).1) = _
    rw [of_val hy, hv]
    have hy2 := abs_le.1 hy.2
    push Not at h
    by_cases hx : 0 < x
    · rw [if_pos hx]
      have : 0 ≤ rd x := rd_nonneg hx.le
      rw [abs_of_nonneg this] at h
      have : y < rd x := by linarith
      simp [this]; rfl
    · rw [if_neg hx]
      have : rd x ≤ 0 := rd_nonpos (not_lt.1 hx)
      rw [abs_of_nonpos this] at h
      have : ¬ y < rd x := by linarith
      simp [this]; rfl

theorem lit0 : (Flt.lit 0 0 : B64) = of 0 := by rw [lit_of]; norm_num
theorem lit1 : (Flt.lit 1 0 : B64) = of 1 := by rw [lit_of]; norm_num
theorem lit51 : (Flt.lit 5 1 : B64) = of (1 / 2) := by rw [lit_of]; norm_num
theorem pow8 : (powersOfTen 8 : B64) = of ((100000000 : ℤ) : ℝ) := by unfold powersOfTen; rw [lit_of]; norm_num
theorem tol6 : (almostZeroNumber : B64) = of (rd tol) := by unfold almostZeroNumber; rw [lit_of, of_rd]; norm_num [tol]

/-- the tolerance test -/
theorem almostZero_of {x : ℝ} (hx : IsF x) : almostZero (of x) = decide (|x| < rd tol) := by
  have ht : IsF (rd tol) := isF_rd (by rw [abs_of_pos tol_pos]; unfold tol; norm_num)
  unfold almostZero
  rw [tol6, neg_of ht, lt_of ht.neg hx, lt_of hx ht, ← Bool.decide_and]
  simp only [abs_lt]

/-- rounding to 8 decimals -/
theorem roundPlaces_of {v c : ℝ} (hv : IsF v) (hc : |c| ≤ 1000) (hvc : |v - c| ≤ 2 / 10 ^ 12)
    (hm : ∀ k : ℤ, 1 / 10 ^ 11 ≤ |c - (k + 1 / 2) / 10 ^ 8|) : roundPlaces (of v) 8 = of (r8 c) := by
  have hvb : |v * (100000000 : ℤ)| ≤ 1001 * 10 ^ 8 := by
    push_cast
    rw [abs_mul, abs_of_pos (by norm_num : (0 : ℝ) < 100000000)]
    have := abs_sub_abs_le_abs_sub v c
    norm_num at *
    linarith
  have e1 := rd_err (by norm_num) hvb
  have h8 : IsF ((100000000 : ℤ) : ℝ) := isF_int (by norm_num)
  set p := rd (v * (100000000 : ℤ)) with hp
  have hpb : |p| ≤ 1002 * 10 ^ 8 := by
    have := abs_sub_abs_le_abs_sub p (v * (100000000 : ℤ))
    norm_num at *
    linarith
  have hpF : IsF p := isF_rd (hvb.trans (by norm_num))
  -- the integer that `Round` returns
  have hk : ∃ k : ℤ, round (of v * powersOfTen 8) = k ∧ |k| ≤ 2 ^ 53 ∧ |(k : ℝ) - p| ≤ 1 / 2 + 2 / 10 ^ 5 := by
    rw [pow8, mul_of hv h8, ← hp]
    unfold Goosli.round
    rw [lit0, lit51, lt_of hpF isF_zero, sub_of hpF isF_half, add_of hpF isF_half]
    obtain ⟨q1, q2⟩ := abs_le.1 hpb
    by_cases h0 : p < 0
    · have hb : |p - 1 / 2| ≤ 1003 * 10 ^ 8 := by rw [abs_le]; constructor <;> linarith
      have e2 := abs_le.1 (rd_err (by norm_num) hb)
      have hF : IsF (rd (p - 1 / 2)) := isF_rd (hb.trans (by norm_num))
      set s := rd (p - 1 / 2) with hs
      have c1 := Int.le_ceil s
      have c2 := Int.ceil_lt_add_one s
      have hkb : |⌈s⌉| ≤ 2 ^ 53 := by
        rw [abs_le]
        constructor
        · have : (-(2 ^ 53) : ℝ) ≤ ⌈s⌉ := by norm_num at *; linarith
          exact_mod_cast this
        · have : (⌈s⌉ : ℝ) ≤ 2 ^ 53 := by norm_num at *; linarith
          exact_mod_cast this
      refine ⟨⌈s⌉, ?_, hkb, ?_⟩
      · simp only [h0, decide_true, if_true]
        rw [ceil_of hF, toInt_of (isF_int hkb), toInt_intCast _ (lt_of_le_of_lt hkb (by norm_num))]
      · rw [abs_le]; norm_num at *; constructor <;> linarith
    · have hb : |p + 1 / 2| ≤ 1003 * 10 ^ 8 := by rw [abs_le]; constructor <;> linarith
      have e2 := abs_le.1 (rd_err (by norm_num) hb)
      have hF : IsF (rd (p + 1 / 2)) := isF_rd (hb.trans (by norm_num))
      set s := rd (p + 1 / 2) with hs
      have c1 := Int.floor_le s
      have c2 := Int.lt_floor_add_one s
      have hkb : |⌊s⌋| ≤ 2 ^ 53 := by
        rw [abs_le]
        constructor
        · have : (-(2 ^ 53) : ℝ) ≤ ⌊s⌋ := by norm_num at e2 q1 q2 ⊢; linarith
          exact_mod_cast this
        · have : (⌊s⌋ : ℝ) ≤ 2 ^ 53 := by norm_num at e2 q1 q2 ⊢; linarith
          exact_mod_cast this
      refine ⟨⌊s⌋, ?_, hkb, ?_⟩
      · simp only [h0, decide_false, Bool.false_eq_true, if_false]
        rw [floor_of hF, toInt_of (isF_int hkb), toInt_intCast _ (lt_of_le_of_lt hkb (by norm_num))]
      · rw [abs_le]; norm_num at e2 ⊢; constructor <;> linarith
  obtain ⟨k, hk1, hk2, hk3⟩ := hk
  -- the integer of the exact value
  obtain ⟨m, hmr⟩ : ∃ m : ℤ, r8 c = m / 10 ^ 8 := by
    unfold r8
    split_ifs
    · exact ⟨_, rfl⟩
    · exact ⟨_, rfl⟩
  have hb := abs_le.1 (r8_bounds c)
  rw [hmr] at hb
  have m1 := hm m
  have m2 := hm (m - 1)
  have hmc : |(m : ℝ) - c * 10 ^ 8| ≤ 1 / 2 - 1 / 10 ^ 3 := by
    push_cast at m2
    rw [abs_le]
    constructor
    · rw [abs_of_nonpos (by norm_num at *; linarith)] at m1
      norm_num at *
      linarith
    · rw [abs_of_nonneg (by norm_num at *; linarith)] at m2
      norm_num at *
      linarith
  have hkm : k = m := by
    have a1 := abs_le.1 e1
    have a2 := abs_le.1 hvc
    have a3 := abs_le.1 hk3
    have a4 := abs_le.1 hmc
    have : |((k - m : ℤ) : ℝ)| < 1 := by
      push_cast at *
      rw [abs_lt]
      norm_num at *
      constructor <;> linarith
    have : |k - m| < 1 := by exact_mod_cast this
    have := Int.abs_lt_one_iff.1 this
    omega
  unfold Goosli.roundPlaces
  rw [hk1, ofInt_of, pow8, div_of (isF_int hk2) h8 (by norm_num), of_rd, hmr, hkm]
  norm_num

end B64

/-! ## points -/

/-- a point of the program -/
noncomputable def R3.f64 (w : R3) : Point B64 := ⟨B64.of w.x, B64.of w.y, B64.of w.z⟩
/-- a vector of the program -/
noncomputable def R3.f64v (w : R3) : Vec B64 := ⟨B64.of w.x, B64.of w.y, B64.of w.z⟩

/-- the coordinates are finite `float64` numbers -/
def R3.isF (w : R3) : Prop := IsF w.x ∧ IsF w.y ∧ IsF w.z

/-- the coordinates are at most a metre (in millimetres) -/
def R3.inRange (w : R3) : Prop := |w.x| ≤ 1000 ∧ |w.y| ≤ 1000 ∧ |w.z| ≤ 1000

/-- the horizontal plane at height `h` -/
noncomputable def levelF (h : ℝ) : Plane B64 := ⟨(⟨0, 0, h⟩ : R3).f64, (⟨0, 0, 1⟩ : R3).f64v⟩

theorem rd_int_mul_zero (x : ℝ) : rd (x * 0) = 0 := by simp

/-- the projection on the vertical is exact -/
theorem dot_level {w : R3} (hw : w.isF) : (w.f64.toVector).dot (⟨0, 0, 1⟩ : R3).f64v = B64.of w.z := by
  show B64.of w.x * B64.of 0 + B64.of w.y * B64.of 0 + B64.of w.z * B64.of 1 = B64.of w.z
  rw [B64.mul_of hw.1 isF_zero, B64.mul_of hw.2.1 isF_zero, B64.mul_of hw.2.2 isF_one, mul_zero, mul_zero, mul_one, rd_zero,
    rd_of_rep hw.2.2.1, B64.add_of isF_zero isF_zero, add_zero, rd_zero, B64.add_of isF_zero hw.2.2, zero_add, rd_of_rep hw.2.2.1]

/-- the parameter does not leave the unit interval when the edge crosses -/
theorem paramF_mem {h a b : ℝ} (hh : Rep h) (ha : Rep a) (hc : (a < h ∧ h < b) ∨ (b < h ∧ h < a)) :
    0 ≤ paramF h a b ∧ paramF h a b ≤ 1 := by
  have r1 : Rep 1 := isF_one.1
  rcases hc with ⟨h1, h2⟩ | ⟨h1, h2⟩
  · have p1 := rd_pos (hh.onGrid.sub ha.onGrid) (by linarith)
    have p2 : rd (h - a) ≤ rd (b - a) := rd_mono (by linarith)
    refine ⟨rd_nonneg (div_nonneg p1.le (p1.le.trans p2)), rd_le r1 ?_⟩
    rw [div_le_one (lt_of_lt_of_le p1 p2)]; exact p2
  · have p1 := (rd_neg_iff (hh.onGrid.sub ha.onGrid)).2 (by linarith)
    have p2 : rd (b - a) ≤ rd (h - a) := rd_mono (by linarith)
    refine ⟨rd_nonneg (div_nonneg_of_nonpos p1.le (p2.trans p1.le)), rd_le r1 ?_⟩
    rw [div_le_one_of_neg (lt_of_le_of_lt p2 p1)]; exact p2

theorem paramF_neg (h a b : ℝ) : paramF (-h) (-a) (-b) = paramF h a b := by
  unfold paramF
  rw [show -h - -a = -(h - a) by ring, show -b - -a = -(b - a) by ring, rd_neg, rd_neg, neg_div_neg_eq]

/-- and it does when both ends are clearly on the same side -/
theorem paramF_out {h a b : ℝ} (hh : Rep h) (ha : Rep a) (hb : Rep b) (h1 : |h| ≤ 1000) (h2 : |a| ≤ 1000) (h3 : |b| ≤ 1000)
    (hne : a ≠ b) (hc : (a + 1 / 10 ^ 11 ≤ h ∧ b + 1 / 10 ^ 11 ≤ h) ∨ (h + 1 / 10 ^ 11 ≤ a ∧ h + 1 / 10 ^ 11 ≤ b)) :
    paramF h a b < 0 ∨ 1 < paramF h a b := by
  -- it suffices to consider ascending edges
  have main : ∀ {h a b : ℝ}, Rep h → Rep a → Rep b → |h| ≤ 1000 → |a| ≤ 1000 → |b| ≤ 1000 → a < b →
      ((a + 1 / 10 ^ 11 ≤ h ∧ b + 1 / 10 ^ 11 ≤ h) ∨ (h + 1 / 10 ^ 11 ≤ a ∧ h + 1 / 10 ^ 11 ≤ b)) →
      paramF h a b < 0 ∨ 1 < paramF h a b := by
    clear hh ha hb h1 h2 h3 hne hc h a b
    intro h a b hh ha hb h1 h2 h3 hab hc
    have gN := hh.onGrid.sub ha.onGrid
    have gD := hb.onGrid.sub ha.onGrid
    have q := quot_err gN gD (by linarith : 0 < b - a).ne'
    have hD : b - a ≤ 2000 := by have := abs_le.1 h2; have := abs_le.1 h3; linarith
    have hN : |h - a| ≤ 2000 := by have := abs_sub_range h1 h2; linarith
    rcases hc with ⟨_, c⟩ | ⟨c, _⟩
    · right
      have t1 : 1 + 5 / 10 ^ 15 ≤ (h - a) / (b - a) := by
        rw [le_div_iff₀ (by linarith)]
        norm_num at *
        nlinarith
      rw [abs_of_nonneg (a := (h - a) / (b - a)) (by linarith)] at q
      have q1 := (abs_le.1 q).1
      have t2 : 1 + 1 / 2 ^ 52 ≤ rd (h - a) / rd (b - a) := by
        norm_num at *
        nlinarith
      have hr : Rep ((1 : ℝ) + 1 / 2 ^ 52) := by
        refine ⟨2 ^ 52 + 1, -52, by norm_num, by norm_num, ?_⟩
        rw [zpow_neg]
        norm_num
      have := le_rd hr t2
      unfold paramF
      have h0 : (0 : ℝ) < 1 / 2 ^ 52 := by positivity
      linarith
    · left
      have t1 : (h - a) / (b - a) ≤ -(5 / 10 ^ 15) := by
        rw [div_le_iff₀ (by linarith)]
        norm_num at *
        nlinarith
      rw [abs_of_nonpos (a := (h - a) / (b - a)) (by linarith)] at q
      have q1 := (abs_le.1 q).2
      have t2 : rd (h - a) / rd (b - a) ≤ -(1 / 2 ^ 60) := by
        norm_num at *
        nlinarith
      have hr : Rep (-((1 : ℝ) / 2 ^ 60)) := by
        have := (rep_zpow (e := -60) (by norm_num)).neg
        rw [zpow_neg] at this
        rw [one_div]
        exact_mod_cast this
      have := rd_le hr t2
      unfold paramF
      have h0 : (0 : ℝ) < 1 / 2 ^ 60 := by positivity
      linarith
  rcases lt_or_gt_of_ne hne with hl | hl
  · exact main hh ha hb h1 h2 h3 hl hc
  · rw [← paramF_neg]
    refine main hh.neg ha.neg hb.neg (by rwa [abs_neg]) (by rwa [abs_neg]) (by rwa [abs_neg]) (by linarith) ?_
    rcases hc with ⟨c1, c2⟩ | ⟨c1, c2⟩
    · exact Or.inr ⟨by linarith, by linarith⟩
    · exact Or.inl ⟨by linarith, by linarith⟩

theorem abs_le_big {x : ℝ} {M : ℝ} (h : |x| ≤ M) (hM : M ≤ 2 ^ 100) : |x| ≤ 2 ^ 100 := h.trans hM

/-- the program's intersection of a segment with a horizontal plane -/
theorem segment_level {h : ℝ} {a b : R3} (hh : IsF h) (ha : a.isF) (hb : b.isF) (rh : |h| ≤ 1000) (ra : a.inRange) (rb : b.inRange) :
    (levelF h).intersectSegment a.f64 b.f64 =
      if a.z = b.z then none
      else if paramF h a.z b.z < 0 ∨ 1 < paramF h a.z b.z then none
      else some ((⟨coordF (paramF h a.z b.z) a.x b.x, coordF (paramF h a.z b.z) a.y b.y, coordF (paramF h a.z b.z) a.z b.z⟩ : R3).f64) := by
  have hp : (⟨0, 0, h⟩ : R3).isF := ⟨isF_zero, isF_zero, hh⟩
  have hA : a.f64.toVector.dot (levelF h).n = B64.of a.z := dot_level ha
  have hB : b.f64.toVector.dot (levelF h).n = B64.of b.z := dot_level hb
  have hP : (levelF h).p.toVector.dot (levelF h).n = B64.of h := dot_level hp
  unfold Plane.intersectSegment
  simp only [hA, hB, hP, B64.eq_of ha.2.2 hb.2.2]
  by_cases he : a.z = b.z
  · simp [he]
  · simp only [he, decide_false, Bool.false_eq_true, if_false]
    have d1 := abs_sub_range rh ra.2.2
    have d2 := abs_sub_range rb.2.2 ra.2.2
    have F1 : IsF (rd (h - a.z)) := isF_rd (d1.trans (by norm_num))
    have F2 : IsF (rd (b.z - a.z)) := isF_rd (d2.trans (by norm_num))
    have hD : rd (b.z - a.z) ≠ 0 := by
      rw [Ne, rd_eq_zero (hb.2.2.1.onGrid.sub ha.2.2.1.onGrid)]
      intro h; exact he (by linarith)
    rw [B64.sub_of hh ha.2.2, B64.sub_of hb.2.2 ha.2.2, B64.div_of F1 F2 hD]
    change (if ((B64.of (paramF h a.z b.z) <? Flt.lit 0 0) || (Flt.lit 1 0 <? B64.of (paramF h a.z b.z))) = true then none
      else some (a.f64.shift ((a.f64.vectorTo b.f64).mulScalar (B64.of (paramF h a.z b.z))))) = _
    have rp : rd (paramF h a.z b.z) = paramF h a.z b.z := by unfold paramF; rw [rd_rd]
    rw [B64.lit0, B64.lit1, B64.lt_of_left isF_zero, B64.lt_of_right isF_one, rp]
    simp only [Bool.or_eq_true, decide_eq_true_eq]
    by_cases ho : paramF h a.z b.z < 0 ∨ 1 < paramF h a.z b.z
    · rw [if_pos ho, if_pos ho]
    · rw [if_neg ho, if_neg ho]
      push Not at ho
      have hT : |paramF h a.z b.z| ≤ 1 := by rw [abs_le]; constructor <;> linarith [ho.1, ho.2]
      have FT : IsF (paramF h a.z b.z) := isF_rep (rep_rd _) (hT.trans (by norm_num))
      generalize paramF h a.z b.z = T at *
      have one : ∀ {x y : ℝ}, IsF x → IsF y → |x| ≤ 1000 → |y| ≤ 1000 →
          B64.of x + (B64.of y - B64.of x) * B64.of T = B64.of (coordF T x y) := by
        intro x y hx hy bx by'
        have d := abs_sub_range by' bx
        have F := isF_rd (d.trans (by norm_num))
        have g := rd_bound (by norm_num) d
        have g2 : |rd (y - x) * T| ≤ 2001 := by
          rw [abs_mul]
          calc |rd (y - x)| * |T| ≤ 2001 * 1 := mul_le_mul (by norm_num at *; linarith) hT (abs_nonneg _) (by norm_num)
            _ = 2001 := by norm_num
        have F2 := isF_rd (g2.trans (by norm_num))
        rw [B64.sub_of hy hx, B64.mul_of F FT, B64.add_of hx F2]
        rfl
      have e : a.f64.shift ((a.f64.vectorTo b.f64).mulScalar (B64.of T)) =
          ⟨B64.of a.x + (B64.of b.x - B64.of a.x) * B64.of T, B64.of a.y + (B64.of b.y - B64.of a.y) * B64.of T,
            B64.of a.z + (B64.of b.z - B64.of a.z) * B64.of T⟩ := rfl
      rw [e, one ha.1 hb.1 ra.1 rb.1, one ha.2.1 hb.2.1 ra.2.1 rb.2.1, one ha.2.2 hb.2.2 ra.2.2 rb.2.2]
      rfl

/-! ## comparisons -/

theorem rd_tol_le : rd tol ≤ 100001 / 10 ^ 11 ∧ 0 < rd tol := by
  have h : |tol| ≤ tol := (abs_of_pos tol_pos).le
  have := abs_le.1 (rd_err (by unfold tol; norm_num) h)
  unfold tol at *
  norm_num at *
  constructor <;> linarith

/-- coordinates that are clearly apart are told apart -/
theorem almostZero_apart {x y : ℝ} (hx : IsF x) (hy : IsF y) (bx : |x| ≤ 1100) (by' : |y| ≤ 1100) (h : 101 / 10 ^ 8 ≤ |x - y|) :
    almostZero (B64.of x - B64.of y) = false := by
  have d := abs_sub_range bx by'
  rw [B64.sub_of hx hy, B64.almostZero_of (isF_rd (d.trans (by norm_num)))]
  have e := rd_err (by norm_num) d
  have t := rd_tol_le.1
  have := abs_sub_abs_le_abs_sub (x - y) (rd (x - y))
  rw [abs_sub_comm (x - y)] at this
  simp only [decide_eq_false_iff_not, not_lt]
  norm_num at *
  linarith

/-- equal coordinates are close -/
theorem almostZero_same {x : ℝ} (hx : IsF x) : almostZero (B64.of x - B64.of x) = true := by
  rw [B64.sub_of hx hx, sub_self, rd_zero, B64.almostZero_of isF_zero]
  simp [rd_tol_le.2]

/-- within 1.1 m -/
def R3.inBox (w : R3) : Prop := |w.x| ≤ 1100 ∧ |w.y| ≤ 1100 ∧ |w.z| ≤ 1100

theorem equal_apart {u v : R3} (hu : u.isF) (hv : v.isF) (bu : u.inBox) (bv : v.inBox)
    (h : 101 / 10 ^ 8 ≤ |u.x - v.x| ∨ 101 / 10 ^ 8 ≤ |u.y - v.y|) : u.f64.equal v.f64 = false := by
  unfold Point.equal
  simp only [R3.f64]
  rcases h with h | h
  · rw [almostZero_apart hu.1 hv.1 bu.1 bv.1 h]; rfl
  · rw [almostZero_apart hu.2.1 hv.2.1 bu.2.1 bv.2.1 h]; simp

/-! ## stored points -/

theorem r8_abs {c : ℝ} (h : |c| ≤ 1000) : |r8 c| ≤ 1001 := by
  have h1 := r8_bounds c
  have := abs_sub_abs_le_abs_sub (r8 c) c
  norm_num at *
  linarith

/-- the stored coordinate is within half a unit of the eighth decimal, up to the last bit -/
theorem store_err {c : ℝ} (h : |c| ≤ 1000) : |rd (r8 c) - c| ≤ 1 / 2 / 10 ^ 8 + 2 / 10 ^ 13 ∧ |rd (r8 c)| ≤ 1100 ∧ IsF (rd (r8 c)) := by
  have h0 := r8_abs h
  have h1 := r8_bounds c
  have h2 := rd_err (by norm_num) h0
  have h3 := abs_add_le (rd (r8 c) - r8 c) (r8 c - c)
  rw [sub_add_sub_cancel] at h3
  have h4 := rd_bound (by norm_num) h0
  refine ⟨?_, ?_, isF_rd (h0.trans (by norm_num))⟩
  · norm_num at *; linarith
  · norm_num at *; linarith

/-- differences of stored coordinates -/
theorem store_diff {c d : ℝ} (hc : |c| ≤ 1000) (hd : |d| ≤ 1000) :
    |rd (rd (r8 d) - rd (r8 c)) - (d - c)| ≤ 101 / 10 ^ 10 ∧ IsF (rd (rd (r8 d) - rd (r8 c))) ∧ |rd (rd (r8 d) - rd (r8 c))| ≤ 2300 := by
  obtain ⟨c1, c2, _⟩ := store_err hc
  obtain ⟨d1, d2, _⟩ := store_err hd
  have b := abs_sub_range d2 c2
  have e := rd_err (by norm_num) b
  have e2 := rd_bound (by norm_num) b
  refine ⟨?_, isF_rd (b.trans (by norm_num)), by norm_num at *; linarith⟩
  rw [abs_le] at *
  norm_num at *
  constructor <;> linarith

/-- a component of a vector product of differences -/
noncomputable def detF (p q r s : ℝ) : ℝ := rd (rd (rd p * rd q) - rd (rd r * rd s))

theorem mul_diff_err {p q : ℝ} (hp : |p| ≤ 2000) (hq : |q| ≤ 2000) :
    |rd (rd p * rd q) - p * q| ≤ 16 / 10 ^ 10 ∧ |rd p * rd q| ≤ 4 * 10 ^ 6 + 1 ∧ |rd (rd p * rd q)| ≤ 4 * 10 ^ 6 + 2 := by
  have e1 := rd_err (by norm_num) hp
  have e2 := rd_err (by norm_num) hq
  have b1 := rd_bound (by norm_num) hp
  have b2 := rd_bound (by norm_num) hq
  have m := abs_mul_sub_mul p q (rd p) (rd q)
  have m1 : |rd p - p| * |rd q| ≤ 2000 * (12 / 10 ^ 17) * (2000 * (1 + 12 / 10 ^ 17)) := mul_le_mul e1 b2 (abs_nonneg _) (by norm_num)
  have m2 : |p| * |rd q - q| ≤ 2000 * (2000 * (12 / 10 ^ 17)) := mul_le_mul hp e2 (abs_nonneg _) (by norm_num)
  have b3 : |rd p * rd q| ≤ 4 * 10 ^ 6 + 1 := by
    rw [abs_mul]
    refine (mul_le_mul b1 b2 (abs_nonneg _) (by norm_num)).trans (by norm_num)
  have e3 := rd_err (by norm_num) b3
  have b4 := rd_bound (by norm_num) b3
  refine ⟨?_, b3, by norm_num at *; linarith⟩
  have t := abs_add_le (rd (rd p * rd q) - rd p * rd q) (rd p * rd q - p * q)
  rw [sub_add_sub_cancel] at t
  norm_num at *
  linarith

theorem det_err {p q r s : ℝ} (hp : |p| ≤ 2000) (hq : |q| ≤ 2000) (hr : |r| ≤ 2000) (hs : |s| ≤ 2000) :
    |detF p q r s - (p * q - r * s)| ≤ 1 / 10 ^ 8 ∧ IsF (detF p q r s) := by
  obtain ⟨a1, a2, a3⟩ := mul_diff_err hp hq
  obtain ⟨b1, b2, b3⟩ := mul_diff_err hr hs
  have d : |rd (rd p * rd q) - rd (rd r * rd s)| ≤ 8 * 10 ^ 6 + 4 := by
    have := abs_sub (rd (rd p * rd q)) (rd (rd r * rd s))
    linarith
  have e := rd_err (by norm_num) d
  refine ⟨?_, isF_rd (d.trans (by norm_num))⟩
  unfold detF
  rw [abs_le] at *
  norm_num at *
  constructor <;> linarith

theorem det_of {p q r s : ℝ} (hp : |p| ≤ 2000) (hq : |q| ≤ 2000) (hr : |r| ≤ 2000) (hs : |s| ≤ 2000) :
    B64.of (rd p) * B64.of (rd q) - B64.of (rd r) * B64.of (rd s) = B64.of (detF p q r s) := by
  have F : ∀ {x : ℝ}, |x| ≤ 2000 → IsF (rd x) := fun h => isF_rd (h.trans (by norm_num))
  obtain ⟨_, a2, _⟩ := mul_diff_err hp hq
  obtain ⟨_, b2, _⟩ := mul_diff_err hr hs
  rw [B64.mul_of (F hp) (F hq), B64.mul_of (F hr) (F hs), B64.sub_of (isF_rd (a2.trans (by norm_num))) (isF_rd (b2.trans (by norm_num)))]
  rfl

/-! ## the side on which the material lies -/

/-- the sign of the program's triple product is the exact one -/
theorem side_sign {dx dy nx ny a b n1 n2 : ℝ} (hperp : dx * nx + dy * ny = 0) (hneg : dy * nx - dx * ny < 0)
    (hd : 103 / 10 ^ 8 ≤ |dx| ∨ 103 / 10 ^ 8 ≤ |dy|) (hn : 1 / 10 ^ 5 ≤ |nx| ∨ 1 / 10 ^ 5 ≤ |ny|)
    (ha : |a - dx| ≤ 101 / 10 ^ 10) (hb : |b - dy| ≤ 101 / 10 ^ 10) (h1 : |n1 - nx| ≤ 1 / 10 ^ 8) (h2 : |n2 - ny| ≤ 1 / 10 ^ 8) :
    rd (b * n1) + rd (-a * n2) < 0 := by
  obtain ⟨D, hD0, hDx, hDy, hDm⟩ : ∃ D : ℝ, 103 / 10 ^ 8 ≤ D ∧ |dx| ≤ D ∧ |dy| ≤ D ∧ D * D ≤ dx * dx + dy * dy := by
    refine ⟨max |dx| |dy|, ?_, le_max_left _ _, le_max_right _ _, ?_⟩
    · rcases hd with h | h
      · exact h.trans (le_max_left _ _)
      · exact h.trans (le_max_right _ _)
    · rcases max_choice |dx| |dy| with h | h <;> rw [h, abs_mul_abs_self] <;> nlinarith [mul_self_nonneg dx, mul_self_nonneg dy]
  obtain ⟨W, hW0, hWx, hWy, hWm⟩ : ∃ W : ℝ, 1 / 10 ^ 5 ≤ W ∧ |nx| ≤ W ∧ |ny| ≤ W ∧ W * W ≤ nx * nx + ny * ny := by
    refine ⟨max |nx| |ny|, ?_, le_max_left _ _, le_max_right _ _, ?_⟩
    · rcases hn with h | h
      · exact h.trans (le_max_left _ _)
      · exact h.trans (le_max_right _ _)
    · rcases max_choice |nx| |ny| with h | h <;> rw [h, abs_mul_abs_self] <;> nlinarith [mul_self_nonneg nx, mul_self_nonneg ny]
  have hDp : 0 < D := by norm_num at hD0; linarith
  have hWp : 0 < W := by norm_num at hW0; linarith
  have hDW : 0 < D * W := mul_pos hDp hWp
  have hDW0 : 103 / 10 ^ 13 ≤ D * W := by
    calc (103 : ℝ) / 10 ^ 13 = 103 / 10 ^ 8 * (1 / 10 ^ 5) := by norm_num
      _ ≤ D * W := mul_le_mul hD0 hW0 (by norm_num) hDp.le
  -- the exact triple product is large
  have hS : dy * nx - dx * ny ≤ -(D * W) := by
    have hsq : (D * W) * (D * W) ≤ (dy * nx - dx * ny) * (dy * nx - dx * ny) := by
      have e : (dy * nx - dx * ny) * (dy * nx - dx * ny) = (dx * dx + dy * dy) * (nx * nx + ny * ny) := by
        have : (dx * nx + dy * ny) * (dx * nx + dy * ny) = 0 := by rw [hperp]; ring
        linarith [this, (by ring : (dy * nx - dx * ny) * (dy * nx - dx * ny) + (dx * nx + dy * ny) * (dx * nx + dy * ny) =
          (dx * dx + dy * dy) * (nx * nx + ny * ny))]
      rw [e]
      calc (D * W) * (D * W) = (D * D) * (W * W) := by ring
        _ ≤ _ := mul_le_mul hDm hWm (mul_self_nonneg _) (by nlinarith [mul_self_nonneg dx, mul_self_nonneg dy])
    by_contra hc
    push Not at hc
    nlinarith
  -- one product
  have one : ∀ {d d' n n' : ℝ}, |d| ≤ D → |n| ≤ W → |d' - d| ≤ 101 / 10 ^ 10 → |n' - n| ≤ 1 / 10 ^ 8 →
      |rd (d' * n') - d * n| ≤ D * W / 50 := by
    intro d d' n n' hd hn hd' hn'
    have q1 : (101 : ℝ) / 10 ^ 10 ≤ D * (99 / 10 ^ 4) := by norm_num at *; linarith
    have q2 : (1 : ℝ) / 10 ^ 8 ≤ W * (1 / 10 ^ 3) := by norm_num at *; linarith
    have bn : |n'| ≤ W * (1001 / 1000) := by
      have := abs_sub_abs_le_abs_sub n' n
      linarith
    have m := abs_mul_sub_mul d n d' n'
    have m1 : |d' - d| * |n'| ≤ D * (99 / 10 ^ 4) * (W * (1001 / 1000)) := mul_le_mul (hd'.trans q1) bn (abs_nonneg _) (by positivity)
    have m2 : |d| * |n' - n| ≤ D * (W * (1 / 10 ^ 3)) := mul_le_mul hd (hn'.trans q2) (abs_nonneg _) hDp.le
    have mm : |d' * n' - d * n| ≤ D * W * (110 / 10 ^ 4) := by
      have e1 : D * (99 / 10 ^ 4) * (W * (1001 / 1000)) = D * W * (99 / 10 ^ 4 * (1001 / 1000)) := by ring
      have e2 : D * (W * (1 / 10 ^ 3)) = D * W * (1 / 10 ^ 3) := by ring
      rw [e1] at m1
      rw [e2] at m2
      norm_num at *
      linarith
    have dn : |d * n| ≤ D * W := by rw [abs_mul]; exact mul_le_mul hd hn (abs_nonneg _) hDp.le
    have b : |d' * n'| ≤ D * W * 10 := by
      have := abs_sub_abs_le_abs_sub (d' * n') (d * n)
      norm_num at *
      linarith
    have e := rd_err (by norm_num at *; linarith) b
    have t := abs_add_le (rd (d' * n') - d' * n') (d' * n' - d * n)
    rw [sub_add_sub_cancel] at t
    norm_num at *
    linarith
  have r1 := abs_le.1 (one hDy hWx hb h1)
  have r2 := abs_le.1 (one (d := -dx) (d' := -a) (by rwa [abs_neg]) hWy (by rw [show -a - -dx = -(a - dx) by ring, abs_neg]; exact ha) h2)
  have : -dx * ny = -(dx * ny) := by ring
  rw [this] at r2
  linarith [r1.2, r2.2]

end Goosli
