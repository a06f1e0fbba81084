import Verif.Proofs.B64Geom
import Verif.Props.C43
import Mathlib.Analysis.SpecialFunctions.Trigonometric.Bounds
import Mathlib.Analysis.Real.Pi.Bounds
/-!
# Fill planes in binary64, in the range of a printer
-/
set_option autoImplicit false
namespace Goosli
open Flt

/-! ## the intersection of a segment with any plane, from the three projections -/

theorem segment_general {pl : Plane B64} {u v : R3} {A B H : ℝ} (hA : u.f64.toVector.dot pl.n = B64.of A)
    (hB : v.f64.toVector.dot pl.n = B64.of B) (hP : pl.p.toVector.dot pl.n = B64.of H) (FA : IsF A) (FB : IsF B) (FH : IsF H)
    (bA : |A| ≤ 10 ^ 5) (bB : |B| ≤ 10 ^ 5) (bH : |H| ≤ 10 ^ 5) (hu : u.isF) (hv : v.isF) (ru : u.inBox) (rv : v.inBox) :
    pl.intersectSegment u.f64 v.f64 =
      if A = B then none
      else if paramF H A B < 0 ∨ 1 < paramF H A B then none
      else some ((⟨coordF (paramF H A B) u.x v.x, coordF (paramF H A B) u.y v.y, coordF (paramF H A B) u.z v.z⟩ : R3).f64) := by
  unfold Plane.intersectSegment
  simp only [hA, hB, hP, B64.eq_of FA FB]
  by_cases he : A = B
  · simp [he]
  · simp only [he, decide_false, Bool.false_eq_true, if_false]
    have d1 := abs_sub_range bH bA
    have d2 := abs_sub_range bB bA
    have F1 : IsF (rd (H - A)) := isF_rd (d1.trans (by norm_num))
    have F2 : IsF (rd (B - A)) := isF_rd (d2.trans (by norm_num))
    have hD : rd (B - A) ≠ 0 := by
      rw [Ne, rd_eq_zero (FB.1.onGrid.sub FA.1.onGrid)]
      intro h; exact he (by linarith)
    rw [B64.sub_of FH FA, B64.sub_of FB FA, B64.div_of F1 F2 hD]
    change (if ((B64.of (paramF H A B) <? Flt.lit 0 0) || (Flt.lit 1 0 <? B64.of (paramF H A B))) = true then none
      else some (u.f64.shift ((u.f64.vectorTo v.f64).mulScalar (B64.of (paramF H A B))))) = _
    have rp : rd (paramF H A B) = paramF H A B := by unfold paramF; rw [rd_rd]
    rw [B64.lit0, B64.lit1, B64.lt_of_left isF_zero, B64.lt_of_right isF_one, rp]
    simp only [Bool.or_eq_true, decide_eq_true_eq]
    by_cases ho : paramF H A B < 0 ∨ 1 < paramF H A B
    · rw [if_pos ho, if_pos ho]
    · rw [if_neg ho, if_neg ho]
      push Not at ho
      have hT : |paramF H A B| ≤ 1 := by rw [abs_le]; constructor <;> linarith [ho.1, ho.2]
      have FT : IsF (paramF H A B) := isF_rep (rep_rd _) (hT.trans (by norm_num))
      generalize paramF H A B = T at *
      have one : ∀ {x y : ℝ}, IsF x → IsF y → |x| ≤ 1100 → |y| ≤ 1100 →
          B64.of x + (B64.of y - B64.of x) * B64.of T = B64.of (coordF T x y) := by
        intro x y hx hy bx by'
        have d := abs_sub_range by' bx
        have F := isF_rd (d.trans (by norm_num))
        have g := rd_bound (by norm_num) d
        have g2 : |rd (y - x) * T| ≤ 2201 := by
          rw [abs_mul]
          calc |rd (y - x)| * |T| ≤ 2201 * 1 := mul_le_mul (by norm_num at *; linarith) hT (abs_nonneg _) (by norm_num)
            _ = 2201 := by norm_num
        have F2 := isF_rd (g2.trans (by norm_num))
        rw [B64.sub_of hy hx, B64.mul_of F FT, B64.add_of hx F2]
        rfl
      have e : u.f64.shift ((u.f64.vectorTo v.f64).mulScalar (B64.of T)) =
          ⟨B64.of u.x + (B64.of v.x - B64.of u.x) * B64.of T, B64.of u.y + (B64.of v.y - B64.of u.y) * B64.of T,
            B64.of u.z + (B64.of v.z - B64.of u.z) * B64.of T⟩ := rfl
      rw [e, one hu.1 hv.1 ru.1 rv.1, one hu.2.1 hv.2.1 ru.2.1 rv.2.1, one hu.2.2 hv.2.2 ru.2.2 rv.2.2]
      rfl

/-- a coordinate of a point between the ends of a side -/
theorem coord_box {T x y : ℝ} (t0 : 0 ≤ T) (t1 : T ≤ 1) (hx : |x| ≤ 1100) (hy : |y| ≤ 1100) :
    |coordF T x y - (x + T * (y - x))| ≤ 1 / 10 ^ 12 ∧ IsF (coordF T x y) := by
  have hD := abs_sub_range hy hx
  norm_num at hD
  have e1 := rd_err (M := 2200) (by norm_num) hD
  have b1 := rd_bound (M := 2200) (by norm_num) hD
  have e2 : |rd (y - x) * T - (y - x) * T| ≤ 2200 * (12 / 10 ^ 17) := by
    rw [← sub_mul, abs_mul, abs_of_nonneg t0]
    calc |rd (y - x) - (y - x)| * T ≤ 2200 * (12 / 10 ^ 17) * 1 := mul_le_mul e1 t1 t0 (by norm_num)
      _ = _ := by norm_num
  have b2 : |rd (y - x) * T| ≤ 2201 := by
    rw [abs_mul, abs_of_nonneg t0]
    calc |rd (y - x)| * T ≤ 2201 * 1 := mul_le_mul (by norm_num at *; linarith) t1 t0 (by norm_num)
      _ = _ := by norm_num
  have e3 := rd_err (M := 2201) (by norm_num) b2
  have hX : |x + T * (y - x)| ≤ 1100 := by
    rw [abs_le] at hx hy ⊢
    constructor <;> nlinarith
  have e4 : |x + rd (rd (y - x) * T) - (x + T * (y - x))| ≤ 6 / 10 ^ 13 := by
    have e : x + rd (rd (y - x) * T) - (x + T * (y - x)) =
        (rd (rd (y - x) * T) - rd (y - x) * T) + (rd (y - x) * T - (y - x) * T) := by ring
    rw [e]
    have := abs_add_le (rd (rd (y - x) * T) - rd (y - x) * T) (rd (y - x) * T - (y - x) * T)
    norm_num at *
    linarith
  have b4 : |x + rd (rd (y - x) * T)| ≤ 1101 := by
    have := abs_sub_abs_le_abs_sub (x + rd (rd (y - x) * T)) (x + T * (y - x))
    norm_num at *
    linarith
  have e5 := rd_err (M := 1101) (by norm_num) b4
  refine ⟨?_, isF_rd (b4.trans (by norm_num))⟩
  unfold coordF
  have := abs_add_le (rd (x + rd (rd (y - x) * T)) - (x + rd (rd (y - x) * T))) (x + rd (rd (y - x) * T) - (x + T * (y - x)))
  rw [sub_add_sub_cancel] at this
  norm_num at *
  linarith

theorem coord_same {T x : ℝ} (hx : Rep x) : coordF T x x = x := by
  unfold coordF
  rw [sub_self, rd_zero, zero_mul, rd_zero, add_zero, rd_of_rep hx]

/-! ## the parameter, from approximate projections -/

/-- whatever the ends are, the point at a parameter in `[0, 1]` is on the plane -/
theorem param_on {n d n' d' : ℝ} (hn : |n' - n| ≤ 4 / 10 ^ 12) (hd : |d' - d| ≤ 2 / 10 ^ 12) (bd : |d'| ≤ 10 ^ 4) (h0 : d' ≠ 0)
    (t0 : 0 ≤ rd (n' / d')) (t1 : rd (n' / d') ≤ 1) : |rd (n' / d') * d - n| ≤ 1 / 10 ^ 11 := by
  have r2 : Rep 2 := (show IsF 2 by simpa using isF_int (n := 2) (by norm_num)).1
  have bq : |n' / d'| ≤ 2 := by
    rw [abs_le]
    constructor
    · by_contra hc
      have := rd_le r2.neg (not_le.1 hc).le
      linarith
    · by_contra hc
      have := le_rd r2 (not_le.1 hc).le
      linarith
  have e2 := rd_err (M := 2) (by norm_num) bq
  have e : rd (n' / d') * d - n = rd (n' / d') * (d - d') + (rd (n' / d') - n' / d') * d' + (n' - n) := by
    have : n' / d' * d' = n' := div_mul_cancel₀ _ h0
    linear_combination this
  rw [e]
  refine (abs_add_three _ _ _).trans ?_
  rw [abs_mul, abs_mul, abs_of_nonneg t0, abs_sub_comm d]
  have m1 : rd (n' / d') * |d' - d| ≤ 1 * (2 / 10 ^ 12) := mul_le_mul t1 hd (abs_nonneg _) (by norm_num)
  have m2 := mul_le_mul e2 bd (abs_nonneg _) (by norm_num)
  norm_num at *
  linarith

/-- the quotient decides on which side of the plane the ends are -/
theorem param_sides {n d n' d' g : ℝ} (hg : 1 / 10 ^ 7 ≤ g) (hn : |n' - n| ≤ 4 / 10 ^ 12) (hd : |d' - d| ≤ 2 / 10 ^ 12) (bn : |n'| ≤ 10 ^ 5)
    (bd : |d'| ≤ 10 ^ 4) (h0 : d' ≠ 0) (gn : g ≤ |n|) (gm : g ≤ |d - n|) :
    (¬ (rd (n' / d') < 0 ∨ 1 < rd (n' / d')) ↔ (0 < n ∧ n < d) ∨ (n < 0 ∧ d < n)) ∧
    (¬ (rd (n' / d') < 0 ∨ 1 < rd (n' / d')) → |rd (n' / d') - n / d| ≤ 41 / 10 ^ 13 / g ∧ |rd (n' / d') * d - n| ≤ 1 / 10 ^ 11) := by
  -- it suffices to consider positive denominators
  have main : ∀ {n d n' d' : ℝ}, |n' - n| ≤ 4 / 10 ^ 12 → |d' - d| ≤ 2 / 10 ^ 12 → |n'| ≤ 10 ^ 5 → |d'| ≤ 10 ^ 4 → 0 < d' →
      g ≤ |n| → g ≤ |d - n| →
      (¬ (rd (n' / d') < 0 ∨ 1 < rd (n' / d')) ↔ (0 < n ∧ n < d) ∨ (n < 0 ∧ d < n)) ∧
      (¬ (rd (n' / d') < 0 ∨ 1 < rd (n' / d')) → |rd (n' / d') - n / d| ≤ 41 / 10 ^ 13 / g ∧ |rd (n' / d') * d - n| ≤ 1 / 10 ^ 11) := by
    clear hn hd bn bd h0 gn gm n d n' d'
    intro n d n' d' hn hd bn bd h0 gn gm
    have a1 := abs_le.1 hn
    have a2 := abs_le.1 hd
    rw [abs_of_pos h0] at bd
    have r1 : Rep 1 := isF_one.1
    have dpos : -(2 / 10 ^ 12) ≤ d := by linarith
    have key : ¬ (rd (n' / d') < 0 ∨ 1 < rd (n' / d')) → 0 < n ∧ n < d := by
      intro h
      push Not at h
      have q0 : 0 ≤ n' := by
        by_contra hc
        push Not at hc
        have nn : n ≤ -g := by
          rcases le_abs.1 gn with h | h
          · norm_num at *; linarith
          · linarith
        have nn' : n' ≤ -(1 / 10 ^ 8) := by norm_num at *; linarith
        have : n' / d' ≤ -(1 / 2 ^ 60) := by
          rw [div_le_iff₀ h0]
          norm_num at *
          nlinarith
        have hr : Rep (-((1 : ℝ) / 2 ^ 60)) := by
          have := (rep_zpow (e := -60) (by norm_num)).neg
          rw [zpow_neg] at this
          rw [one_div]
          exact_mod_cast this
        have := rd_le hr this
        have h0 : (0 : ℝ) < 1 / 2 ^ 60 := by positivity
        linarith [h.1]
      have npos : g ≤ n := by
        rcases le_abs.1 gn with h | h
        · exact h
        · exfalso; norm_num at *; linarith
      have q1 : n' / d' < 1 + 1 / 2 ^ 52 := by
        by_contra hc
        push Not at hc
        have hr : Rep ((1 : ℝ) + 1 / 2 ^ 52) := by
          refine ⟨2 ^ 52 + 1, -52, by norm_num, by norm_num, ?_⟩
          rw [zpow_neg]
          norm_num
        have := le_rd hr hc
        have h0 : (0 : ℝ) < 1 / 2 ^ 52 := by positivity
        linarith [h.2]
      rw [div_lt_iff₀ h0] at q1
      have q2 : n' ≤ d' + 3 / 10 ^ 12 := by
        norm_num at *
        nlinarith
      have : g ≤ d - n := by
        rcases le_abs.1 gm with h | h
        · exact h
        · exfalso; norm_num at *; linarith
      norm_num at *
      constructor <;> linarith
    have hin : (0 < n ∧ n < d) → 0 ≤ n' / d' ∧ n' / d' ≤ 1 ∧ g ≤ n ∧ g ≤ d - n := by
      rintro ⟨h1, h2⟩
      rw [abs_of_pos h1] at gn
      rw [abs_of_pos (by linarith)] at gm
      refine ⟨div_nonneg (by norm_num at *; linarith) h0.le, ?_, gn, gm⟩
      rw [div_le_one h0]
      norm_num at *
      linarith
    refine ⟨⟨fun h => Or.inl (key h), ?_⟩, ?_⟩
    · rintro (h | ⟨h1, h2⟩)
      · obtain ⟨h1, h2, -⟩ := hin h
        push Not
        exact ⟨rd_nonneg h1, rd_le r1 h2⟩
      · exfalso
        rw [abs_of_neg h1] at gn
        norm_num at *
        linarith
    · intro h
      obtain ⟨h1, h2, gn, gm⟩ := hin (key h)
      have hdpos : 2 * g ≤ d := by linarith
      have hd0 : 0 < d := by norm_num at *; linarith
      have e1 : |n' / d' - n / d| ≤ 61 / 10 ^ 13 / d := by
        have e : n' / d' - n / d = ((n' - n) - n' / d' * (d' - d)) / d := by
          field_simp
          ring
        rw [e, abs_div, abs_of_pos hd0]
        refine div_le_div_of_nonneg_right ?_ hd0.le
        have t1 := abs_sub (n' - n) (n' / d' * (d' - d))
        have t2 : |n' / d' * (d' - d)| ≤ 1 * (2 / 10 ^ 12) := by
          rw [abs_mul, abs_of_nonneg h1]
          exact mul_le_mul h2 hd (abs_nonneg _) (by norm_num)
        norm_num at *
        linarith
      have e2 := rd_err (M := 1) (by norm_num) (show |n' / d'| ≤ 1 by rw [abs_of_nonneg h1]; exact h2)
      have dB : d ≤ 10 ^ 4 + 1 := by norm_num at *; linarith
      have e3 : |rd (n' / d') - n / d| * d ≤ 62 / 10 ^ 13 + 2 / 10 ^ 12 := by
        have t := abs_add_le (rd (n' / d') - n' / d') (n' / d' - n / d)
        rw [sub_add_sub_cancel] at t
        have t2 : |n' / d' - n / d| * d ≤ 61 / 10 ^ 13 := by
          calc |n' / d' - n / d| * d ≤ 61 / 10 ^ 13 / d * d := mul_le_mul_of_nonneg_right e1 hd0.le
            _ = 61 / 10 ^ 13 := by field_simp
        have t3 : |rd (n' / d') - n' / d'| * d ≤ 1 * (12 / 10 ^ 17) * (10 ^ 4 + 1) :=
          mul_le_mul e2 dB hd0.le (by norm_num)
        have t4 := mul_le_mul_of_nonneg_right t hd0.le
        rw [add_mul] at t4
        norm_num at *
        linarith
      refine ⟨?_, ?_⟩
      · have gpos : 0 < g := by norm_num at *; linarith
        rw [le_div_iff₀ gpos]
        have := mul_le_mul_of_nonneg_left hdpos (abs_nonneg (rd (n' / d') - n / d))
        norm_num at *
        linarith
      · have : rd (n' / d') * d - n = (rd (n' / d') - n / d) * d := by field_simp
        rw [this, abs_mul, abs_of_pos hd0]
        norm_num at *
        linarith
  rcases lt_or_gt_of_ne h0 with h0 | h0
  · have := main (n := -n) (d := -d) (n' := -n') (d' := -d') (by rw [← neg_sub', abs_neg]; exact hn) (by rw [← neg_sub', abs_neg]; exact hd)
      (by rwa [abs_neg]) (by rwa [abs_neg]) (by linarith) (by rwa [abs_neg]) (by rw [← neg_sub', abs_neg]; exact gm)
    rw [neg_div_neg_eq, neg_div_neg_eq] at this
    refine ⟨this.1.trans ?_, fun h => ?_⟩
    · constructor
      · rintro (⟨h1, h2⟩ | ⟨h1, h2⟩)
        · exact Or.inr ⟨by linarith, by linarith⟩
        · exact Or.inl ⟨by linarith, by linarith⟩
      · rintro (⟨h1, h2⟩ | ⟨h1, h2⟩)
        · exact Or.inr ⟨by linarith, by linarith⟩
        · exact Or.inl ⟨by linarith, by linarith⟩
    · obtain ⟨h1, h2⟩ := this.2 h
      refine ⟨h1, ?_⟩
      rw [show rd (n' / d') * d - n = -(rd (n' / d') * -d - -n) by ring, abs_neg]
      exact h2
  · exact main hn hd bn bd h0 gn gm

/-! ## vertical planes -/

/-- a vertical plane the fill lines of which run rather along Y than along X, as the program stores it -/
structure FillPlaneF (P N : R3) : Prop where
  pF : P.isF
  px : |P.x| ≤ 4000
  py : |P.y| ≤ 4000
  nF : N.isF
  nx : |N.x| ≤ 1
  ny : |N.y| ≤ 1
  nz : N.z = 0
  slope : 1 / 2 ≤ |N.x|

/-- the plane in the numbers of the program -/
noncomputable def planeF (P N : R3) : Plane B64 := ⟨P.f64, N.f64v⟩

/-- the projection on a horizontal normal, as it is computed -/
noncomputable def dotF (N u : R3) : ℝ := rd (rd (u.x * N.x) + rd (u.y * N.y))

theorem mul_unit {x n M : ℝ} (hx : |x| ≤ M) (hn : |n| ≤ 1) : |x * n| ≤ M := by
  rw [abs_mul]
  calc |x| * |n| ≤ M * 1 := mul_le_mul hx hn (abs_nonneg _) ((abs_nonneg x).trans hx)
    _ = M := mul_one M

theorem dotF_of {N u : R3} {M : ℝ} (hM : 1 ≤ M) (hM' : M ≤ 10 ^ 6) (hu : u.isF) (hN : N.isF) (hx : |u.x| ≤ M) (hy : |u.y| ≤ M) (nx : |N.x| ≤ 1)
    (ny : |N.y| ≤ 1) (nz : N.z = 0) :
    u.f64.toVector.dot N.f64v = B64.of (dotF N u) ∧ IsF (dotF N u) ∧ |dotF N u - (u.x * N.x + u.y * N.y)| ≤ M * (481 / 10 ^ 18) ∧
      |dotF N u| ≤ 21 / 10 * M := by
  have b1 := mul_unit hx nx
  have b2 := mul_unit hy ny
  have e1 := rd_err (by norm_num at *; linarith) b1
  have e2 := rd_err (by norm_num at *; linarith) b2
  have c1 := rd_bound (by norm_num at *; linarith) b1
  have c2 := rd_bound (by norm_num at *; linarith) b2
  have b3 : |rd (u.x * N.x) + rd (u.y * N.y)| ≤ 2 * M * (1 + 12 / 10 ^ 17) := by
    have := abs_add_le (rd (u.x * N.x)) (rd (u.y * N.y))
    linarith
  have e3 := rd_err (by norm_num at *; linarith) b3
  have F1 : IsF (rd (u.x * N.x)) := isF_rd (b1.trans (hM'.trans (by norm_num)))
  have F2 : IsF (rd (u.y * N.y)) := isF_rd (b2.trans (hM'.trans (by norm_num)))
  have F3 : IsF (dotF N u) := isF_rd (b3.trans (by norm_num at *; linarith))
  have e4 : |dotF N u - (u.x * N.x + u.y * N.y)| ≤ M * (481 / 10 ^ 18) := by
    unfold dotF
    rw [abs_le] at *
    norm_num at *
    constructor <;> linarith
  refine ⟨?_, F3, e4, ?_⟩
  · show B64.of u.x * B64.of N.x + B64.of u.y * B64.of N.y + B64.of u.z * B64.of N.z = _
    rw [nz, B64.mul_of hu.1 hN.1, B64.mul_of hu.2.1 hN.2.1, B64.mul_of hu.2.2 isF_zero, mul_zero, rd_zero, B64.add_of F1 F2]
    show B64.of (dotF N u) + B64.of 0 = _
    rw [B64.add_of F3 isF_zero, add_zero, rd_of_rep F3.1]
  · have t := abs_sub_abs_le_abs_sub (dotF N u) (u.x * N.x + u.y * N.y)
    have := abs_add_le (u.x * N.x) (u.y * N.y)
    norm_num at *
    linarith

theorem height_vert {P N u : R3} (nz : N.z = 0) : R3.height P N u = (u.x * N.x + u.y * N.y) - (P.x * N.x + P.y * N.y) := by
  simp [R3.height, R3.dot, nz]; ring

/-- a crossing of a side with a vertical plane is found exactly if there is one, close to where it is -/
theorem segment_vert {P N u v : R3} {g : ℝ} (hp : FillPlaneF P N) (hg : 1 / 10 ^ 7 ≤ g) (hg1 : g ≤ 1) (hu : u.isF) (hv : v.isF)
    (bu : u.inBox) (bv : v.inBox) (hz : u.z = v.z) (gu : g ≤ |R3.height P N u|) (gv : g ≤ |R3.height P N v|) :
    (cutsEdge P N (u, v) →
      ∃ w : R3, (planeF P N).intersectSegment u.f64 v.f64 = some w.f64 ∧ w.isF ∧ w.z = u.z ∧
        |w.x - (cutPoint P N (u, v)).x| ≤ 1 / 10 ^ 8 / g ∧ |w.y - (cutPoint P N (u, v)).y| ≤ 1 / 10 ^ 8 / g ∧
        |R3.height P N w| ≤ 2 / 10 ^ 11 ∧
        ∃ t : ℝ, 0 ≤ t ∧ t ≤ 1 ∧ |w.x - (u.x + t * (v.x - u.x))| ≤ 1 / 10 ^ 12 ∧ |w.y - (u.y + t * (v.y - u.y))| ≤ 1 / 10 ^ 12) ∧
    (¬ cutsEdge P N (u, v) → (planeF P N).intersectSegment u.f64 v.f64 = none) := by
  obtain ⟨dA, FA, eA, bA⟩ := dotF_of (M := 1100) (by norm_num) (by norm_num) hu hp.nF bu.1 bu.2.1 hp.nx hp.ny hp.nz
  obtain ⟨dB, FB, eB, bB⟩ := dotF_of (M := 1100) (by norm_num) (by norm_num) hv hp.nF bv.1 bv.2.1 hp.nx hp.ny hp.nz
  obtain ⟨dP, FP, eP, bP⟩ := dotF_of (M := 4000) (by norm_num) (by norm_num) hp.pF hp.nF hp.px hp.py hp.nx hp.ny hp.nz
  have seg := segment_general (pl := planeF P N) dA dB dP FA FB FP (bA.trans (by norm_num)) (bB.trans (by norm_num)) (bP.trans (by norm_num))
    hu hv bu bv
  have hu' := height_vert (P := P) (u := u) hp.nz
  have hv' := height_vert (P := P) (u := v) hp.nz
  set A := dotF N u
  set B := dotF N v
  set H := dotF N P
  have dn := abs_sub (H) A
  have dd := abs_sub B A
  have rn := rd_err (M := 10710) (by norm_num) (show |H - A| ≤ 10710 by linarith)
  have rdd := rd_err (M := 4620) (by norm_num) (show |B - A| ≤ 4620 by linarith)
  have hn : |rd (H - A) - -R3.height P N u| ≤ 4 / 10 ^ 12 := by
    rw [hu']
    rw [abs_le] at *
    norm_num at *
    constructor <;> linarith
  have hd : |rd (B - A) - (R3.height P N v - R3.height P N u)| ≤ 2 / 10 ^ 12 := by
    rw [hu', hv']
    rw [abs_le] at *
    norm_num at *
    constructor <;> linarith
  have hgp : 0 < g := by norm_num at *; linarith
  have une : R3.height P N u ≠ 0 := by intro h; rw [h, abs_zero] at gu; linarith
  have vne : R3.height P N v ≠ 0 := by intro h; rw [h, abs_zero] at gv; linarith
  have bn : |rd (H - A)| ≤ 10 ^ 5 := (rd_bound (M := 10710) (by norm_num) (by linarith)).trans (by norm_num)
  have bd : |rd (B - A)| ≤ 10 ^ 4 := (rd_bound (M := 4620) (by norm_num) (by linarith)).trans (by norm_num)
  have cuts : cutsEdge P N (u, v) ↔ (0 < -R3.height P N u ∧ -R3.height P N u < R3.height P N v - R3.height P N u) ∨
      (-R3.height P N u < 0 ∧ R3.height P N v - R3.height P N u < -R3.height P N u) := by
    unfold cutsEdge
    dsimp only
    constructor
    · rintro ⟨-, h2⟩
      rcases mul_nonpos_iff.1 h2 with ⟨a, b⟩ | ⟨a, b⟩
      · have := lt_of_le_of_ne a une.symm
        have := lt_of_le_of_ne b vne
        exact Or.inr ⟨by linarith, by linarith⟩
      · have := lt_of_le_of_ne a une
        have := lt_of_le_of_ne b vne.symm
        exact Or.inl ⟨by linarith, by linarith⟩
    · rintro (⟨a, b⟩ | ⟨a, b⟩)
      · exact ⟨fun h => by linarith, by nlinarith⟩
      · exact ⟨fun h => by linarith, by nlinarith⟩
  by_cases he : A = B
  · -- the computed projections agree, so the ends are on one side
    have : ¬ cutsEdge P N (u, v) := by
      rw [cuts, not_or]
      rw [he, sub_self, rd_zero] at hd
      have := abs_le.1 hd
      constructor
      · rintro ⟨a, b⟩
        rw [abs_of_neg (by linarith)] at gu
        norm_num at *
        linarith
      · rintro ⟨a, b⟩
        rw [abs_of_pos (by linarith)] at gu
        norm_num at *
        linarith
    refine ⟨fun h => absurd h this, fun _ => ?_⟩
    rw [seg, if_pos he]
  · have d0 : rd (B - A) ≠ 0 := by
      rw [Ne, rd_eq_zero (FB.1.onGrid.sub FA.1.onGrid)]
      intro h; exact he (by linarith)
    obtain ⟨k1, k2⟩ := param_sides hg hn hd bn bd d0 (by rwa [abs_neg]) (by
      rw [show R3.height P N v - R3.height P N u - -R3.height P N u = R3.height P N v by ring]; exact gv)
    rw [← cuts] at k1
    have ep : rd (rd (H - A) / rd (B - A)) = paramF H A B := rfl
    rw [ep] at k1 k2
    rw [seg, if_neg he]
    refine ⟨fun hc => ?_, fun hc => ?_⟩
    · have hin := k1.2 hc
      obtain ⟨e1, e2⟩ := k2 hin
      rw [if_neg hin]
      push Not at hin
      have cx := coord_box hin.1 hin.2 bu.1 bv.1
      have cy := coord_box hin.1 hin.2 bu.2.1 bv.2.1
      have cz : coordF (paramF H A B) u.z v.z = u.z := by rw [← hz]; exact coord_same hu.2.2.1
      have close : ∀ {x y w : ℝ}, |x| ≤ 1100 → |y| ≤ 1100 → |w - (x + paramF H A B * (y - x))| ≤ 1 / 10 ^ 12 →
          |w - (x + R3.height P N u / (R3.height P N u - R3.height P N v) * (y - x))| ≤ 1 / 10 ^ 8 / g := by
        intro x y w hx hy hw
        have eτ : R3.height P N u / (R3.height P N u - R3.height P N v) = -R3.height P N u / (R3.height P N v - R3.height P N u) := by
          rw [← neg_div_neg_eq, neg_sub]
        rw [eτ]
        have d := abs_sub_range hy hx
        have m : |(paramF H A B - -R3.height P N u / (R3.height P N v - R3.height P N u)) * (y - x)| ≤ 41 / 10 ^ 13 / g * (2 * 1100) := by
          rw [abs_mul]
          exact mul_le_mul e1 d (abs_nonneg _) (by positivity)
        have t := abs_add_le (w - (x + paramF H A B * (y - x)))
          ((paramF H A B - -R3.height P N u / (R3.height P N v - R3.height P N u)) * (y - x))
        rw [show w - (x + paramF H A B * (y - x)) + (paramF H A B - -R3.height P N u / (R3.height P N v - R3.height P N u)) * (y - x) =
          w - (x + -R3.height P N u / (R3.height P N v - R3.height P N u) * (y - x)) by ring] at t
        have i1 : 1 ≤ 1 / g := by rw [le_div_iff₀ hgp]; linarith
        have i2 : (41 : ℝ) / 10 ^ 13 / g = 41 / 10 ^ 13 * (1 / g) := by ring
        have i3 : (1 : ℝ) / 10 ^ 8 / g = 1 / 10 ^ 8 * (1 / g) := by ring
        rw [i2] at m
        rw [i3]
        norm_num at *
        linarith
      refine ⟨_, rfl, ⟨cx.2, cy.2, by rw [cz]; exact hu.2.2⟩, cz, ?_, ?_, ?_, paramF H A B, hin.1, hin.2, cx.1, cy.1⟩
      · have := close bu.1 bv.1 cx.1
        simpa [cutPoint] using this
      · have := close bu.2.1 bv.2.1 cy.1
        simpa [cutPoint] using this
      · rw [height_vert hp.nz]
        have m1 := mul_unit cx.1 hp.nx
        have m2 := mul_unit cy.1 hp.ny
        have e : coordF (paramF H A B) u.x v.x * N.x + coordF (paramF H A B) u.y v.y * N.y - (P.x * N.x + P.y * N.y) =
            (coordF (paramF H A B) u.x v.x - (u.x + paramF H A B * (v.x - u.x))) * N.x +
            (coordF (paramF H A B) u.y v.y - (u.y + paramF H A B * (v.y - u.y))) * N.y +
            (paramF H A B * (R3.height P N v - R3.height P N u) - -R3.height P N u) := by
          rw [hu', hv']; ring
        show |coordF (paramF H A B) u.x v.x * N.x + coordF (paramF H A B) u.y v.y * N.y - (P.x * N.x + P.y * N.y)| ≤ _
        rw [e]
        refine (abs_add_three _ _ _).trans ?_
        norm_num at *
        linarith
    · rw [if_pos]
      by_contra h
      exact hc (k1.1 h)

/-! ## the coordinate that is sorted by -/

/-- the direction is not close to Y: the angle is between 3 and 177 degrees -/
theorem arccos_range {v : ℝ} (h : |v| ≤ 9 / 10) : 4 / 10 ≤ Real.arccos v ∧ Real.arccos v ≤ Real.pi - 4 / 10 := by
  obtain ⟨h1, h2⟩ := abs_le.1 h
  have key : ∀ w : ℝ, w ≤ 9 / 10 → 4 / 10 ≤ Real.arccos w := by
    intro w hw
    have c := Real.one_sub_sq_div_two_le_cos (x := 4 / 10)
    have e := Real.arccos_cos (x := 4 / 10) (by norm_num) (by linarith [Real.pi_gt_three])
    rw [← e]
    exact Real.arccos_le_arccos (by norm_num at c ⊢; linarith)
  refine ⟨key v h2, ?_⟩
  have := key (-v) (by linarith)
  rw [Real.arccos_neg] at this
  linarith

theorem unitY_le {a b : ℝ} (ha : 1 / 4 ≤ a * a) (hb : b * b ≤ 1) {s L : ℝ} (hs : |s - (a * a + b * b)| ≤ 1 / 10 ^ 10) (hL : |L - Real.sqrt s| ≤ 1 / 10 ^ 10) :
    4 / 10 ≤ L ∧ |b| ≤ 899 / 1000 * L := by
  have h1 := abs_le.1 hs
  have h2 := abs_le.1 hL
  have hbb := mul_self_nonneg b
  have s0 : 0 ≤ s := by norm_num at *; linarith
  have q1 : 49 / 100 ≤ Real.sqrt s := by
    refine Real.le_sqrt_of_sq_le ?_
    norm_num at *; linarith
  have q2 : |b| ≤ 898 / 1000 * Real.sqrt s := by
    refine abs_le_of_sq_le_sq ?_ (by positivity)
    rw [mul_pow, Real.sq_sqrt s0]
    norm_num at *
    nlinarith
  norm_num at *
  constructor <;> linarith

theorem B64.acos_of {x : ℝ} (hx : IsF x) (h : |x| ≤ 1) : Flt.acos (B64.of x) = B64.of (rd (Real.arccos x)) := by
  show B64.rnd (Flt.acos (B64.of x).1) = _
  have := abs_le.1 h
  rw [B64.of_val hx, XR.fin_acos', if_neg (by push Not; exact this), B64.rnd_fin]

theorem B64.pi_of : (Flt.pi : B64) = B64.of (rd Real.pi) := by
  show B64.rnd Flt.pi = _
  rw [XR.pi_def, B64.rnd_fin]

theorem sortsByX_f64 {P N : R3} (hp : FillPlaneF P N) : sortsByX (planeF P N) = false := by
  have F0 := isF_zero
  have F1 := isF_one
  have ha2 : 1 / 4 ≤ N.x * N.x := by
    rw [← abs_mul_abs_self]; nlinarith [hp.slope, abs_nonneg N.x]
  have hb2 : N.y * N.y ≤ 1 := by
    rw [← abs_mul_abs_self]; nlinarith [hp.ny, abs_nonneg N.y]
  have ha3 : N.x * N.x ≤ 1 := by
    rw [← abs_mul_abs_self]; nlinarith [hp.nx, abs_nonneg N.x]
  have hproj : (planeF P N).n.projectOnPlane planeXY = N.f64v := by
    have e1 : (planeXY : Plane B64).n = (⟨0, 0, 1⟩ : R3).f64v := by
      show (⟨Flt.lit 0 0, Flt.lit 0 0, Flt.lit 1 0⟩ : Vec B64) = _
      rw [B64.lit0, B64.lit1]; rfl
    have e2 : (⟨0, 0, 1⟩ : R3).f64v.lengthSquare = B64.of 1 := by
      show B64.of 0 * B64.of 0 + B64.of 0 * B64.of 0 + B64.of 1 * B64.of 1 = _
      rw [B64.mul_of F0 F0, mul_zero, rd_zero, B64.add_of F0 F0, add_zero, rd_zero, B64.mul_of F1 F1, mul_one, rd_of_rep F1.1,
        B64.add_of F0 F1, zero_add, rd_of_rep F1.1]
    have e3 : (⟨0, 0, 1⟩ : R3).f64v.dot N.f64v = B64.of 0 := by
      show B64.of 0 * B64.of N.x + B64.of 0 * B64.of N.y + B64.of 1 * B64.of N.z = _
      rw [hp.nz, B64.mul_of F0 hp.nF.1, B64.mul_of F0 hp.nF.2.1, B64.mul_of F1 F0, zero_mul, zero_mul, mul_zero, rd_zero, B64.add_of F0 F0,
        add_zero, rd_zero, B64.add_of F0 F0, add_zero, rd_zero]
    unfold Vec.projectOnPlane Vec.projectOn
    dsimp only
    rw [e1, e2, B64.lit0, B64.eq_of F1 F0]
    simp only [one_ne_zero, decide_false, Bool.false_eq_true, if_false]
    show Vec.add N.f64v (Vec.reverse (Vec.mulScalar (⟨0, 0, 1⟩ : R3).f64v ((⟨0, 0, 1⟩ : R3).f64v.dot N.f64v / B64.of 1))) = _
    rw [e3, B64.div_of F0 F1 one_ne_zero, zero_div, rd_zero]
    show (⟨B64.of N.x + -(B64.of 0 * B64.of 0), B64.of N.y + -(B64.of 0 * B64.of 0), B64.of N.z + -(B64.of 1 * B64.of 0)⟩ : Vec B64) = _
    rw [B64.mul_of F0 F0, B64.mul_of F1 F0, mul_zero, mul_zero, rd_zero, B64.neg_of F0, neg_zero, B64.add_of hp.nF.1 F0, B64.add_of hp.nF.2.1 F0,
      B64.add_of hp.nF.2.2 F0, add_zero, add_zero, add_zero, rd_of_rep hp.nF.1.1, rd_of_rep hp.nF.2.1.1, rd_of_rep hp.nF.2.2.1]
    rfl
  have bx : |N.x * N.x| ≤ 1 := by rw [abs_of_nonneg (mul_self_nonneg _)]; exact ha3
  have by' : |N.y * N.y| ≤ 1 := by rw [abs_of_nonneg (mul_self_nonneg _)]; exact hb2
  have e1 := rd_err (by norm_num) bx
  have e2 := rd_err (by norm_num) by'
  have bs : |rd (N.x * N.x) + rd (N.y * N.y)| ≤ 3 := by
    rw [abs_le] at *; norm_num at *; constructor <;> linarith
  have e3 := rd_err (by norm_num) bs
  set s := rd (rd (N.x * N.x) + rd (N.y * N.y)) with hs
  have Fx : IsF (rd (N.x * N.x)) := isF_rd (bx.trans (by norm_num))
  have Fy : IsF (rd (N.y * N.y)) := isF_rd (by'.trans (by norm_num))
  have Fs : IsF s := isF_rd (bs.trans (by norm_num))
  have hsd : |s - (N.x * N.x + N.y * N.y)| ≤ 1 / 10 ^ 10 := by
    rw [abs_le] at *; norm_num at *; constructor <;> linarith
  have s0 : 0 ≤ s := rd_nonneg (add_nonneg (rd_nonneg (mul_self_nonneg _)) (rd_nonneg (mul_self_nonneg _)))
  have s4 : s ≤ 4 := by
    have := abs_le.1 hsd; norm_num at *; linarith
  have bq : |Real.sqrt s| ≤ 2 := by
    rw [abs_of_nonneg (Real.sqrt_nonneg _)]
    exact Real.sqrt_le_iff.2 ⟨by norm_num, by norm_num; exact s4⟩
  have e4 := rd_err (by norm_num) bq
  set L := rd (Real.sqrt s) with hL
  have FL : IsF L := isF_rd (bq.trans (by norm_num))
  obtain ⟨L0, Lb⟩ := unitY_le ha2 hb2 hsd (e4.trans (by norm_num))
  have hlen : N.f64v.length = B64.of L := by
    show Flt.sqrt (B64.of N.x * B64.of N.x + B64.of N.y * B64.of N.y + B64.of N.z * B64.of N.z) = _
    rw [hp.nz, B64.mul_of hp.nF.1 hp.nF.1, B64.mul_of hp.nF.2.1 hp.nF.2.1, B64.mul_of F0 F0, mul_zero, rd_zero, B64.add_of Fx Fy, ← hs,
      B64.add_of Fs F0, add_zero, rd_of_rep Fs.1, B64.sqrt_of Fs s0]
  have hdot : N.f64v.dot axisY = B64.of N.y := by
    show B64.of N.x * Flt.lit 0 0 + B64.of N.y * Flt.lit 1 0 + B64.of N.z * Flt.lit 0 0 = _
    rw [B64.lit0, B64.lit1, B64.mul_of hp.nF.1 F0, B64.mul_of hp.nF.2.1 F1, B64.mul_of hp.nF.2.2 F0, mul_zero, mul_zero, mul_one, rd_zero,
      rd_of_rep hp.nF.2.1.1, B64.add_of F0 hp.nF.2.1, zero_add, rd_of_rep hp.nF.2.1.1, B64.add_of hp.nF.2.1 F0, add_zero, rd_of_rep hp.nF.2.1.1]
  have hlenY : (axisY : Vec B64).length = B64.of 1 := by
    show Flt.sqrt (Flt.lit 0 0 * Flt.lit 0 0 + Flt.lit 1 0 * Flt.lit 1 0 + Flt.lit 0 0 * Flt.lit 0 0 : B64) = _
    rw [B64.lit0, B64.lit1, B64.mul_of F0 F0, B64.mul_of F1 F1, mul_zero, mul_one, rd_zero, rd_of_rep F1.1, B64.add_of F0 F1, zero_add,
      rd_of_rep F1.1, B64.add_of F1 F0, add_zero, rd_of_rep F1.1, B64.sqrt_of F1 zero_le_one, Real.sqrt_one, rd_of_rep F1.1]
  have bv : |N.y / L| ≤ 899 / 1000 := by
    rw [abs_div, abs_of_pos (show 0 < L by linarith), div_le_iff₀ (by linarith)]
    exact Lb
  have Fv : IsF (rd (N.y / L)) := isF_rd (bv.trans (by norm_num))
  have bv2 : |rd (N.y / L)| ≤ 9 / 10 := (rd_bound (by norm_num) bv).trans (by norm_num)
  have F180 : IsF 180 := by simpa using isF_int (n := 180) (by norm_num)
  have Fm1 : IsF (-1) := F1.neg
  have l180 : (Flt.lit 180 0 : B64) = B64.of 180 := by rw [B64.lit_of]; norm_num
  have lm1 : (Flt.lit (-1) 0 : B64) = B64.of (-1) := by rw [B64.lit_of]; norm_num
  have l3 : (Flt.lit 3 0 : B64) = B64.of 3 := by rw [B64.lit_of]; norm_num
  have F3 : IsF 3 := by simpa using isF_int (n := 3) (by norm_num)
  have F183 : IsF 183 := by simpa using isF_int (n := 183) (by norm_num)
  have F177 : IsF 177 := by simpa using isF_int (n := 177) (by norm_num)
  have p1 := Real.pi_gt_d2
  have p2 := Real.pi_lt_d2
  obtain ⟨c1, c2⟩ := arccos_range bv2
  have ba : |Real.arccos (rd (N.y / L))| ≤ 4 := by rw [abs_of_nonneg (by linarith)]; linarith
  have ea := abs_le.1 (rd_err (by norm_num) ba)
  have Fa : IsF (rd (Real.arccos (rd (N.y / L)))) := isF_rd (ba.trans (by norm_num))
  have ep := abs_le.1 (rd_err (M := 4) (by norm_num) (show |Real.pi| ≤ 4 by rw [abs_of_pos Real.pi_pos]; linarith))
  have Fp : IsF (rd Real.pi) := isF_rd (by rw [abs_of_pos Real.pi_pos]; norm_num at *; linarith)
  set α := rd (Real.arccos (rd (N.y / L))) with hα
  have a1 : 399 / 1000 ≤ α := by norm_num at *; linarith
  have a2 : α ≤ 276 / 100 := by norm_num at *; linarith
  have q1 : 3139 / 1000 ≤ rd Real.pi := by norm_num at *; linarith
  have q2 : rd Real.pi ≤ 316 / 100 := by norm_num at *; linarith
  have bm : |α * 180| ≤ 500 := by rw [abs_of_nonneg (by positivity)]; norm_num at *; linarith
  have em := abs_le.1 (rd_err (by norm_num) bm)
  have Fm : IsF (rd (α * 180)) := isF_rd (bm.trans (by norm_num))
  have m1 : 71 ≤ rd (α * 180) := by norm_num at *; linarith
  have m2 : rd (α * 180) ≤ 497 := by norm_num at *; linarith
  have hang : N.f64v.angle axisY = B64.of (rd (rd (α * 180) / rd Real.pi)) := by
    unfold Vec.angle
    dsimp only
    rw [hdot, hlen, hlenY, B64.div_of hp.nF.2.1 FL (by linarith), B64.div_of Fv F1 one_ne_zero, div_one, rd_rd, lm1, B64.lit1, B64.lt_of Fv Fm1,
      B64.lt_of F1 Fv]
    have b := abs_le.1 bv2
    rw [decide_eq_false (by linarith [b.1]), decide_eq_false (by linarith [b.2])]
    simp only [Bool.or_self, Bool.false_eq_true, if_false]
    rw [B64.acos_of Fv (bv2.trans (by norm_num)), ← hα, l180, B64.mul_of Fa F180, B64.pi_of, B64.div_of Fm Fp (by linarith)]
  have t1 : 22 ≤ rd (α * 180) / rd Real.pi := by rw [le_div_iff₀ (by linarith)]; linarith
  have t2 : rd (α * 180) / rd Real.pi ≤ 160 := by rw [div_le_iff₀ (by linarith)]; linarith
  have et := abs_le.1 (rd_err (M := 160) (by norm_num) (show |rd (α * 180) / rd Real.pi| ≤ 160 by rw [abs_of_nonneg (by linarith)]; exact t2))
  have Ft : IsF (rd (rd (α * 180) / rd Real.pi)) := isF_rd (by rw [abs_of_nonneg (by linarith)]; norm_num at *; linarith)
  set θ := rd (rd (α * 180) / rd Real.pi) with hθ
  have u1 : 21 ≤ θ := by norm_num at *; linarith
  have u2 : θ ≤ 161 := by norm_num at *; linarith
  unfold sortsByX
  dsimp only
  rw [hproj, hang]
  unfold nearAngle
  rw [B64.lit0, l180, l3, B64.add_of F0 F3, zero_add, rd_of_rep F3.1, B64.lt_of Ft F3, B64.sub_of F180 F3, B64.add_of F180 F3]
  norm_num
  rw [rd_of_rep F177.1, B64.lt_of F177 Ft]
  simp only [decide_eq_false_iff_not, not_lt]
  constructor
  · intro h; linarith
  · intro _; linarith

/-- the same in exact arithmetic -/
theorem sortsByX_vert {P N : R3} (nx : |N.x| ≤ 1) (ny : |N.y| ≤ 1) (nz : N.z = 0) (slope : 1 / 2 ≤ |N.x|) :
    sortsByX (Plane.mk P.pt N.vec) = false := by
  have ha2 : 1 / 4 ≤ N.x * N.x := by
    rw [← abs_mul_abs_self]; nlinarith [abs_nonneg N.x]
  have hb2 : N.y * N.y ≤ 1 := by
    rw [← abs_mul_abs_self]; nlinarith [abs_nonneg N.y]
  have hproj : (N.vec.projectOnPlane (planeXY : Plane XR)) = N.vec := by
    have e : (planeXY : Plane XR).n = (R3.mk 0 0 1).vec := by simp [planeXY, axisZ, V, R3.vec]
    unfold Vec.projectOnPlane
    rw [e, projectOn_vec, reverse_vec, add_vec]
    congr 1
    apply R3.ext <;> simp [R3.dot, nz]
  have hnorm : N.norm = Real.sqrt (N.x * N.x + N.y * N.y) := by
    unfold R3.norm R3.normSq R3.dot; rw [nz]; simp
  obtain ⟨L0, Lb⟩ := unitY_le ha2 hb2 (s := N.x * N.x + N.y * N.y) (L := N.norm) (by simp) (by rw [hnorm]; simp)
  have hn : 0 < N.norm := by linarith
  have bv : |N.y / N.norm| ≤ 9 / 10 := by
    rw [abs_div, abs_of_pos hn, div_le_iff₀ hn]
    linarith
  have b := abs_le.1 bv
  obtain ⟨c1, c2⟩ := arccos_range bv
  have hang : (N.vec.projectOnPlane (planeXY : Plane XR)).angle axisY = XR.fin (Real.arccos (N.y / N.norm) * 180 / Real.pi) := by
    rw [hproj, axisY_vec]
    unfold Vec.angle
    have ey1 : R3.ey.norm = 1 := by simp [R3.norm, R3.normSq, R3.dot, R3.ey]
    have hd : N.dot R3.ey = N.y := by simp [R3.dot, R3.ey]
    simp only [dot_vec, length_vec, hd, ey1]
    rw [XR.fin_div hn.ne', XR.fin_div one_ne_zero, div_one]
    simp only [XR.lit_def, XR.fin_lt, XR.fin_acos', XR.pi_def]
    have n1 : ¬ N.y / N.norm < -1 := by linarith [b.1]
    have n2 : ¬ 1 < N.y / N.norm := by linarith [b.2]
    norm_num [n1, n2]
    rw [XR.fin_div Real.pi_ne_zero]
  have near : ∀ a b : ℝ, nearAngle (XR.fin a) (XR.fin b) = decide (a < b + 3 ∧ b - 3 < a) := by
    intro a b
    unfold nearAngle
    simp [← Bool.decide_and]
  have p1 := Real.pi_gt_d2
  have p2 := Real.pi_lt_d2
  have t1 : 4 ≤ Real.arccos (N.y / N.norm) * 180 / Real.pi := by rw [le_div_iff₀ (by linarith)]; norm_num at *; linarith
  have t2 : Real.arccos (N.y / N.norm) * 180 / Real.pi ≤ 176 := by rw [div_le_iff₀ (by linarith)]; norm_num at *; linarith
  unfold sortsByX
  dsimp only
  rw [hang]
  simp only [XR.lit_def, near]
  generalize Real.arccos (N.y / N.norm) * 180 / Real.pi = θ at *
  norm_num
  constructor
  · intro h; linarith
  · intro _; linarith

end Goosli
