import Verif.Proofs.BoxDirs
/-!
# What a ray from the middle meets of a rectangle, in binary64
-/
set_option autoImplicit false
namespace Goosli
open Flt R3 Spec

/-! ## steep directions -/

theorem arccos_steep {v : ℝ} (h : 98 / 100 ≤ v) : Real.arccos v ≤ 1 / 2 := by
  have c := Real.cos_le_one_sub_mul_cos_sq (x := 1 / 2) (by rw [abs_of_pos (by norm_num)]; linarith [Real.pi_gt_three])
  have e := Real.arccos_cos (x := 1 / 2) (by norm_num) (by linarith [Real.pi_gt_three])
  rw [← e]
  refine Real.arccos_le_arccos (c.trans ?_)
  have p := Real.pi_lt_d2
  have p0 := Real.pi_pos
  have : 1 / 5 ≤ 2 / Real.pi ^ 2 := by
    rw [div_le_div_iff₀ (by norm_num) (by positivity)]
    nlinarith
  nlinarith

/-- an angle whose cosine is at least `0.98`, in degrees -/
theorem small_degrees {v : ℝ} (Fv : IsF v) (v1 : 98 / 100 ≤ v) (v2 : v ≤ 1) :
    (B64.of 40 <? Flt.acos (B64.of v) * Flt.lit 180 0 / Flt.pi) = false := by
  have l180 : (Flt.lit 180 0 : B64) = B64.of 180 := by rw [B64.lit_of]; norm_num
  have F180 : IsF 180 := by simpa using isF_int (n := 180) (by norm_num)
  have F40 : IsF 40 := by simpa using isF_int (n := 40) (by norm_num)
  have hv1 : |v| ≤ 1 := by rw [abs_of_nonneg (by linarith)]; linarith
  have c1 := Real.arccos_nonneg v
  have c2 := arccos_steep v1
  have ba : |Real.arccos v| ≤ 1 / 2 := by rw [abs_of_nonneg c1]; exact c2
  have ea := abs_le.1 (rd_err (M := 1 / 2) (by norm_num) ba)
  have Fa : IsF (rd (Real.arccos v)) := isF_rd (ba.trans (by norm_num))
  have a0 : 0 ≤ rd (Real.arccos v) := rd_nonneg c1
  set α := rd (Real.arccos v)
  have a2 : α ≤ 51 / 100 := by norm_num at *; linarith
  have bm : |α * 180| ≤ 92 := by rw [abs_of_nonneg (by positivity)]; linarith
  have em := abs_le.1 (rd_err (M := 92) (by norm_num) bm)
  have Fm : IsF (rd (α * 180)) := isF_rd (bm.trans (by norm_num))
  have m0 : 0 ≤ rd (α * 180) := rd_nonneg (by positivity)
  have m2 : rd (α * 180) ≤ 93 := by norm_num at *; linarith
  have pg := Real.pi_gt_d2
  have p4 : |Real.pi| ≤ 4 := by rw [abs_of_pos Real.pi_pos]; exact Real.pi_le_four
  have ep := abs_le.1 (rd_err (M := 4) (by norm_num) p4)
  have Fp : IsF (rd Real.pi) := isF_rd (p4.trans (by norm_num))
  have q3 : 3 ≤ rd Real.pi := by norm_num at *; linarith
  have u0 : 0 ≤ rd (α * 180) / rd Real.pi := div_nonneg m0 (by linarith)
  have u2 : rd (α * 180) / rd Real.pi ≤ 31 := by rw [div_le_iff₀ (by linarith)]; linarith
  have bu : |rd (α * 180) / rd Real.pi| ≤ 31 := by rw [abs_of_nonneg u0]; exact u2
  have eu := abs_le.1 (rd_err (M := 31) (by norm_num) bu)
  rw [B64.acos_of Fv hv1, l180, B64.mul_of Fa F180, B64.pi_of, B64.div_of Fm Fp (by linarith), B64.lt_of F40 (isF_rd (bu.trans (by norm_num)))]
  rw [decide_eq_false_iff_not]
  norm_num at *
  linarith

theorem axisZ_f64v : (axisZ : Vec B64) = (⟨0, 0, 1⟩ : R3).f64v := by
  simp only [axisZ, V, R3.f64v, B64.lit0, B64.lit1]

/-- a way up that moves sideways by less than a fiftieth of a thousandth is not an overhang -/
theorem steep_fine {x y t : ℝ} (Fx : IsF x) (Fy : IsF y) (Ft : IsF t) (hx : |x| ≤ 2 / 10 ^ 5) (hy : |y| ≤ 2 / 10 ^ 5) (t0 : 1 / 1000 ≤ t) (t1 : t ≤ 1000) :
    (failAngle <? (axisZ : Vec B64).angle (⟨x, y, t⟩ : R3).f64v) = false := by
  have F0 := isF_zero
  have F1 := isF_one
  have tp : 0 < t := by linarith
  have tt : 1 / 10 ^ 6 ≤ t * t := by nlinarith
  have tt1 : t * t ≤ 10 ^ 6 := by nlinarith
  have sx : |x * x| ≤ 1 / 10 ^ 9 := by
    rw [abs_mul]
    exact (mul_le_mul hx hx (abs_nonneg _) (by norm_num)).trans (by norm_num)
  have sy : |y * y| ≤ 1 / 10 ^ 9 := by
    rw [abs_mul]
    exact (mul_le_mul hy hy (abs_nonneg _) (by norm_num)).trans (by norm_num)
  have bt : |t * t| ≤ t * t := by rw [abs_of_pos (by positivity)]
  have e1 := abs_le.1 (rd_err (M := 1 / 10 ^ 9) (by norm_num) sx)
  have e2 := abs_le.1 (rd_err (M := 1 / 10 ^ 9) (by norm_num) sy)
  have e3 := abs_le.1 (rd_err (M := t * t) (le_trans (by norm_num) tt) bt)
  have sx' := abs_le.1 sx; have sy' := abs_le.1 sy
  have p1 : 0 ≤ rd (x * x) := rd_nonneg (mul_self_nonneg _)
  have p2 : 0 ≤ rd (y * y) := rd_nonneg (mul_self_nonneg _)
  have p3 : 0 ≤ rd (t * t) := rd_nonneg (mul_self_nonneg _)
  have bxy : |rd (x * x) + rd (y * y)| ≤ 3 / 10 ^ 9 := by
    rw [abs_of_nonneg (by linarith)]; norm_num at *; linarith
  have e4 := abs_le.1 (rd_err (M := 3 / 10 ^ 9) (by norm_num) bxy)
  have p4 : 0 ≤ rd (rd (x * x) + rd (y * y)) := rd_nonneg (by linarith)
  have bs : |rd (rd (x * x) + rd (y * y)) + rd (t * t)| ≤ 2 * (t * t) := by
    rw [abs_of_nonneg (by linarith)]; norm_num at *; linarith
  have e5 := abs_le.1 (rd_err (M := 2 * (t * t)) (by norm_num at *; linarith) bs)
  have G1 : IsF (rd (x * x)) := isF_rd (sx.trans (by norm_num))
  have G2 : IsF (rd (y * y)) := isF_rd (sy.trans (by norm_num))
  have G3 : IsF (rd (t * t)) := isF_rd (bt.trans (tt1.trans (by norm_num)))
  have G4 : IsF (rd (rd (x * x) + rd (y * y))) := isF_rd (bxy.trans (by norm_num))
  set s := rd (rd (rd (x * x) + rd (y * y)) + rd (t * t)) with hs
  have G5 : IsF s := isF_rd (bs.trans (by norm_num at *; linarith))
  have s0 : 0 ≤ s := rd_nonneg (by linarith)
  have s1 : (999 / 1000 * t) ^ 2 ≤ s := by norm_num at *; nlinarith
  have s2 : s ≤ (1005 / 1000 * t) ^ 2 := by norm_num at *; nlinarith
  have q1 : 999 / 1000 * t ≤ Real.sqrt s := Real.le_sqrt_of_sq_le s1
  have q2 : Real.sqrt s ≤ 1005 / 1000 * t := Real.sqrt_le_iff.2 ⟨by positivity, s2⟩
  have bq : |Real.sqrt s| ≤ 2 * t := by rw [abs_of_nonneg (Real.sqrt_nonneg _)]; linarith
  have e6 := abs_le.1 (rd_err (M := 2 * t) (by norm_num at *; linarith) bq)
  set L := rd (Real.sqrt s) with hL
  have FL : IsF L := isF_rd (bq.trans (by norm_num at *; linarith))
  have L1 : 998 / 1000 * t ≤ L := by norm_num at *; linarith
  have L2 : L ≤ 1006 / 1000 * t := by norm_num at *; linarith
  have L0 : 0 < L := lt_of_lt_of_le (by positivity) L1
  have hlen : (⟨x, y, t⟩ : R3).f64v.length = B64.of L := by
    show Flt.sqrt (B64.of x * B64.of x + B64.of y * B64.of y + B64.of t * B64.of t) = _
    rw [B64.mul_of Fx Fx, B64.mul_of Fy Fy, B64.mul_of Ft Ft, B64.add_of G1 G2, B64.add_of G4 G3, ← hs, B64.sqrt_of G5 s0]
  have hdot : (axisZ : Vec B64).dot (⟨x, y, t⟩ : R3).f64v = B64.of t := by
    rw [axisZ_f64v]
    show B64.of 0 * B64.of x + B64.of 0 * B64.of y + B64.of 1 * B64.of t = _
    rw [B64.mul_of F0 Fx, B64.mul_of F0 Fy, B64.mul_of F1 Ft, zero_mul, zero_mul, one_mul, rd_zero, rd_of_rep Ft.1, B64.add_of F0 F0, add_zero,
      rd_zero, B64.add_of F0 Ft, zero_add, rd_of_rep Ft.1]
  have hlenZ : (axisZ : Vec B64).length = B64.of 1 := by
    rw [axisZ_f64v]
    show Flt.sqrt (B64.of 0 * B64.of 0 + B64.of 0 * B64.of 0 + B64.of 1 * B64.of 1) = _
    rw [B64.mul_of F0 F0, B64.mul_of F1 F1, mul_zero, mul_one, rd_zero, rd_of_rep F1.1, B64.add_of F0 F0, add_zero, rd_zero, B64.add_of F0 F1,
      zero_add, rd_of_rep F1.1, B64.sqrt_of F1 zero_le_one, Real.sqrt_one, rd_of_rep F1.1]
  have w1 : 99 / 100 ≤ t / L := by rw [le_div_iff₀ L0]; linarith
  have w2 : t / L ≤ 101 / 100 := by rw [div_le_iff₀ L0]; linarith
  have bw : |t / L| ≤ 2 := by rw [abs_of_nonneg (by linarith)]; linarith
  have e7 := abs_le.1 (rd_err (M := 2) (by norm_num) bw)
  set v := rd (t / L) with hv
  have Fv : IsF v := isF_rd (bw.trans (by norm_num))
  have v1 : 98 / 100 ≤ v := by norm_num at *; linarith
  have l180 : (Flt.lit 180 0 : B64) = B64.of 180 := by rw [B64.lit_of]; norm_num
  have l40 : (failAngle : B64) = B64.of 40 := by unfold failAngle; rw [B64.lit_of]; norm_num
  have lm1 : (Flt.lit (-1) 0 : B64) = B64.of (-1) := by rw [B64.lit_of]; norm_num
  have F180 : IsF 180 := by simpa using isF_int (n := 180) (by norm_num)
  have F40 : IsF 40 := by simpa using isF_int (n := 40) (by norm_num)
  unfold Vec.angle
  dsimp only
  rw [hdot, hlenZ, hlen, B64.div_of Ft F1 one_ne_zero, div_one, rd_of_rep Ft.1, B64.div_of Ft FL L0.ne', ← hv, lm1, B64.lit1, B64.lt_of Fv F1.neg,
    B64.lt_of F1 Fv, decide_eq_false (by linarith), Bool.false_or, l40]
  by_cases h1 : 1 < v
  · rw [if_pos (by simpa using h1), B64.lit0, B64.lt_of F40 F0]
    norm_num
  · rw [if_neg (by simpa using h1)]
    exact small_degrees Fv v1 (not_lt.1 h1)

/-! ## where the ray leaves a rectangle -/

/-- a place on the rectangle with the half sides `W` and `V` around the origin, on the ray in direction `(a, b)`, up to rounding -/
structure RayHit (W V a b x y : ℝ) : Prop where
  hx : |x| ≤ W + 1 / 10 ^ 11
  hy : |y| ≤ V + 1 / 10 ^ 11
  rim : W - 1 / 10 ^ 11 ≤ |x| ∨ V - 1 / 10 ^ 11 ≤ |y|
  line : |b * x - a * y| ≤ 3 / 10 ^ 11
  ahead : -(1 / 10 ^ 6) ≤ a * x + b * y

theorem ray_upper {W a b x y N : ℝ} (hN : N = a ^ 2 + b ^ 2) (N1 : |N - 1| ≤ 1 / 10 ^ 6) (sb : |b| ≤ 101 / 100) (hx : |x| ≤ W + 1 / 10 ^ 11)
    (hl : |b * x - a * y| ≤ 3 / 10 ^ 11) : |a * (a * x + b * y)| ≤ N * W + 1 / 10 ^ 10 := by
  have e : a * (a * x + b * y) = N * x - b * (b * x - a * y) := by rw [hN]; ring
  have m : |b * (b * x - a * y)| ≤ 101 / 100 * (3 / 10 ^ 11) := by
    rw [abs_mul]; exact mul_le_mul sb hl (abs_nonneg _) (by norm_num)
  have n := abs_le.1 N1
  have N0 : 0 ≤ N := by norm_num at n; linarith
  rw [e]
  refine (abs_sub _ _).trans ?_
  rw [abs_mul, abs_of_nonneg N0]
  have : N * |x| ≤ N * (W + 1 / 10 ^ 11) := mul_le_mul_of_nonneg_left hx N0
  norm_num at *
  linarith

theorem ray_lower {W a b x y N : ℝ} (hN : N = a ^ 2 + b ^ 2) (N1 : |N - 1| ≤ 1 / 10 ^ 6) (sb : |b| ≤ 101 / 100) (hx : W - 1 / 10 ^ 11 ≤ |x|)
    (hl : |b * x - a * y| ≤ 3 / 10 ^ 11) : N * W - 1 / 10 ^ 10 ≤ |a * (a * x + b * y)| := by
  have e : a * (a * x + b * y) = N * x - b * (b * x - a * y) := by rw [hN]; ring
  have m : |b * (b * x - a * y)| ≤ 101 / 100 * (3 / 10 ^ 11) := by
    rw [abs_mul]; exact mul_le_mul sb hl (abs_nonneg _) (by norm_num)
  have n := abs_le.1 N1
  have N0 : 0 ≤ N := by norm_num at n; linarith
  rw [e]
  have t := abs_sub_abs_le_abs_sub (N * x) (b * (b * x - a * y))
  rw [abs_mul N, abs_of_nonneg N0] at t
  have : N * (W - 1 / 10 ^ 11) ≤ N * |x| := mul_le_mul_of_nonneg_left hx N0
  norm_num at *
  linarith

/-- of two places on the ray, one that is on the side across `x` is not much nearer than the other -/
theorem ray_not_before {W a N α α' : ℝ} (N1 : |N - 1| ≤ 1 / 10 ^ 6) (W1 : 1 / 2 ≤ W) (lo : N * W - 1 / 10 ^ 10 ≤ |a * α|)
    (up : |a * α'| ≤ N * W + 1 / 10 ^ 10) (big : |α| ≤ 3000) : |α'| - |α| ≤ 2 / 10 ^ 6 := by
  have n := abs_le.1 N1
  rw [abs_mul] at lo up
  have NW : 1 / 3 ≤ N * W := by norm_num at n; nlinarith
  have a0 := abs_nonneg a
  have al := abs_nonneg α
  have ha : 1 / 10 ^ 4 ≤ |a| := by
    by_contra hc
    push Not at hc
    have : |a| * |α| ≤ 1 / 10 ^ 4 * 3000 := mul_le_mul hc.le big al (by norm_num)
    norm_num at *
    linarith
  by_contra hc
  push Not at hc
  have : 1 / 10 ^ 4 * (2 / 10 ^ 6) < |a| * (|α'| - |α|) := by
    refine lt_of_lt_of_le (mul_lt_mul_of_pos_left hc (by norm_num)) (mul_le_mul_of_nonneg_right ha ?_)
    linarith
  norm_num at *
  nlinarith

/-- two hits of the same ray on the same rectangle are close to each other -/
theorem ray_unique {W V a b x y x' y' : ℝ} (W1 : 1 / 2 ≤ W) (W2 : W ≤ 1000) (V1 : 1 / 2 ≤ V) (V2 : V ≤ 1000) (N1 : |a ^ 2 + b ^ 2 - 1| ≤ 1 / 10 ^ 6)
    (h : RayHit W V a b x y) (h' : RayHit W V a b x' y') : |x' - x| ≤ 1 / 10 ^ 5 ∧ |y' - y| ≤ 1 / 10 ^ 5 := by
  have n := abs_le.1 N1
  have sa : |a| ≤ 101 / 100 := by
    have := sq_abs a
    by_contra hc; push Not at hc; norm_num at n; nlinarith [sq_nonneg b]
  have sb : |b| ≤ 101 / 100 := by
    have := sq_abs b
    by_contra hc; push Not at hc; norm_num at n; nlinarith [sq_nonneg a]
  have nb : (b ^ 2 + a ^ 2 - 1) = a ^ 2 + b ^ 2 - 1 := by ring
  have key : ∀ {x y x' y' : ℝ}, RayHit W V a b x y → RayHit W V a b x' y' → |a * x' + b * y'| - |a * x + b * y| ≤ 2 / 10 ^ 6 := by
    intro x y x' y' h h'
    have big : |a * x + b * y| ≤ 3000 := by
      refine (abs_add_le _ _).trans ?_
      rw [abs_mul, abs_mul]
      have m1 : |a| * |x| ≤ 101 / 100 * 1001 := mul_le_mul sa (h.hx.trans (by norm_num at *; linarith)) (abs_nonneg _) (by norm_num)
      have m2 : |b| * |y| ≤ 101 / 100 * 1001 := mul_le_mul sb (h.hy.trans (by norm_num at *; linarith)) (abs_nonneg _) (by norm_num)
      norm_num at m1 m2 ⊢; linarith
    rcases h.rim with r | r
    · exact ray_not_before N1 W1 (ray_lower rfl N1 sb r h.line) (ray_upper rfl N1 sb h'.hx h'.line) big
    · have l : ∀ {x y : ℝ}, |b * x - a * y| ≤ 3 / 10 ^ 11 → |a * y - b * x| ≤ 3 / 10 ^ 11 := fun hl => by rw [abs_sub_comm]; exact hl
      have c : ∀ x y : ℝ, b * y + a * x = a * x + b * y := fun x y => add_comm _ _
      have N1' : |b ^ 2 + a ^ 2 - 1| ≤ 1 / 10 ^ 6 := by rw [nb]; exact N1
      have lo := ray_lower (a := b) (b := a) (x := y) (y := x) rfl N1' sa r (l h.line)
      have up := ray_upper (a := b) (b := a) (x := y') (y := x') rfl N1' sa h'.hy (l h'.line)
      rw [c] at lo up
      exact ray_not_before N1' V1 lo up big
  have pos : ∀ {x y : ℝ}, RayHit W V a b x y → 0 ≤ a * x + b * y := by
    intro x y h
    by_contra hc
    push Not at hc
    have e : (a * x + b * y) ^ 2 + (b * x - a * y) ^ 2 = (a ^ 2 + b ^ 2) * (x ^ 2 + y ^ 2) := by ring
    have b1 : (a * x + b * y) ^ 2 ≤ (1 / 10 ^ 6) ^ 2 := by
      rw [sq_le_sq, abs_of_neg hc, abs_of_pos (by norm_num)]; linarith [h.ahead]
    have b2 : (b * x - a * y) ^ 2 ≤ (3 / 10 ^ 11) ^ 2 := by
      rw [sq_le_sq, abs_of_pos (by norm_num : (0 : ℝ) < 3 / 10 ^ 11)]; exact h.line
    have b3 : 1 / 9 ≤ x ^ 2 + y ^ 2 := by
      rcases h.rim with r | r
      · have : 1 / 3 ≤ |x| := by norm_num at *; linarith
        have := sq_abs x
        nlinarith [sq_nonneg y]
      · have : 1 / 3 ≤ |y| := by norm_num at *; linarith
        have := sq_abs y
        nlinarith [sq_nonneg x]
    norm_num at *
    nlinarith
  have k1 := key h h'
  have k2 := key h' h
  rw [abs_of_nonneg (pos h), abs_of_nonneg (pos h')] at k1 k2
  have d : |(a * x' + b * y') - (a * x + b * y)| ≤ 2 / 10 ^ 6 := abs_le.2 ⟨by linarith, by linarith⟩
  have l : |(b * x' - a * y') - (b * x - a * y)| ≤ 6 / 10 ^ 11 := by
    refine (abs_sub _ _).trans ?_
    have := h.line; have := h'.line
    norm_num at *; linarith
  have fin : ∀ {c c' u v s : ℝ}, |c| ≤ 101 / 100 → |c'| ≤ 101 / 100 → |u| ≤ 2 / 10 ^ 6 → |v| ≤ 6 / 10 ^ 11 → (a ^ 2 + b ^ 2) * s = c * u + c' * v →
      |s| ≤ 1 / 10 ^ 5 := by
    intro c c' u v s hc hc' hu hv e
    have m1 : |c * u| ≤ 101 / 100 * (2 / 10 ^ 6) := by rw [abs_mul]; exact mul_le_mul hc hu (abs_nonneg _) (by norm_num)
    have m2 : |c' * v| ≤ 101 / 100 * (6 / 10 ^ 11) := by rw [abs_mul]; exact mul_le_mul hc' hv (abs_nonneg _) (by norm_num)
    have m := abs_add_le (c * u) (c' * v)
    rw [← e, abs_mul, abs_of_nonneg (by norm_num at n; linarith : 0 ≤ a ^ 2 + b ^ 2)] at m
    have s0 := abs_nonneg s
    norm_num at *
    nlinarith
  exact ⟨fin (c := a) (c' := b) sa sb d l (by ring), fin (c := b) (c' := -a) sb (by rw [abs_neg]; exact sa) d l (by ring)⟩

/-! ## what the program finds -/

/-- as `dotF_of`, with bounds on the products -/
theorem dotF_prod {N u : R3} {M : ℝ} (hM : 1 ≤ M) (hM' : M ≤ 10 ^ 6) (hu : u.isF) (hN : N.isF) (b1 : |u.x * N.x| ≤ M) (b2 : |u.y * N.y| ≤ M)
    (nz : N.z = 0) :
    u.f64v.dot N.f64v = B64.of (dotF N u) ∧ IsF (dotF N u) ∧ |dotF N u - (u.x * N.x + u.y * N.y)| ≤ M * (481 / 10 ^ 18) ∧
      |dotF N u| ≤ 21 / 10 * M := by
  have e1 := rd_err (by norm_num at *; linarith) b1
  have e2 := rd_err (by norm_num at *; linarith) b2
  have c1 := rd_bound (by norm_num at *; linarith) b1
  have c2 := rd_bound (by norm_num at *; linarith) b2
  have b3 : |rd (u.x * N.x) + rd (u.y * N.y)| ≤ 2 * M * (1 + 12 / 10 ^ 17) := by
    have := abs_add_le (rd (u.x * N.x)) (rd (u.y * N.y))
    linarith
  have e3 := rd_err (by norm_num at *; linarith) b3
  have F1 : IsF (rd (u.x * N.x)) := isF_rd (b1.trans (hM'.trans (by norm_num)))
  have F2 : IsF (rd (u.y * N.y)) := isF_rd (b2.trans (hM'.trans (by norm_num)))
  have F3 : IsF (dotF N u) := isF_rd (b3.trans (by norm_num at *; linarith))
  have e4 : |dotF N u - (u.x * N.x + u.y * N.y)| ≤ M * (481 / 10 ^ 18) := by
    unfold dotF
    rw [abs_le] at *
    norm_num at *
    constructor <;> linarith
  refine ⟨?_, F3, e4, ?_⟩
  · show B64.of u.x * B64.of N.x + B64.of u.y * B64.of N.y + B64.of u.z * B64.of N.z = _
    rw [nz, B64.mul_of hu.1 hN.1, B64.mul_of hu.2.1 hN.2.1, B64.mul_of hu.2.2 isF_zero, mul_zero, rd_zero, B64.add_of F1 F2]
    show B64.of (dotF N u) + B64.of 0 = _
    rw [B64.add_of F3 isF_zero, add_zero, rd_of_rep F3.1]
  · have t := abs_sub_abs_le_abs_sub (dotF N u) (u.x * N.x + u.y * N.y)
    have := abs_add_le (u.x * N.x) (u.y * N.y)
    norm_num at *
    linarith

theorem mul_dir {x n M : ℝ} (hx : |x| ≤ M) (hn : |n| ≤ 101 / 100) : |x * n| ≤ 101 / 100 * M := by
  rw [abs_mul, mul_comm]
  exact mul_le_mul hn hx (abs_nonneg _) (by norm_num)

/-- a found crossing of a side with the plane through the middle along the ray -/
theorem ray_seg {C n u v : R3} (FC : C.isF) (Fn : n.isF) (hu : u.isF) (hv : v.isF) (cx : |C.x| ≤ 1000) (cy : |C.y| ≤ 1000) (ru : u.inRange)
    (rv : v.inRange) (nx : |n.x| ≤ 101 / 100) (ny : |n.y| ≤ 101 / 100) (nz : n.z = 0) {x : Point B64}
    (hx : (⟨C.f64, n.f64v⟩ : Plane B64).intersectSegment u.f64 v.f64 = some x) :
    ∃ (T : ℝ) (w : R3), x = w.f64 ∧ w.isF ∧ 0 ≤ T ∧ T ≤ 1 ∧ |w.x - (u.x + T * (v.x - u.x))| ≤ 1 / 10 ^ 12 ∧
      |w.y - (u.y + T * (v.y - u.y))| ≤ 1 / 10 ^ 12 ∧ (u.z = v.z → w.z = u.z) ∧ |(w.x - C.x) * n.x + (w.y - C.y) * n.y| ≤ 3 / 10 ^ 11 := by
  have bd : ∀ {y m : ℝ}, |y| ≤ 1000 → |m| ≤ 101 / 100 → |y * m| ≤ 1100 := fun a b => (mul_dir a b).trans (by norm_num)
  obtain ⟨dA, FA, eA, bA⟩ := dotF_prod (M := 1100) (by norm_num) (by norm_num) hu Fn (bd ru.1 nx) (bd ru.2.1 ny) nz
  obtain ⟨dB, FB, eB, bB⟩ := dotF_prod (M := 1100) (by norm_num) (by norm_num) hv Fn (bd rv.1 nx) (bd rv.2.1 ny) nz
  obtain ⟨dP, FP, eP, bP⟩ := dotF_prod (M := 1100) (by norm_num) (by norm_num) FC Fn (bd cx nx) (bd cy ny) nz
  have big : ∀ {y : ℝ}, |y| ≤ 1000 → |y| ≤ 1100 := fun h => h.trans (by norm_num)
  have bu : u.inBox := ⟨big ru.1, big ru.2.1, big ru.2.2⟩
  have bv : v.inBox := ⟨big rv.1, big rv.2.1, big rv.2.2⟩
  rw [segment_general (pl := ⟨C.f64, n.f64v⟩) dA dB dP FA FB FP (bA.trans (by norm_num)) (bB.trans (by norm_num)) (bP.trans (by norm_num))
    hu hv bu bv] at hx
  split at hx
  · cases hx
  rename_i hne
  split at hx
  · cases hx
  rename_i ht
  push Not at ht
  obtain ⟨t0, t1⟩ := ht
  injection hx with hx
  have kx := coord_box t0 t1 bu.1 bv.1
  have ky := coord_box t0 t1 bu.2.1 bv.2.1
  have kz := coord_box t0 t1 bu.2.2 bv.2.2
  refine ⟨_, _, hx.symm, ⟨kx.2, ky.2, kz.2⟩, t0, t1, kx.1, ky.1, ?_, ?_⟩
  · intro hz
    show coordF _ u.z v.z = u.z
    rw [← hz]
    unfold coordF
    rw [sub_self, rd_zero, zero_mul, rd_zero, add_zero, rd_of_rep hu.2.2.1]
  · dsimp only
    set A := dotF n u
    set B := dotF n v
    set H := dotF n C
    have dn := abs_sub H A
    have dd := abs_sub B A
    have rn := rd_err (M := 4620) (by norm_num) (show |H - A| ≤ 4620 by linarith)
    have rdd := rd_err (M := 4620) (by norm_num) (show |B - A| ≤ 4620 by linarith)
    have hn : |rd (H - A) - ((C.x * n.x + C.y * n.y) - (u.x * n.x + u.y * n.y))| ≤ 4 / 10 ^ 12 := by
      rw [abs_le] at *
      norm_num at *
      constructor <;> linarith
    have hd : |rd (B - A) - ((v.x * n.x + v.y * n.y) - (u.x * n.x + u.y * n.y))| ≤ 2 / 10 ^ 12 := by
      rw [abs_le] at *
      norm_num at *
      constructor <;> linarith
    have bd : |rd (B - A)| ≤ 10 ^ 4 := (rd_bound (M := 4620) (by norm_num) (by linarith)).trans (by norm_num)
    have d0 : rd (B - A) ≠ 0 := by
      rw [Ne, rd_eq_zero (FB.1.onGrid.sub FA.1.onGrid)]
      intro h; exact hne (by linarith)
    have ep : rd (rd (H - A) / rd (B - A)) = paramF H A B := rfl
    have e2 := param_on hn hd bd d0 (by rw [ep]; exact t0) (by rw [ep]; exact t1)
    rw [ep] at e2
    have m1 := mul_dir kx.1 nx
    have m2 := mul_dir ky.1 ny
    generalize paramF H A B = T at *
    have e : (coordF T u.x v.x - C.x) * n.x + (coordF T u.y v.y - C.y) * n.y =
        (coordF T u.x v.x - (u.x + T * (v.x - u.x))) * n.x + (coordF T u.y v.y - (u.y + T * (v.y - u.y))) * n.y +
        (T * ((v.x * n.x + v.y * n.y) - (u.x * n.x + u.y * n.y)) - ((C.x * n.x + C.y * n.y) - (u.x * n.x + u.y * n.y))) := by ring
    rw [e]
    refine (abs_add_three _ _ _).trans ?_
    clear * - m1 m2 e2
    norm_num at *
    linarith

/-- points of a side of the rectangle, from the middle -/
theorem side_rim {p q : R3} (hx : p.x ≤ q.x) (hy : p.y ≤ q.y) (h : ℝ) (m : ℕ) {T : ℝ} (t0 : 0 ≤ T) (t1 : T ≤ 1) :
    let c := rectCorner p q h m
    let d := rectCorner p q h (m + 1)
    let X := c.x + T * (d.x - c.x) - (p.x + q.x) / 2
    let Y := c.y + T * (d.y - c.y) - (p.y + q.y) / 2
    |X| ≤ (q.x - p.x) / 2 ∧ |Y| ≤ (q.y - p.y) / 2 ∧ (|X| = (q.x - p.x) / 2 ∨ |Y| = (q.y - p.y) / 2) := by
  have s1 : 0 ≤ T * (q.x - p.x) := mul_nonneg t0 (by linarith)
  have s2 : T * (q.x - p.x) ≤ 1 * (q.x - p.x) := mul_le_mul_of_nonneg_right t1 (by linarith)
  have s3 : 0 ≤ T * (q.y - p.y) := mul_nonneg t0 (by linarith)
  have s4 : T * (q.y - p.y) ≤ 1 * (q.y - p.y) := mul_le_mul_of_nonneg_right t1 (by linarith)
  have w : |(q.x - p.x) / 2| = (q.x - p.x) / 2 := abs_of_nonneg (by linarith)
  have v : |(q.y - p.y) / 2| = (q.y - p.y) / 2 := abs_of_nonneg (by linarith)
  dsimp only
  unfold rectCorner
  rw [(Nat.mod_add_mod m 4 1).symm]
  have : m % 4 < 4 := Nat.mod_lt _ (by norm_num)
  interval_cases m % 4
  all_goals simp only [Nat.zero_add, Nat.reduceAdd, Nat.reduceMod]
  · refine ⟨abs_le.2 ⟨by linarith, by linarith⟩, abs_le.2 ⟨by linarith, by linarith⟩, Or.inr ?_⟩
    rw [← v, abs_eq_abs]; right; ring
  · refine ⟨abs_le.2 ⟨by linarith, by linarith⟩, abs_le.2 ⟨by linarith, by linarith⟩, Or.inl ?_⟩
    rw [← w, abs_eq_abs]; right; ring
  · refine ⟨abs_le.2 ⟨by linarith, by linarith⟩, abs_le.2 ⟨by linarith, by linarith⟩, Or.inr ?_⟩
    rw [← v, abs_eq_abs]; left; ring
  · refine ⟨abs_le.2 ⟨by linarith, by linarith⟩, abs_le.2 ⟨by linarith, by linarith⟩, Or.inl ?_⟩
    rw [← w, abs_eq_abs]; left; ring

theorem loop_sides (p q : R3) (h : ℝ) (i : ℕ) {s : Point B64 × Point B64} (hs : s ∈ adjPairs (fpath (rectLoop p q h i)).points) :
    ∃ m, s = ((rectCorner p q h m).f64, (rectCorner p q h (m + 1)).f64) := by
  have e : rectCorner p q h (i + 3 + 1) = rectCorner p q h i := by
    unfold rectCorner; rw [show i + 3 + 1 = i + 4 from rfl, Nat.add_mod_right]
  change s ∈ [((rectCorner p q h i).f64, (rectCorner p q h (i + 1)).f64), ((rectCorner p q h (i + 1)).f64, (rectCorner p q h (i + 2)).f64),
    ((rectCorner p q h (i + 2)).f64, (rectCorner p q h (i + 3)).f64), ((rectCorner p q h (i + 3)).f64, (rectCorner p q h i).f64)] at hs
  simp only [List.mem_cons, List.not_mem_nil, or_false] at hs
  rcases hs with rfl | rfl | rfl | rfl
  · exact ⟨i, rfl⟩
  · exact ⟨i + 1, rfl⟩
  · exact ⟨i + 2, rfl⟩
  · exact ⟨i + 3, by rw [e]⟩

/-- what a ray from the middle finds on a rectangle is where it leaves it -/
theorem ray_found {k : ℕ} {p q : R3} (H : GoodBox k p q) {h h' e : ℝ} (L : LevelOf k p q h) (L' : LevelOf k p q h') (i : ℕ) {u : R3} (hu : DirF e u)
    (he : e ≤ 1 / 10 ^ 3) :
    ∃ r, (Plane.mk (rectMid p q h').f64 (u.f64v.cross axisZ)).intersectPathCodirectedWith (fpath (rectLoop p q h i)) u.f64v = .ok r ∧
      ∀ x, r = some x → ∃ w : R3, x = w.f64 ∧ w.isF ∧ w.z = h ∧ |w.x| ≤ 1001 ∧ |w.y| ≤ 1001 ∧
        RayHit ((q.x - p.x) / 2) ((q.y - p.y) / 2) u.x u.y (w.x - (p.x + q.x) / 2) (w.y - (p.y + q.y) / 2) := by
  have hc := rect_centroid H L i
  unfold Plane.intersectPathCodirectedWith
  rw [hc, go_ok_bind]
  refine ⟨_, rfl, ?_⟩
  intro x hx
  obtain ⟨s, hs, hx⟩ := List.exists_of_findSome?_eq_some hx
  obtain ⟨m, rfl⟩ := loop_sides p q h i hs
  dsimp only at hx
  rw [crossZ hu.F] at hx
  obtain ⟨ux, uy⟩ := hu.small he
  have C := mid_exPt H L
  have C' := mid_exPt H L'
  have a := (corner_wholePt H L m).exPt
  have b := (corner_wholePt H L (m + 1)).exPt
  split at hx
  swap
  · cases hx
  rename_i x0 hi
  split at hx
  swap
  · cases hx
  rename_i hco
  injection hx with hx
  subst hx
  obtain ⟨T, w, rfl, Fw, t0, t1, wx, wy, wz, line⟩ := ray_seg C'.isF ⟨hu.F.2.1, hu.F.1.neg, isF_zero⟩ a.isF b.isF C'.x.2 C'.y.2
    ⟨a.x.2, a.y.2, a.z.2⟩ ⟨b.x.2, b.y.2, b.z.2⟩ uy (by rw [abs_neg]; exact ux) rfl hi
  have z0 : w.z = h := by rw [wz (by rw [(corner_whole H h m).2.2.2.2, (corner_whole H h (m + 1)).2.2.2.2]), (corner_whole H h m).2.2.2.2]
  obtain ⟨sw, sv⟩ := H.sides
  obtain ⟨rx, ry, rim⟩ := side_rim (p := p) (q := q) (by linarith) (by linarith) h m t0 t1
  have mx : (rectMid p q h').x = (p.x + q.x) / 2 := rfl
  have my : (rectMid p q h').y = (p.y + q.y) / 2 := rfl
  have cx : |(p.x + q.x) / 2| ≤ 1000 := C.x.2
  have cy : |(p.y + q.y) / 2| ≤ 1000 := C.y.2
  have px := abs_le.1 H.pr.1; have py := abs_le.1 H.pr.2.1; have qx := abs_le.1 H.qr.1; have qy := abs_le.1 H.qr.2.1
  rw [mx, my] at line
  have X : |w.x - (p.x + q.x) / 2| ≤ (q.x - p.x) / 2 + 1 / 10 ^ 11 := by
    rw [abs_le] at *; norm_num at *; constructor <;> linarith
  have Y : |w.y - (p.y + q.y) / 2| ≤ (q.y - p.y) / 2 + 1 / 10 ^ 11 := by
    rw [abs_le] at *; norm_num at *; constructor <;> linarith
  refine ⟨w, rfl, Fw, z0, ?_, ?_, X, Y, ?_, ?_, ?_⟩
  · rw [abs_le] at *; norm_num at *; constructor <;> linarith
  · rw [abs_le] at *; norm_num at *; constructor <;> linarith
  · rcases rim with r | r
    · left
      have t := abs_sub_abs_le_abs_sub ((rectCorner p q h m).x + T * ((rectCorner p q h (m + 1)).x - (rectCorner p q h m).x) - (p.x + q.x) / 2) (w.x - (p.x + q.x) / 2)
      rw [sub_sub_sub_cancel_right, abs_sub_comm _ w.x, r] at t
      norm_num at *; linarith
    · right
      have t := abs_sub_abs_le_abs_sub ((rectCorner p q h m).y + T * ((rectCorner p q h (m + 1)).y - (rectCorner p q h m).y) - (p.y + q.y) / 2) (w.y - (p.y + q.y) / 2)
      rw [sub_sub_sub_cancel_right, abs_sub_comm _ w.y, r] at t
      norm_num at *; linarith
  · rw [show u.y * (w.x - (p.x + q.x) / 2) - u.x * (w.y - (p.y + q.y) / 2) = (w.x - (p.x + q.x) / 2) * u.y + (w.y - (p.y + q.y) / 2) * -u.x by ring]
    exact line
  · have bX : |w.x - (p.x + q.x) / 2| ≤ 1001 := X.trans (by norm_num at *; linarith)
    have bY : |w.y - (p.y + q.y) / 2| ≤ 1001 := Y.trans (by norm_num at *; linarith)
    have eX := rd_err (M := 1001) (by norm_num) bX
    have eY := rd_err (M := 1001) (by norm_num) bY
    have fX : IsF (rd (w.x - (p.x + q.x) / 2)) := isF_rd (bX.trans (by norm_num))
    have fY : IsF (rd (w.y - (p.y + q.y) / 2)) := isF_rd (bY.trans (by norm_num))
    have ev : (rectMid p q h).f64.vectorTo w.f64 = (⟨rd (w.x - (p.x + q.x) / 2), rd (w.y - (p.y + q.y) / 2), 0⟩ : R3).f64v := by
      show (⟨B64.of w.x - B64.of ((p.x + q.x) / 2), B64.of w.y - B64.of ((p.y + q.y) / 2), B64.of w.z - B64.of h⟩ : Vec B64) = _
      have F1 : IsF ((p.x + q.x) / 2) := C.isF.1
      have F2 : IsF ((p.y + q.y) / 2) := C.isF.2.1
      rw [z0, B64.sub_of Fw.1 F1, B64.sub_of Fw.2.1 F2, B64.sub_of (L.ex H |>.F (by norm_num) (by norm_num)) (L.ex H |>.F (by norm_num) (by norm_num)),
        sub_self, rd_zero]
      rfl
    rw [ev] at hco
    have rX := (rd_bound (M := 1001) (by norm_num) bX).trans (show 1001 * (1 + 12 / 10 ^ 17) ≤ (1002 : ℝ) by norm_num)
    have rY := (rd_bound (M := 1001) (by norm_num) bY).trans (show 1001 * (1 + 12 / 10 ^ 17) ≤ (1002 : ℝ) by norm_num)
    obtain ⟨dd, Fd, ed, -⟩ := dotF_prod (N := u) (u := ⟨rd (w.x - (p.x + q.x) / 2), rd (w.y - (p.y + q.y) / 2), 0⟩) (M := 1100) (by norm_num) (by norm_num)
      ⟨fX, fY, isF_zero⟩ hu.F ((mul_dir rX ux).trans (by norm_num)) ((mul_dir rY uy).trans (by norm_num)) hu.z
    unfold Vec.codirectedWith at hco
    rw [dd, B64.lit0, B64.le_of isF_zero Fd, decide_eq_true_eq] at hco
    dsimp only at ed
    have m1 := mul_dir eX ux
    have m2 := mul_dir eY uy
    generalize w.x - (p.x + q.x) / 2 = dx at *
    generalize w.y - (p.y + q.y) / 2 = dy at *
    have ed := abs_le.1 ed
    have e : rd dx * u.x + rd dy * u.y = (rd dx - dx) * u.x + (rd dy - dy) * u.y + (u.x * dx + u.y * dy) := by ring
    rw [e] at ed
    have m1 := abs_le.1 m1; have m2 := abs_le.1 m2
    clear * - ed m1 m2 hco
    norm_num at *
    linarith

/-! ## no overhang between the layers of a box -/

/-- no direction is found in which a rectangle overhangs the one below it -/
theorem no_failing_angles {k : ℕ} {p q : R3} (H : GoodBox k p q) {h h' : ℝ} (L : LevelOf k p q h) (L' : LevelOf k p q h') (i i' : ℕ)
    (up : 1 / 1000 ≤ h' - h) (up' : h' - h ≤ 1000) :
    ∀ (m : ℕ) (j : Int) {e : ℝ} {u : R3}, DirF e u → e + m * (1 / 10 ^ 14) ≤ 1 / 10 ^ 6 →
      failingAngles (fpath (rectLoop p q h' i')) (fpath (rectLoop p q h i)) (rectMid p q h').f64 m j u.f64v = .ok [] := by
  intro m
  induction m with
  | zero => intro j e u _ _; rfl
  | succ m ih =>
    intro j e u hu he
    push_cast at he
    have m0 : (0 : ℝ) ≤ m := Nat.cast_nonneg m
    have e1 : e ≤ 1 / 10 ^ 6 := by norm_num at he ⊢; linarith
    have e2 : e ≤ 1 / 10 ^ 3 := e1.trans (by norm_num)
    obtain ⟨r, hr, fr⟩ := ray_found H L L' i hu e2
    obtain ⟨r', hr', fr'⟩ := ray_found H L' L' i' hu e2
    obtain ⟨u', eu, hu'⟩ := turn_step hu e2
    have rest := ih (j + 1) hu' (by linarith)
    have fine : ∀ x x', r = some x → r' = some x' → (failAngle <? (axisZ : Vec B64).angle (x.vectorTo x')) = false := by
      intro x x' ex ex'
      obtain ⟨w, rfl, Fw, wz, wx, wy, hit⟩ := fr x ex
      obtain ⟨w', rfl, Fw', wz', wx', wy', hit'⟩ := fr' x' ex'
      obtain ⟨sw, sv⟩ := H.sides
      have px := abs_le.1 H.pr.1; have py := abs_le.1 H.pr.2.1; have qx := abs_le.1 H.qr.1; have qy := abs_le.1 H.qr.2.1
      obtain ⟨dx, dy⟩ := ray_unique (by linarith) (by linarith) (by linarith) (by linarith) (hu.len.trans e1) hit hit'
      rw [sub_sub_sub_cancel_right] at dx dy
      have bx := (rd_bound (M := 1 / 10 ^ 5) (by norm_num) dx).trans (show 1 / 10 ^ 5 * (1 + 12 / 10 ^ 17) ≤ (2 / 10 ^ 5 : ℝ) by norm_num)
      have by' := (rd_bound (M := 1 / 10 ^ 5) (by norm_num) dy).trans (show 1 / 10 ^ 5 * (1 + 12 / 10 ^ 17) ≤ (2 / 10 ^ 5 : ℝ) by norm_num)
      have ev : w.f64.vectorTo w'.f64 = (⟨rd (w'.x - w.x), rd (w'.y - w.y), h' - h⟩ : R3).f64v := by
        show (⟨B64.of w'.x - B64.of w.x, B64.of w'.y - B64.of w.y, B64.of w'.z - B64.of w.z⟩ : Vec B64) = _
        rw [wz, wz', B64.sub_of Fw'.1 Fw.1, B64.sub_of Fw'.2.1 Fw.2.1, subX (L'.ex H) (L.ex H) (by norm_num) (by norm_num)]
        rfl
      rw [ev]
      exact steep_fine (isF_rd (dx.trans (by norm_num))) (isF_rd (dy.trans (by norm_num))) (((L'.ex H).sub (L.ex H)).F (by norm_num) (by norm_num)) bx by' up up'
    unfold failingAngles
    dsimp only
    rw [eu, rest, hr', hr]
    cases r' with
    | none => rfl
    | some x' =>
      cases r with
      | none => rfl
      | some x =>
        simp only [go_ok_bind, fine x x' rfl rfl]
        rfl

theorem exVec_zero : ExVec ⟨0, 0, 0⟩ := by
  have z : Ex 8 2000 0 := ⟨⟨0, by simp⟩, by simp⟩
  exact ⟨z, z, z⟩

/-- the vertical direction has no horizontal part -/
theorem upright_flat {d : ℝ} (hd : IsF d) : (⟨0, 0, d⟩ : R3).f64v.projectOnPlane planeXY = (⟨0, 0, 0⟩ : R3).f64v := by
  have F0 := isF_zero
  have F1 := isF_one
  have d1 : (⟨0, 0, 1⟩ : R3).f64v.dot (⟨0, 0, d⟩ : R3).f64v = B64.of d := by
    show B64.of 0 * B64.of 0 + B64.of 0 * B64.of 0 + B64.of 1 * B64.of d = _
    rw [B64.mul_of F0 F0, B64.mul_of F1 hd, zero_mul, one_mul, rd_zero, rd_of_rep hd.1, B64.add_of F0 F0, add_zero, rd_zero, B64.add_of F0 hd, zero_add,
      rd_of_rep hd.1]
  have l1 : (⟨0, 0, 1⟩ : R3).f64v.lengthSquare = B64.of 1 := by
    show B64.of 0 * B64.of 0 + B64.of 0 * B64.of 0 + B64.of 1 * B64.of 1 = _
    rw [B64.mul_of F0 F0, B64.mul_of F1 F1, zero_mul, one_mul, rd_zero, rd_of_rep F1.1, B64.add_of F0 F0, add_zero, rd_zero, B64.add_of F0 F1, zero_add,
      rd_of_rep F1.1]
  have en : (planeXY : Plane B64).n = (⟨0, 0, 1⟩ : R3).f64v := axisZ_f64v
  unfold Vec.projectOnPlane Vec.projectOn
  dsimp only
  rw [en, l1, d1, B64.lit0, B64.eq_of F1 F0, if_neg (by simp), B64.div_of hd F1 one_ne_zero, div_one, rd_of_rep hd.1]
  show (⟨B64.of 0 + -(B64.of 0 * B64.of d), B64.of 0 + -(B64.of 0 * B64.of d), B64.of d + -(B64.of 1 * B64.of d)⟩ : Vec B64) = _
  rw [B64.mul_of F0 hd, B64.mul_of F1 hd, zero_mul, one_mul, rd_zero, rd_of_rep hd.1, B64.neg_of F0, B64.neg_of hd, B64.add_of F0 F0.neg, B64.add_of hd hd.neg]
  simp [rd_zero, R3.f64v]

/-- the layers of a box do not overhang each other, by the test of the five axes slicers -/
theorem box_no_fail {k : ℕ} {p q : R3} (H : GoodBox k p q) {h h' : ℝ} (L : LevelOf k p q h) (L' : LevelOf k p q h') (i i' : ℕ)
    (up : 1 / 1000 ≤ h' - h) (up' : h' - h ≤ 1000) (low : Layer B64) (el : low.paths = [fpath (rectLoop p q h i)]) :
    calculateFails low [fpath (rectLoop p q h' i')] = .ok none := by
  have fa := no_failing_angles H L L' i i' up up' angleCount 0 dirF_X (by norm_num [angleCount])
  have pf : pathFails low (fpath (rectLoop p q h' i')) (rectMid p q h').f64 = .ok none := by
    by_cases hin : (rectMid p q h').f64.inside (fpath (rectLoop p q h i)) = true
    · have fp : findPrevPath (rectMid p q h').f64 low.paths = .ok (some (fpath (rectLoop p q h i))) := by
        rw [el]
        unfold findPrevPath
        rw [rect_centroid H L i, go_ok_bind, rect_not_hole H L i, hin]
        rfl
      unfold pathFails
      rw [fp, go_ok_bind, axisX_f64]
      dsimp only
      rw [fa]
      rfl
    · -- the program then looks into the direction of the shift between the two middles, which is none
      have fp : findPrevPath (rectMid p q h').f64 low.paths = .ok none := by
        rw [el]
        unfold findPrevPath
        rw [rect_centroid H L i, go_ok_bind, rect_not_hole H L i, if_neg (by simp), if_neg hin]
        rfl
      have C := mid_exPt H L
      have C' := mid_exPt H L'
      have ev : (rectMid p q h).f64.vectorTo (rectMid p q h').f64 = (⟨0, 0, h' - h⟩ : R3).f64v := by
        rw [vectorToX C C']
        congr 1
        ext <;> simp [rectMid]
      have Fd : IsF (h' - h) := ((L'.ex H).sub (L.ex H)).F (by norm_num) (by norm_num)
      have miss : (Plane.mk (rectMid p q h).f64 (⟨0, 0, 0⟩ : R3).f64v).intersectPathCodirectedWith (fpath (rectLoop p q h i)) (⟨0, 0, 0⟩ : R3).f64v = .ok none := by
        unfold Plane.intersectPathCodirectedWith
        rw [rect_centroid H L i, go_ok_bind]
        show Except.ok _ = _
        congr 1
        rw [List.findSome?_eq_none_iff]
        intro s hs
        obtain ⟨m, rfl⟩ := loop_sides p q h i hs
        dsimp only
        rw [(segX C exVec_zero (corner_wholePt H L m).exPt (corner_wholePt H L (m + 1)).exPt).1 (by simp [R3.dot])]
      unfold pathFails
      rw [fp, go_ok_bind]
      dsimp only
      rw [el]
      dsimp only
      rw [rect_centroid H L i, go_ok_bind, ev, upright_flat Fd, crossZ (u := ⟨0, 0, 0⟩) ⟨isF_zero, isF_zero, isF_zero⟩]
      dsimp only
      rw [neg_zero, miss]
      rfl
  unfold calculateFails
  rw [rect_centroid H L' i', go_ok_bind, rect_not_hole H L' i', if_neg (by simp), pf]
  rfl

end Goosli
