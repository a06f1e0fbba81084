import Verif.Proofs.BoxMiddle
/-!
# Rays from the middle of a rectangle, in binary64

The directions probed by the overhang test stay of length one up to `1e-12`; what a ray meets of a rectangle is close to where the ray leaves
it, so that rays in the same direction meet two rectangles above each other at places above each other.
-/
set_option autoImplicit false
namespace Goosli
open Flt R3 Spec

/-! ## directions -/

/-- a horizontal direction of length one, up to `e` -/
structure DirF (e : ℝ) (u : R3) : Prop where
  F : u.isF
  z : u.z = 0
  len : |u.x ^ 2 + u.y ^ 2 - 1| ≤ e

theorem DirF.small {e : ℝ} {u : R3} (h : DirF e u) (he : e ≤ 1 / 10 ^ 3) : |u.x| ≤ 101 / 100 ∧ |u.y| ≤ 101 / 100 := by
  have := abs_le.1 h.len
  have x := sq_abs u.x
  have y := sq_abs u.y
  constructor <;> by_contra hc <;> push Not at hc <;> norm_num at he <;> nlinarith [sq_nonneg u.x, sq_nonneg u.y]

theorem dirF_X : DirF 0 ⟨1, 0, 0⟩ := ⟨⟨isF_one, isF_zero, isF_zero⟩, rfl, by norm_num⟩

theorem axisX_f64 : (axisX : Vec B64) = (⟨1, 0, 0⟩ : R3).f64v := by
  simp only [axisX, V, R3.f64v, B64.lit0, B64.lit1]

theorem rd_unit {x : ℝ} (h : |x| ≤ 1) : |rd x| ≤ 1 := by
  have a := abs_le.1 h
  rw [abs_le]
  exact ⟨le_rd isF_one.1.neg a.1, rd_le isF_one.1 a.2⟩

/-- the numbers of the turn by ten degrees about the z axis -/
theorem turn_numbers : ∃ c s : ℝ, IsF c ∧ IsF s ∧ |c| ≤ 1 ∧ |s| ≤ 1 ∧ |c ^ 2 + s ^ 2 - 1| ≤ 5 / 10 ^ 16 ∧
    (rotationAroundZ (Flt.ofInt angleDist) : RotationMatrix B64) = ⟨(⟨c, s, 0⟩ : R3).f64v, (⟨-s, c, 0⟩ : R3).f64v, (⟨0, 0, 1⟩ : R3).f64v⟩ := by
  obtain ⟨θ, hθ, e⟩ : ∃ θ : ℝ, IsF θ ∧ toRadians (Flt.ofInt angleDist : B64) = B64.of θ := by
    unfold toRadians
    have l : (lit 180 0 : B64) = B64.of 180 := by rw [B64.lit_of]; norm_num
    have F10 : IsF 10 := by simpa using isF_int (n := 10) (by norm_num)
    have F180 : IsF 180 := by simpa using isF_int (n := 180) (by norm_num)
    have pb : |Real.pi| ≤ 4 := by rw [abs_of_pos Real.pi_pos]; exact Real.pi_le_four
    have Fp : IsF (rd Real.pi) := isF_rd (pb.trans (by norm_num))
    have pb' := rd_bound (M := 4) (by norm_num) pb
    have b1 : |rd Real.pi * 10| ≤ 50 := by
      rw [abs_mul, abs_of_pos (by norm_num : (0 : ℝ) < 10)]; norm_num at pb' ⊢; linarith
    have F1 : IsF (rd (rd Real.pi * 10)) := isF_rd (b1.trans (by norm_num))
    have b2 := rd_bound (M := 50) (by norm_num) b1
    refine ⟨rd (rd (rd Real.pi * 10) / 180), isF_rd ?_, ?_⟩
    · rw [abs_div, abs_of_pos (by norm_num : (0 : ℝ) < 180)]
      have : |rd (rd Real.pi * 10)| / 180 ≤ 1 := by rw [div_le_iff₀ (by norm_num)]; norm_num at b2 ⊢; linarith
      exact this.trans (by norm_num)
    · have ea : (Flt.ofInt angleDist : B64) = B64.of 10 := by
        rw [B64.ofInt_of]; norm_num [angleDist]
      rw [ea, l, B64.pi_of, B64.mul_of Fp F10, B64.div_of F1 F180 (by norm_num)]
  have hc : |Real.cos θ| ≤ 1 := Real.abs_cos_le_one θ
  have hs : |Real.sin θ| ≤ 1 := Real.abs_sin_le_one θ
  have cc : Flt.cos (B64.of θ) = B64.of (rd (Real.cos θ)) := by
    show B64.rnd (Flt.cos (B64.of θ).1) = _
    rw [B64.of_val hθ, XR.fin_cos, B64.rnd_fin]
  have ss : Flt.sin (B64.of θ) = B64.of (rd (Real.sin θ)) := by
    show B64.rnd (Flt.sin (B64.of θ).1) = _
    rw [B64.of_val hθ, XR.fin_sin, B64.rnd_fin]
  have Fc : IsF (rd (Real.cos θ)) := isF_rd (hc.trans (by norm_num))
  have Fs : IsF (rd (Real.sin θ)) := isF_rd (hs.trans (by norm_num))
  refine ⟨rd (Real.cos θ), rd (Real.sin θ), Fc, Fs, rd_unit hc, rd_unit hs, ?_, ?_⟩
  · have e1 := abs_le.1 (rd_err (M := 1) (by norm_num) hc)
    have e2 := abs_le.1 (rd_err (M := 1) (by norm_num) hs)
    have h1 := Real.sin_sq_add_cos_sq θ
    generalize Real.cos θ = c at *
    generalize Real.sin θ = s at *
    have c1 := abs_le.1 (rd_unit hc)
    have s1 := abs_le.1 (rd_unit hs)
    have c0 := abs_le.1 hc
    have s0 := abs_le.1 hs
    have f1 : |(rd c - c) * (rd c + c)| ≤ 12 / 10 ^ 17 * 2 := by
      rw [abs_mul]
      refine mul_le_mul (abs_le.2 ⟨by linarith [e1.1], by linarith [e1.2]⟩) (abs_le.2 ⟨by linarith, by linarith⟩) (abs_nonneg _) (by norm_num)
    have f2 : |(rd s - s) * (rd s + s)| ≤ 12 / 10 ^ 17 * 2 := by
      rw [abs_mul]
      refine mul_le_mul (abs_le.2 ⟨by linarith [e2.1], by linarith [e2.2]⟩) (abs_le.2 ⟨by linarith, by linarith⟩) (abs_nonneg _) (by norm_num)
    have : rd c ^ 2 + rd s ^ 2 - 1 = (rd c - c) * (rd c + c) + (rd s - s) * (rd s + s) := by
      rw [← h1]; ring
    rw [this]
    refine (abs_add_le _ _).trans ?_
    norm_num at *
    linarith
  · have l0 : (lit 0 0 : B64) = B64.of 0 := B64.lit0
    have l1 : (lit 1 0 : B64) = B64.of 1 := B64.lit1
    unfold rotationAroundZ
    dsimp only
    rw [e, cc, ss, l0, l1, B64.neg_of Fs]
    rfl

/-- the next direction -/
theorem turn_step {e : ℝ} {u : R3} (h : DirF e u) (he : e ≤ 1 / 10 ^ 3) :
    ∃ u' : R3, u.f64v.rotate (rotationAroundZ (Flt.ofInt angleDist)) = u'.f64v ∧ DirF (e + 1 / 10 ^ 14) u' := by
  obtain ⟨c, s, Fc, Fs, c1, s1, cs, er⟩ := turn_numbers
  obtain ⟨sx, sy⟩ := h.small he
  rw [er]
  have s1' : |-s| ≤ 1 := by rw [abs_neg]; exact s1
  obtain ⟨d1, F1, e1, -⟩ := dotF_of (N := ⟨c, s, 0⟩) (u := u) (M := 101 / 100) (by norm_num) (by norm_num) h.F ⟨Fc, Fs, isF_zero⟩ sx sy c1 s1 rfl
  obtain ⟨d2, F2, e2, -⟩ := dotF_of (N := ⟨-s, c, 0⟩) (u := u) (M := 101 / 100) (by norm_num) (by norm_num) h.F ⟨Fs.neg, Fc, isF_zero⟩ sx sy s1' c1 rfl
  have d3 : u.f64v.dot (⟨0, 0, 1⟩ : R3).f64v = B64.of 0 := by
    show B64.of u.x * B64.of 0 + B64.of u.y * B64.of 0 + B64.of u.z * B64.of 1 = _
    rw [h.z, B64.mul_of h.F.1 isF_zero, B64.mul_of h.F.2.1 isF_zero, B64.mul_of isF_zero isF_one, mul_zero, mul_zero, zero_mul, rd_zero,
      B64.add_of isF_zero isF_zero, add_zero, rd_zero, B64.add_of isF_zero isF_zero, add_zero, rd_zero]
  refine ⟨⟨dotF ⟨c, s, 0⟩ u, dotF ⟨-s, c, 0⟩ u, 0⟩, ?_, ⟨F1, F2, isF_zero⟩, rfl, ?_⟩
  · show (⟨u.f64v.dot (⟨c, s, 0⟩ : R3).f64v, u.f64v.dot (⟨-s, c, 0⟩ : R3).f64v, u.f64v.dot (⟨0, 0, 1⟩ : R3).f64v⟩ : Vec B64) = _
    have d1 : u.f64v.dot (⟨c, s, 0⟩ : R3).f64v = _ := d1
    have d2 : u.f64v.dot (⟨-s, c, 0⟩ : R3).f64v = _ := d2
    rw [d1, d2, d3]
    rfl
  · dsimp only at e1 e2 ⊢
    generalize dotF ⟨c, s, 0⟩ u = A at *
    generalize dotF ⟨-s, c, 0⟩ u = B at *
    have hl := h.len
    generalize u.x = a at *
    generalize u.y = b at *
    have X : |a * c + b * s| ≤ 21 / 10 := by
      refine (abs_add_le _ _).trans ?_
      have := mul_unit sx c1; have := mul_unit sy s1
      linarith
    have Y : |a * -s + b * c| ≤ 21 / 10 := by
      refine (abs_add_le _ _).trans ?_
      have := mul_unit sx s1'; have := mul_unit sy c1
      linarith
    have key : ∀ {x y : ℝ}, |x - y| ≤ 101 / 100 * (481 / 10 ^ 18) → |y| ≤ 21 / 10 → |x ^ 2 - y ^ 2| ≤ 25 / 10 ^ 16 := by
      intro x y hxy hy
      have : |x + y| ≤ 5 := by
        have h1 := abs_sub_abs_le_abs_sub x y
        refine (abs_add_le _ _).trans ?_
        norm_num at hxy
        linarith
      have e : x ^ 2 - y ^ 2 = (x - y) * (x + y) := by ring
      rw [e, abs_mul]
      refine (mul_le_mul hxy this (abs_nonneg _) (by norm_num)).trans (by norm_num)
    have k1 := abs_le.1 (key e1 X)
    have k2 := abs_le.1 (key e2 Y)
    have rot : (a * c + b * s) ^ 2 + (a * -s + b * c) ^ 2 = (a ^ 2 + b ^ 2 - 1) * (c ^ 2 + s ^ 2 - 1) + (a ^ 2 + b ^ 2 - 1) + (c ^ 2 + s ^ 2 - 1) + 1 := by ring
    have pr : |(a ^ 2 + b ^ 2 - 1) * (c ^ 2 + s ^ 2 - 1)| ≤ 1 / 10 ^ 3 * (5 / 10 ^ 16) := by
      rw [abs_mul]
      exact mul_le_mul (hl.trans he) cs (abs_nonneg _) (by norm_num)
    have pr := abs_le.1 pr
    have cs := abs_le.1 cs
    have hl := abs_le.1 hl
    rw [abs_le]
    norm_num at *
    constructor <;> linarith

end Goosli
