import Verif.Proofs.B64Geom
import Verif.Proofs.Extrusion
import Mathlib.Analysis.Real.Pi.Bounds
/-!
# Extrusion amounts in binary64
-/
set_option autoImplicit false
namespace Goosli
open Flt

/-- `y` is `x` up to `k` units of the last place and `τ` -/
def Err (k τ x y : ℝ) : Prop := |y - x| ≤ k * x / 2 ^ 52 + τ

theorem rd_err240 (x : ℝ) : |rd x - x| ≤ |x| / 2 ^ 53 + 1 / 2 ^ 240 := by
  refine (rd_error x).trans ?_
  gcongr
  · norm_num
  · norm_num

namespace Err

variable {k k' τ τ' x x' y y' : ℝ}

theorem weaken (h : Err k τ x y) (hx : 0 ≤ x) (hk : k ≤ k') (ht : τ ≤ τ') : Err k' τ' x y := by
  unfold Err at *
  have : k * x / 2 ^ 52 ≤ k' * x / 2 ^ 52 := by gcongr
  linarith

theorem refl (x : ℝ) : Err 0 0 x x := by simp [Err]

theorem le (h : Err k τ x y) (hx : 0 ≤ x) (hk : k ≤ 30) : y ≤ 2 * x + τ := by
  have h1 := (abs_le.1 h).2
  have h2 : k * x / 2 ^ 52 ≤ x := by
    rw [div_le_iff₀ (by norm_num)]
    nlinarith
  linarith

theorem round (h : Err k τ x y) (hx : 0 ≤ x) (hk : 0 ≤ k) (hk' : k ≤ 30) (ht : 0 ≤ τ) :
    Err (k + 1) (2 * τ + 1 / 2 ^ 240) x (rd y) := by
  unfold Err at *
  have h1 := rd_err240 y
  have h2 : |rd y - x| ≤ |rd y - y| + |y - x| := abs_sub_le _ _ _
  have h3 : |y| ≤ |y - x| + x := by
    have := abs_add_le (y - x) x
    rw [sub_add_cancel, abs_of_nonneg hx] at this
    exact this
  have h4 : k * x / 2 ^ 52 ≤ x / 2 := by
    rw [div_le_iff₀ (by norm_num)]
    nlinarith
  have e : (k + 1) * x / 2 ^ 52 = k * x / 2 ^ 52 + 2 * (x / 2 ^ 53) := by ring
  rw [e]
  have h5 : |y| / 2 ^ 53 ≤ 2 * (x / 2 ^ 53) + τ := by
    have : |y| ≤ 2 * x + τ := by linarith
    calc |y| / 2 ^ 53 ≤ (2 * x + τ) / 2 ^ 53 := by gcongr
      _ = 2 * (x / 2 ^ 53) + τ / 2 ^ 53 := by ring
      _ ≤ _ := by
        have : τ / 2 ^ 53 ≤ τ := div_le_self ht (by norm_num)
        linarith
  linarith

theorem mul (h : Err k 0 x y) (h' : Err k' τ x' y') (hx : 0 ≤ x) (hx' : 0 ≤ x') (hk : 0 ≤ k) (hk' : 0 ≤ k') (hk1 : k ≤ 30)
    (hk2 : k' ≤ 30) (ht : 0 ≤ τ) : Err (k + k' + 1) (2 * x * τ) (x * x') (y * y') := by
  unfold Err at *
  have e : y * y' - x * x' = (y - x) * y' + x * (y' - x') := by ring
  have h1 : |y * y' - x * x'| ≤ |y - x| * |y'| + x * |y' - x'| := by
    rw [e]
    refine (abs_add_le _ _).trans ?_
    rw [abs_mul, abs_mul, abs_of_nonneg hx]
  have h3 : |y'| ≤ x' + (k' * x' / 2 ^ 52 + τ) := by
    have := abs_add_le (y' - x') x'
    rw [sub_add_cancel, abs_of_nonneg hx'] at this
    linarith
  have h4 : |y - x| * |y'| ≤ (k * x / 2 ^ 52 + 0) * (x' + (k' * x' / 2 ^ 52 + τ)) := by
    gcongr
  have h5 : x * |y' - x'| ≤ x * (k' * x' / 2 ^ 52 + τ) := by gcongr
  have hp : 0 ≤ x * x' := mul_nonneg hx hx'
  have hq : 0 ≤ x * τ := mul_nonneg hx ht
  have h6 : k * k' ≤ 900 := by nlinarith
  have e2 : (k * x / 2 ^ 52 + 0) * (x' + (k' * x' / 2 ^ 52 + τ)) + x * (k' * x' / 2 ^ 52 + τ) =
      (k + k' + k * k' / 2 ^ 52) * (x * x') / 2 ^ 52 + (1 + k / 2 ^ 52) * (x * τ) := by ring
  have h7 : k * k' / 2 ^ 52 ≤ 1 := by
    rw [div_le_one (by norm_num)]; linarith
  have h8 : k / 2 ^ 52 ≤ 1 := by
    rw [div_le_one (by norm_num)]; linarith
  have h9 : (k + k' + k * k' / 2 ^ 52) * (x * x') / 2 ^ 52 ≤ (k + k' + 1) * (x * x') / 2 ^ 52 := by gcongr
  have h10 : (1 + k / 2 ^ 52) * (x * τ) ≤ (1 + 1) * (x * τ) := by gcongr
  have e3 : 2 * x * τ = (1 + 1) * (x * τ) := by ring
  rw [e3]
  linarith

theorem inv {q q' : ℝ} (h : Err k 0 q q') (hq : 0 < q) (hk : 0 ≤ k) (hk' : k ≤ 30) : 0 < q' ∧ Err (k + 1) 0 q⁻¹ q'⁻¹ := by
  unfold Err at *
  have h1 := abs_le.1 h
  have h2 : k * q / 2 ^ 52 ≤ q / 2 ^ 40 := by
    rw [div_le_iff₀ (by norm_num)]
    nlinarith
  have hp : 0 < q' := by
    have : q / 2 ^ 40 < q := div_lt_self hq (by norm_num)
    linarith [h1.1]
  refine ⟨hp, ?_⟩
  have e : q'⁻¹ - q⁻¹ = (q - q') * (q'⁻¹ * q⁻¹) := by
    field_simp
  rw [e, abs_mul, abs_of_pos (by positivity : 0 < q'⁻¹ * q⁻¹), abs_sub_comm]
  have h3 : (k * q / 2 ^ 52) ≤ (k + 1) * q' / 2 ^ 52 := by
    have h4 : k * q ≤ (k + 1) * q' := by
      have h5 : q - q / 2 ^ 40 ≤ q' := by linarith [h1.1]
      have h6 : (k + 1) * (q - q / 2 ^ 40) ≤ (k + 1) * q' := by gcongr
      have h7 : (k + 1) * (q / 2 ^ 40) ≤ q := by
        have : (k + 1) * (q / 2 ^ 40) ≤ 31 * (q / 2 ^ 40) := by gcongr; linarith
        have : 31 * (q / 2 ^ 40) ≤ q := by
          rw [mul_div_assoc', div_le_iff₀ (by norm_num)]; nlinarith
        linarith
      nlinarith
    gcongr
  calc |q' - q| * (q'⁻¹ * q⁻¹) ≤ ((k + 1) * q' / 2 ^ 52) * (q'⁻¹ * q⁻¹) := by
        gcongr
        linarith
    _ = (k + 1) * q⁻¹ / 2 ^ 52 + 0 := by field_simp; ring

end Err

/-- a number of ordinary size -/
theorem rel_round {x : ℝ} (h : 1 / 2 ^ 100 ≤ x) : Err 1 0 x (rd x) := by
  have hx : 0 ≤ x := le_trans (by positivity) h
  unfold Err
  have h1 := rd_err240 x
  rw [abs_of_nonneg hx] at h1
  have : (1 : ℝ) / 2 ^ 240 ≤ x / 2 ^ 53 := by
    calc (1 : ℝ) / 2 ^ 240 ≤ (1 / 2 ^ 100) / 2 ^ 53 := by norm_num
      _ ≤ x / 2 ^ 53 := by gcongr
  have e : 1 * x / 2 ^ 52 + 0 = x / 2 ^ 53 + x / 2 ^ 53 := by ring
  rw [e]
  linarith

/-- a product of ordinary size -/
theorem rel_mul {k k' x x' y y' : ℝ} (h : Err k 0 x y) (h' : Err k' 0 x' y') (hx : 0 ≤ x) (hx' : 0 ≤ x') (hk : 0 ≤ k) (hk' : 0 ≤ k')
    (hk1 : k ≤ 10) (hk2 : k' ≤ 10) (hp : 1 / 2 ^ 90 ≤ x * x') : Err (k + k' + 3) 0 (x * x') (rd (y * y')) := by
  have h1 := Err.mul h h' hx hx' hk hk' (by linarith) (by linarith) le_rfl
  rw [mul_zero] at h1
  have hxx := mul_nonneg hx hx'
  have hy : x * x' / 2 ≤ y * y' := by
    have h2 := (abs_le.1 h1).1
    have h3 : (k + k' + 1) * (x * x') / 2 ^ 52 ≤ x * x' / 2 := by
      rw [div_le_iff₀ (by norm_num)]
      nlinarith
    linarith
  have h4 := rel_round (x := y * y') (by
    have : (1 : ℝ) / 2 ^ 100 ≤ 1 / 2 ^ 90 / 2 := by norm_num
    have : (1 : ℝ) / 2 ^ 90 / 2 ≤ x * x' / 2 := by gcongr
    linarith)
  unfold Err at *
  have h5 : |rd (y * y') - x * x'| ≤ |rd (y * y') - y * y'| + |y * y' - x * x'| := abs_sub_le _ _ _
  have h6 : y * y' ≤ 2 * (x * x') := by
    have := Err.le (k := k + k' + 1) (τ := 0) (x := x * x') (y := y * y') h1 hxx (by linarith)
    linarith
  have e : (k + k' + 3) * (x * x') / 2 ^ 52 + 0 = (k + k' + 1) * (x * x') / 2 ^ 52 + 0 + (2 * (x * x')) / 2 ^ 52 := by ring
  rw [e]
  have : 1 * (y * y') / 2 ^ 52 ≤ (2 * (x * x')) / 2 ^ 52 := by
    rw [one_mul]; gcongr
  linarith

/-! ## the length of a segment -/

theorem Err.add {k τ τ' x x' y y' : ℝ} (h : Err k τ x y) (h' : Err k τ' x' y') : Err k (τ + τ') (x + x') (y + y') := by
  unfold Err at *
  have e : y + y' - (x + x') = (y - x) + (y' - x') := by ring
  rw [e]
  refine (abs_add_le _ _).trans ?_
  have : k * (x + x') / 2 ^ 52 = k * x / 2 ^ 52 + k * x' / 2 ^ 52 := by ring
  rw [this]
  linarith

theorem sq_diff_err {x y : ℝ} (hx : Rep x) (hy : Rep y) : Err 2 0 ((x - y) ^ 2) (rd (x - y) ^ 2) := by
  have h := rd_error_grid (hx.onGrid.sub hy.onGrid)
  unfold Err
  generalize x - y = v at h ⊢
  have e : rd v ^ 2 - v ^ 2 = (rd v - v) * (rd v + v) := by ring
  rw [e, abs_mul]
  have h1 : |rd v + v| ≤ 3 * |v| := by
    have h2 : |rd v + v| ≤ |rd v - v| + |2 * v| := by
      have := abs_add_le (rd v - v) (2 * v)
      rwa [show rd v - v + 2 * v = rd v + v by ring] at this
    rw [abs_mul, abs_of_pos (by norm_num : (0 : ℝ) < 2)] at h2
    have h3 : |v| / 2 ^ 53 ≤ |v| := div_le_self (abs_nonneg _) (by norm_num)
    linarith
  calc |rd v - v| * |rd v + v| ≤ (|v| / 2 ^ 53) * (3 * |v|) := by gcongr
    _ = 3 * v ^ 2 / 2 ^ 53 := by rw [← sq_abs]; ring
    _ ≤ 2 * v ^ 2 / 2 ^ 52 + 0 := by
      rw [add_zero, div_le_div_iff₀ (by norm_num) (by norm_num)]
      nlinarith [sq_nonneg v]

theorem Err.sqrt {k τ x y : ℝ} (h : Err k τ x y) (hx : 0 ≤ x) (hy : 0 ≤ y) (hk : 0 ≤ k) (hk' : k ≤ 30) (ht : τ ≤ 1 / 2 ^ 236) :
    Err k (1 / 2 ^ 117) (Real.sqrt x) (Real.sqrt y) := by
  have hle := h.le hx hk'
  unfold Err at *
  rcases le_or_gt (1 / 2 ^ 118) (Real.sqrt x) with hb | hs
  · have hp : 0 < Real.sqrt x := lt_of_lt_of_le (by positivity) hb
    have hsq := Real.mul_self_sqrt hx
    have hsq' := Real.mul_self_sqrt hy
    have hn := Real.sqrt_nonneg y
    have e : (Real.sqrt y - Real.sqrt x) * (Real.sqrt y + Real.sqrt x) = y - x := by
      rw [← hsq', ← hsq]
      simp only [Real.sqrt_mul_self hn, Real.sqrt_mul_self hp.le]
      ring
    have h1 : |Real.sqrt y - Real.sqrt x| * Real.sqrt x ≤ k * x / 2 ^ 52 + τ := by
      calc |Real.sqrt y - Real.sqrt x| * Real.sqrt x ≤ |Real.sqrt y - Real.sqrt x| * (Real.sqrt y + Real.sqrt x) := by
            gcongr; linarith
        _ = |y - x| := by
            rw [← e, abs_mul, abs_of_nonneg (by linarith : 0 ≤ Real.sqrt y + Real.sqrt x)]
        _ ≤ _ := h
    have h2 : k * x / 2 ^ 52 + τ ≤ (k * Real.sqrt x / 2 ^ 52 + 1 / 2 ^ 117) * Real.sqrt x := by
      have e1 : (k * Real.sqrt x / 2 ^ 52 + 1 / 2 ^ 117) * Real.sqrt x = k * x / 2 ^ 52 + 1 / 2 ^ 117 * Real.sqrt x := by
        rw [show (k * Real.sqrt x / 2 ^ 52 + 1 / 2 ^ 117) * Real.sqrt x = k * (Real.sqrt x * Real.sqrt x) / 2 ^ 52 +
          1 / 2 ^ 117 * Real.sqrt x by ring, hsq]
      rw [e1]
      have : (1 : ℝ) / 2 ^ 117 * (1 / 2 ^ 118) ≤ 1 / 2 ^ 117 * Real.sqrt x := by gcongr
      have : (1 : ℝ) / 2 ^ 236 ≤ 1 / 2 ^ 117 * (1 / 2 ^ 118) := by norm_num
      linarith
    exact le_of_mul_le_mul_right (h1.trans h2) hp
  · have hx2 : x ≤ (1 / 2 ^ 118) ^ 2 := by
      rw [← Real.sq_sqrt hx]
      exact pow_le_pow_left₀ (Real.sqrt_nonneg _) hs.le 2
    have hy2 : Real.sqrt y ≤ 1 / 2 ^ 117 := by
      apply Real.sqrt_le_iff.2
      refine ⟨by positivity, ?_⟩
      have : 2 * ((1 : ℝ) / 2 ^ 118) ^ 2 + 1 / 2 ^ 236 ≤ (1 / 2 ^ 117) ^ 2 := by norm_num
      linarith
    have h1 : (1 : ℝ) / 2 ^ 118 ≤ 1 / 2 ^ 117 := by norm_num
    have h2 : 0 ≤ k * Real.sqrt x / 2 ^ 52 := by positivity
    have := Real.sqrt_nonneg x
    have := Real.sqrt_nonneg y
    rw [abs_le]
    constructor <;> linarith

/-- coordinates of at most a kilometre (millimetres) -/
def R3.onBed (w : R3) : Prop := |w.x| ≤ 2 ^ 20 ∧ |w.y| ≤ 2 ^ 20 ∧ |w.z| ≤ 2 ^ 20

theorem rep_pow (n : ℕ) : Rep (2 ^ n) := by
  have := rep_zpow (e := (n : ℤ)) (by omega)
  rwa [zpow_natCast] at this

theorem diff_range {x y : ℝ} (hbx : |x| ≤ 2 ^ 20) (hby : |y| ≤ 2 ^ 20) : |rd (x - y)| ≤ 2 ^ 21 := by
  apply rd_abs_le (rep_pow 21)
  refine (abs_sub _ _).trans ?_
  have : (2 : ℝ) ^ 21 = 2 ^ 20 + 2 ^ 20 := by norm_num
  linarith

theorem sq_range {v : ℝ} (h : |v| ≤ 2 ^ 21) : |v ^ 2| ≤ 2 ^ 42 := by
  rw [abs_pow]
  calc |v| ^ 2 ≤ (2 ^ 21) ^ 2 := pow_le_pow_left₀ (abs_nonneg _) h 2
    _ = 2 ^ 42 := by norm_num

/-- the squared length of a segment, computed -/
noncomputable def fsum (a b : R3) : ℝ :=
  rd (rd (rd (rd (b.x - a.x) ^ 2) + rd (rd (b.y - a.y) ^ 2)) + rd (rd (b.z - a.z) ^ 2))

theorem fsum_spec (a b : R3) (ha : a.isF) (hb : b.isF) (hra : a.onBed) (hrb : b.onBed) :
    pow2 ((B64.of b.x) - B64.of a.x) + pow2 (B64.of b.y - B64.of a.y) + pow2 (B64.of b.z - B64.of a.z) = B64.of (fsum a b) ∧
      IsF (fsum a b) ∧ 0 ≤ fsum a b ∧ fsum a b ≤ 2 ^ 44 ∧ Err 5 (1 / 2 ^ 236) (R3.dist a b ^ 2) (fsum a b) := by
  have one : ∀ x y : ℝ, IsF x → IsF y → |x| ≤ 2 ^ 20 → |y| ≤ 2 ^ 20 →
      pow2 (B64.of x - B64.of y) = B64.of (rd (rd (x - y) ^ 2)) ∧ IsF (rd (rd (x - y) ^ 2)) ∧ 0 ≤ rd (rd (x - y) ^ 2) ∧
        rd (rd (x - y) ^ 2) ≤ 2 ^ 42 ∧ Err 3 (1 / 2 ^ 240) ((x - y) ^ 2) (rd (rd (x - y) ^ 2)) := by
    intro x y hx hy hbx hby
    have h1 := diff_range hbx hby
    have h2 := sq_range h1
    have hF : IsF (rd (x - y)) := ⟨rep_rd _, le_max (h1.trans (by norm_num))⟩
    refine ⟨by rw [B64.sub_of hx hy, B64.pow2_of hF], isF_rd (h2.trans (by norm_num)), rd_nonneg (by positivity),
      rd_le (rep_pow 42) ((le_abs_self _).trans h2), ?_⟩
    have := (sq_diff_err hx.1 hy.1).round (by positivity) (by norm_num) (by norm_num) le_rfl
    exact this.weaken (by positivity) (by norm_num) (by norm_num)
  obtain ⟨ex, fx, px, bx, rx⟩ := one b.x a.x hb.1 ha.1 hrb.1 hra.1
  obtain ⟨ey, fy, py, by', ry⟩ := one b.y a.y hb.2.1 ha.2.1 hrb.2.1 hra.2.1
  obtain ⟨ez, fz, pz, bz, rz⟩ := one b.z a.z hb.2.2 ha.2.2 hrb.2.2 hra.2.2
  unfold fsum
  generalize rd (rd (b.x - a.x) ^ 2) = X at *
  generalize rd (rd (b.y - a.y) ^ 2) = Y at *
  generalize rd (rd (b.z - a.z) ^ 2) = Z at *
  have hXY : |X + Y| ≤ 2 ^ 43 := by rw [abs_of_nonneg (by linarith)]; norm_num at *; linarith
  have hXYn : 0 ≤ rd (X + Y) := rd_nonneg (by linarith)
  have hXYb : rd (X + Y) ≤ 2 ^ 43 := rd_le (rep_pow 43) ((le_abs_self _).trans hXY)
  have hF : IsF (rd (X + Y)) := isF_rd (hXY.trans (by norm_num))
  have hS : |rd (X + Y) + Z| ≤ 2 ^ 44 := by rw [abs_of_nonneg (by linarith)]; norm_num at *; linarith
  have e1 := (rx.add ry).round (by positivity) (by norm_num) (by norm_num) (by positivity)
  have e2 := ((e1.weaken (k' := 4) (τ' := 5 / 2 ^ 240) (by positivity) (by norm_num) (by norm_num)).add
    (rz.weaken (k' := 4) (by positivity) (by norm_num) le_rfl)).round (by positivity) (by norm_num) (by norm_num) (by positivity)
  refine ⟨by rw [ex, ey, ez, B64.add_of fx fy, B64.add_of hF fz], isF_rd (hS.trans (by norm_num)), rd_nonneg (by linarith),
    rd_le (rep_pow 44) ((le_abs_self _).trans hS), ?_⟩
  have ed : R3.dist a b ^ 2 = (b.x - a.x) ^ 2 + (b.y - a.y) ^ 2 + (b.z - a.z) ^ 2 := by
    unfold R3.dist
    rw [R3.norm, Real.sq_sqrt (R3.normSq_nonneg _)]
    simp only [R3.normSq, R3.dot, R3.sub_x, R3.sub_y, R3.sub_z]
    ring
  rw [ed]
  exact e2.weaken (by positivity) (by norm_num) (by norm_num)

/-- the length of a segment, computed -/
theorem length_f64 (a b : R3) (ha : a.isF) (hb : b.isF) (hra : a.onBed) (hrb : b.onBed) :
    ∃ l : ℝ, sqrt (pow2 ((B64.of b.x) - B64.of a.x) + pow2 (B64.of b.y - B64.of a.y) + pow2 (B64.of b.z - B64.of a.z)) = B64.of l ∧
      IsF l ∧ 0 ≤ l ∧ l ≤ 2 ^ 22 ∧ Err 6 (1 / 2 ^ 115) (R3.dist a b) l := by
  obtain ⟨h1, h2, h3, h4, h5⟩ := fsum_spec a b ha hb hra hrb
  have hb2 : Real.sqrt (fsum a b) ≤ 2 ^ 22 := by
    apply Real.sqrt_le_iff.2
    refine ⟨by positivity, h4.trans (by norm_num)⟩
  have hd := R3.dist_nonneg a b
  have hs := h5.sqrt (by positivity) h3 (by norm_num) (by norm_num) le_rfl
  rw [Real.sqrt_sq hd] at hs
  have hr := hs.round hd (by norm_num) (by norm_num) (by positivity)
  refine ⟨rd (Real.sqrt (fsum a b)), by rw [h1, B64.sqrt_of h2 h3], isF_rd ?_, rd_nonneg (Real.sqrt_nonneg _),
    rd_le (rep_pow 22) hb2, hr.weaken hd (by norm_num) (by norm_num)⟩
  rw [abs_of_nonneg (Real.sqrt_nonneg _)]
  exact hb2.trans (by norm_num)

/-! ## the advance of the extruder -/

/-- line width, layer height and diameter of the bar in millimetres, of ordinary size -/
structure FloatSett (sett : GcodeSettings B64) (w h d : ℝ) : Prop where
  width : sett.lineWidth = B64.of w
  height : sett.layerHeight = B64.of h
  bar : sett.barDiameter = B64.of d
  isF : IsF w ∧ IsF h ∧ IsF d
  wide : 1 / 2 ^ 10 ≤ w ∧ w ≤ 2 ^ 7
  high : 1 / 2 ^ 10 ≤ h ∧ h ≤ 2 ^ 7
  thick : 1 / 2 ^ 10 ≤ d ∧ d ≤ 2 ^ 7

theorem delta_f64 {sett : GcodeSettings B64} {w h d : ℝ} (F : FloatSett sett w h d) (a b : R3) (ha : a.isF) (hb : b.isF)
    (hra : a.onBed) (hrb : b.onBed) :
    ∃ e : ℝ, extrusionDelta sett a.f64 b.f64 = B64.of e ∧ IsF e ∧ 0 ≤ e ∧ e ≤ 2 ^ 59 ∧
      Err 20 (1 / 2 ^ 72) (feedPerMm w h d * R3.dist a b) e := by
  obtain ⟨l, el, hlF, hl0, hlb, hl⟩ := length_f64 a b ha hb hra hrb
  have hD := R3.dist_nonneg a b
  obtain ⟨hw0, hw1⟩ := F.wide
  obtain ⟨hh0, hh1⟩ := F.high
  obtain ⟨hd0, hd1⟩ := F.thick
  have hw : 0 < w := lt_of_lt_of_le (by positivity) hw0
  have hh : 0 < h := lt_of_lt_of_le (by positivity) hh0
  have hd : 0 < d := lt_of_lt_of_le (by positivity) hd0
  have hpi := Real.pi_pos
  have hpi3 := Real.pi_gt_three
  have hpi4 := Real.pi_le_four
  have up : ∀ {x y p q : ℝ}, 0 < x → 0 < p → p ≤ x → 0 < y → q ≤ y → 0 ≤ q → p * q ≤ x * y := by
    intro x y p q _ hp h1 hy h2 hq
    exact mul_le_mul h1 h2 hq (by linarith)
  -- the numerator
  have e4 : (lit 4 0 : B64) = B64.of 4 := by
    rw [B64.lit_of]
    norm_num
  have hF4 : IsF (4 : ℝ) := by exact_mod_cast isF_int (n := 4) (by norm_num)
  have hwF := F.isF.1
  have hhF := F.isF.2.1
  have hdF := F.isF.2.2
  have hw4 : (1 : ℝ) / 2 ^ 8 ≤ 4 * w := by norm_num at *; linarith
  have hw4' : 4 * w ≤ 2 ^ 9 := by norm_num at *; linarith
  have r1 := rel_round (x := 4 * w) (le_trans (by norm_num) hw4)
  have b1 : rd (4 * w) ≤ 2 ^ 9 := rd_le (rep_pow 9) hw4'
  have p1 : 0 ≤ rd (4 * w) := rd_nonneg (by positivity)
  have hN0 : (1 : ℝ) / 2 ^ 18 ≤ 4 * w * h := by
    have := mul_le_mul hw4 hh0 (by positivity) (by positivity)
    refine le_trans (by norm_num) this
  have hN1 : 4 * w * h ≤ 2 ^ 16 := by
    have := mul_le_mul hw4' hh1 hh.le (by positivity)
    refine this.trans (by norm_num)
  have r2 := rel_mul r1 (Err.refl h) (by positivity) hh.le (by norm_num) le_rfl (by norm_num) (by norm_num)
    (le_trans (by norm_num) hN0)
  have p2 : 0 ≤ rd (rd (4 * w) * h) := rd_nonneg (by positivity)
  have b2 : rd (rd (4 * w) * h) ≤ 2 ^ 16 := by
    apply rd_le (rep_pow 16)
    have := mul_le_mul b1 hh1 hh.le (by positivity)
    exact this.trans (by norm_num)
  have r3 := ((r2.mul hl (by positivity) hD (by norm_num) (by norm_num) (by norm_num) (by norm_num) (by positivity)).round
    (by positivity) (by norm_num) (by norm_num) (by positivity)).weaken (k' := 12) (τ' := 1 / 2 ^ 95) (by positivity) (by norm_num) (by
      have : 2 * (2 * (4 * w * h) * (1 / 2 ^ 115)) ≤ 2 * (2 * (2 ^ 16) * (1 / 2 ^ 115) : ℝ) := by gcongr
      refine (add_le_add_left this _).trans (by norm_num))
  have p3 : 0 ≤ rd (rd (rd (4 * w) * h) * l) := rd_nonneg (by positivity)
  have b3 : rd (rd (rd (4 * w) * h) * l) ≤ 2 ^ 38 := by
    apply rd_le (rep_pow 38)
    have := mul_le_mul b2 hlb hl0 (by positivity)
    exact this.trans (by norm_num)
  -- the denominator
  have hd2 : (1 : ℝ) / 2 ^ 20 ≤ d ^ 2 := by
    have := pow_le_pow_left₀ (by positivity) hd0 2
    exact le_trans (by norm_num) this
  have hd2' : d ^ 2 ≤ 2 ^ 14 := by
    have := pow_le_pow_left₀ hd.le hd1 2
    exact le_trans this (by norm_num)
  have s1 := rel_round (x := d ^ 2) (le_trans (by norm_num) hd2)
  have s2 := rel_round (x := Real.pi) (by norm_num at *; linarith)
  have hQ0 : (1 : ℝ) / 2 ^ 20 ≤ d ^ 2 * Real.pi := by
    have := mul_le_mul hd2 (by linarith : (1 : ℝ) ≤ Real.pi) (by norm_num) (by positivity)
    exact le_trans (by norm_num) this
  have hQ : 0 < d ^ 2 * Real.pi := by positivity
  have s3 := rel_mul s1 s2 (by positivity) hpi.le (by norm_num) (by norm_num) (by norm_num) (by norm_num) (le_trans (by norm_num) hQ0)
  obtain ⟨hq, s4⟩ := Err.inv (k := 5) (s3.weaken hQ.le (by norm_num) le_rfl) hQ (by norm_num) (by norm_num)
  have c1 : rd (d ^ 2) ≤ 2 ^ 14 := rd_le (rep_pow 14) hd2'
  have c1' : 0 ≤ rd (d ^ 2) := rd_nonneg (by positivity)
  have c2 : rd Real.pi ≤ 4 := rd_le (by simpa using rep_pow 2 |> fun h => by norm_num at h; exact h) hpi4
  have c2' : 0 ≤ rd Real.pi := rd_nonneg hpi.le
  have c3 : 1 / 2 ^ 21 ≤ rd (rd (d ^ 2) * rd Real.pi) := by
    have t := (abs_le.1 s3).1
    have : (1 + 1 + 3) * (d ^ 2 * Real.pi) / 2 ^ 52 ≤ (d ^ 2 * Real.pi) / 2 := by
      rw [div_le_iff₀ (by norm_num)]; nlinarith
    have : (1 : ℝ) / 2 ^ 21 ≤ (d ^ 2 * Real.pi) / 2 := by
      refine le_trans (by norm_num : (1 : ℝ) / 2 ^ 21 ≤ (1 / 2 ^ 20) / 2) ?_
      gcongr
    linarith
  have hiQ : (d ^ 2 * Real.pi)⁻¹ ≤ 2 ^ 20 := by
    rw [inv_le_comm₀ hQ (by norm_num)]
    refine le_trans (by norm_num) hQ0
  -- the quotient
  have r4 := ((s4.mul r3 (by positivity) (by positivity) (by norm_num) (by norm_num) (by norm_num) (by norm_num)
    (by positivity)).round (by positivity) (by norm_num) (by norm_num) (by positivity)).weaken (k' := 20) (τ' := 1 / 2 ^ 72) (by positivity)
    (by norm_num) (by
      have : 2 * (2 * (d ^ 2 * Real.pi)⁻¹ * (1 / 2 ^ 95)) ≤ 2 * (2 * (2 ^ 20) * (1 / 2 ^ 95) : ℝ) := by gcongr
      refine (add_le_add_left this _).trans (by norm_num))
  have b4 : |(rd (rd (d ^ 2) * rd Real.pi))⁻¹ * rd (rd (rd (4 * w) * h) * l)| ≤ 2 ^ 59 := by
    rw [abs_of_nonneg (by positivity)]
    have : (rd (rd (d ^ 2) * rd Real.pi))⁻¹ ≤ 2 ^ 21 := by
      rw [inv_le_comm₀ hq (by norm_num)]
      refine le_trans (by norm_num) c3
    refine (mul_le_mul this b3 p3 (by positivity)).trans (by norm_num)
  refine ⟨rd ((rd (rd (d ^ 2) * rd Real.pi))⁻¹ * rd (rd (rd (4 * w) * h) * l)), ?_, isF_rd (b4.trans (by norm_num)),
    rd_nonneg (by positivity), rd_le (rep_pow 59) ((le_abs_self _).trans b4), ?_⟩
  · have f1 : IsF (rd (4 * w)) := isF_rd (by rw [abs_of_nonneg (by positivity)]; exact hw4'.trans (by norm_num))
    have f2 : IsF (rd (rd (4 * w) * h)) := ⟨rep_rd _, le_max (by rw [abs_of_nonneg p2]; exact b2.trans (by norm_num))⟩
    have f3 : IsF (rd (rd (rd (4 * w) * h) * l)) := ⟨rep_rd _, le_max (by rw [abs_of_nonneg p3]; exact b3.trans (by norm_num))⟩
    have g1 : IsF (rd (d ^ 2)) := ⟨rep_rd _, le_max (by rw [abs_of_nonneg c1']; exact c1.trans (by norm_num))⟩
    have g2 : IsF (rd Real.pi) := ⟨rep_rd _, le_max (by rw [abs_of_nonneg c2']; exact c2.trans (by norm_num))⟩
    have g3 : IsF (rd (rd (d ^ 2) * rd Real.pi)) := isF_rd (by
      rw [abs_of_nonneg (by positivity)]
      refine (mul_le_mul c1 c2 c2' (by positivity)).trans (by norm_num))
    have epi : (pi : B64) = B64.of (rd Real.pi) := B64.rnd_fin Real.pi
    have eD : extrusionDelta sett a.f64 b.f64 = (lit 4 0 * sett.lineWidth * sett.layerHeight * sqrt (pow2 (B64.of b.x - B64.of a.x) +
      pow2 (B64.of b.y - B64.of a.y) + pow2 (B64.of b.z - B64.of a.z))) / (pow2 sett.barDiameter * pi) := rfl
    rw [eD, el, F.width, F.height, F.bar, e4, epi, B64.mul_of hF4 hwF, B64.mul_of f1 hhF, B64.mul_of f2 hlF, B64.pow2_of hdF,
      B64.mul_of g1 g2, B64.div_of f3 g3 hq.ne', div_eq_mul_inv, mul_comm]
  · have ee : feedPerMm w h d * R3.dist a b = (d ^ 2 * Real.pi)⁻¹ * (4 * w * h * R3.dist a b) := by
      unfold feedPerMm
      rw [div_eq_mul_inv]; ring
    rw [ee]
    exact r4

/-! ## the register -/

/-- what the register of the extruder can hold -/
def Register (e : ℝ) : Prop := IsF e ∧ 0 ≤ e ∧ e ≤ 2 ^ 114

theorem register_zero : Register 0 := ⟨isF_zero, le_rfl, by positivity⟩

/-- above the sixtieth power of two nothing is added any more -/
theorem register_absorb {e δ : ℝ} (he : e ≤ 2 ^ 114) (hδ : δ ≤ 2 ^ 59) : rd (e + δ) ≤ 2 ^ 114 := by
  rcases le_or_gt (e + δ) (2 ^ 114) with h | h
  · exact rd_le (rep_pow 114) h
  have h1 := rd_nearest (e + δ) (rep_pow 114)
  rw [abs_sub_comm (2 ^ 114), abs_of_pos (by linarith : 0 < e + δ - 2 ^ 114)] at h1
  have h2 : rd (e + δ) ≤ 2 ^ 114 + 2 ^ 60 := by
    have := (abs_le.1 h1).2
    have e1 : (2 : ℝ) ^ 60 = 2 ^ 59 + 2 ^ 59 := by norm_num
    linarith
  obtain ⟨m, k, hm, _, hy⟩ := (rep_rd (e + δ)).canon
  rw [hy] at h2 ⊢
  rcases le_or_gt k 61 with hk | hk
  · have hmr : (m : ℝ) ≤ 2 ^ 53 := by
      have : m ≤ 2 ^ 53 := ((le_abs_self m).trans hm.le)
      exact_mod_cast this
    calc (m : ℝ) * 2 ^ k ≤ 2 ^ 53 * (2 : ℝ) ^ k := by gcongr
      _ ≤ 2 ^ 53 * (2 : ℝ) ^ (61 : ℤ) := by gcongr; norm_num
      _ = 2 ^ 114 := by norm_num
  · by_contra hc
    push Not at hc
    obtain ⟨j, rfl⟩ : ∃ j : ℕ, k = 62 + j := ⟨(k - 62).toNat, by omega⟩
    rw [zpow_add₀ (by norm_num), zpow_natCast] at h2 hc
    have e1 : (m : ℝ) * (2 ^ (62 : ℤ) * 2 ^ j) = ((m * 2 ^ j : ℤ) : ℝ) * 2 ^ 62 := by
      push_cast; norm_num; ring
    rw [e1] at h2 hc
    have h3 : ((2 ^ 52 : ℤ) : ℝ) < ((m * 2 ^ j : ℤ) : ℝ) := by
      have : (2 : ℝ) ^ 114 = ((2 ^ 52 : ℤ) : ℝ) * 2 ^ 62 := by norm_num
      rw [this] at hc
      exact lt_of_mul_lt_mul_right hc (by positivity)
    have h4 : ((2 ^ 52 : ℤ) : ℝ) + 1 ≤ ((m * 2 ^ j : ℤ) : ℝ) := by
      have : (2 ^ 52 : ℤ) + 1 ≤ m * 2 ^ j := by exact_mod_cast h3
      exact_mod_cast this
    have h5 : (((2 ^ 52 : ℤ) : ℝ) + 1) * 2 ^ 62 ≤ ((m * 2 ^ j : ℤ) : ℝ) * 2 ^ 62 := by gcongr
    norm_num at h2 h5
    linarith

theorem register_max : (2 : ℝ) ^ 114 ≤ XR.maxF64R := by
  have h3 : (2 : ℝ) ^ 114 ≤ 2 ^ 1023 := pow_le_pow_right₀ (by norm_num) (by norm_num)
  have h4 : (1 : ℝ) ≤ 2 - 2⁻¹ ^ 52 := by norm_num
  have h5 : (1 : ℝ) * 2 ^ 1023 ≤ (2 - 2⁻¹ ^ 52) * 2 ^ 1023 := by gcongr
  rw [one_mul] at h5
  exact h3.trans h5

theorem register_step {e δ : ℝ} (he : Register e) (hδ : IsF δ) (h0 : 0 ≤ δ) (h1 : δ ≤ 2 ^ 59) :
    B64.of e + B64.of δ = B64.of (rd (e + δ)) ∧ Register (rd (e + δ)) ∧ e ≤ rd (e + δ) ∧
      |rd (e + δ) - (e + δ)| ≤ (e + δ) / 2 ^ 53 := by
  obtain ⟨hF, hn, hb⟩ := he
  have hl : e ≤ rd (e + δ) := le_rd hF.1 (by linarith)
  have hu := register_absorb hb h1
  refine ⟨B64.add_of hF hδ, ⟨⟨rep_rd _, ?_⟩, by linarith, hu⟩, hl, ?_⟩
  · rw [abs_of_nonneg (by linarith)]
    exact hu.trans register_max
  · have := rd_error_grid (hF.1.onGrid.add hδ.1.onGrid)
    rwa [abs_of_nonneg (by linarith : 0 ≤ e + δ)] at this

/-- rounding errors of the filament counted by the program: `x` millimetres in `n` steps -/
noncomputable def countErr (x : ℝ) (n : ℕ) : ℝ := 20 * x / 2 ^ 52 + n * (1 / 2 ^ 32 + 1 / 2 ^ 72)

theorem countErr_add (x y : ℝ) (n m : ℕ) : countErr x n + countErr y m = countErr (x + y) (n + m) := by
  unfold countErr; push_cast; ring

theorem countErr_nonneg {x : ℝ} (n : ℕ) (h : 0 ≤ x) : 0 ≤ countErr x n := by
  unfold countErr; positivity

theorem R3.polyLen_nonneg' (ps : List R3) : 0 ≤ R3.polyLen ps := by
  induction ps with
  | nil => simp [R3.polyLen]
  | cons a t ih =>
    cases t with
    | nil => simp [R3.polyLen]
    | cons b t => rw [R3.polyLen]; exact add_nonneg (R3.dist_nonneg _ _) ih

theorem count_step {c L e δ : ℝ} (hL : 0 ≤ c * L) (hE : Err 20 (1 / 2 ^ 72) (c * L) δ)
    (hr : |rd (e + δ) - (e + δ)| ≤ (e + δ) / 2 ^ 53) (hb : e + 2 * (c * L) + 1 / 2 ^ 31 ≤ 2 ^ 21) :
    |rd (e + δ) - e - c * L| ≤ countErr (c * L) 1 ∧ rd (e + δ) ≤ e + 2 * (c * L) + 1 / 2 ^ 31 := by
  have h1 := hE.le hL (by norm_num)
  have h2 : (e + δ) / 2 ^ 53 ≤ 1 / 2 ^ 32 := by
    rw [div_le_iff₀ (by norm_num)]
    have : (1 : ℝ) / 2 ^ 72 ≤ 1 / 2 ^ 31 := by norm_num
    have : (1 : ℝ) / 2 ^ 32 * 2 ^ 53 = 2 ^ 21 := by norm_num
    linarith
  unfold Err at hE
  have hc : countErr (c * L) 1 = 20 * (c * L) / 2 ^ 52 + (1 / 2 ^ 32 + 1 / 2 ^ 72) := by unfold countErr; push_cast; ring
  constructor
  · have e1 : rd (e + δ) - e - c * L = (rd (e + δ) - (e + δ)) + (δ - c * L) := by ring
    rw [e1, hc]
    refine (abs_add_le _ _).trans ?_
    linarith
  · have := (abs_le.1 hr).2
    have : (1 : ℝ) / 2 ^ 32 + 1 / 2 ^ 72 ≤ 1 / 2 ^ 31 := by norm_num
    linarith

end Goosli
