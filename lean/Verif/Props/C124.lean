import Verif.Props.C123
import Verif.Proofs.NInv
/-!
# C124: faces that look up are not painted as overhangs
-/
set_option autoImplicit false
namespace Goosli
open Flt R3 Spec

/-! ## the length of a vector is not less than its coordinates, in `float64` too -/

/-- the root of a rounded square is not less than the number -/
theorem sqrt_sq_ge {z : ℝ} (hz : Rep z) (h : 1 / 2 ^ 30 ≤ z) : z ≤ rd (Real.sqrt (rd (z ^ 2))) := by
  have z0 : 0 < z := lt_of_lt_of_le (by norm_num) h
  by_cases hs : z ≤ Real.sqrt (rd (z ^ 2))
  · exact le_rd hz hs
  rw [not_le] at hs
  obtain ⟨e, he⟩ : ∃ e, e = lastExp z := ⟨_, rfl⟩
  have le30 : Int.log 2 |z| ≥ -30 := by
    rw [abs_of_pos z0, ge_iff_le, ← Int.zpow_le_iff_le_log (by norm_num) z0]
    simpa using h
  have e82 : -82 ≤ e := by
    rw [he]; unfold lastExp; omega
  have lo := last_le_abs z0.ne' (by rw [← he]; omega)
  have hi := abs_lt_last z
  rw [abs_of_pos z0, ← he] at lo hi
  obtain ⟨m, hm⟩ := hz.lastExp_int
  rw [← he] at hm
  obtain ⟨P, hP⟩ : ∃ P : ℝ, P = 2 ^ e := ⟨_, rfl⟩
  have P0 : 0 < P := by rw [hP]; exact two_zpow_pos e
  have zm : z = m * P := by rw [← hm, hP]; field_simp
  have plo : (2 : ℝ) ^ (e + 52) = 2 ^ 52 * P := by rw [hP, zpow_add₀ (by norm_num)]; norm_num; ring
  have phi : (2 : ℝ) ^ (e + 53) = 2 ^ 53 * P := by rw [hP, zpow_add₀ (by norm_num)]; norm_num; ring
  rw [plo, zm] at lo
  rw [phi, zm] at hi
  have lo' : (2 : ℝ) ^ 52 ≤ m := le_of_mul_le_mul_right lo P0
  have hi' : (m : ℝ) < 2 ^ 53 := lt_of_mul_lt_mul_right hi P0.le
  have loz : 2 ^ 52 ≤ m := by exact_mod_cast lo'
  have hiz : m < 2 ^ 53 := by exact_mod_cast hi'
  have hi1 : (m : ℝ) ≤ 2 ^ 53 - 1 := by
    have : m ≤ 2 ^ 53 - 1 := by omega
    exact_mod_cast this
  rcases loz.eq_or_lt with eq | lt
  · -- a power of two
    exfalso
    have : z ^ 2 = 2 ^ (2 * e + 104) := by
      rw [zm, ← eq, hP, zpow_add₀ (by norm_num), mul_comm 2 e, zpow_mul]
      push_cast
      norm_num
      ring
    have hr : Rep (z ^ 2) := by
      rw [this]; exact rep_zpow (by omega)
    rw [rd_of_rep hr, Real.sqrt_sq z0.le] at hs
    exact lt_irrefl _ hs
  have lo1 : (2 : ℝ) ^ 52 + 1 ≤ m := by
    have : 2 ^ 52 + 1 ≤ m := by omega
    exact_mod_cast this
  have PP : (1 : ℝ) / 2 ^ 200 ≤ P ^ 2 := by
    have : (2 : ℝ) ^ (-82 : ℤ) ≤ P := by rw [hP]; exact zpow_le_zpow_right₀ (by norm_num) e82
    have h2 : ((2 : ℝ) ^ (-82 : ℤ)) ^ 2 ≤ P ^ 2 := by gcongr
    refine le_trans ?_ h2
    norm_num
  have err := (abs_le.1 (rd_err240 (z ^ 2))).1
  rw [abs_of_nonneg (sq_nonneg z)] at err
  have key : (((m : ℝ) - 1 / 2) * P) ^ 2 < rd (z ^ 2) := by
    have e1 : z ^ 2 = m ^ 2 * P ^ 2 := by rw [zm]; ring
    rw [e1] at err
    rw [e1]
    have hmm : (m : ℝ) ^ 2 / 2 ^ 53 ≤ m - 1 / 2 := by
      rw [div_le_iff₀ (by norm_num)]
      nlinarith
    have h3 : (m : ℝ) ^ 2 * P ^ 2 / 2 ^ 53 ≤ (m - 1 / 2) * P ^ 2 := by
      have : (m : ℝ) ^ 2 * P ^ 2 / 2 ^ 53 = (m : ℝ) ^ 2 / 2 ^ 53 * P ^ 2 := by ring
      rw [this]
      exact mul_le_mul_of_nonneg_right hmm (sq_nonneg P)
    have h4 : (1 : ℝ) / 2 ^ 240 < 1 / 4 * P ^ 2 := by
      refine lt_of_lt_of_le ?_ (mul_le_mul_of_nonneg_left PP (by norm_num))
      norm_num
    have e2 : (((m : ℝ) - 1 / 2) * P) ^ 2 = m ^ 2 * P ^ 2 - (m - 1 / 2) * P ^ 2 - 1 / 4 * P ^ 2 := by ring
    rw [e2]
    linarith
  have m0 : (0 : ℝ) ≤ (m - 1 / 2) * P := mul_nonneg (by norm_num at lo1; linarith) P0.le
  have low : ((m : ℝ) - 1 / 2) * P < Real.sqrt (rd (z ^ 2)) := by
    rw [Real.lt_sqrt m0]; exact key
  obtain ⟨s, hsd⟩ : ∃ s, s = Real.sqrt (rd (z ^ 2)) := ⟨_, rfl⟩
  rw [← hsd] at low hs ⊢
  have q1 : (m : ℝ) - 1 / 2 < s / P := by rw [lt_div_iff₀ P0]; exact low
  have q2 : s / P < m := by rw [div_lt_iff₀ P0, ← zm]; exact hs
  rw [rd_at (e := e) (by omega) ?_ ?_, ← hP, roundEven_of_lt (n := m) (by rw [abs_lt]; constructor <;> linarith), ← zm]
  · rw [plo]; nlinarith
  · rw [phi]; nlinarith

/-- the length the program computes of a vector of ordinary size -/
theorem length_ordinary {m : R3} (hF : m.isF) (b : |m.x| ≤ 10 ^ 7 ∧ |m.y| ≤ 10 ^ 7 ∧ |m.z| ≤ 10 ^ 7)
    (hm : 1 / 100 ≤ |m.x| ∨ 1 / 100 ≤ |m.y| ∨ 1 / 100 ≤ |m.z|) :
    ∃ L : ℝ, m.f64v.length = B64.of L ∧ IsF L ∧ 1 / 2 ^ 7 ≤ L ∧ |m.z| ≤ L := by
  obtain ⟨fx, fy, fz⟩ := hF
  have sq : ∀ {x : ℝ}, |x| ≤ 10 ^ 7 → 0 ≤ x * x ∧ x * x ≤ 10 ^ 14 := fun {x} hx => by
    refine ⟨mul_self_nonneg x, ?_⟩
    rw [← abs_mul_abs_self]
    exact (mul_le_mul hx hx (abs_nonneg _) (by norm_num)).trans (by norm_num)
  obtain ⟨x0, x1⟩ := sq b.1
  obtain ⟨y0, y1⟩ := sq b.2.1
  obtain ⟨z0, z1⟩ := sq b.2.2
  have rt : ∀ {x : ℝ}, 0 ≤ x → x ≤ 10 ^ 14 → 0 ≤ rd x ∧ rd x ≤ 2 ^ 47 ∧ IsF (rd x) := fun {x} h0 h1 =>
    ⟨rd_nonneg h0, rd_le (rep_pow 47) (h1.trans (by norm_num)), isF_rd (by rw [abs_of_nonneg h0]; exact h1.trans (by norm_num))⟩
  obtain ⟨X, hX⟩ : ∃ X, X = rd (m.x * m.x) := ⟨_, rfl⟩
  obtain ⟨Y, hY⟩ : ∃ Y, Y = rd (m.y * m.y) := ⟨_, rfl⟩
  obtain ⟨Z, hZ⟩ : ∃ Z, Z = rd (m.z * m.z) := ⟨_, rfl⟩
  have rx := rt x0 x1
  have ry := rt y0 y1
  have rz := rt z0 z1
  rw [← hX] at rx
  rw [← hY] at ry
  rw [← hZ] at rz
  obtain ⟨X0, X1, FX⟩ := rx
  obtain ⟨Y0, Y1, FY⟩ := ry
  obtain ⟨Z0, Z1, FZ⟩ := rz
  obtain ⟨W, hW⟩ : ∃ W, W = rd (X + Y) := ⟨_, rfl⟩
  have W0 : 0 ≤ W := by rw [hW]; exact rd_nonneg (by linarith)
  have W1 : W ≤ 2 ^ 48 := by rw [hW]; exact rd_le (rep_pow 48) (by norm_num at X1 Y1 ⊢; linarith)
  have FW : IsF W := by rw [hW]; exact isF_rd (by rw [abs_of_nonneg (by linarith)]; norm_num at X1 Y1 ⊢; linarith)
  have WX : X ≤ W := by rw [hW]; exact le_rd FX.1 (by linarith)
  have WY : Y ≤ W := by rw [hW]; exact le_rd FY.1 (by linarith)
  obtain ⟨N, hN⟩ : ∃ N, N = rd (W + Z) := ⟨_, rfl⟩
  have N0 : 0 ≤ N := by rw [hN]; exact rd_nonneg (by linarith)
  have N1 : N ≤ 2 ^ 49 := by rw [hN]; exact rd_le (rep_pow 49) (by norm_num at W1 Z1 ⊢; linarith)
  have FN : IsF N := by rw [hN]; exact isF_rd (by rw [abs_of_nonneg (by linarith)]; norm_num at W1 Z1 ⊢; linarith)
  have NW : W ≤ N := by rw [hN]; exact le_rd FW.1 (by linarith)
  have NZ : Z ≤ N := by rw [hN]; exact le_rd FZ.1 (by linarith)
  have rep14 : Rep (1 / 2 ^ 14 : ℝ) := by
    have := rep_zpow (e := (-14 : ℤ)) (by omega)
    rwa [zpow_neg, ← one_div] at this
  have rep7 : Rep (1 / 2 ^ 7 : ℝ) := by
    have := rep_zpow (e := (-7 : ℤ)) (by omega)
    rwa [zpow_neg, ← one_div] at this
  have sqlow : ∀ {x : ℝ}, 1 / 100 ≤ |x| → 1 / 2 ^ 14 ≤ rd (x * x) := fun {x} hx => by
    refine le_rd rep14 ?_
    rw [← abs_mul_abs_self]
    have := mul_le_mul hx hx (by norm_num) (abs_nonneg x)
    norm_num at this ⊢
    linarith
  have N14 : 1 / 2 ^ 14 ≤ N := by
    rcases hm with h | h | h
    · have := sqlow h; rw [← hX] at this; linarith
    · have := sqlow h; rw [← hY] at this; linarith
    · have := sqlow h; rw [← hZ] at this; linarith
  have sN : Real.sqrt N ≤ 2 ^ 49 := by
    rw [Real.sqrt_le_left (by norm_num)]; norm_num at N1 ⊢; linarith
  have low : 1 / 2 ^ 7 ≤ rd (Real.sqrt N) := by
    refine le_rd rep7 (Real.le_sqrt_of_sq_le ?_)
    norm_num at N14 ⊢; linarith
  refine ⟨rd (Real.sqrt N), ?_, isF_rd (by rw [abs_of_nonneg (Real.sqrt_nonneg _)]; exact sN.trans (by norm_num)), low, ?_⟩
  · show Flt.sqrt (B64.of m.x * B64.of m.x + B64.of m.y * B64.of m.y + B64.of m.z * B64.of m.z) = _
    rw [B64.mul_of fx fx, B64.mul_of fy fy, B64.mul_of fz fz, ← hX, ← hY, ← hZ, B64.add_of FX FY, ← hW, B64.add_of FW FZ, ← hN, B64.sqrt_of FN N0]
  · by_cases hz : |m.z| ≤ 1 / 2 ^ 7
    · exact hz.trans low
    · rw [not_le] at hz
      have Fabs : Rep |m.z| := by
        rcases abs_choice m.z with h | h <;> rw [h]
        exacts [fz.1, fz.1.neg]
      refine (sqrt_sq_ge Fabs (le_trans (by norm_num) hz.le)).trans (rd_mono (Real.sqrt_le_sqrt ?_))
      rw [sq_abs, pow_two, ← hZ]
      exact NZ

/-- the angle to the downward direction of a vector that does not point downwards is at least a right angle, up to a thousandth of a degree -/
theorem angle_ordinary {m : R3} (hF : m.isF) (b : |m.x| ≤ 10 ^ 7 ∧ |m.y| ≤ 10 ^ 7 ∧ |m.z| ≤ 10 ^ 7)
    (hm : 1 / 100 ≤ |m.x| ∨ 1 / 100 ≤ |m.y| ∨ 1 / 100 ≤ |m.z|) (h : -(1 / 10 ^ 8) ≤ m.z) :
    ∃ a : ℝ, m.f64v.angle zUp.f64v.reverse = B64.of a ∧ IsF a ∧ 90 - 1 / 2000 ≤ a := by
  obtain ⟨L, len, LF, L7, Lz⟩ := length_ordinary hF b hm
  obtain ⟨fx, fy, fz⟩ := hF
  have F0 := isF_zero
  have F1 := isF_one
  have Fm1 : IsF (-1 : ℝ) := F1.neg
  have hrev : zUp.f64v.reverse = (⟨B64.of 0, B64.of 0, B64.of (-1)⟩ : Vec B64) := by
    show (⟨-B64.of 0, -B64.of 0, -B64.of 1⟩ : Vec B64) = _
    rw [B64.neg_of F0, B64.neg_of F1, neg_zero]
  have len1 : (⟨B64.of 0, B64.of 0, B64.of (-1)⟩ : Vec B64).length = B64.of 1 := by
    show Flt.sqrt (B64.of 0 * B64.of 0 + B64.of 0 * B64.of 0 + B64.of (-1) * B64.of (-1)) = _
    rw [B64.mul_of F0 F0, B64.mul_of Fm1 Fm1, show (0 : ℝ) * 0 = 0 by norm_num, show (-1 : ℝ) * -1 = 1 by norm_num, rd_of_rep F0.1, rd_of_rep F1.1,
      B64.add_of F0 F0, show (0 : ℝ) + 0 = 0 by norm_num, rd_of_rep F0.1, B64.add_of F0 F1, show (0 : ℝ) + 1 = 1 by norm_num, rd_of_rep F1.1,
      B64.sqrt_of F1 (by norm_num), Real.sqrt_one, rd_of_rep F1.1]
  have dot : m.f64v.dot ⟨B64.of 0, B64.of 0, B64.of (-1)⟩ = B64.of (-m.z) := by
    show B64.of m.x * B64.of 0 + B64.of m.y * B64.of 0 + B64.of m.z * B64.of (-1) = _
    rw [B64.mul_of fx F0, B64.mul_of fy F0, B64.mul_of fz Fm1, mul_zero, mul_zero, rd_of_rep F0.1, B64.add_of F0 F0, add_zero, rd_of_rep F0.1,
      show m.z * -1 = -m.z by ring, rd_of_rep fz.neg.1, B64.add_of F0 fz.neg, zero_add, rd_of_rep fz.neg.1]
  have L0 : 0 < L := lt_of_lt_of_le (by norm_num) L7
  have Lz' := abs_le.1 Lz
  -- the cosine
  have c1 : -1 ≤ -m.z / L := by rw [le_div_iff₀ L0]; linarith
  have c2 : -m.z / L ≤ 1 / 2 ^ 19 := by
    rw [div_le_iff₀ L0]
    norm_num at h L7 ⊢
    linarith
  have rep19 : Rep (1 / 2 ^ 19 : ℝ) := by
    have := rep_zpow (e := (-19 : ℤ)) (by omega)
    rwa [zpow_neg, ← one_div] at this
  obtain ⟨v, hv⟩ : ∃ v, v = rd (-m.z / L) := ⟨_, rfl⟩
  have v1 : -1 ≤ v := by rw [hv]; exact le_rd Fm1.1 c1
  have v2 : v ≤ 1 / 2 ^ 19 := by rw [hv]; exact rd_le rep19 c2
  norm_num at c2 v2
  have vF : IsF v := by rw [hv]; exact isF_rd (by rw [abs_le]; constructor <;> linarith)
  have cosv : m.f64v.dot zUp.f64v.reverse / m.f64v.length / zUp.f64v.reverse.length = B64.of v := by
    rw [hrev, dot, len, len1, B64.div_of fz.neg LF L0.ne', ← hv, B64.div_of vF F1 (by norm_num), div_one, rd_of_rep vF.1]
  -- the angle
  have p0 := Real.pi_pos
  have p3 := Real.pi_gt_three
  have p4 := Real.pi_le_four
  have as1 : Real.arcsin v ≤ 4 / 10 ^ 6 := by
    by_cases s0 : Real.arcsin v ≤ 0
    · exact s0.trans (by norm_num)
    rw [not_le] at s0
    have s1 := Real.mul_le_sin s0.le (Real.arcsin_le_pi_div_two v)
    rw [Real.sin_arcsin v1 (by linarith)] at s1
    have : 2 / Real.pi ≥ 1 / 2 := by rw [ge_iff_le, div_le_div_iff₀ (by norm_num) p0]; linarith
    norm_num
    nlinarith
  have a0 : Real.pi / 2 - 4 / 10 ^ 6 ≤ Real.arccos v := by
    unfold Real.arccos; linarith
  have a1 : Real.arccos v ≤ Real.pi := Real.arccos_le_pi v
  norm_num at a0
  have e1 := abs_le.1 (rd_err (x := Real.arccos v) (M := 4) (by norm_num) (by rw [abs_of_nonneg (by linarith)]; linarith))
  have e2 := abs_le.1 (rd_err (x := Real.pi) (M := 4) (by norm_num) (by rw [abs_of_pos p0]; exact p4))
  have F180 : IsF (180 : ℝ) := by simpa using isF_int (n := 180) (by norm_num)
  obtain ⟨A, hA⟩ : ∃ A, A = rd (Real.arccos v) := ⟨_, rfl⟩
  obtain ⟨P, hP⟩ : ∃ P, P = rd Real.pi := ⟨_, rfl⟩
  rw [← hA] at e1
  rw [← hP] at e2
  have AF : IsF A := by rw [hA]; exact isF_rd (by rw [abs_of_nonneg (by linarith)]; linarith)
  have PF : IsF P := by rw [hP]; exact isF_rd (by rw [abs_of_pos p0]; linarith)
  norm_num at e1 e2
  have e3 := abs_le.1 (rd_err (x := A * 180) (M := 1000) (by norm_num) (by rw [abs_le]; constructor <;> linarith))
  obtain ⟨B, hB⟩ : ∃ B, B = rd (A * 180) := ⟨_, rfl⟩
  rw [← hB] at e3
  have BF : IsF B := by rw [hB]; exact isF_rd (by rw [abs_le]; constructor <;> linarith)
  norm_num at e3
  have P0 : 0 < P := by linarith
  have q0 : 0 ≤ B / P := div_nonneg (by linarith) P0.le
  have q1 : B / P ≤ 1000 := by rw [div_le_iff₀ P0]; linarith
  have q2 : 90 - 1 / 3000 ≤ B / P := by rw [le_div_iff₀ P0]; norm_num; linarith
  have e4 := abs_le.1 (rd_err (x := B / P) (M := 1000) (by norm_num) (by rw [abs_of_nonneg q0]; exact q1))
  refine ⟨rd (B / P), ?_, isF_rd (by rw [abs_of_nonneg q0]; linarith), by norm_num at e4 q2 ⊢; linarith⟩
  unfold Vec.angle
  dsimp only
  rw [cosv]
  have t1 : (B64.of v <? (lit (-1) 0 : B64)) = false := by
    rw [B64.lit_of, show (((-1 : ℤ) : ℝ) / 10 ^ 0) = -1 by norm_num, B64.lt_of vF Fm1, decide_eq_false_iff_not]; linarith
  have t2 : ((lit 1 0 : B64) <? B64.of v) = false := by
    rw [B64.lit_of, show (((1 : ℤ) : ℝ) / 10 ^ 0) = 1 by norm_num, B64.lt_of F1 vF, decide_eq_false_iff_not]; linarith
  rw [t1, t2, Bool.or_false, if_neg (by simp)]
  have ac : Flt.acos (B64.of v) = B64.of A := by
    show B64.rnd (Flt.acos (B64.of v).1) = _
    rw [B64.of_val vF, XR.fin_acos', if_neg (by rintro (h | h) <;> linarith), hA, B64.of_rd]
    rfl
  have pe : (Flt.pi : B64) = B64.of P := by
    rw [hP, B64.of_rd]; rfl
  rw [ac, pe, B64.lit_of, show (((180 : ℤ) : ℝ) / 10 ^ 0) = 180 by norm_num, B64.mul_of AF F180, ← hB, B64.div_of BF PF P0.ne']

/-- the colour the program gives to a face, with overhangs counted from direction `v` -/
noncomputable def painted (f : Triangle B64) (v : Vec B64) (ang : B64) : Bool := f.n.angle v.reverse <? lit 90 0 - ang

/-- `colorizeTriangles` paints the faces one by one -/
theorem painted_iff (m : Mesh B64) (ang : B64) (v : Vec B64) : colorizeTriangles m ang v = m.triangles.map fun f => painted f v ang := rfl

/-- with overhangs counted from straight up, no face of an area of at least a fiftieth of a square millimetre that does not
point downwards is painted, for thresholds of at least a thousandth of a degree. -/
theorem painted_up {r : RTri} (hF : r.a.isF ∧ r.b.isF ∧ r.c.isF) (hR : r.a.inRange ∧ r.b.inRange ∧ r.c.inRange) (hA : 1 / 25 ≤ r.nrm.norm)
    (hz : 0 ≤ r.nrm.z) {c : ℝ} (cF : IsF c) (c0 : 1 / 1000 ≤ c) (c1 : c ≤ 1000) : painted r.f64 zUp.f64v (B64.of c) = false := by
  obtain ⟨m, em, Fm, mx, my, mz, bx, by', bz⟩ := nrm_f64 hF.1 hF.2.1 hF.2.2 hR.1 hR.2.1 hR.2.2
  have big : 1 / 50 ≤ |r.nrm.x| ∨ 1 / 50 ≤ |r.nrm.y| ∨ 1 / 50 ≤ |r.nrm.z| := by
    by_contra hc
    push Not at hc
    obtain ⟨h1, h2, h3⟩ := hc
    have s : ∀ {x : ℝ}, |x| < 1 / 50 → x * x ≤ 1 / 2500 := fun {x} h => by
      rw [← abs_mul_abs_self]
      have := mul_le_mul h.le h.le (abs_nonneg x) (by norm_num)
      norm_num at this ⊢
      exact this
    have n2 : r.nrm.norm ^ 2 = r.nrm.x * r.nrm.x + r.nrm.y * r.nrm.y + r.nrm.z * r.nrm.z := by
      unfold R3.norm
      rw [Real.sq_sqrt (R3.normSq_nonneg _)]
      simp only [R3.normSq, R3.dot]
    have := s h1
    have := s h2
    have := s h3
    nlinarith
  have near : ∀ {x y : ℝ}, |x - y| ≤ 1 / 10 ^ 8 → 1 / 50 ≤ |y| → 1 / 100 ≤ |x| := fun {x y} h1 h2 => by
    have := abs_sub_abs_le_abs_sub y x
    rw [abs_sub_comm] at h1
    norm_num at h1 h2 ⊢
    linarith
  have big' : 1 / 100 ≤ |m.x| ∨ 1 / 100 ≤ |m.y| ∨ 1 / 100 ≤ |m.z| := by
    rcases big with h | h | h
    · exact Or.inl (near mx h)
    · exact Or.inr (Or.inl (near my h))
    · exact Or.inr (Or.inr (near mz h))
  obtain ⟨a, ea, aF, a0⟩ := angle_ordinary Fm ⟨bx, by', bz⟩ big' (by have := (abs_le.1 mz).1; linarith)
  have F90 : IsF (90 : ℝ) := by simpa using isF_int (n := 90) (by norm_num)
  have sm : |90 - c| ≤ 1000 := by rw [abs_le]; constructor <;> linarith
  unfold painted
  rw [em, ea, B64.lit_of, show (((90 : ℤ) : ℝ) / 10 ^ 0) = 90 by norm_num, B64.sub_of F90 cF, B64.lt_of aF (isF_rd (by linarith [sm])),
    decide_eq_false_iff_not]
  have := abs_le.1 (rd_err (x := 90 - c) (M := 1000) (by norm_num) sm)
  norm_num at this a0 c0
  linarith

/-- **C124, straight up.** With overhangs counted from straight up, the colours of a model in `float64` mark no face of an area of at least a fiftieth
of a square millimetre that does not point downwards, for thresholds of at least a thousandth of a degree. -/
theorem C124_colours_partial (ts : List RTri) (hF : ∀ w ∈ allVerts ts, w.isF) (hR : ∀ w ∈ allVerts ts, w.inRange) {c : ℝ} (cF : IsF c) (c0 : 1 / 1000 ≤ c)
    (c1 : c ≤ 1000) (i : ℕ) (r : RTri) (hi : ts[i]? = some r) (hA : 1 / 25 ≤ r.nrm.norm) (hz : 0 ≤ r.nrm.z) :
    (colorizeTriangles (fmesh ts) (B64.of c) zUp.f64v)[i]? = some false := by
  have hr := List.mem_of_getElem? hi
  have va := vert_mem hr (w := r.a) (by simp)
  have vb := vert_mem hr (w := r.b) (by simp)
  have vc := vert_mem hr (w := r.c) (by simp)
  have h := painted_up ⟨hF _ va, hF _ vb, hF _ vc⟩ ⟨hR _ va, hR _ vb, hR _ vc⟩ hA hz cF c0 c1
  rw [painted_iff]
  simp [fmesh, hi, h]

/-! ## the direction (1, 1, 1) -/

theorem rd_sqrt3 : rd (Real.sqrt 3) = 7800463371553962 / 2 ^ 52 := by
  have s0 : (7800463371553962 - 1 / 2 : ℝ) / 2 ^ 52 < Real.sqrt 3 := by rw [Real.lt_sqrt (by norm_num)]; norm_num
  have s1 : Real.sqrt 3 < (7800463371553962 + 1 / 2 : ℝ) / 2 ^ 52 := by rw [Real.sqrt_lt' (by norm_num)]; norm_num
  rw [div_lt_iff₀ (by positivity)] at s0
  rw [lt_div_iff₀ (by positivity)] at s1
  rw [rd_at (e := -52) (by norm_num) (by norm_num at s0 s1 ⊢ <;> linarith) (by norm_num at s0 s1 ⊢ <;> linarith), roundEven_of_lt (n := 7800463371553962) ?_]
  · norm_num
  · norm_num at s0 s1 ⊢
    rw [abs_lt]
    constructor <;> linarith

theorem rd_three_over : rd (3 / (7800463371553962 / 2 ^ 52)) = 7800463371553963 / 2 ^ 52 := by
  rw [rd_at (e := -52) (by norm_num) (by norm_num) (by norm_num), roundEven_of_lt (n := 7800463371553963) ?_]
  · norm_num
  · norm_num [abs_lt]

theorem rd_above_one : rd (7800463371553963 / 2 ^ 52 / (7800463371553962 / 2 ^ 52)) = 4503599627370497 / 2 ^ 52 := by
  rw [rd_at (e := -52) (by norm_num) (by norm_num) (by norm_num), roundEven_of_lt (n := 4503599627370497) ?_]
  · norm_num
  · norm_num [abs_lt]

/-- in `float64` the angle of `(1, 1, 1)` and `(-1, -1, -1)` is 0 -/
theorem angle_opposite : (⟨1, 1, 1⟩ : R3).f64v.angle (⟨1, 1, 1⟩ : R3).f64v.reverse = B64.of 0 := by
  have F1 := isF_one
  have Fm : IsF (-1 : ℝ) := F1.neg
  have Fn : ∀ {n : ℤ} {x : ℝ}, |n| ≤ 2 ^ 53 → x = n → IsF x := fun h e => by rw [e]; exact isF_int h
  have F2 : IsF (2 : ℝ) := Fn (n := 2) (by norm_num) (by norm_num)
  have F3 : IsF (3 : ℝ) := Fn (n := 3) (by norm_num) (by norm_num)
  have hrev : (⟨1, 1, 1⟩ : R3).f64v.reverse = (⟨B64.of (-1), B64.of (-1), B64.of (-1)⟩ : Vec B64) := by
    show (⟨-B64.of 1, -B64.of 1, -B64.of 1⟩ : Vec B64) = _
    rw [B64.neg_of F1]
  have l1 : (⟨1, 1, 1⟩ : R3).f64v.length = B64.of (7800463371553962 / 2 ^ 52) := by
    show Flt.sqrt (B64.of 1 * B64.of 1 + B64.of 1 * B64.of 1 + B64.of 1 * B64.of 1) = _
    rw [B64.mul_of F1 F1, one_mul, rd_of_rep F1.1, B64.add_of F1 F1, show (1 : ℝ) + 1 = 2 by norm_num, rd_of_rep F2.1, B64.add_of F2 F1,
      show (2 : ℝ) + 1 = 3 by norm_num, rd_of_rep F3.1, B64.sqrt_of F3 (by norm_num), rd_sqrt3]
  have l2 : (⟨B64.of (-1), B64.of (-1), B64.of (-1)⟩ : Vec B64).length = B64.of (7800463371553962 / 2 ^ 52) := by
    show Flt.sqrt (B64.of (-1) * B64.of (-1) + B64.of (-1) * B64.of (-1) + B64.of (-1) * B64.of (-1)) = _
    rw [B64.mul_of Fm Fm, show (-1 : ℝ) * -1 = 1 by norm_num, rd_of_rep F1.1, B64.add_of F1 F1, show (1 : ℝ) + 1 = 2 by norm_num, rd_of_rep F2.1, B64.add_of F2 F1,
      show (2 : ℝ) + 1 = 3 by norm_num, rd_of_rep F3.1, B64.sqrt_of F3 (by norm_num), rd_sqrt3]
  have d : (⟨1, 1, 1⟩ : R3).f64v.dot ⟨B64.of (-1), B64.of (-1), B64.of (-1)⟩ = B64.of (-3) := by
    show B64.of 1 * B64.of (-1) + B64.of 1 * B64.of (-1) + B64.of 1 * B64.of (-1) = _
    have Fm2 : IsF (-2 : ℝ) := F2.neg
    rw [B64.mul_of F1 Fm, one_mul, rd_of_rep Fm.1, B64.add_of Fm Fm, show (-1 : ℝ) + -1 = -2 by norm_num, rd_of_rep Fm2.1, B64.add_of Fm2 Fm,
      show (-2 : ℝ) + -1 = -3 by norm_num, rd_of_rep F3.neg.1]
  have LF : IsF (7800463371553962 / 2 ^ 52 : ℝ) := by
    rw [← rd_sqrt3]; exact isF_rd (by rw [abs_of_nonneg (Real.sqrt_nonneg _), Real.sqrt_le_left (by norm_num)]; norm_num)
  have QF : IsF (7800463371553963 / 2 ^ 52 : ℝ) := by
    rw [← rd_three_over]; exact isF_rd (by norm_num)
  have VF : IsF (4503599627370497 / 2 ^ 52 : ℝ) := by
    rw [← rd_above_one]; exact isF_rd (by norm_num)
  have cosv : (⟨1, 1, 1⟩ : R3).f64v.dot (⟨1, 1, 1⟩ : R3).f64v.reverse / (⟨1, 1, 1⟩ : R3).f64v.length / (⟨1, 1, 1⟩ : R3).f64v.reverse.length =
      B64.of (-(4503599627370497 / 2 ^ 52)) := by
    rw [hrev, d, l1, l2, B64.div_of F3.neg LF (by norm_num), neg_div, rd_neg, rd_three_over, B64.div_of QF.neg LF (by norm_num), neg_div, rd_neg, rd_above_one]
  rw [C27_out_of_range _ _ (Or.inl ?_)]
  · rw [B64.lit_of]; norm_num
  · rw [cosv, B64.lit_of, show (((-1 : ℤ) : ℝ) / 10 ^ 0) = -1 by norm_num, B64.lt_of VF.neg Fm, decide_eq_true_eq]
    norm_num

/-- **C124, violated.** With overhangs counted from `(1, 1, 1)` the face with the corners `(1,0,0)`, `(0,1,0)`, `(0,0,1)`, whose normal is exactly
`(1, 1, 1)`, is painted for every threshold below a right angle: rounding makes the cosine less than -1 and `Angle` returns 0 for it. -/
theorem C124_violated : ∃ (r : RTri) (v : R3), r.nrm = v ∧ v ≠ 0 ∧ (∀ w ∈ r.verts, w.isF ∧ w.inRange) ∧
    ∀ c : ℝ, IsF c → 0 ≤ c → c ≤ 89 → colorizeTriangles (fmesh [r]) (B64.of c) v.f64v = [true] := by
  refine ⟨⟨⟨1, 0, 0⟩, ⟨0, 1, 0⟩, ⟨0, 0, 1⟩⟩, ⟨1, 1, 1⟩, ?_, ?_, ?_, fun c cF c0 c1 => ?_⟩
  · simp [RTri.nrm, R3.cross]
  · intro h; have := congrArg R3.x h; simp at this
  · intro w hw
    simp only [RTri.verts, List.mem_cons, List.not_mem_nil, or_false] at hw
    rcases hw with rfl | rfl | rfl <;> refine ⟨⟨?_, ?_, ?_⟩, ?_, ?_, ?_⟩ <;> first | exact isF_zero | exact isF_one | norm_num
  · have g : ∀ w ∈ (⟨⟨1, 0, 0⟩, ⟨0, 1, 0⟩, ⟨0, 0, 1⟩⟩ : RTri).verts, (Dyadic 0 w.x ∧ Dyadic 0 w.y ∧ Dyadic 0 w.z) ∧ w.inRange := by
      intro w hw
      have d0 : Dyadic 0 (0 : ℝ) := ⟨0, by norm_num⟩
      have d1 : Dyadic 0 (1 : ℝ) := ⟨1, by norm_num⟩
      simp only [RTri.verts, List.mem_cons, List.not_mem_nil, or_false] at hw
      rcases hw with rfl | rfl | rfl <;> refine ⟨⟨?_, ?_, ?_⟩, ?_, ?_, ?_⟩ <;> first | exact d0 | exact d1 | norm_num
    have n := (nrm_whole (fun w hw => (g w hw).1) (fun w hw => (g w hw).2)).1
    have e : (⟨⟨1, 0, 0⟩, ⟨0, 1, 0⟩, ⟨0, 0, 1⟩⟩ : RTri).nrm = ⟨1, 1, 1⟩ := by simp [RTri.nrm, R3.cross]
    rw [e] at n
    have F90 : IsF (90 : ℝ) := by simpa using isF_int (n := 90) (by norm_num)
    have sm : |90 - c| ≤ 1000 := by rw [abs_le]; constructor <;> linarith
    rw [painted_iff]
    show [painted _ _ _] = [true]
    unfold painted
    rw [n, angle_opposite, B64.lit_of, show (((90 : ℤ) : ℝ) / 10 ^ 0) = 90 by norm_num, B64.sub_of F90 cF, B64.lt_of isF_zero (isF_rd (by linarith [sm])),
      decide_eq_true (lt_of_lt_of_le one_pos (le_rd isF_one.1 (by linarith)))]

/-! ## models -/

/-- no face of the model is thinner than can be seen -/
def FacesVisible (ts : List RTri) : Prop := ∀ r ∈ ts, 1 / 25 ≤ r.nrm.norm

theorem visible_stand {ts : List RTri} {lo : ℝ} (hF : ∀ w ∈ allVerts ts, w.isF) (hR : ∀ w ∈ allVerts ts, w.inRange) (hA : FacesVisible ts)
    (hov : OverhangsAtBottom ts lo) (sett : Settings B64) (hu : sett.unitVector = zUp.f64v)
    {c : ℝ} (cF : IsF c) (hc : sett.colorizedAngle = B64.of c) (c0 : 1 / 1000 ≤ c) (c1 : c ≤ 1000) : StandsOnOverhangs ts lo sett := by
  intro r hr hcol
  apply hov r hr
  by_contra hn
  rw [not_lt] at hn
  have va := vert_mem hr (w := r.a) (by simp)
  have vb := vert_mem hr (w := r.b) (by simp)
  have vc := vert_mem hr (w := r.c) (by simp)
  have := painted_up ⟨hF _ va, hF _ vb, hF _ vc⟩ ⟨hR _ va, hR _ vb, hR _ vc⟩ (hA r hr) hn cF c0 c1
  unfold painted at this
  rw [hu, hc, this] at hcol
  exact absurd hcol (by simp)

/-- **C124, models.** C123 for models with any `float64` coordinates: if their downward faces are at the bottom, supports add nothing. -/
theorem C124_models (S : Sorter) (A : Arrival B64) (ts : List RTri) (lo hi t : ℝ) (hF : ∀ w ∈ allVerts ts, w.isF) (hR : ∀ w ∈ allVerts ts, w.inRange)
    (hA : FacesVisible ts) (hov : OverhangsAtBottom ts lo) (he : Extent ts zUp lo hi) (H : FloatSizes lo hi t)
    (sett : Settings B64) (ht : sett.layerHeight = B64.of t)
    (hu : sett.unitVector = zUp.f64v) {c : ℝ} (cF : IsF c) (hc : sett.colorizedAngle = B64.of c) (c0 : 1 / 1000 ≤ c) (c1 : c ≤ 1000)
    {o : ℝ} (hoF : IsF o) (ho : sett.supportOffset = B64.of o) (o0 : 0 ≤ o) (o1 : -1000 ≤ lo - o) (b : Bool) :
    sliceByVector S A (some (fmesh ts)) zUp.f64v { sett with supportsOn := b } =
      sliceByVector S A (some (fmesh ts)) zUp.f64v { sett with supportsOn := false } :=
  C123_same S A ts lo hi t hF hR he H sett ht hu (visible_stand hF hR hA hov sett hu cF hc c0 c1) hoF ho o0 o1 b

/-! ## Non-vacuity -/

/-- an upward face -/
example : (colorizeTriangles (fmesh [RTri.mk ⟨0, 0, 0⟩ ⟨1, 0, 0⟩ ⟨0, 1, 0⟩]) (B64.of 30) zUp.f64v)[0]? = some false := by
  have F30 : IsF (30 : ℝ) := by simpa using isF_int (n := 30) (by norm_num)
  refine C124_colours_partial [⟨⟨0, 0, 0⟩, ⟨1, 0, 0⟩, ⟨0, 1, 0⟩⟩] ?_ ?_ F30 (by norm_num) (by norm_num) 0 _ rfl ?_ ?_
  · intro w hw
    simp only [allVerts, List.flatMap_cons, List.flatMap_nil, List.append_nil, RTri.verts, List.mem_cons, List.not_mem_nil, or_false] at hw
    rcases hw with rfl | rfl | rfl <;> refine ⟨?_, ?_, ?_⟩ <;> first | exact isF_zero | exact isF_one
  · intro w hw
    simp only [allVerts, List.flatMap_cons, List.flatMap_nil, List.append_nil, RTri.verts, List.mem_cons, List.not_mem_nil, or_false] at hw
    rcases hw with rfl | rfl | rfl <;> refine ⟨?_, ?_, ?_⟩ <;> norm_num
  · norm_num [RTri.nrm, R3.cross, R3.norm, R3.normSq, R3.dot]
  · norm_num [RTri.nrm, R3.cross]

/-- boxes are models of visible faces standing on their overhangs -/
example {k : ℕ} {p q : R3} (H : GoodBox k p q) : OverhangsAtBottom (brick p q) p.z ∧ FacesVisible (brick p q) := by
  refine ⟨box_overhangs H.below, fun r hr => ?_⟩
  have g := (nrm_whole (r := r) (fun w hw => box_whole H w (vert_mem hr (by simpa [RTri.verts] using hw)))
    (fun w hw => (box_grid H).range w (vert_mem hr (by simpa [RTri.verts] using hw)))).2.1
  have n0 := (box_grid H).solid r hr
  have one : ∀ {x : ℝ}, Dyadic 0 x → x ≠ 0 → 1 ≤ x * x := fun {x} gx hx => by
    have := gx.le_abs hx
    rw [pow_zero, div_one] at this
    rw [← abs_mul_abs_self]
    nlinarith
  refine Real.le_sqrt_of_sq_le ?_
  have sx := mul_self_nonneg r.nrm.x
  have sy := mul_self_nonneg r.nrm.y
  have sz := mul_self_nonneg r.nrm.z
  simp only [R3.normSq, R3.dot]
  by_cases hx : r.nrm.x = 0
  · by_cases hy : r.nrm.y = 0
    · have hz : r.nrm.z ≠ 0 := fun hz => n0 (R3.ext hx hy hz)
      have := one g.2.2 hz
      norm_num; linarith
    · have := one g.2.1 hy
      norm_num; linarith
  · have := one g.1 hx
    norm_num; linarith

end Goosli
