import Verif.Proofs.B64Sweep
import Verif.Proofs.B64Extrude
import Verif.Proofs.B64Fill
import Verif.Proofs.FillPlanes
/-!
# The planes of the infill in binary64, in the range of a printer
-/
set_option autoImplicit false
namespace Goosli
open Flt

/-! ## extents along the axes -/

/-- a direction along which projections are computed without error -/
def ExactDir (u : R3) : Prop := ∀ w : R3, w.isF → w.f64.toVector.dot u.f64v = B64.of (w.dot u) ∧ IsF (w.dot u)

theorem exactDir_ex : ExactDir R3.ex := by
  intro w hw
  have e : w.dot R3.ex = w.x := by simp [R3.dot, R3.ex]
  rw [e]
  refine ⟨?_, hw.1⟩
  show B64.of w.x * B64.of 1 + B64.of w.y * B64.of 0 + B64.of w.z * B64.of 0 = B64.of w.x
  rw [B64.mul_of hw.1 isF_one, B64.mul_of hw.2.1 isF_zero, B64.mul_of hw.2.2 isF_zero, mul_one, mul_zero, mul_zero, rd_zero,
    rd_of_rep hw.1.1, B64.add_of hw.1 isF_zero, add_zero, rd_of_rep hw.1.1, B64.add_of hw.1 isF_zero, add_zero, rd_of_rep hw.1.1]

theorem exactDir_ey : ExactDir R3.ey := by
  intro w hw
  have e : w.dot R3.ey = w.y := by simp [R3.dot, R3.ey]
  rw [e]
  refine ⟨?_, hw.2.1⟩
  show B64.of w.x * B64.of 0 + B64.of w.y * B64.of 1 + B64.of w.z * B64.of 0 = B64.of w.y
  rw [B64.mul_of hw.1 isF_zero, B64.mul_of hw.2.1 isF_one, B64.mul_of hw.2.2 isF_zero, mul_one, mul_zero, mul_zero, rd_zero,
    rd_of_rep hw.2.1.1, B64.add_of isF_zero hw.2.1, zero_add, rd_of_rep hw.2.1.1, B64.add_of hw.2.1 isF_zero, add_zero, rd_of_rep hw.2.1.1]

/-- the extent of the mesh is computed without error -/
theorem minMaxZ_exact {ts : List RTri} {u : R3} (hu : ExactDir u) (hF : ∀ w ∈ allVerts ts, w.isF) {lo hi : ℝ} (he : Extent ts u lo hi) :
    (fmesh ts).minMaxZ u.f64v = (B64.of lo, B64.of hi) := by
  have hx := minMaxZ_extent he (fun w hw => (hu w (hF w hw)).2.2)
  have hne : ts ≠ [] := by
    rintro rfl; obtain ⟨w, hw, _⟩ := he.1.1; simp [allVerts] at hw
  have lo_isF : ∀ {t : RTri}, t.isF → IsF (t.lo u) := fun h => isF_min (hu _ h.1).2 (isF_min (hu _ h.2.1).2 (hu _ h.2.2).2)
  have hi_isF : ∀ {t : RTri}, t.isF → IsF (t.hi u) := fun h => isF_max' (hu _ h.1).2 (isF_max' (hu _ h.2.1).2 (hu _ h.2.2).2)
  have tri : ∀ {t : RTri}, t.isF → t.f64.minMaxZ u.f64v = (B64.of (t.lo u), B64.of (t.hi u)) := by
    intro t h
    have e1 : t.f64.minZ u.f64v = B64.of (t.lo u) := by
      show Flt.fmin (t.a.f64.toVector.dot u.f64v) (Flt.fmin (t.b.f64.toVector.dot u.f64v) (t.c.f64.toVector.dot u.f64v)) = _
      rw [(hu _ h.1).1, (hu _ h.2.1).1, (hu _ h.2.2).1, B64.fmin_of (hu _ h.2.1).2 (hu _ h.2.2).2,
        B64.fmin_of (hu _ h.1).2 (isF_min (hu _ h.2.1).2 (hu _ h.2.2).2)]
      rfl
    have e2 : t.f64.maxZ u.f64v = B64.of (t.hi u) := by
      show Flt.fmax (t.a.f64.toVector.dot u.f64v) (Flt.fmax (t.b.f64.toVector.dot u.f64v) (t.c.f64.toVector.dot u.f64v)) = _
      rw [(hu _ h.1).1, (hu _ h.2.1).1, (hu _ h.2.2).1, B64.fmax_of (hu _ h.2.1).2 (hu _ h.2.2).2,
        B64.fmax_of (hu _ h.1).2 (isF_max' (hu _ h.2.1).2 (hu _ h.2.2).2)]
      rfl
    rw [← e1, ← e2]; rfl
  unfold Mesh.minMaxZ at hx ⊢
  have e1 : (rmesh ts).triangles.isEmpty = false := by simp [rmesh, hne]
  have e2 : (fmesh ts).triangles.isEmpty = false := by simp [fmesh, hne]
  rw [if_neg (by rw [e1]; simp)] at hx
  rw [if_neg (by rw [e2]; simp)]
  have inner : ∀ (us : List RTri) (l h : ℝ), IsF l → IsF h → (∀ t ∈ us, t.isF) → ∃ l' h' : ℝ, IsF l' ∧ IsF h' ∧
      (us.map RTri.tri).foldl (fun acc t => (Flt.fmin acc.1 (t.minMaxZ u.vec).1, Flt.fmax acc.2 (t.minMaxZ u.vec).2))
        (XR.fin l, XR.fin h) = (XR.fin l', XR.fin h') ∧
      (us.map RTri.f64).foldl (fun acc t => (Flt.fmin acc.1 (t.minMaxZ u.f64v).1, Flt.fmax acc.2 (t.minMaxZ u.f64v).2))
        (B64.of l, B64.of h) = (B64.of l', B64.of h') := by
    intro us
    induction us with
    | nil => intro l h hl hh _; exact ⟨l, h, hl, hh, rfl, rfl⟩
    | cons t us ih =>
      intro l h hl hh hus
      have ht := hus t (by simp)
      obtain ⟨l', h', a1, a2, a3, a4⟩ := ih (min l (t.lo u)) (max h (t.hi u)) (isF_min hl (lo_isF ht)) (isF_max' hh (hi_isF ht))
        (fun x hx => hus x (by simp [hx]))
      refine ⟨l', h', a1, a2, ?_, ?_⟩
      · simp only [List.map_cons, List.foldl_cons]
        have : t.tri.minMaxZ u.vec = (XR.fin (t.lo u), XR.fin (t.hi u)) := by
          rw [← minZ_tri, ← maxZ_tri]; rfl
        rw [this]
        simpa using a3
      · simp only [List.map_cons, List.foldl_cons]
        rw [tri ht]
        simp only
        rw [B64.fmin_of hl (lo_isF ht), B64.fmax_of hh (hi_isF ht)]
        exact a4
  obtain ⟨l', h', a1, a2, a3, a4⟩ := inner ts XR.maxF64R (-XR.maxF64R) isF_max isF_max.neg (fun t ht => tri_isF hF ht)
  have hx' : (XR.fin l', XR.fin h') = (XR.fin lo, XR.fin hi) := a3.symm.trans hx
  rw [Prod.mk.injEq, XR.fin_inj, XR.fin_inj] at hx'
  rw [← hx'.1, ← hx'.2, ← a4]
  have hm : (Flt.maxF64 : B64) = B64.of XR.maxF64R := rfl
  show List.foldl _ (Flt.maxF64, -Flt.maxF64) _ = _
  rw [hm, B64.neg_of isF_max]
  rfl

/-! ## the bound of the grid -/

/-- the distance of a corner from the axis, as it is computed -/
theorem corner_f64 {a b : ℝ} (ha : IsF a) (hb : IsF b) (ra : |a| ≤ 1000) (rb : |b| ≤ 1000) :
    ∃ l : ℝ, sqrt (B64.of a * B64.of a + B64.of b * B64.of b) = B64.of l ∧ IsF l ∧ 0 ≤ l ∧ l ≤ 1500 ∧ |a| ≤ l + 1 / 10 ^ 8 ∧ |b| ≤ l + 1 / 10 ^ 8 := by
  have sq : ∀ {x : ℝ}, |x| ≤ 1000 → 0 ≤ x * x ∧ x * x ≤ 10 ^ 6 := by
    intro x hx
    refine ⟨mul_self_nonneg x, ?_⟩
    rw [← abs_mul_abs_self]
    calc |x| * |x| ≤ 1000 * 1000 := mul_le_mul hx hx (abs_nonneg _) (by norm_num)
      _ = 10 ^ 6 := by norm_num
  obtain ⟨a0, a1⟩ := sq ra
  obtain ⟨b0, b1⟩ := sq rb
  have ea := (Err.refl (a * a)).round a0 le_rfl (by norm_num) le_rfl
  have eb := (Err.refl (b * b)).round b0 le_rfl (by norm_num) le_rfl
  have fa : IsF (rd (a * a)) := isF_rd (by rw [abs_of_nonneg a0]; exact a1.trans (by norm_num))
  have fb : IsF (rd (b * b)) := isF_rd (by rw [abs_of_nonneg b0]; exact b1.trans (by norm_num))
  have es := ea.add eb
  have pa := rd_nonneg a0
  have pb := rd_nonneg b0
  have hle := es.le (by linarith) (by norm_num)
  have hS : |rd (a * a) + rd (b * b)| ≤ 10 ^ 7 := by
    rw [abs_of_nonneg (by linarith)]
    norm_num at *
    linarith
  have fS := isF_rd (hS.trans (by norm_num))
  have pS : 0 ≤ rd (rd (a * a) + rd (b * b)) := rd_nonneg (by linarith)
  have e1 := es.round (by linarith) (by norm_num) (by norm_num) (by norm_num)
  have e2 := (e1.weaken (k' := 2) (τ' := 1 / 2 ^ 236) (by linarith) (by norm_num) (by norm_num)).sqrt (by linarith) pS (by norm_num)
    (by norm_num) le_rfl
  have hs0 := Real.sqrt_nonneg (a * a + b * b)
  have hsle : Real.sqrt (a * a + b * b) ≤ 1415 := Real.sqrt_le_iff.2 ⟨by norm_num, by norm_num at *; linarith⟩
  have e3 := e2.round hs0 (by norm_num) (by norm_num) (by norm_num)
  have hl := abs_le.1 e3
  have hsa : |a| ≤ Real.sqrt (a * a + b * b) := Real.abs_le_sqrt (by nlinarith)
  have hsb : |b| ≤ Real.sqrt (a * a + b * b) := Real.abs_le_sqrt (by nlinarith)
  have hq : Real.sqrt (rd (rd (a * a) + rd (b * b))) ≤ 10 ^ 4 := by
    refine Real.sqrt_le_iff.2 ⟨by norm_num, ?_⟩
    have := rd_bound (by norm_num) hS
    rw [abs_of_nonneg pS] at this
    norm_num at *
    linarith
  refine ⟨rd (Real.sqrt (rd (rd (a * a) + rd (b * b)))), ?_, isF_rd ?_, rd_nonneg (Real.sqrt_nonneg _), ?_, ?_, ?_⟩
  · rw [B64.mul_of ha ha, B64.mul_of hb hb, B64.add_of fa fb, B64.sqrt_of fS pS]
  · rw [abs_of_nonneg (Real.sqrt_nonneg _)]
    exact hq.trans (by norm_num)
  · norm_num at *
    linarith
  · norm_num at *
    linarith
  · norm_num at *
    linarith

theorem fillRadius_f64 {ts : List RTri} (hne : ts ≠ []) (hF : ∀ w ∈ allVerts ts, w.isF) (hR : ∀ w ∈ allVerts ts, w.inRange) :
    ∃ r : ℝ, fillRadius (fmesh ts) = B64.of r ∧ IsF r ∧ 0 ≤ r ∧ r ≤ 1500 ∧ ∀ w ∈ allVerts ts, |w.x| ≤ r + 1 / 10 ^ 8 ∧ |w.y| ≤ r + 1 / 10 ^ 8 := by
  have dx : ∀ w : R3, w.dot R3.ex = w.x := fun w => by simp [R3.dot, R3.ex]
  have dy : ∀ w : R3, w.dot R3.ey = w.y := fun w => by simp [R3.dot, R3.ey]
  obtain ⟨ax, bx, hx⟩ := exists_extent (u := R3.ex) hne (fun w hw => (exactDir_ex w (hF w hw)).2.2)
  obtain ⟨ay, b_y, hy⟩ := exists_extent (u := R3.ey) hne (fun w hw => (exactDir_ey w (hF w hw)).2.2)
  have kx : ∀ {x : ℝ}, (∃ w ∈ allVerts ts, w.dot R3.ex = x) → IsF x ∧ |x| ≤ 1000 := by
    rintro x ⟨w, hw, rfl⟩
    rw [dx]; exact ⟨(hF w hw).1, (hR w hw).1⟩
  have ky : ∀ {x : ℝ}, (∃ w ∈ allVerts ts, w.dot R3.ey = x) → IsF x ∧ |x| ≤ 1000 := by
    rintro x ⟨w, hw, rfl⟩
    rw [dy]; exact ⟨(hF w hw).2.1, (hR w hw).2.1⟩
  have hax := kx hx.1.1
  have hbx := kx hx.2.1
  have hay := ky hy.1.1
  have hby := ky hy.2.1
  obtain ⟨l1, e1, f1, p1, b1, x1, y1⟩ := corner_f64 hax.1 hay.1 hax.2 hay.2
  obtain ⟨l2, e2, f2, p2, b2, x2, y2⟩ := corner_f64 hbx.1 hby.1 hbx.2 hby.2
  refine ⟨max l1 l2, ?_, isF_max' f1 f2, le_max_of_le_left p1, max_le b1 b2, fun w hw => ⟨?_, ?_⟩⟩
  · have ex : (axisX : Vec B64) = R3.ex.f64v := by
      simp only [axisX, V, R3.ex, R3.f64v, B64.lit0, B64.lit1]
    have ey : (axisY : Vec B64) = R3.ey.f64v := by
      simp only [axisY, V, R3.ey, R3.f64v, B64.lit0, B64.lit1]
    unfold fillRadius
    rw [ex, ey, minMaxZ_exact exactDir_ex hF hx, minMaxZ_exact exactDir_ey hF hy]
    simp only [e1, e2]
    rw [B64.fmax_of f1 f2]
  · have l := hx.1.2 ⟨w, hw, dx w⟩
    have r := hx.2.2 ⟨w, hw, dx w⟩
    refine (abs_le_max_abs_abs l r).trans (max_le ?_ ?_)
    · exact x1.trans (by gcongr; exact le_max_left _ _)
    · exact x2.trans (by gcongr; exact le_max_right _ _)
  · have l := hy.1.2 ⟨w, hw, dy w⟩
    have r := hy.2.2 ⟨w, hw, dy w⟩
    refine (abs_le_max_abs_abs l r).trans (max_le ?_ ?_)
    · exact y1.trans (by gcongr; exact le_max_left _ _)
    · exact y2.trans (by gcongr; exact le_max_right _ _)

/-! ## the first plane and the number of planes -/

theorem rd_rel (x : ℝ) : |rd x - x| ≤ |x| * (12 / 10 ^ 17) + 1 / 10 ^ 30 := by
  have h1 := rd_error x
  have h3 : (1 : ℝ) / 2 ^ 1075 ≤ 1 / 10 ^ 30 := by
    apply one_div_le_one_div_of_le (by positivity)
    calc (10 : ℝ) ^ 30 ≤ 2 ^ 100 := by norm_num
      _ ≤ 2 ^ 1075 := pow_le_pow_right₀ (by norm_num) (by norm_num)
  generalize (1 : ℝ) / 2 ^ 1075 = t at *
  have h4 : |x| / 2 ^ 53 ≤ |x| * (12 / 10 ^ 17) := by
    rw [div_eq_mul_inv]
    exact mul_le_mul_of_nonneg_left (by norm_num) (abs_nonneg _)
  linarith

/-- the first multiple of the step and the number of planes -/
theorem fillStart_f64 {r s : ℝ} (hr : IsF r) (hs : IsF s) (r0 : 0 ≤ r) (r1 : r ≤ 1500) (s0 : 1 / 100 ≤ s) (s1 : s ≤ 1000) :
    ∃ (k : ℤ) (n : ℕ), fillStart (B64.of r) (B64.of s) = B64.of (rd (k * s)) ∧ fillCount (B64.of r) (B64.of s) = (n : ℤ) ∧
      (k : ℝ) * s ≤ -r + 1 / 10 ^ 11 ∧ -r - s - 1 / 10 ^ 11 ≤ k * s ∧ r - 1 / 10 ^ 11 ≤ (k + n) * s ∧ (k + n) * s ≤ r + s + 1 / 10 ^ 11 ∧ (n : ℝ) ≤ 400200 := by
  have sp : 0 < s := by linarith
  set q := rd (-r / s) with hq
  have bq : |(-r / s)| ≤ 150000 := by
    rw [abs_div, abs_neg, abs_of_nonneg r0, abs_of_pos sp, div_le_iff₀ sp]
    linarith
  have eq := rd_rel (-r / s)
  have bq2 := rd_bound (by norm_num) bq
  rw [← hq] at eq bq2
  have eq' : |q * s + r| ≤ 1 / 10 ^ 12 := by
    have : q * s + r = (q - -r / s) * s := by field_simp; ring
    rw [this, abs_mul, abs_of_pos sp]
    have t := mul_le_mul_of_nonneg_right eq sp.le
    have u : |(-r / s)| * s = r := by
      rw [abs_div, abs_neg, abs_of_nonneg r0, abs_of_pos sp]; field_simp
    have e : (|(-r / s)| * (12 / 10 ^ 17) + 1 / 10 ^ 30) * s = |(-r / s)| * s * (12 / 10 ^ 17) + 1 / 10 ^ 30 * s := by ring
    rw [e, u] at t
    norm_num at *
    linarith
  have q0 : q ≤ 0 := by
    have : -r / s ≤ 0 := by rw [neg_div]; linarith [div_nonneg r0 sp.le]
    have := rd_mono this
    rwa [rd_zero] at this
  set k := ⌊q⌋ with hk
  have k1 : (k : ℝ) ≤ q := Int.floor_le q
  have k2 : q - 1 < k := by have := Int.lt_floor_add_one q; linarith
  have hq' := abs_le.1 eq'
  have ks1 : (k : ℝ) * s ≤ -r + 1 / 10 ^ 12 := by nlinarith
  have ks2 : -r - s - 1 / 10 ^ 12 ≤ (k : ℝ) * s := by nlinarith
  have ks0 : (k : ℝ) * s ≤ 0 := mul_nonpos_of_nonpos_of_nonneg (by linarith) sp.le
  have bks : |(k : ℝ) * s| ≤ 2501 := by
    rw [abs_le]; norm_num at *; constructor <;> linarith
  have bk : |(k : ℝ)| ≤ 150002 := by
    have := abs_le.1 bq2
    rw [abs_le]; norm_num at *; constructor <;> linarith
  have Fq : IsF q := isF_rd (bq.trans (by norm_num))
  have Fk : IsF (k : ℝ) := isF_int (by
    have : |k| ≤ (150002 : ℤ) := by exact_mod_cast (by rw [Int.cast_abs]; exact bk : ((|k| : ℤ) : ℝ) ≤ 150002)
    linarith [this, show (150002 : ℤ) ≤ 2 ^ 53 by norm_num])
  have Fks := isF_rd (bks.trans (by norm_num))
  have hstart : fillStart (B64.of r) (B64.of s) = B64.of (rd (k * s)) := by
    unfold fillStart
    rw [B64.neg_of hr, B64.div_of hr.neg hs sp.ne', B64.floor_of Fq, B64.mul_of Fk hs]
  set st := rd (k * s) with hst
  have est := rd_err (by norm_num) bks
  rw [← hst] at est
  have st0 : st ≤ 0 := by
    have := rd_mono ks0
    rwa [rd_zero] at this
  have est' := abs_le.1 est
  have bks' := abs_le.1 bks
  have bd : |r - st| ≤ 4002 := by
    rw [abs_of_nonneg (by linarith)]
    clear bks
    norm_num at *
    linarith
  set d := rd (r - st) with hd
  have ed := rd_err (by norm_num) bd
  have bd2 := rd_bound (by norm_num) bd
  rw [← hd] at ed bd2
  have d0 : 0 ≤ d := rd_nonneg (by linarith)
  have Fd : IsF d := isF_rd (bd.trans (by norm_num))
  have by' : |d / s| ≤ 400210 := by
    rw [abs_div, abs_of_pos sp, div_le_iff₀ sp]
    norm_num at *
    linarith
  set y := rd (d / s) with hy
  have ey := rd_rel (d / s)
  have by2 := rd_bound (by norm_num) by'
  rw [← hy] at ey by2
  have y0 : 0 ≤ y := rd_nonneg (div_nonneg d0 sp.le)
  have Fy : IsF y := isF_rd (by'.trans (by norm_num))
  have ey' : |y * s - d| ≤ 1 / 10 ^ 12 := by
    have : y * s - d = (y - d / s) * s := by field_simp
    rw [this, abs_mul, abs_of_pos sp]
    have t := mul_le_mul_of_nonneg_right ey sp.le
    have u : |d / s| * s = d := by
      rw [abs_div, abs_of_nonneg d0, abs_of_pos sp]; field_simp
    have e : (|d / s| * (12 / 10 ^ 17) + 1 / 10 ^ 30) * s = |d / s| * s * (12 / 10 ^ 17) + 1 / 10 ^ 30 * s := by ring
    rw [e, u] at t
    rw [abs_of_nonneg d0] at bd2
    norm_num at *
    linarith
  have hn0 : (0 : ℤ) ≤ ⌈y⌉ := Int.ceil_nonneg y0
  have n1 : y ≤ (⌈y⌉ : ℝ) := Int.le_ceil y
  have n2 : (⌈y⌉ : ℝ) < y + 1 := Int.ceil_lt_add_one y
  have hcast : ((⌈y⌉.toNat : ℕ) : ℝ) = (⌈y⌉ : ℝ) := by
    have : ((⌈y⌉.toNat : ℤ)) = ⌈y⌉ := Int.toNat_of_nonneg hn0
    exact_mod_cast this
  have byle : (⌈y⌉ : ℝ) ≤ 400212 := by
    rw [abs_of_nonneg y0] at by2
    norm_num at *
    linarith
  have hcount : fillCount (B64.of r) (B64.of s) = ((⌈y⌉.toNat : ℕ) : ℤ) := by
    unfold fillCount
    have Fc : IsF (⌈y⌉ : ℝ) := isF_int (by
      rw [abs_of_nonneg hn0]
      have : (⌈y⌉ : ℤ) ≤ 400212 := by exact_mod_cast byle
      linarith [show (400212 : ℤ) ≤ 2 ^ 53 by norm_num])
    rw [hstart, B64.sub_of hr Fks, B64.div_of Fd hs sp.ne', B64.ceil_of Fy, B64.toInt_of Fc]
    unfold XR.toInt
    have h3 : (0 : ℝ) ≤ ((⌈y⌉ : ℤ) : ℝ) := by exact_mod_cast hn0
    simp only [if_pos h3, Int.floor_intCast]
    rw [Int.toNat_of_nonneg hn0, if_pos]
    have : (⌈y⌉ : ℤ) ≤ 400212 := by exact_mod_cast byle
    constructor <;> omega
  have ed' := abs_le.1 ed
  have ey'' := abs_le.1 ey'
  refine ⟨k, ⌈y⌉.toNat, hstart, hcount, by norm_num at *; linarith, by norm_num at *; linarith, ?_, ?_, ?_⟩
  · rw [hcast]
    have : y * s ≤ ⌈y⌉ * s := mul_le_mul_of_nonneg_right n1 sp.le
    norm_num at *
    linarith
  · rw [hcast]
    have : ⌈y⌉ * s ≤ (y + 1) * s := mul_le_mul_of_nonneg_right n2.le sp.le
    norm_num at *
    linarith
  · rw [hcast]
    by_contra hlt
    push Not at hlt
    have a : (400199 : ℝ) * s < y * s := mul_lt_mul_of_pos_right (by linarith) sp
    rw [abs_le] at bks
    have b : d ≤ r - st + 1 / 10 ^ 11 := by norm_num at *; linarith
    have c : d ≤ 2 * r + s + 1 / 10 := by norm_num at *; linarith
    norm_num at *
    linarith

/-! ## the points of the planes -/

/-- a coordinate of the point of the plane after `i` shifts -/
noncomputable def posF (c d : ℝ) : ℕ → ℝ
  | 0 => c
  | i + 1 => rd (posF c d i + d)

theorem posF_err {c d : ℝ} (hc : IsF c) {n : ℕ} (h : ∀ i ≤ n, |c + i * d| ≤ 3500) (hn : (n : ℝ) ≤ 400200) :
    ∀ i ≤ n, IsF (posF c d i) ∧ |posF c d i - (c + i * d)| ≤ i * (5 / 10 ^ 13) := by
  intro i
  induction i with
  | zero => intro _; simp [posF, hc]
  | succ i ih =>
    intro hi
    obtain ⟨f, e⟩ := ih (by omega)
    have hb := h (i + 1) hi
    push_cast at hb ⊢
    have hi' : (i : ℝ) ≤ 400200 := le_trans (by exact_mod_cast (by omega : i ≤ n)) hn
    have hik : (i : ℝ) * (5 / 10 ^ 13) ≤ 3 / 10 ^ 7 :=
      (mul_le_mul_of_nonneg_right hi' (by norm_num)).trans (by norm_num)
    have e1 : |posF c d i + d - (c + (i + 1) * d)| ≤ i * (5 / 10 ^ 13) := by
      rw [show posF c d i + d - (c + (i + 1) * d) = posF c d i - (c + i * d) by ring]; exact e
    have b1 : |posF c d i + d| ≤ 3501 := by
      have := abs_sub_abs_le_abs_sub (posF c d i + d) (c + (i + 1) * d)
      norm_num at *
      linarith
    have e2 := rd_err (by norm_num) b1
    refine ⟨isF_rd (b1.trans (by norm_num)), ?_⟩
    show |rd (posF c d i + d) - _| ≤ _
    have := abs_add_le (rd (posF c d i + d) - (posF c d i + d)) (posF c d i + d - (c + (i + 1) * d))
    rw [sub_add_sub_cancel] at this
    norm_num at *
    linarith

/-- a normal of the fill planes: vertical, and rather along X than along Y -/
structure NormalF (u : R3) : Prop where
  isF : u.isF
  x : |u.x| ≤ 1
  y : |u.y| ≤ 1
  z : u.z = 0
  slope : 1 / 2 ≤ |u.x|

/-- the point of the plane number `i` -/
noncomputable def planePos (st s : ℝ) (u : R3) (i : ℕ) : R3 :=
  ⟨posF (rd (u.x * st)) (rd (u.x * s)) i, posF (rd (u.y * st)) (rd (u.y * s)) i, 0⟩

theorem mulScalar_f64 {u : R3} {b : ℝ} (hu : NormalF u) (hb : IsF b) :
    u.f64v.mulScalar (B64.of b) = (⟨rd (u.x * b), rd (u.y * b), 0⟩ : R3).f64v := by
  show Vec.mk (B64.of u.x * B64.of b) (B64.of u.y * B64.of b) (B64.of u.z * B64.of b) = _
  rw [B64.mul_of hu.isF.1 hb, B64.mul_of hu.isF.2.1 hb, B64.mul_of hu.isF.2.2 hb, hu.z, zero_mul, rd_zero]
  rfl

theorem fillPlanesFrom_f64 {u : R3} {st s : ℝ} (hu : NormalF u) (hs : IsF s) (hdx : IsF (rd (u.x * s))) (hdy : IsF (rd (u.y * s))) :
    ∀ (k i n : ℕ), i + k = n → (∀ j ≤ n, (planePos st s u j).isF) →
      fillPlanesFrom u.f64v (B64.of s) k (planePos st s u i).f64 =
        (List.range' (i + 1) k).map fun j => (⟨(planePos st s u j).f64, u.f64v⟩ : Plane B64) := by
  intro k
  induction k with
  | zero => intro i n _ _; rfl
  | succ k ih =>
    intro i n hn hF
    have hp : (planePos st s u i).f64.shift (u.f64v.mulScalar (B64.of s)) = (planePos st s u (i + 1)).f64 := by
      rw [mulScalar_f64 hu hs]
      have hi := hF i (by omega)
      show Point.mk (B64.of (planePos st s u i).x + B64.of (rd (u.x * s))) (B64.of (planePos st s u i).y + B64.of (rd (u.y * s)))
        (B64.of 0 + B64.of 0) = _
      rw [B64.add_of hi.1 hdx, B64.add_of hi.2.1 hdy, B64.add_of isF_zero isF_zero, add_zero, rd_zero]
      rfl
    rw [List.range'_succ, List.map_cons]
    simp only [fillPlanesFrom]
    rw [hp, ih (i + 1) n (by omega) hF]

/-- the fill planes in the numbers of the program -/
noncomputable def planesF (fs : List (R3 × R3)) : List (Plane B64) := fs.map fun f => planeF f.1 f.2

/-- the planes of one direction: equally spaced up to `1e-6`, over the whole model -/
def GridF (ts : List RTri) (s : ℝ) (u : R3) (fs : List (R3 × R3)) : Prop :=
  (∀ f ∈ fs, FillPlaneF f.1 f.2 ∧ f.2 = u) ∧ ∃ k : ℤ,
    (∀ (i : ℕ) (f : R3 × R3), fs[i]? = some f → |f.1.x - (k + i) * s * u.x| ≤ 1 / 10 ^ 6 ∧ |f.1.y - (k + i) * s * u.y| ≤ 1 / 10 ^ 6) ∧
    ∀ w ∈ allVerts ts, ∀ x, x = w.x ∨ x = w.y → (k : ℝ) * s ≤ x + s + 1 / 10 ^ 6 ∧ x ≤ (k + fs.length - 1) * s + 1 / 10 ^ 6

theorem planes_f64 {ts : List RTri} (hne : ts ≠ []) (hF : ∀ w ∈ allVerts ts, w.isF) (hR : ∀ w ∈ allVerts ts, w.inRange) {s : ℝ} (hs : IsF s)
    (s0 : 1 / 100 ≤ s) (s1 : s ≤ 1000) {u : R3} (hu : NormalF u) :
    ∃ fs : List (R3 × R3), calcFillPlanesCommon (fmesh ts) u.f64v (B64.of s) = planesF fs ∧ GridF ts s u fs := by
  obtain ⟨r, er, Fr, r0, r1, hv⟩ := fillRadius_f64 hne hF hR
  obtain ⟨k, n, est, en, a1, a2, a3, a4, hn⟩ := fillStart_f64 Fr hs r0 r1 s0 s1
  have sp : 0 < s := by linarith
  have bks : |(k : ℝ) * s| ≤ 2501 := by
    rw [abs_le]; norm_num at *; constructor <;> linarith
  set st := rd (k * s) with hst
  have e0 := rd_err (by norm_num) bks
  have b0 := rd_bound (by norm_num) bks
  rw [← hst] at e0 b0
  have Fst : IsF st := isF_rd (bks.trans (by norm_num))
  -- one coordinate
  have coord : ∀ c : ℝ, |c| ≤ 1 → IsF (rd (c * st)) ∧ IsF (rd (c * s)) ∧ ∀ i ≤ n, IsF (posF (rd (c * st)) (rd (c * s)) i) ∧
      |posF (rd (c * st)) (rd (c * s)) i - (k + i) * s * c| ≤ 1 / 10 ^ 6 := by
    intro c hc
    have m1 : |c * st| ≤ 2502 := by
      rw [mul_comm]
      exact mul_unit (by norm_num at *; linarith) hc
    have m2 : |c * s| ≤ 1000 := by
      rw [mul_comm]
      exact mul_unit (by rw [abs_of_pos sp]; exact s1) hc
    have e1 := rd_err (by norm_num) m1
    have e2 := rd_err (by norm_num) m2
    have e3 : |c * st - c * (k * s)| ≤ 2501 * (12 / 10 ^ 17) := by
      rw [← mul_sub, abs_mul]
      calc |c| * |st - k * s| ≤ 1 * (2501 * (12 / 10 ^ 17)) := mul_le_mul hc e0 (abs_nonneg _) (by norm_num)
        _ = _ := one_mul _
    have F1 := isF_rd (m1.trans (by norm_num))
    have lin : ∀ i : ℕ, i ≤ n → |rd (c * st) + i * rd (c * s) - (k + i) * s * c| ≤ 2 / 10 ^ 7 := by
      intro i hi
      have hi' : (i : ℝ) ≤ 400200 := le_trans (by exact_mod_cast hi) hn
      have i0 : (0 : ℝ) ≤ i := Nat.cast_nonneg i
      have e : rd (c * st) + i * rd (c * s) - (k + i) * s * c =
          (rd (c * st) - c * st) + (c * st - c * (k * s)) + i * (rd (c * s) - c * s) := by ring
      rw [e]
      have t1 := abs_add_le ((rd (c * st) - c * st) + (c * st - c * (k * s))) (i * (rd (c * s) - c * s))
      have t2 := abs_add_le (rd (c * st) - c * st) (c * st - c * (k * s))
      have t3 : |(i : ℝ) * (rd (c * s) - c * s)| ≤ 400200 * (1000 * (12 / 10 ^ 17)) := by
        rw [abs_mul, abs_of_nonneg i0]
        exact mul_le_mul hi' e2 (abs_nonneg _) (by norm_num)
      norm_num at *
      linarith
    have hb : ∀ i ≤ n, |rd (c * st) + i * rd (c * s)| ≤ 3500 := by
      intro i hi
      have l := lin i hi
      have i1 : (i : ℝ) ≤ n := by exact_mod_cast hi
      have i0 : (0 : ℝ) ≤ i := Nat.cast_nonneg i
      have : |((k : ℝ) + i) * s| ≤ 2502 := by
        have u1 : (k + i) * s ≤ (k + n) * s := by gcongr
        have u2 : (k : ℝ) * s ≤ (k + i) * s := by nlinarith
        rw [abs_le]
        norm_num at *
        constructor <;> linarith
      have t := mul_unit this hc
      have := abs_sub_abs_le_abs_sub (rd (c * st) + i * rd (c * s)) ((k + i) * s * c)
      norm_num at *
      linarith
    refine ⟨F1, isF_rd (m2.trans (by norm_num)), fun i hi => ?_⟩
    obtain ⟨f, e⟩ := posF_err F1 hb hn i hi
    refine ⟨f, ?_⟩
    have hi' : (i : ℝ) ≤ 400200 := le_trans (by exact_mod_cast hi) hn
    have hik : (i : ℝ) * (5 / 10 ^ 13) ≤ 3 / 10 ^ 7 :=
      (mul_le_mul_of_nonneg_right hi' (by norm_num)).trans (by norm_num)
    have l := lin i hi
    have := abs_add_le (posF (rd (c * st)) (rd (c * s)) i - (rd (c * st) + i * rd (c * s))) (rd (c * st) + i * rd (c * s) - (k + i) * s * c)
    rw [sub_add_sub_cancel] at this
    norm_num at *
    linarith
  obtain ⟨x1, x2, x3⟩ := coord u.x hu.x
  obtain ⟨y1, y2, y3⟩ := coord u.y hu.y
  have hpos : ∀ j ≤ n, (planePos st s u j).isF := fun j hj => ⟨(x3 j hj).1, (y3 j hj).1, isF_zero⟩
  refine ⟨(List.range' 1 n).map fun j => (planePos st s u j, u), ?_, ?_, k + 1, ?_, ?_⟩
  · unfold calcFillPlanesCommon planesF
    rw [er]
    dsimp only
    rw [est, en, mulScalar_f64 hu Fst, Int.toNat_natCast, List.map_map]
    exact fillPlanesFrom_f64 hu hs x2 y2 n 0 n (by omega) hpos
  · intro f hf
    obtain ⟨j, hj, rfl⟩ := List.mem_map.1 hf
    have hj' := List.mem_range'_1.1 hj
    have hjn : j ≤ n := by omega
    refine ⟨⟨hpos j hjn, ?_, ?_, hu.isF, hu.x, hu.y, hu.z, hu.slope⟩, rfl⟩
    all_goals
      have i1 : (j : ℝ) ≤ n := by exact_mod_cast hjn
      have i0 : (0 : ℝ) ≤ j := Nat.cast_nonneg j
      have hb : |((k : ℝ) + j) * s| ≤ 2502 := by
        have u1 : (k + j) * s ≤ (k + n) * s := by gcongr
        have u2 : (k : ℝ) * s ≤ (k + j) * s := by nlinarith
        rw [abs_le]
        norm_num at *
        constructor <;> linarith
    · have t := mul_unit hb hu.x
      have e := (x3 j hjn).2
      have := abs_sub_abs_le_abs_sub (posF (rd (u.x * st)) (rd (u.x * s)) j) ((k + j) * s * u.x)
      show |posF (rd (u.x * st)) (rd (u.x * s)) j| ≤ 4000
      norm_num at *
      linarith
    · have t := mul_unit hb hu.y
      have e := (y3 j hjn).2
      have := abs_sub_abs_le_abs_sub (posF (rd (u.y * st)) (rd (u.y * s)) j) ((k + j) * s * u.y)
      show |posF (rd (u.y * st)) (rd (u.y * s)) j| ≤ 4000
      norm_num at *
      linarith
  · intro i f hf
    rw [List.getElem?_map, Option.map_eq_some_iff] at hf
    obtain ⟨j, hj, rfl⟩ := hf
    obtain ⟨hlt, hj⟩ := List.getElem?_eq_some_iff.1 hj
    have hi : i < n := by simpa using hlt
    rw [List.getElem_range'] at hj
    obtain rfl : j = 1 + i := by omega
    have e1 := (x3 (1 + i) (by omega)).2
    have e2 := (y3 (1 + i) (by omega)).2
    push_cast at e1 e2 ⊢
    rw [show ((k : ℝ) + 1 + i) = k + (1 + i) by ring]
    exact ⟨e1, e2⟩
  · intro w hw x hx
    have hv' := hv w hw
    have hb : |x| ≤ r + 1 / 10 ^ 8 := by
      rcases hx with rfl | rfl
      · exact hv'.1
      · exact hv'.2
    rw [abs_le] at hb
    rw [List.length_map, List.length_range']
    push_cast
    have e : ((k : ℝ) + 1 + n - 1) * s = (k + n) * s := by ring
    rw [e]
    norm_num at *
    constructor <;> linarith

end Goosli
