import Verif.Props.C118
import Verif.Model.FiveAxes
/-!
# The middle of a rectangle of whole sides, in binary64

All sums of `FindCentroid` on the contour of a box layer are exact, so the middle is found without error.
-/
set_option autoImplicit false
namespace Goosli
open Flt R3 Spec

/-! ## exact arithmetic -/

theorem Dyadic.neg {k : ℕ} {x : ℝ} (hx : Dyadic k x) : Dyadic k (-x) := by
  obtain ⟨m, rfl⟩ := hx
  exact ⟨-m, by push_cast; ring⟩

theorem Dyadic.mul' {j k : ℕ} {x y : ℝ} (hx : Dyadic j x) (hy : Dyadic k y) : Dyadic (j + k) (x * y) := by
  obtain ⟨m, rfl⟩ := hx
  obtain ⟨n, rfl⟩ := hy
  exact ⟨m * n, by push_cast; rw [pow_add]; field_simp⟩

theorem Dyadic.half {k : ℕ} {x : ℝ} (hx : Dyadic k x) : Dyadic (k + 1) (x / 2) := by
  obtain ⟨m, rfl⟩ := hx
  exact ⟨m, by rw [pow_succ]; field_simp⟩

/-- a number on the grid of `2^-16` that is not too large -/
theorem exF {k : ℕ} {x : ℝ} (hx : Dyadic k x) (hk : k ≤ 16) (h : |x| ≤ 2 ^ 36) : IsF x := by
  obtain ⟨m, rfl⟩ := hx.mono hk
  refine isF_rep ?_ (h.trans (by norm_num))
  have hm : |m| ≤ 2 ^ 53 := by
    rw [abs_div, abs_of_pos (by positivity : (0 : ℝ) < 2 ^ 16), div_le_iff₀ (by positivity), ← Int.cast_abs] at h
    have h : ((|m| : ℤ) : ℝ) ≤ ((2 ^ 52 : ℤ) : ℝ) := h.trans (by norm_num)
    exact (Int.cast_le.1 h).trans (by norm_num)
  exact ⟨m, -16, hm, by norm_num, by rw [zpow_neg, ← div_eq_mul_inv]; norm_num⟩

theorem addE {x y : ℝ} (hx : IsF x) (hy : IsF y) (h : IsF (x + y)) : B64.of x + B64.of y = B64.of (x + y) := by
  rw [B64.add_of hx hy, rd_of_rep h.1]

theorem subE {x y : ℝ} (hx : IsF x) (hy : IsF y) (h : IsF (x - y)) : B64.of x - B64.of y = B64.of (x - y) := by
  rw [B64.sub_of hx hy, rd_of_rep h.1]

theorem mulE {x y : ℝ} (hx : IsF x) (hy : IsF y) (h : IsF (x * y)) : B64.of x * B64.of y = B64.of (x * y) := by
  rw [B64.mul_of hx hy, rd_of_rep h.1]

theorem divE {x y z : ℝ} (hx : IsF x) (hy : IsF y) (y0 : y ≠ 0) (e : x = z * y) (h : IsF z) : B64.of x / B64.of y = B64.of z := by
  rw [B64.div_of hx hy y0, e, mul_div_assoc, div_self y0, mul_one, rd_of_rep h.1]

/-- a number on the grid of `2^-k`, at most `M` -/
def Ex (k : ℕ) (M x : ℝ) : Prop := Dyadic k x ∧ |x| ≤ M

theorem Ex.F {k : ℕ} {M x : ℝ} (h : Ex k M x) (hk : k ≤ 16) (hM : M ≤ 2 ^ 36) : IsF x := exF h.1 hk (h.2.trans hM)

theorem Ex.pos {k : ℕ} {M x : ℝ} (h : Ex k M x) : 0 ≤ M := (abs_nonneg x).trans h.2

theorem Ex.mono {j k : ℕ} {M N x : ℝ} (h : Ex j M x) (hk : j ≤ k) (hM : M ≤ N) : Ex k N x := ⟨h.1.mono hk, h.2.trans hM⟩

theorem Ex.add {k : ℕ} {M N x y : ℝ} (hx : Ex k M x) (hy : Ex k N y) : Ex k (M + N) (x + y) :=
  ⟨hx.1.add hy.1, (abs_add_le _ _).trans (add_le_add hx.2 hy.2)⟩

theorem Ex.sub {k : ℕ} {M N x y : ℝ} (hx : Ex k M x) (hy : Ex k N y) : Ex k (M + N) (x - y) :=
  ⟨hx.1.sub hy.1, (abs_sub _ _).trans (add_le_add hx.2 hy.2)⟩

theorem Ex.neg {k : ℕ} {M x : ℝ} (hx : Ex k M x) : Ex k M (-x) := ⟨hx.1.neg, by rw [abs_neg]; exact hx.2⟩

theorem Ex.mul {j k : ℕ} {M N x y : ℝ} (hx : Ex j M x) (hy : Ex k N y) : Ex (j + k) (M * N) (x * y) :=
  ⟨hx.1.mul' hy.1, by rw [abs_mul]; exact mul_le_mul hx.2 hy.2 (abs_nonneg _) hx.pos⟩

theorem addX {k : ℕ} {M N x y : ℝ} (hx : Ex k M x) (hy : Ex k N y) (hk : k ≤ 16) (hM : M + N ≤ 2 ^ 36) :
    B64.of x + B64.of y = B64.of (x + y) :=
  addE (hx.F hk (by linarith [hy.pos])) (hy.F hk (by linarith [hx.pos])) ((hx.add hy).F hk hM)

theorem subX {k : ℕ} {M N x y : ℝ} (hx : Ex k M x) (hy : Ex k N y) (hk : k ≤ 16) (hM : M + N ≤ 2 ^ 36) :
    B64.of x - B64.of y = B64.of (x - y) :=
  subE (hx.F hk (by linarith [hy.pos])) (hy.F hk (by linarith [hx.pos])) ((hx.sub hy).F hk hM)

theorem mulX {j k : ℕ} {M N x y : ℝ} (hx : Ex j M x) (hy : Ex k N y) (hk : j + k ≤ 16) (hM : M ≤ 2 ^ 36) (hN : N ≤ 2 ^ 36) (hMN : M * N ≤ 2 ^ 36) :
    B64.of x * B64.of y = B64.of (x * y) :=
  mulE (hx.F (by omega) hM) (hy.F (by omega) hN) ((hx.mul hy).F hk hMN)

/-! ## FindCentroid -/

/-- whole in x and y, on the grid of 2^-8 in z, within a metre -/
structure WholePt (w : R3) : Prop where
  x : Ex 0 1000 w.x
  y : Ex 0 1000 w.y
  z : Ex 8 1000 w.z

/-- the sums after `m` sides -/
structure SumsAt (m : ℕ) (c : CentroidAcc B64) (a cx cy a2 a3 : ℝ) : Prop where
  a : c.a = B64.of a ∧ Ex 0 (m * 2000000) a
  cx : c.cx = B64.of cx ∧ Ex 0 (m * 4000000000) cx
  cy : c.cy = B64.of cy ∧ Ex 0 (m * 4000000000) cy
  a2 : c.a2 = B64.of a2 ∧ Ex 8 (m * 2000000) a2
  a3 : c.a3 = B64.of a3 ∧ Ex 8 (m * 2000000) a3

theorem sums_zero : SumsAt 0 CentroidAcc.zero 0 0 0 0 0 := by
  have z : ∀ k, Ex k ((0 : ℕ) * 2000000) 0 := fun k => ⟨⟨0, by simp⟩, by simp⟩
  have z' : ∀ k, Ex k ((0 : ℕ) * 4000000000) 0 := fun k => ⟨⟨0, by simp⟩, by simp⟩
  have l : (lit 0 0 : B64) = B64.of 0 := B64.lit0
  exact ⟨⟨l, z _⟩, ⟨l, z' _⟩, ⟨l, z' _⟩, ⟨l, z _⟩, ⟨l, z _⟩⟩

theorem sums_step {m : ℕ} (hm : m ≤ 3) {c : CentroidAcc B64} {a cx cy a2 a3 : ℝ} (h : SumsAt m c a cx cy a2 a3) {u v : R3} (hu : WholePt u) (hv : WholePt v) :
    SumsAt (m + 1) (c.step (u.f64, v.f64)) (a + (u.x * v.y - v.x * u.y)) (cx + (u.x + v.x) * (u.x * v.y - v.x * u.y))
      (cy + (u.y + v.y) * (u.x * v.y - v.x * u.y)) (a2 + (u.x * v.z - v.x * u.z)) (a3 + (u.y * v.z - v.y * u.z)) := by
  have hm' : (m : ℝ) ≤ 3 := by exact_mod_cast hm
  have hs : ((m + 1 : ℕ) : ℝ) = m + 1 := by push_cast; ring
  have d : ∀ {p q r s : ℝ} {k : ℕ}, k ≤ 8 → Ex 0 1000 p → Ex k 1000 q → Ex 0 1000 r → Ex k 1000 s →
      B64.of p * B64.of q - B64.of r * B64.of s = B64.of (p * q - r * s) ∧ Ex k 2000000 (p * q - r * s) := by
    intro p q r s k hk hp hq hr hs
    have e1 := hp.mul hq; have e2 := hr.mul hs
    rw [Nat.zero_add] at e1 e2
    rw [mulX hp hq (by omega) (by norm_num) (by norm_num) (by norm_num), mulX hr hs (by omega) (by norm_num) (by norm_num) (by norm_num),
      subX e1 e2 (by omega) (by norm_num)]
    exact ⟨rfl, (e1.sub e2).mono le_rfl (by norm_num)⟩
  obtain ⟨d1, x1⟩ := d (k := 0) (by norm_num) hu.x hv.y hv.x hu.y
  obtain ⟨d2, x2⟩ := d (k := 8) (by norm_num) hu.x hv.z hv.x hu.z
  obtain ⟨d3, x3⟩ := d (k := 8) (by norm_num) hu.y hv.z hv.y hu.z
  have mm : ∀ {p q r : ℝ}, Ex 0 1000 p → Ex 0 1000 q → Ex 0 2000000 r → (B64.of p + B64.of q) * B64.of r = B64.of ((p + q) * r) ∧
      Ex 0 4000000000 ((p + q) * r) := by
    intro p q r hp hq hr
    have e1 := hp.add hq
    rw [addX hp hq (by norm_num) (by norm_num), mulX e1 hr (by norm_num) (by norm_num) (by norm_num) (by norm_num)]
    exact ⟨rfl, (e1.mul hr).mono le_rfl (by norm_num)⟩
  obtain ⟨c1, y1⟩ := mm hu.x hv.x x1
  obtain ⟨c2, y2⟩ := mm hu.y hv.y x1
  constructor
  · refine ⟨?_, (h.a.2.add x1).mono le_rfl (by rw [hs]; linarith)⟩
    show c.a + (B64.of u.x * B64.of v.y - B64.of v.x * B64.of u.y) = _
    rw [d1, h.a.1, addX h.a.2 x1 (by norm_num) (by linarith)]
  · refine ⟨?_, (h.cx.2.add y1).mono le_rfl (by rw [hs]; linarith)⟩
    show c.cx + (B64.of u.x + B64.of v.x) * (B64.of u.x * B64.of v.y - B64.of v.x * B64.of u.y) = _
    rw [d1, c1, h.cx.1, addX h.cx.2 y1 (by norm_num) (by linarith)]
  · refine ⟨?_, (h.cy.2.add y2).mono le_rfl (by rw [hs]; linarith)⟩
    show c.cy + (B64.of u.y + B64.of v.y) * (B64.of u.x * B64.of v.y - B64.of v.x * B64.of u.y) = _
    rw [d1, c2, h.cy.1, addX h.cy.2 y2 (by norm_num) (by linarith)]
  · refine ⟨?_, (h.a2.2.add x2).mono le_rfl (by rw [hs]; linarith)⟩
    show c.a2 + (B64.of u.x * B64.of v.z - B64.of v.x * B64.of u.z) = _
    rw [d2, h.a2.1, addX h.a2.2 x2 (by norm_num) (by linarith)]
  · refine ⟨?_, (h.a3.2.add x3).mono le_rfl (by rw [hs]; linarith)⟩
    show c.a3 + (B64.of u.y * B64.of v.z - B64.of v.y * B64.of u.z) = _
    rw [d3, h.a3.1, addX h.a3.2 x3 (by norm_num) (by linarith)]

theorem sums_finish {c : CentroidAcc B64} {A cx cy gx gy : ℝ} (h : SumsAt 4 c A cx cy 0 0) (hA : 1 ≤ |A / 2|) (gX : Ex 1 1000 gx) (gY : Ex 1 1000 gy)
    (ex : cx = gx * (A / 2) * 6) (ey : cy = gy * (A / 2) * 6) (first : Point B64) : c.finish first = ⟨B64.of gx, B64.of gy, first.z⟩ := by
  have tl := rd_tol_le
  have F0 : almostZero (B64.of 0) = true := by
    rw [B64.almostZero_of isF_zero]
    simp [tl.2]
  have l5 : (lit 5 1 : B64) = B64.of (1 / 2) := B64.lit51
  have l6 : (lit 6 0 : B64) = B64.of 6 := by
    rw [B64.lit_of]; norm_num
  have HA : Ex 1 8000000 (A / 2) := ⟨h.a.2.1.half, by
    have := h.a.2.2
    rw [abs_div]; norm_num at this ⊢; linarith [abs_nonneg A]⟩
  have ea : c.a * lit 5 1 = B64.of (A / 2) := by
    rw [h.a.1, l5, mulX h.a.2 (show Ex 1 1 (1 / 2) from ⟨⟨1, by norm_num⟩, by norm_num⟩) (by norm_num) (by norm_num) (by norm_num) (by norm_num)]
    congr 1
    ring
  have nz : almostZero (B64.of (A / 2)) = false := by
    rw [B64.almostZero_of (HA.F (by norm_num) (by norm_num))]
    have : rd tol ≤ 1 := le_trans tl.1 (by norm_num)
    simp only [decide_eq_false_iff_not, not_lt]
    linarith
  have e2 : c.a2 * lit 5 1 = B64.of 0 := by
    rw [h.a2.1, l5, B64.mul_of isF_zero isF_half, zero_mul, rd_zero]
  have e3 : c.a3 * lit 5 1 = B64.of 0 := by
    rw [h.a3.1, l5, B64.mul_of isF_zero isF_half, zero_mul, rd_zero]
  have A0 : A / 2 ≠ 0 := by
    intro e
    rw [e, abs_zero] at hA
    norm_num at hA
  have div : ∀ {s g : ℝ}, s = g * (A / 2) * 6 → Ex 0 ((4 : ℕ) * 4000000000) s → Ex 1 1000 g → B64.of s / B64.of 6 / B64.of (A / 2) = B64.of g := by
    intro s g e hs hg
    have F6 : IsF 6 := exF (k := 0) ⟨6, by norm_num⟩ (by norm_num) (by rw [abs_of_pos] <;> norm_num)
    have hp := hg.mul HA
    rw [divE (hs.F (by norm_num) (by norm_num)) F6 (by norm_num) e (hp.F (by norm_num) (by norm_num)),
      divE (hp.F (by norm_num) (by norm_num)) (HA.F (by norm_num) (by norm_num)) A0 rfl (hg.F (by norm_num) (by norm_num))]
  have dx := div ex h.cx.2 gX
  have dy := div ey h.cy.2 gY
  unfold CentroidAcc.finish
  simp only [ea, e2, e3, nz, F0, l6, h.cx.1, h.cy.1, dx, dy]
  simp

/-- the middle of the rectangle of a box at height `h` -/
noncomputable def rectMid (p q : R3) (h : ℝ) : R3 := ⟨(p.x + q.x) / 2, (p.y + q.y) / 2, h⟩

/-- a height on the grid inside the box -/
structure LevelOf (k : ℕ) (p q : R3) (h : ℝ) : Prop where
  grid : Dyadic k h
  lo : p.z < h
  hi : h < q.z

theorem LevelOf.ex {k : ℕ} {p q : R3} {h : ℝ} (L : LevelOf k p q h) (H : GoodBox k p q) : Ex 8 1000 h :=
  ⟨L.grid.mono H.coarse, H.level_range L.lo L.hi⟩

theorem corner_wholePt {k : ℕ} {p q : R3} (H : GoodBox k p q) {h : ℝ} (L : LevelOf k p q h) (i : ℕ) : WholePt (rectCorner p q h i) := by
  obtain ⟨a, ra, b, rb, c⟩ := corner_whole H h i
  exact ⟨⟨a, ra⟩, ⟨b, rb⟩, by rw [c]; exact L.ex H⟩

theorem mid_ex {a b : ℝ} (ha : Ex 0 1000 a) (hb : Ex 0 1000 b) : Ex 1 1000 ((a + b) / 2) :=
  ⟨(ha.1.add hb.1).half, by
    have := ha.2; have := hb.2
    have := abs_add_le a b
    rw [abs_div]; norm_num; linarith⟩

theorem GoodBox.exs {k : ℕ} {p q : R3} (H : GoodBox k p q) : Ex 0 1000 p.x ∧ Ex 0 1000 p.y ∧ Ex 0 1000 q.x ∧ Ex 0 1000 q.y :=
  ⟨⟨H.px, H.pr.1⟩, ⟨H.py, H.pr.2.1⟩, ⟨H.qx, H.qr.1⟩, ⟨H.qy, H.qr.2.1⟩⟩

/-- the middle of the contour of a box layer is found exactly -/
theorem rect_centroid {k : ℕ} {p q : R3} (H : GoodBox k p q) {h : ℝ} (L : LevelOf k p q h) (i : ℕ) :
    findCentroid (fpath (rectLoop p q h i)) = .ok (rectMid p q h).f64 := by
  have c := corner_wholePt H L
  have s1 := sums_step (by norm_num) sums_zero (c i) (c (i + 1))
  have s2 := sums_step (by norm_num) s1 (c (i + 1)) (c (i + 2))
  have s3 := sums_step (by norm_num) s2 (c (i + 2)) (c (i + 3))
  have s4 := sums_step (by norm_num) s3 (c (i + 3)) (c i)
  obtain ⟨px, py, qx, qy⟩ := H.exs
  obtain ⟨w, h'⟩ := H.sides
  unfold findCentroid
  show Except.ok (((adjPairs ((rectLoop p q h i).map R3.f64)).foldl CentroidAcc.step CentroidAcc.zero).finish (rectCorner p q h i).f64) = _
  congr 1
  have hz : (rectCorner p q h i).f64.z = B64.of h := congrArg B64.of (corner_whole H h i).2.2.2.2
  have fin : ∀ {A cx cy a2 a3 : ℝ} (s : SumsAt 4 ((adjPairs ((rectLoop p q h i).map R3.f64)).foldl CentroidAcc.step CentroidAcc.zero) A cx cy a2 a3)
      (_ : A = -2 * ((q.x - p.x) * (q.y - p.y))) (_ : cx = (p.x + q.x) / 2 * (A / 2) * 6) (_ : cy = (p.y + q.y) / 2 * (A / 2) * 6) (_ : a2 = 0) (_ : a3 = 0),
      ((adjPairs ((rectLoop p q h i).map R3.f64)).foldl CentroidAcc.step CentroidAcc.zero).finish (rectCorner p q h i).f64 = (rectMid p q h).f64 := by
    intro A cx cy a2 a3 s eA ex ey e2 e3
    subst e2 e3
    rw [sums_finish s ?_ (mid_ex px qx) (mid_ex py qy) ex ey, hz]
    · rfl
    · rw [eA, show -2 * ((q.x - p.x) * (q.y - p.y)) / 2 = -((q.x - p.x) * (q.y - p.y)) by ring, abs_neg, abs_of_pos (by positivity)]
      nlinarith
  refine fin s4 ?_ ?_ ?_ ?_ ?_
  all_goals
    unfold rectCorner
    have e : ∀ m, (i + m) % 4 = (i % 4 + m) % 4 := fun m => (Nat.mod_add_mod i 4 m).symm
    rw [e 1, e 2, e 3]
    have : i % 4 < 4 := Nat.mod_lt _ (by norm_num)
    interval_cases i % 4 <;> norm_num <;> ring

/-! ## exact vectors -/

/-- a vector with exact coordinates of at most two metres -/
structure ExVec (u : R3) : Prop where
  x : Ex 8 2000 u.x
  y : Ex 8 2000 u.y
  z : Ex 8 2000 u.z

theorem ExVec.isF {u : R3} (h : ExVec u) : u.isF :=
  ⟨h.x.F (by norm_num) (by norm_num), h.y.F (by norm_num) (by norm_num), h.z.F (by norm_num) (by norm_num)⟩

/-- a point with exact coordinates of at most a metre -/
structure ExPt (u : R3) : Prop where
  x : Ex 8 1000 u.x
  y : Ex 8 1000 u.y
  z : Ex 8 1000 u.z

theorem ExPt.isF {u : R3} (h : ExPt u) : u.isF :=
  ⟨h.x.F (by norm_num) (by norm_num), h.y.F (by norm_num) (by norm_num), h.z.F (by norm_num) (by norm_num)⟩

theorem WholePt.exPt {u : R3} (h : WholePt u) : ExPt u :=
  ⟨h.x.mono (by norm_num) le_rfl, h.y.mono (by norm_num) le_rfl, h.z⟩

theorem ExPt.vec {u : R3} (h : ExPt u) : ExVec u :=
  ⟨h.x.mono le_rfl (by norm_num), h.y.mono le_rfl (by norm_num), h.z.mono le_rfl (by norm_num)⟩

theorem ExPt.sub {u v : R3} (hu : ExPt u) (hv : ExPt v) : ExVec (v - u) :=
  ⟨(hv.x.sub hu.x).mono le_rfl (by norm_num), (hv.y.sub hu.y).mono le_rfl (by norm_num), (hv.z.sub hu.z).mono le_rfl (by norm_num)⟩

theorem vectorToX {u v : R3} (hu : ExPt u) (hv : ExPt v) : u.f64.vectorTo v.f64 = (v - u).f64v := by
  show (⟨B64.of v.x - B64.of u.x, B64.of v.y - B64.of u.y, B64.of v.z - B64.of u.z⟩ : Vec B64) = _
  rw [subX hv.x hu.x (by norm_num) (by norm_num), subX hv.y hu.y (by norm_num) (by norm_num), subX hv.z hu.z (by norm_num) (by norm_num)]
  rfl

theorem dotX {u v : R3} (hu : ExVec u) (hv : ExVec v) : u.f64v.dot v.f64v = B64.of (u.dot v) ∧ Ex 16 12000000 (u.dot v) := by
  have hx := hu.x.mul hv.x; have hy := hu.y.mul hv.y; have hz := hu.z.mul hv.z
  have hxy := hx.add hy
  constructor
  · show B64.of u.x * B64.of v.x + B64.of u.y * B64.of v.y + B64.of u.z * B64.of v.z = _
    rw [mulX hu.x hv.x (by norm_num) (by norm_num) (by norm_num) (by norm_num), mulX hu.y hv.y (by norm_num) (by norm_num) (by norm_num) (by norm_num),
      mulX hu.z hv.z (by norm_num) (by norm_num) (by norm_num) (by norm_num), addX hx hy (by norm_num) (by norm_num), addX hxy hz (by norm_num) (by norm_num)]
    rfl
  · exact (hxy.add hz).mono le_rfl (by norm_num)

/-- the product with the z axis only moves numbers -/
theorem crossZ {u : R3} (hu : u.isF) : u.f64v.cross axisZ = (⟨u.y, -u.x, 0⟩ : R3).f64v := by
  obtain ⟨hx, hy, hz⟩ := hu
  have l0 : (lit 0 0 : B64) = B64.of 0 := B64.lit0
  have l1 : (lit 1 0 : B64) = B64.of 1 := B64.lit1
  have m0 : ∀ {x : ℝ}, IsF x → B64.of x * B64.of 0 = B64.of 0 := fun {x} h => by rw [B64.mul_of h isF_zero, mul_zero, rd_zero]
  have m1 : ∀ {x : ℝ}, IsF x → B64.of x * B64.of 1 = B64.of x := fun {x} h => by rw [B64.mul_of h isF_one, mul_one, rd_of_rep h.1]
  show (⟨B64.of u.y * lit 1 0 - B64.of u.z * lit 0 0, B64.of u.z * lit 0 0 - B64.of u.x * lit 1 0, B64.of u.x * lit 0 0 - B64.of u.y * lit 0 0⟩ : Vec B64) = _
  rw [l0, l1, m0 hx, m0 hy, m0 hz, m1 hx, m1 hy, B64.sub_of hy isF_zero, B64.sub_of isF_zero hx, B64.sub_of isF_zero isF_zero, sub_zero, sub_zero,
    zero_sub, rd_zero, rd_of_rep hy.1, rd_of_rep hx.neg.1]
  rfl

theorem codirectedX {u v : R3} (hu : ExVec u) (hv : ExVec v) : u.f64v.codirectedWith v.f64v = decide (0 ≤ u.dot v) := by
  obtain ⟨e, x⟩ := dotX hu hv
  unfold Vec.codirectedWith
  rw [e, B64.lit0, B64.le_of isF_zero (x.F (by norm_num) (by norm_num))]

theorem segX {C n u v : R3} (hC : ExPt C) (hn : ExVec n) (hu : ExPt u) (hv : ExPt v) :
    (u.dot n = v.dot n → (⟨C.f64, n.f64v⟩ : Plane B64).intersectSegment u.f64 v.f64 = none) ∧
    (u.dot n ≠ v.dot n → C.dot n - u.dot n = 1 / 2 * (v.dot n - u.dot n) →
      (⟨C.f64, n.f64v⟩ : Plane B64).intersectSegment u.f64 v.f64 = some (u + (1 / 2 : ℝ) • (v - u)).f64) := by
  obtain ⟨eu, xu⟩ := dotX hu.vec hn
  obtain ⟨ev, xv⟩ := dotX hv.vec hn
  obtain ⟨ec, xc⟩ := dotX hC.vec hn
  have Fu := xu.F (by norm_num) (by norm_num)
  have Fv := xv.F (by norm_num) (by norm_num)
  have tu : u.f64.toVector = u.f64v := rfl
  have tv : v.f64.toVector = v.f64v := rfl
  have tc : C.f64.toVector = C.f64v := rfl
  unfold Plane.intersectSegment
  dsimp only
  rw [tu, tv, tc, eu, ev, ec, B64.eq_of Fu Fv]
  constructor
  · intro e
    rw [if_pos (by simpa using e)]
  · intro ne e
    rw [if_neg (by simpa using ne), subX xc xu (by norm_num) (by norm_num), subX xv xu (by norm_num) (by norm_num),
      divE ((xc.sub xu).F (by norm_num) (by norm_num)) ((xv.sub xu).F (by norm_num) (by norm_num)) (sub_ne_zero.2 ne.symm) e isF_half,
      B64.lit0, B64.lit1, B64.lt_of isF_half isF_zero, B64.lt_of isF_one isF_half, if_neg (by norm_num), vectorToX hu hv]
    have h1 : Ex 1 1 (1 / 2) := ⟨⟨1, by norm_num⟩, by norm_num⟩
    have key : ∀ {a b : ℝ}, Ex 8 1000 a → Ex 8 1000 b → B64.of a + B64.of (b - a) * B64.of (1 / 2) = B64.of (a + 1 / 2 * (b - a)) := by
      intro a b ha hb
      have hd := hb.sub ha
      have hm := hd.mul h1
      rw [mulX hd h1 (by norm_num) (by norm_num) (by norm_num) (by norm_num), addX (ha.mono (by norm_num) le_rfl) hm (by norm_num) (by norm_num),
        mul_comm (b - a)]
    show some (⟨B64.of u.x + B64.of (v.x - u.x) * B64.of (1 / 2), B64.of u.y + B64.of (v.y - u.y) * B64.of (1 / 2),
      B64.of u.z + B64.of (v.z - u.z) * B64.of (1 / 2)⟩ : Point B64) = _
    rw [key hu.x hv.x, key hu.y hv.y, key hu.z hv.z]
    rfl

theorem projX {a n : R3} (ha : ExVec a) (hn : ExVec n) (C : Point B64) (n0 : n.dot n ≠ 0) (e : n.dot a = -(1 / 2) * n.dot n) :
    a.f64v.projectOnPlane ⟨C, n.f64v⟩ = (a + (1 / 2 : ℝ) • n).f64v := by
  obtain ⟨e1, x1⟩ := dotX hn hn
  obtain ⟨e2, x2⟩ := dotX hn ha
  have F1 := x1.F (by norm_num) (by norm_num)
  have F2 := x2.F (by norm_num) (by norm_num)
  have hh : Ex 1 1 (-(1 / 2)) := ⟨⟨-1, by norm_num⟩, by rw [abs_neg]; norm_num⟩
  have Fh := hh.F (by norm_num) (by norm_num)
  unfold Vec.projectOnPlane Vec.projectOn
  have ls : n.f64v.lengthSquare = n.f64v.dot n.f64v := rfl
  dsimp only
  rw [ls, e1, e2, B64.lit0, B64.eq_of F1 isF_zero, if_neg (by simpa using n0), divE F2 F1 n0 e Fh]
  have key : ∀ {b m : ℝ}, Ex 8 2000 b → Ex 8 2000 m → B64.of b + -(B64.of m * B64.of (-(1 / 2))) = B64.of (b + 1 / 2 * m) := by
    intro b m hb hm
    have hp := hm.mul hh
    rw [mulX hm hh (by norm_num) (by norm_num) (by norm_num) (by norm_num), B64.neg_of (hp.F (by norm_num) (by norm_num)),
      addX (hb.mono (by norm_num) le_rfl) hp.neg (by norm_num) (by norm_num)]
    congr 1
    ring
  show (⟨B64.of a.x + -(B64.of n.x * B64.of (-(1 / 2))), B64.of a.y + -(B64.of n.y * B64.of (-(1 / 2))), B64.of a.z + -(B64.of n.z * B64.of (-(1 / 2)))⟩ : Vec B64) = _
  rw [key ha.x hn.x, key ha.y hn.y, key ha.z hn.z]
  rfl

theorem mid_exPt {k : ℕ} {p q : R3} (H : GoodBox k p q) {h : ℝ} (L : LevelOf k p q h) : ExPt (rectMid p q h) := by
  obtain ⟨px, py, qx, qy⟩ := H.exs
  exact ⟨(mid_ex px qx).mono (by norm_num) le_rfl, (mid_ex py qy).mono (by norm_num) le_rfl, L.ex H⟩

/-- the contour of a box layer is not taken for a hole -/
theorem rect_not_hole {k : ℕ} {p q : R3} (H : GoodBox k p q) {h : ℝ} (L : LevelOf k p q h) (i : ℕ) :
    looksLikeHole (fpath (rectLoop p q h i)) (rectMid p q h).f64 = false := by
  have c := fun j => (corner_wholePt H L j).exPt
  have m := mid_exPt H L
  show (((rectCorner p q h i).f64.vectorTo (rectCorner p q h (i + 1)).f64).cross axisZ).codirectedWith ((rectMid p q h).f64.vectorTo (rectCorner p q h i).f64) = false
  have d := (c i).sub (c (i + 1))
  have d' : ExVec ⟨(rectCorner p q h (i + 1) - rectCorner p q h i).y, -(rectCorner p q h (i + 1) - rectCorner p q h i).x, 0⟩ :=
    ⟨d.y, d.x.neg, ⟨⟨0, by simp⟩, by simp⟩⟩
  rw [vectorToX (c i) (c (i + 1)), vectorToX m (c i), crossZ d.isF, codirectedX d' (m.sub (c i)), decide_eq_false_iff_not, not_le]
  obtain ⟨w, h'⟩ := H.sides
  have pos : 0 < (q.x - p.x) * (q.y - p.y) := by nlinarith
  unfold rectCorner rectMid
  have e : ∀ m, (i + m) % 4 = (i % 4 + m) % 4 := fun m => (Nat.mod_add_mod i 4 m).symm
  rw [e 1]
  have : i % 4 < 4 := Nat.mod_lt _ (by norm_num)
  interval_cases i % 4 <;> simp [R3.dot] <;> nlinarith

/-- the middle of a box layer is found to be inside the contour of another one, if the layers are less than half a side apart -/
theorem mid_inside {k : ℕ} {p q : R3} (H : GoodBox k p q) {h h' : ℝ} (L : LevelOf k p q h) (L' : LevelOf k p q h')
    (hx : 2 * |h' - h| < q.x - p.x) (hy : 2 * |h' - h| < q.y - p.y) (i : ℕ) : (rectMid p q h').f64.inside (fpath (rectLoop p q h i)) = true := by
  have c := fun j => (corner_wholePt H L j).exPt
  have m := mid_exPt H L'
  obtain ⟨w, w'⟩ := H.sides
  have a := abs_nonneg (h' - h)
  have sq := sq_abs (h' - h)
  set n := rectCorner p q h (i + 1) - rectCorner p q h i with hn
  set v := (rectCorner p q h i - rectMid p q h') + (1 / 2 : ℝ) • n with hv
  set M0 := rectCorner p q h i + (1 / 2 : ℝ) • (rectCorner p q h (i + 1) - rectCorner p q h i) with hM0
  set M2 := rectCorner p q h (i + 2) + (1 / 2 : ℝ) • (rectCorner p q h (i + 3) - rectCorner p q h (i + 2)) with hM2
  have xn : ExVec n := (c i).sub (c (i + 1))
  have facts : n.dot n ≠ 0 ∧ n.dot (rectCorner p q h i - rectMid p q h') = -(1 / 2) * n.dot n ∧
      (rectCorner p q h i).dot n ≠ (rectCorner p q h (i + 1)).dot n ∧
      (rectMid p q h').dot n - (rectCorner p q h i).dot n = 1 / 2 * ((rectCorner p q h (i + 1)).dot n - (rectCorner p q h i).dot n) ∧
      (rectCorner p q h (i + 1)).dot n = (rectCorner p q h (i + 2)).dot n ∧
      (rectCorner p q h (i + 2)).dot n ≠ (rectCorner p q h (i + 3)).dot n ∧
      (rectMid p q h').dot n - (rectCorner p q h (i + 2)).dot n = 1 / 2 * ((rectCorner p q h (i + 3)).dot n - (rectCorner p q h (i + 2)).dot n) ∧
      (rectCorner p q h (i + 3)).dot n = (rectCorner p q h i).dot n ∧
      0 ≤ (M0 - rectMid p q h').dot v ∧ (M2 - rectMid p q h').dot v < 0 ∧
      v = M0 - rectMid p q h' := by
    have X : (h' - h) ^ 2 * 4 < (q.x - p.x) ^ 2 := by nlinarith
    have Y : (h' - h) ^ 2 * 4 < (q.y - p.y) ^ 2 := by nlinarith
    have X1 : 1 ≤ (q.x - p.x) ^ 2 := by nlinarith
    have Y1 : 1 ≤ (q.y - p.y) ^ 2 := by nlinarith
    have Z0 := sq_nonneg (h' - h)
    clear_value n v M0 M2
    subst hn hv hM0 hM2
    clear xn c m L L' hx hy a sq
    have e : ∀ m, (i + m) % 4 = (i % 4 + m) % 4 := fun m => (Nat.mod_add_mod i 4 m).symm
    unfold rectCorner rectMid
    rw [e 1, e 2, e 3]
    have : i % 4 < 4 := Nat.mod_lt _ (by norm_num)
    interval_cases i % 4
    all_goals
      simp only [Nat.zero_add, Nat.reduceAdd, Nat.reduceMod]
      refine ⟨?_, ?_, ?_, ?_, ?_, ?_, ?_, ?_, ?_, ?_, ?_⟩
      all_goals first
        | (simp only [R3.dot, R3.sub_x, R3.sub_y, R3.sub_z, R3.add_x, R3.add_y, R3.add_z, R3.smul_x, R3.smul_y, R3.smul_z]; ring1)
        | (simp only [R3.dot, R3.sub_x, R3.sub_y, R3.sub_z, R3.add_x, R3.add_y, R3.add_z, R3.smul_x, R3.smul_y, R3.smul_z]; intro hc; nlinarith)
        | (simp only [R3.dot, R3.sub_x, R3.sub_y, R3.sub_z, R3.add_x, R3.add_y, R3.add_z, R3.smul_x, R3.smul_y, R3.smul_z]; nlinarith)
        | (apply R3.ext <;> simp only [R3.sub_x, R3.sub_y, R3.sub_z, R3.add_x, R3.add_y, R3.add_z, R3.smul_x, R3.smul_y, R3.smul_z] <;> ring)
  obtain ⟨f1, f2, f3, f4, f5, f6, f7, f8, f9, f10, f11⟩ := facts
  have half : ∀ j, ExPt (rectCorner p q h j + (1 / 2 : ℝ) • (rectCorner p q h (j + 1) - rectCorner p q h j)) := by
    intro j
    obtain ⟨x1, y1, z1⟩ := corner_wholePt H L j
    obtain ⟨x2, y2, z2⟩ := corner_wholePt H L (j + 1)
    have zz : (rectCorner p q h (j + 1)).z = (rectCorner p q h j).z := by rw [(corner_whole H h j).2.2.2.2, (corner_whole H h (j + 1)).2.2.2.2]
    have ex := (mid_ex x1 x2).mono (show 1 ≤ 8 by norm_num) le_rfl
    have ey := (mid_ex y1 y2).mono (show 1 ≤ 8 by norm_num) le_rfl
    refine ⟨?_, ?_, ?_⟩
    · simp only [R3.sub_x, R3.add_x, R3.smul_x]
      rwa [show (rectCorner p q h j).x + 1 / 2 * ((rectCorner p q h (j + 1)).x - (rectCorner p q h j).x) = ((rectCorner p q h j).x + (rectCorner p q h (j + 1)).x) / 2 by ring]
    · simp only [R3.sub_y, R3.add_y, R3.smul_y]
      rwa [show (rectCorner p q h j).y + 1 / 2 * ((rectCorner p q h (j + 1)).y - (rectCorner p q h j).y) = ((rectCorner p q h j).y + (rectCorner p q h (j + 1)).y) / 2 by ring]
    · simp only [R3.sub_z, R3.add_z, R3.smul_z]
      rw [zz, sub_self, mul_zero, add_zero]
      exact z1
  have x0 : ExPt M0 := half i
  have x2 : ExPt M2 := half (i + 2)
  have xv : ExVec v := by rw [f11]; exact m.sub x0
  have s0 := (segX m xn (c i) (c (i + 1))).2 f3 f4
  have s1 := (segX m xn (c (i + 1)) (c (i + 2))).1 f5
  have s2 := (segX m xn (c (i + 2)) (c (i + 3))).2 f6 f7
  have s3 := (segX m xn (c (i + 3)) (c i)).1 f8
  have hv' : ((rectMid p q h').f64.vectorTo (rectCorner p q h i).f64).projectOnPlane ⟨(rectMid p q h').f64, n.f64v⟩ = v.f64v := by
    rw [vectorToX m (c i)]
    exact projX (m.sub (c i)) xn _ f1 f2
  have nv : (rectCorner p q h i).f64.vectorTo (rectCorner p q h (i + 1)).f64 = n.f64v := vectorToX (c i) (c (i + 1))
  unfold Point.inside
  show decide ((adjPairs ((rectLoop p q h i).map R3.f64)).countP _ % 2 ≠ 0) = true
  rw [nv, hv']
  have list : adjPairs ((rectLoop p q h i).map R3.f64) = [((rectCorner p q h i).f64, (rectCorner p q h (i + 1)).f64),
    ((rectCorner p q h (i + 1)).f64, (rectCorner p q h (i + 2)).f64), ((rectCorner p q h (i + 2)).f64, (rectCorner p q h (i + 3)).f64),
    ((rectCorner p q h (i + 3)).f64, (rectCorner p q h i).f64)] := rfl
  have t0 : ((rectMid p q h').f64.vectorTo M0.f64).codirectedWith v.f64v = true := by
    rw [vectorToX m x0, codirectedX (m.sub x0) xv]
    simpa using f9
  have t2 : ((rectMid p q h').f64.vectorTo M2.f64).codirectedWith v.f64v = false := by
    rw [vectorToX m x2, codirectedX (m.sub x2) xv]
    simpa using f10
  rw [list]
  simp only [List.countP_cons, List.countP_nil, s0, s1, s2, s3]
  rw [← hM0, ← hM2, t0, t2]
  rfl

end Goosli
