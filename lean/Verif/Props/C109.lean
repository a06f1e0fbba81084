import Verif.Proofs.Grid
import Verif.Proofs.NInv
import Verif.Props.C104
import Mathlib.Analysis.Convex.Basic
/-!
# C109: models on a grid

`FloatSafe` (C94) lists distances that the crossing points of a plane with the edges must keep.  They are kept by every
model whose coordinates are multiples of a power of two, for instance whole millimetres, at levels that are such multiples, if the edges
are not too high: the theorems C95 and C101 to C105 then need no condition on the crossing points.
-/
set_option autoImplicit false
namespace Goosli
open Flt Spec

/-! ## specification -/

/-- a multiple of `2^-k` -/
def Dyadic (k : ℕ) (x : ℝ) : Prop := ∃ n : ℤ, x = n / 2 ^ k

/-- `p` is between the ends of the edge -/
def Between (e : R3 × R3) (p : R3) : Prop := ∃ s : ℝ, 0 < s ∧ s < 1 ∧ p = e.1 + s • (e.2 - e.1)

/-- two edges with a common inner point are the same edge -/
def EdgesApart (ts : List RTri) : Prop :=
  ∀ e ∈ dirEdges ts, ∀ f ∈ dirEdges ts, ∀ p, Between e p → Between f p → e = f ∨ e = f.swap

/-- a model with coordinates that are multiples of `2^-j`, to be cut at levels that are multiples of `2^-k` -/
structure GridModel (j k : ℕ) (ts : List RTri) : Prop where
  fine : j ≤ k
  coarse : k ≤ 8
  grid : ∀ w ∈ allVerts ts, Dyadic j w.x ∧ Dyadic j w.y ∧ Dyadic j w.z
  range : ∀ w ∈ allVerts ts, w.inRange
  /-- for whole millimetres and levels at quarters, edges are at most 125 mm high -/
  short : ∀ e ∈ dirEdges ts, 2 ^ j * 2 ^ k * |e.1.z - e.2.z| ≤ 500
  solid : ∀ t ∈ ts, t.nrm ≠ 0
  apart : EdgesApart ts

/-! ## theorems -/

theorem edge_mem_verts {ts : List RTri} {e : R3 × R3} (he : e ∈ dirEdges ts) : e.1 ∈ allVerts ts ∧ e.2 ∈ allVerts ts := by
  unfold dirEdges at he
  obtain ⟨t, ht, h⟩ := List.mem_flatMap.1 he
  simp only [RTri.edges, List.mem_cons, List.not_mem_nil, or_false] at h
  have m : ∀ w ∈ t.verts, w ∈ allVerts ts := fun w hw => List.mem_flatMap.2 ⟨t, ht, hw⟩
  rcases h with rfl | rfl | rfl <;> exact ⟨m _ (by simp [RTri.verts]), m _ (by simp [RTri.verts])⟩

theorem crossAt_between {h : ℝ} {e : R3 × R3} (hc : crossesAt h e) : Between e (crossAt (lvl h) zUp e) := by
  obtain ⟨h1, h2, h3, h4⟩ := crossAt_lvl hc
  have hne : e.2.z - e.1.z ≠ 0 := by
    rcases h1 with ⟨a, b⟩ | ⟨a, b⟩
    · exact (by linarith : 0 < e.2.z - e.1.z).ne'
    · exact (by linarith : e.2.z - e.1.z < 0).ne
  refine ⟨(h - e.1.z) / (e.2.z - e.1.z), ?_, ?_, R3.ext h3 h4 ?_⟩
  · rcases h1 with ⟨a, b⟩ | ⟨a, b⟩
    · exact div_pos (by linarith) (by linarith)
    · exact div_pos_of_neg_of_neg (by linarith) (by linarith)
  · rcases h1 with ⟨a, b⟩ | ⟨a, b⟩
    · rw [div_lt_one (by linarith)]; linarith
    · rw [div_lt_one_of_neg (by linarith)]; linarith
  · rw [h2]
    show h = e.1.z + (h - e.1.z) / (e.2.z - e.1.z) * (e.2.z - e.1.z)
    field_simp
    ring

theorem GridModel.frac {j k : ℕ} {ts : List RTri} (G : GridModel j k ts) {h : ℝ} (hh : Dyadic k h) {e : R3 × R3} (he : e ∈ dirEdges ts)
    (hc : crossesAt h e) :
    (∃ (p : ℤ) (q : ℕ), 0 < q ∧ q ≤ 500 ∧ (crossAt (lvl h) zUp e).x = (p : ℝ) / q) ∧
    ∃ (p : ℤ) (q : ℕ), 0 < q ∧ q ≤ 500 ∧ (crossAt (lvl h) zUp e).y = (p : ℝ) / q := by
  obtain ⟨h1, h2, h3, h4⟩ := crossAt_lvl hc
  obtain ⟨⟨X1, x1⟩, ⟨Y1, y1⟩, Z1, z1⟩ := G.grid _ (edge_mem_verts he).1
  obtain ⟨⟨X2, x2⟩, ⟨Y2, y2⟩, Z2, z2⟩ := G.grid _ (edge_mem_verts he).2
  obtain ⟨H, rfl⟩ := hh
  have hne : Z1 ≠ Z2 := by
    rintro rfl
    rw [z1, z2] at h1
    rcases h1 with ⟨a, b⟩ | ⟨a, b⟩ <;> linarith
  have hs := G.short e he
  rw [z1, z2] at hs
  constructor
  · obtain ⟨p, q, q0, q1, q2⟩ := cross_frac G.fine (X1 := X1) (X2 := X2) (H := H) hne
    rw [← q1] at hs
    exact ⟨p, q, q0, by exact_mod_cast hs, by rw [h3, x1, x2, z1, z2, q2]⟩
  · obtain ⟨p, q, q0, q1, q2⟩ := cross_frac G.fine (X1 := Y1) (X2 := Y2) (H := H) hne
    rw [← q1] at hs
    exact ⟨p, q, q0, by exact_mod_cast hs, by rw [h4, y1, y2, z1, z2, q2]⟩

theorem grid_isF {k : ℕ} (hk : k ≤ 8) {x : ℝ} (h : Dyadic k x) (hx : |x| ≤ 1000) : IsF x := by
  obtain ⟨n, rfl⟩ := h
  exact isF_grid hk (hx.trans (by norm_num))

theorem Dyadic.sub {k : ℕ} {x y : ℝ} (hx : Dyadic k x) (hy : Dyadic k y) : Dyadic k (x - y) := by
  obtain ⟨a, rfl⟩ := hx; obtain ⟨b, rfl⟩ := hy
  exact ⟨a - b, by push_cast; ring⟩

theorem Dyadic.add {k : ℕ} {x y : ℝ} (hx : Dyadic k x) (hy : Dyadic k y) : Dyadic k (x + y) := by
  obtain ⟨a, rfl⟩ := hx; obtain ⟨b, rfl⟩ := hy
  exact ⟨a + b, by push_cast; ring⟩

theorem Dyadic.mono {j k : ℕ} (hjk : j ≤ k) {x : ℝ} (hx : Dyadic j x) : Dyadic k x := by
  obtain ⟨a, rfl⟩ := hx
  obtain ⟨i, rfl⟩ := Nat.exists_eq_add_of_le hjk
  exact ⟨a * 2 ^ i, by push_cast; rw [pow_add]; field_simp⟩

theorem Dyadic.nat_mul {k : ℕ} {x : ℝ} (hx : Dyadic k x) (m : ℕ) : Dyadic k (m * x) := by
  obtain ⟨a, rfl⟩ := hx
  exact ⟨m * a, by push_cast; ring⟩

theorem Dyadic.mul {j : ℕ} {x y : ℝ} (hx : Dyadic j x) (hy : Dyadic j y) : Dyadic (2 * j) (x * y) := by
  obtain ⟨a, rfl⟩ := hx; obtain ⟨b, rfl⟩ := hy
  exact ⟨a * b, by push_cast; rw [two_mul, pow_add, div_mul_div_comm]⟩

theorem Dyadic.le_abs {k : ℕ} {x : ℝ} (hx : Dyadic k x) (h : x ≠ 0) : 1 / 2 ^ k ≤ |x| := by
  obtain ⟨a, rfl⟩ := hx
  have ha : a ≠ 0 := by rintro rfl; simp at h
  rw [abs_div, abs_of_pos (a := (2 : ℝ) ^ k) (by positivity)]
  refine div_le_div_of_nonneg_right ?_ (by positivity)
  rw [← Int.cast_abs]; exact_mod_cast Int.one_le_abs ha

/-- **C109.** A model on a grid keeps all distances that the arithmetic needs, at every level on the grid that goes through no vertex. -/
theorem C109_safe {j k : ℕ} {ts : List RTri} (G : GridModel j k ts) {h : ℝ} (hh : Dyadic k h) (hr : |h| ≤ 1000)
    (hoff : ∀ w ∈ allVerts ts, w.z ≠ h) : FloatSafe h ts where
  isF w hw := by
    obtain ⟨gx, gy, gz⟩ := G.grid w hw
    obtain ⟨rx, ry, rz⟩ := G.range w hw
    have hj := G.fine.trans G.coarse
    exact ⟨grid_isF hj gx rx, grid_isF hj gy ry, grid_isF hj gz rz⟩
  range := G.range
  heightF := grid_isF G.coarse hh hr
  heightR := hr
  off w hw := by
    have g := ((G.grid w hw).2.2.mono G.fine).sub hh
    refine le_trans ?_ (g.le_abs (sub_ne_zero.2 (hoff w hw)))
    have : (2 : ℝ) ^ k ≤ 2 ^ 8 := pow_le_pow_right₀ (by norm_num) G.coarse
    rw [div_le_div_iff₀ (by norm_num) (by positivity)]
    linarith
  steep t ht hc := by
    have hv : ∀ w ∈ t.verts, Dyadic j w.x ∧ Dyadic j w.y ∧ Dyadic j w.z := fun w hw => G.grid w (List.mem_flatMap.2 ⟨t, ht, hw⟩)
    obtain ⟨ax, ay, az⟩ := hv t.a (by simp [RTri.verts])
    obtain ⟨bx, bY, bz⟩ := hv t.b (by simp [RTri.verts])
    obtain ⟨cx, cy, cz⟩ := hv t.c (by simp [RTri.verts])
    have gx : Dyadic (2 * j) t.nrm.x := ((bY.sub ay).mul (cz.sub az)).sub ((bz.sub az).mul (cy.sub ay))
    have gy : Dyadic (2 * j) t.nrm.y := ((bz.sub az).mul (cx.sub ax)).sub ((bx.sub ax).mul (cz.sub az))
    have hp : (1 : ℝ) / 10 ^ 5 ≤ 1 / 2 ^ (2 * j) := by
      have : (2 : ℝ) ^ (2 * j) ≤ 2 ^ 16 := pow_le_pow_right₀ (by norm_num) (by have := G.fine.trans G.coarse; omega)
      rw [div_le_div_iff₀ (by norm_num) (by positivity)]
      linarith
    by_cases hx : t.nrm.x = 0
    · by_cases hy : t.nrm.y = 0
      · exfalso
        have hz : t.nrm.z ≠ 0 := fun hz => G.solid t ht (R3.ext hx hy hz)
        -- the triangle is horizontal
        have n1 : t.nrm.x * (t.b.x - t.a.x) + t.nrm.y * (t.b.y - t.a.y) + t.nrm.z * (t.b.z - t.a.z) = 0 := by
          simp [RTri.nrm, R3.cross]; ring
        have n2 : t.nrm.x * (t.c.x - t.a.x) + t.nrm.y * (t.c.y - t.a.y) + t.nrm.z * (t.c.z - t.a.z) = 0 := by
          simp [RTri.nrm, R3.cross]; ring
        rw [hx, hy] at n1 n2
        have e1 : t.b.z - t.a.z = 0 := by simpa [hz] using n1
        have e2 : t.c.z - t.a.z = 0 := by simpa [hz] using n2
        obtain ⟨e, he, hc⟩ := hc
        obtain ⟨h1, -⟩ := crossAt_lvl hc
        simp only [RTri.edges, List.mem_cons, List.not_mem_nil, or_false] at he
        rcases he with rfl | rfl | rfl <;> rcases h1 with ⟨a, b⟩ | ⟨a, b⟩ <;> simp only at a b <;> linarith
      · exact Or.inr (hp.trans (gy.le_abs hy))
    · exact Or.inl (hp.trans (gx.le_abs hx))
  half e he hc := by
    obtain ⟨⟨p, q, q0, q1, hx⟩, p', q', r0, r1, hy⟩ := G.frac hh he hc
    rw [hx, hy]
    exact ⟨clearOfHalf_frac q0 q1, clearOfHalf_frac r0 r1⟩
  heightHalf := by
    obtain ⟨n, rfl⟩ := hh
    have := clearOfHalf_frac (p := n) (q := 2 ^ k) (by positivity) (le_trans (Nat.pow_le_pow_right (by norm_num) G.coarse) (by norm_num))
    push_cast at this
    exact this
  apart e he f hf hce hcf := by
    obtain ⟨⟨p, q, q0, q1, hx⟩, p', q', r0, r1, hy⟩ := G.frac hh he hce
    obtain ⟨⟨v, u, u0, u1, kx⟩, v', u', w0, w1, ky⟩ := G.frac hh hf hcf
    refine ⟨?_, ?_, fun heq => G.apart e he f hf _ (crossAt_between hce) (heq ▸ crossAt_between hcf)⟩
    · rw [hx, kx]; exact plainlyApart_frac q0 q1 u0 u1
    · rw [hy, ky]; exact plainlyApart_frac r0 r1 w0 w1

/-! ## the levels -/

/-- the layers divide the height of the model evenly, and so they do in the arithmetic -/
structure EvenLayers (k n : ℕ) (lo hi t : ℝ) : Prop where
  loG : Dyadic k lo
  half : Dyadic k (t / 2)
  pos : 0 < t
  height : hi - lo = n * t
  lo1 : |lo| ≤ 1000
  hi1 : |hi| ≤ 1000
  /-- `n * t * (1 / n)` is `t` in `float64` -/
  step : rd (n * t * rd (1 / n)) = t

theorem EvenLayers.gridT {k n : ℕ} {lo hi t : ℝ} (E : EvenLayers k n lo hi t) : Dyadic k t := by
  have := E.half.add E.half
  rwa [add_halves] at this

theorem EvenLayers.count {k n : ℕ} (hk : k ≤ 8) {lo hi t : ℝ} (E : EvenLayers k n lo hi t) :
    floatCount lo hi t = n ∧ floatStep lo hi t = t := by
  have a := abs_le.1 E.lo1; have b := abs_le.1 E.hi1
  have t0 := E.pos
  have nn : (0 : ℝ) ≤ n := Nat.cast_nonneg n
  have d0 : (n : ℝ) * t ≤ 2000 := by rw [← E.height]; linarith
  have r1 : rd (hi - lo) = n * t := by
    rw [E.height]
    obtain ⟨p, hp⟩ := E.gridT.nat_mul n
    rw [hp]
    refine rd_of_rep (rep_grid hk ?_)
    rw [← hp, abs_of_nonneg (by positivity)]
    linarith
  have r2 : rd (rd (hi - lo) / t) = n := by
    rw [r1, mul_div_assoc, div_self t0.ne', mul_one]
    have ht := E.gridT.le_abs t0.ne'
    rw [abs_of_pos t0] at ht
    have h8 : (1 : ℝ) / 2 ^ 8 ≤ 1 / 2 ^ k := one_div_le_one_div_of_le (by positivity) (pow_le_pow_right₀ (by norm_num) hk)
    have : (n : ℝ) ≤ 512000 := by nlinarith
    have hn : n ≤ 512000 := by exact_mod_cast this
    have := rep_int (n := (n : ℤ)) (by rw [abs_of_nonneg (by positivity)]; have : (2 : ℤ) ^ 53 = 9007199254740992 := by norm_num
                                       omega)
    exact_mod_cast rd_of_rep this
  have c : floatCount lo hi t = n := by unfold floatCount; rw [r2]; simp
  refine ⟨c, ?_⟩
  unfold floatStep
  rw [r1, c]
  rw [Int.cast_natCast]
  exact E.step

theorem EvenLayers.level {k n : ℕ} (hk : k ≤ 8) {lo hi t : ℝ} (E : EvenLayers k n lo hi t) :
    ∀ m < n, floatLevel lo hi t m = lo + (2 * m + 1 : ℕ) * (t / 2) ∧ Dyadic k (floatLevel lo hi t m) ∧ |floatLevel lo hi t m| ≤ 1000 := by
  have t0 := E.pos
  have key : ∀ m < n, Dyadic k (lo + (2 * m + 1 : ℕ) * (t / 2)) ∧ |lo + (2 * m + 1 : ℕ) * (t / 2)| ≤ 1000 := by
    intro m hm
    refine ⟨E.loG.add (E.half.nat_mul _), ?_⟩
    have a := abs_le.1 E.lo1; have b := abs_le.1 E.hi1
    have hm' : (m : ℝ) + 1 ≤ n := by exact_mod_cast hm
    have hi := E.height
    have m0 : (0 : ℝ) ≤ m := Nat.cast_nonneg m
    push_cast
    rw [abs_le]
    constructor <;> nlinarith
  have fix : ∀ m < n, rd (lo + (2 * m + 1 : ℕ) * (t / 2)) = lo + (2 * m + 1 : ℕ) * (t / 2) := fun m hm =>
    rd_of_rep (grid_isF hk (key m hm).1 (key m hm).2).1
  intro m hm
  suffices e : floatLevel lo hi t m = lo + (2 * m + 1 : ℕ) * (t / 2) by rw [e]; exact ⟨rfl, key m hm⟩
  induction m with
  | zero =>
    have h2 : rd (t * (1 / 2)) = t / 2 := by
      rw [mul_one_div]
      have b := abs_le.1 E.hi1; have a := abs_le.1 E.lo1
      have hi := E.height
      have n1 : (1 : ℝ) ≤ n := by exact_mod_cast hm
      refine rd_of_rep (grid_isF hk E.half ?_).1
      rw [abs_of_pos (by linarith)]
      nlinarith
    show rd (lo + rd (floatStep lo hi t * (1 / 2))) = _
    rw [(E.count hk).2, h2]
    have := fix 0 hm
    norm_num at this ⊢
    exact this
  | succ m ih =>
    show rd (floatLevel lo hi t m + floatStep lo hi t) = _
    rw [ih (by omega), (E.count hk).2]
    have e : lo + (2 * m + 1 : ℕ) * (t / 2) + t = lo + (2 * (m + 1) + 1 : ℕ) * (t / 2) := by push_cast; ring
    rw [e]
    exact fix (m + 1) hm

/-- dividing by a power of two is exact -/
theorem even_pow2 {t : ℝ} (ht : Rep t) (i : ℕ) (hi : i ≤ 1000) : rd (((2 ^ i : ℕ) : ℝ) * t * rd (1 / ((2 ^ i : ℕ) : ℝ))) = t := by
  have h : rd (1 / ((2 ^ i : ℕ) : ℝ)) = 1 / ((2 ^ i : ℕ) : ℝ) := by
    refine rd_of_rep ⟨1, -(i : ℤ), by norm_num, by omega, ?_⟩
    rw [zpow_neg, zpow_natCast]; push_cast; ring
  rw [h]
  have : ((2 ^ i : ℕ) : ℝ) * t * (1 / ((2 ^ i : ℕ) : ℝ)) = t := by
    have : ((2 ^ i : ℕ) : ℝ) ≠ 0 := by positivity
    field_simp
  rw [this, rd_of_rep ht]

/-- the levels of even layers that go through no vertex keep all distances -/
theorem C109_levels {j k n : ℕ} {ts : List RTri} (G : GridModel j k ts) {lo hi t : ℝ} (E : EvenLayers k n lo hi t)
    (hoff : ∀ w ∈ allVerts ts, ∀ m < n, w.z ≠ lo + (2 * m + 1 : ℕ) * (t / 2)) :
    floatCount lo hi t = n ∧ ∀ m : ℕ, (m : ℤ) < floatCount lo hi t →
      floatLevel lo hi t m = lo + (m + 1 / 2) * t ∧ FloatSafe (floatLevel lo hi t m) ts := by
  have c := (E.count G.coarse).1
  refine ⟨c, fun m hm => ?_⟩
  rw [c] at hm
  have hm : m < n := by exact_mod_cast hm
  obtain ⟨e, g, r⟩ := E.level G.coarse m hm
  exact ⟨by rw [e]; push_cast; ring, C109_safe G g r (fun w hw h => hoff w hw m hm (by rw [h, e]))⟩

/-- **C109, program.** A run of the program in `float64` as in C104 on a watertight model that, moved by the origin, is on a grid and is cut into
`n` even layers, no vertex being in the middle of a layer: it ends normally and writes one file; the program in it moves the nozzle layer by layer
along the contours and the fill lines of the model, and the levels are the middles of the layers. -/
theorem C109_program (M : Machine B64) (fuel : ℕ) (read : String → Option Bytes) (templates : String → Option (List Char))
    (canWrite : String → Bool) (now : String) (fl : GoosliFlags B64) (ts0 ts : List RTri) (o : R3) (lo hi t lw : ℝ) (j k n : ℕ)
    (hread : Loads (read fl.stl) (fmesh ts0)) (hF : ∀ w ∈ allVerts ts0, w.isF) (hty : fl.slicingType = "3axes") (ho : o.isF)
    (horg : fl.origin = o.f64v) (hout : canWrite fl.out = true) (htop : (templates "data/header_template.txt").isSome)
    (hbot : (templates "data/footer_template.txt").isSome) (hts : ts0.map (RTri.movedF o) = ts)
    (hw : Watertight ts) (G : GridModel j k ts) (he : Extent ts zUp lo hi) (E : EvenLayers k n lo hi t) (hn : 2 ≤ n)
    (hoff : ∀ w ∈ allVerts ts, ∀ m < n, w.z ≠ lo + (2 * m + 1 : ℕ) * (t / 2))
    (ht : fl.layerHeight = B64.of t) (hs : fl.supportsOn = false)
    (hlw : fl.lineWidth = B64.of lw) (Flw : IsF lw) (l0 : 1 / 50 ≤ lw) (l1 : lw ≤ 10)
    (hd0 : 1 ≤ densityShare fl.fillingType fl.fillDensity) (hd1 : densityShare fl.fillingType fl.fillDensity ≤ 100) :
    ∃ (hd ft : List Char) (text : String) (sparse full : List (R3 × R3)) (ds : List (List (List R3) × List (R3 × R3))) (i0 : ℕ),
      runGoosli M fuel read templates canWrite now fl = ⟨[(fl.out, hd ++ text.toList ++ ft)], .ok ()⟩ ∧
      PatternF ts (stepF (densityShare fl.fillingType fl.fillDensity) lw) (patternDirs fl.fillingType) sparse ∧
      GridF ts lw ⟨1, 0, 0⟩ full ∧ i0 ≤ 1 ∧ i0 + ds.length ≤ n ∧ n ≤ i0 + ds.length + 1 ∧
      (∀ i d, ds[i]? = some d → BoundMaterialF (lo + ((i0 + i : ℕ) + 1 / 2) * t) ts d.1 ∧
        FillIsModelF (lo + ((i0 + i : ℕ) + 1 / 2) * t) ts d.1 (planesAtF fl.settings sparse full ds.length i) d.2) ∧
      (∀ m < n, m < i0 ∨ i0 + ds.length ≤ m → NoMaterialF (lo + (m + 1 / 2) * t) ts) ∧
      ∀ p : Printer, p.tool = 0 → printedMoves p (parseText text) = layersRun 0 ds := by
  subst hts
  obtain ⟨c, L⟩ := C109_levels G E hoff
  have t0 := E.pos
  have tg := E.gridT.le_abs t0.ne'
  rw [abs_of_pos t0] at tg
  have h8 : (1 : ℝ) / 2 ^ 8 ≤ 1 / 2 ^ k := one_div_le_one_div_of_le (by positivity) (pow_le_pow_right₀ (by norm_num) G.coarse)
  have a := abs_le.1 E.lo1; have b := abs_le.1 E.hi1
  have hh := E.height
  have n2 : (2 : ℝ) ≤ n := by exact_mod_cast hn
  have t1 : t ≤ 1000 := by nlinarith
  obtain ⟨hd, ft, text, sparse, full, ds, i0, n', h1, h2, h3, h4, h5, h6, h7, h8, h9, h10⟩ :=
    C104_program M fuel read templates canWrite now fl ts0 o lo hi t lw hread hF hty ho horg hout htop hbot hw G.solid he
      (by nlinarith) (grid_isF G.coarse E.gridT (by rw [abs_of_pos t0]; exact t1)) (by linarith) t1 ht hs G.range (fun m hm => (L m hm).2)
      (by rw [c]; exact_mod_cast hn) hlw Flw l0 l1 hd0 hd1
  have hnn : n' = n := by rw [c] at h4; exact_mod_cast h4
  subst hnn
  have lev : ∀ m < n', floatLevel lo hi t m = lo + (m + 1 / 2) * t := fun m hm => (L m (by rw [c]; exact_mod_cast hm)).1
  refine ⟨hd, ft, text, sparse, full, ds, i0, h1, h2, h3, h5, h6, h7, fun i d hi => ?_, fun m hm hm' => ?_, h10⟩
  · have := h8 i d hi
    have hlt : i < ds.length := (List.getElem?_eq_some_iff.1 hi).1
    rw [lev (i0 + i) (by omega)] at this
    exact this
  · have := h9 m hm hm'
    rw [lev m hm] at this
    exact this

end Goosli
