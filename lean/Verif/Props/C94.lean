import Verif.Props.C15
import Verif.Proofs.B64Geom
/-!
# C94: contours close in float64

The program computes with `float64` numbers.  For horizontal planes the segments it stores are the exact ones, rounded to
eight decimals and then to the nearest `float64`, and joining them gives closed contours, if the data keeps the distances
stated in `FloatSafe`.
-/
set_option autoImplicit false
namespace Goosli
open Flt

/-! ## specification -/

/-- the triangle the program builds from three points -/
noncomputable def RTri.f64 (t : RTri) : Triangle B64 := newTriangle t.a.f64 t.b.f64 t.c.f64

/-- the mesh the program builds -/
noncomputable def fmesh (ts : List RTri) : Mesh B64 := ⟨ts.map RTri.f64⟩

/-- the origin of the horizontal plane at height `h` -/
def lvl (h : ℝ) : R3 := ⟨0, 0, h⟩
/-- upwards -/
def zUp : R3 := ⟨0, 0, 1⟩

/-- the edge crosses the horizontal plane at height `h` -/
def crossesAt (h : ℝ) (e : R3 × R3) : Prop := ascends (lvl h) zUp e ∨ descends (lvl h) zUp e

/-- not within `1e-11` of the middle between two multiples of `1e-8` -/
def clearOfHalf (c : ℝ) : Prop := ∀ k : ℤ, 1 / 10 ^ 11 ≤ |c - (k + 1 / 2) / 10 ^ 8|

/-- equal or at least `1.03e-6` apart -/
def plainlyApart (x y : ℝ) : Prop := x = y ∨ 103 / 10 ^ 8 ≤ |x - y|

/-- what the data must satisfy for the plane at height `h` -/
structure FloatSafe (h : ℝ) (ts : List RTri) : Prop where
  /-- coordinates are `float64` numbers of at most a metre -/
  isF : ∀ w ∈ allVerts ts, w.isF
  range : ∀ w ∈ allVerts ts, w.inRange
  /-- so is the height of the plane -/
  heightF : IsF h
  heightR : |h| ≤ 1000
  /-- no vertex within `1e-11` of the plane -/
  off : ∀ w ∈ allVerts ts, 1 / 10 ^ 11 ≤ |w.z - h|
  /-- triangles that reach across the plane are not almost horizontal -/
  steep : ∀ t ∈ ts, (∃ e ∈ t.edges, crossesAt h e) → 1 / 10 ^ 5 ≤ |t.nrm.x| ∨ 1 / 10 ^ 5 ≤ |t.nrm.y|
  /-- crossing points do not sit on the edge of rounding -/
  half : ∀ e ∈ dirEdges ts, crossesAt h e → clearOfHalf (crossAt (lvl h) zUp e).x ∧ clearOfHalf (crossAt (lvl h) zUp e).y
  heightHalf : clearOfHalf h
  /-- crossing points of different edges are apart -/
  apart : ∀ e ∈ dirEdges ts, ∀ f ∈ dirEdges ts, crossesAt h e → crossesAt h f →
    plainlyApart (crossAt (lvl h) zUp e).x (crossAt (lvl h) zUp f).x ∧
    plainlyApart (crossAt (lvl h) zUp e).y (crossAt (lvl h) zUp f).y ∧
    (crossAt (lvl h) zUp e = crossAt (lvl h) zUp f → e = f ∨ e = f.swap)

/-! ## the exact section -/

theorem height_lvl (h : ℝ) (w : R3) : R3.height (lvl h) zUp w = w.z - h := by
  simp [R3.height, R3.dot, lvl, zUp]

theorem crossAt_lvl {h : ℝ} {e : R3 × R3} (hc : crossesAt h e) :
    ((e.1.z < h ∧ h < e.2.z) ∨ (e.2.z < h ∧ h < e.1.z)) ∧ (crossAt (lvl h) zUp e).z = h ∧
    (crossAt (lvl h) zUp e).x = e.1.x + (h - e.1.z) / (e.2.z - e.1.z) * (e.2.x - e.1.x) ∧
    (crossAt (lvl h) zUp e).y = e.1.y + (h - e.1.z) / (e.2.z - e.1.z) * (e.2.y - e.1.y) := by
  have h1 : (e.1.z < h ∧ h < e.2.z) ∨ (e.2.z < h ∧ h < e.1.z) := by
    rcases hc with ⟨a, b⟩ | ⟨a, b⟩
    · rw [height_lvl] at a b; exact Or.inl ⟨by linarith, by linarith⟩
    · rw [height_lvl] at a b; exact Or.inr ⟨by linarith, by linarith⟩
  have hne : e.2.z - e.1.z ≠ 0 := by
    rcases h1 with ⟨a, b⟩ | ⟨a, b⟩
    · exact (by linarith : 0 < e.2.z - e.1.z).ne'
    · exact (by linarith : e.2.z - e.1.z < 0).ne
  have hq : (e.1.z - h) / (e.1.z - h - (e.2.z - h)) = (h - e.1.z) / (e.2.z - e.1.z) := by
    rw [show e.1.z - h - (e.2.z - h) = -(e.2.z - e.1.z) by ring, show e.1.z - h = -(h - e.1.z) by ring, neg_div_neg_eq]
  refine ⟨h1, ?_, ?_, ?_⟩
  · show e.1.z + R3.height (lvl h) zUp e.1 / (R3.height (lvl h) zUp e.1 - R3.height (lvl h) zUp e.2) * (e.2.z - e.1.z) = h
    rw [height_lvl, height_lvl, hq]
    field_simp
    ring
  · show e.1.x + R3.height (lvl h) zUp e.1 / (R3.height (lvl h) zUp e.1 - R3.height (lvl h) zUp e.2) * (e.2.x - e.1.x) = _
    rw [height_lvl, height_lvl, hq]
  · show e.1.y + R3.height (lvl h) zUp e.1 / (R3.height (lvl h) zUp e.1 - R3.height (lvl h) zUp e.2) * (e.2.y - e.1.y) = _
    rw [height_lvl, height_lvl, hq]

theorem FloatSafe.wellSep {h : ℝ} {ts : List RTri} (H : FloatSafe h ts) : WellSeparated (lvl h) zUp ts := by
  have pc : ∀ {x y : ℝ}, plainlyApart x y → clearlyApart x y := by
    intro x y h
    rcases h with h | h
    · exact Or.inl h
    · exact Or.inr (by norm_num at *; linarith)
  intro e he f hf hce hcf
  obtain ⟨a1, a2, a3⟩ := H.apart e he f hf hce hcf
  refine ⟨pc a1, pc a2, Or.inl ?_, a3⟩
  rw [(crossAt_lvl hce).2.1, (crossAt_lvl hcf).2.1]

theorem FloatSafe.small {h : ℝ} {ts : List RTri} (H : FloatSafe h ts) : ∀ w ∈ allVerts ts, w.small := by
  intro w hw
  obtain ⟨h1, h2, h3⟩ := H.range w hw
  have : (1000 : ℝ) ≤ roundLimit := by unfold roundLimit; norm_num
  exact ⟨h1.trans this, h2.trans this, h3.trans this⟩

theorem FloatSafe.offPlane {h : ℝ} {ts : List RTri} (H : FloatSafe h ts) : ∀ w ∈ allVerts ts, R3.height (lvl h) zUp w ≠ 0 := by
  intro w hw hc
  have := H.off w hw
  rw [height_lvl] at hc
  rw [hc] at this
  norm_num at this

theorem edge_verts {ts : List RTri} {e : R3 × R3} (he : e ∈ dirEdges ts) : e.1 ∈ allVerts ts ∧ e.2 ∈ allVerts ts := by
  obtain ⟨t, ht, he⟩ := List.mem_flatMap.1 he
  simp only [RTri.edges, List.mem_cons, List.not_mem_nil, or_false] at he
  rcases he with rfl | rfl | rfl
  · exact ⟨vert_mem ht (by simp), vert_mem ht (by simp)⟩
  · exact ⟨vert_mem ht (by simp), vert_mem ht (by simp)⟩
  · exact ⟨vert_mem ht (by simp), vert_mem ht (by simp)⟩

theorem lerp_range {x y t : ℝ} (hx : |x| ≤ 1000) (hy : |y| ≤ 1000) (h0 : 0 ≤ t) (h1 : t ≤ 1) : |x + t * (y - x)| ≤ 1000 := by
  rw [abs_le] at *
  constructor <;> nlinarith

theorem FloatSafe.crossRange {h : ℝ} {ts : List RTri} (H : FloatSafe h ts) {e : R3 × R3} (he : e ∈ dirEdges ts)
    (hc : crossesAt h e) : (crossAt (lvl h) zUp e).inRange := by
  obtain ⟨v1, v2⟩ := edge_verts he
  obtain ⟨hz, cz, cx, cy⟩ := crossAt_lvl hc
  obtain ⟨_, t0, t1⟩ := param_err H.heightF.1 (H.isF _ v1).2.2.1 (H.isF _ v2).2.2.1 hz
  refine ⟨?_, ?_, ?_⟩
  · rw [cx]; exact lerp_range (H.range _ v1).1 (H.range _ v2).1 t0 t1
  · rw [cy]; exact lerp_range (H.range _ v1).2.1 (H.range _ v2).2.1 t0 t1
  · rw [cz]; exact H.heightR

/-! ## the section of the program -/

/-- edges that cross: the program finds the crossing point up to `2e-12` -/
theorem cross_f64 {h : ℝ} {ts : List RTri} (H : FloatSafe h ts) {e : R3 × R3} (he : e ∈ dirEdges ts) (hc : crossesAt h e) :
    ∃ w : R3, (levelF h).intersectSegment e.1.f64 e.2.f64 = some w.f64 ∧ w.isF ∧
      |w.x - (crossAt (lvl h) zUp e).x| ≤ 2 / 10 ^ 12 ∧ |w.y - (crossAt (lvl h) zUp e).y| ≤ 2 / 10 ^ 12 ∧
      |w.z - (crossAt (lvl h) zUp e).z| ≤ 2 / 10 ^ 12 := by
  obtain ⟨v1, v2⟩ := edge_verts he
  obtain ⟨hz, cz, cx, cy⟩ := crossAt_lvl hc
  have F1 := H.isF _ v1
  have F2 := H.isF _ v2
  have R1 := H.range _ v1
  have R2 := H.range _ v2
  obtain ⟨te, t0, t1⟩ := param_err H.heightF.1 F1.2.2.1 F2.2.2.1 hz
  obtain ⟨p0, p1⟩ := paramF_mem H.heightF.1 F1.2.2.1 hz
  have hne : e.1.z ≠ e.2.z := by
    rcases hz with ⟨a, b⟩ | ⟨a, b⟩
    · exact (by linarith : e.1.z < e.2.z).ne
    · exact (by linarith : e.2.z < e.1.z).ne'
  have one : ∀ {x y : ℝ}, |x| ≤ 1000 → |y| ≤ 1000 → IsF (coordF (paramF h e.1.z e.2.z) x y) ∧
      |coordF (paramF h e.1.z e.2.z) x y - (x + (h - e.1.z) / (e.2.z - e.1.z) * (y - x))| ≤ 2 / 10 ^ 12 := by
    intro x y hx hy
    obtain ⟨c1, _, c3⟩ := coord_err hx hy te t0 t1
    exact ⟨isF_rd (c3.trans (by norm_num)), c1⟩
  refine ⟨⟨coordF (paramF h e.1.z e.2.z) e.1.x e.2.x, coordF (paramF h e.1.z e.2.z) e.1.y e.2.y,
    coordF (paramF h e.1.z e.2.z) e.1.z e.2.z⟩, ?_, ⟨(one R1.1 R2.1).1, (one R1.2.1 R2.2.1).1, (one R1.2.2 R2.2.2).1⟩, ?_, ?_, ?_⟩
  · rw [segment_level H.heightF F1 F2 H.heightR R1 R2, if_neg hne, if_neg (by push Not; exact ⟨p0, p1⟩)]
  · rw [cx]; exact (one R1.1 R2.1).2
  · rw [cy]; exact (one R1.2.1 R2.2.1).2
  · have := (one R1.2.2 R2.2.2).2
    have e1 : e.1.z + (h - e.1.z) / (e.2.z - e.1.z) * (e.2.z - e.1.z) = h := by
      have : e.2.z - e.1.z ≠ 0 := sub_ne_zero.2 hne.symm
      field_simp
      ring
    rw [e1] at this
    rw [cz]
    exact this

/-- edges that do not cross: the program finds nothing -/
theorem same_f64 {h : ℝ} {ts : List RTri} (H : FloatSafe h ts) {a b : R3} (ha : a ∈ allVerts ts) (hb : b ∈ allVerts ts)
    (hc : 0 < R3.height (lvl h) zUp a * R3.height (lvl h) zUp b) : (levelF h).intersectSegment a.f64 b.f64 = none := by
  have F1 := H.isF _ ha
  have F2 := H.isF _ hb
  have R1 := H.range _ ha
  have R2 := H.range _ hb
  have o1 := H.off _ ha
  have o2 := H.off _ hb
  rw [height_lvl, height_lvl] at hc
  rw [segment_level H.heightF F1 F2 H.heightR R1 R2]
  by_cases he : a.z = b.z
  · rw [if_pos he]
  · rw [if_neg he, if_pos]
    refine paramF_out H.heightF.1 F1.2.2.1 F2.2.2.1 H.heightR R1.2.2 R2.2.2 he ?_
    rcases pos_and_pos_or_neg_and_neg_of_mul_pos hc with ⟨p, q⟩ | ⟨p, q⟩
    · rw [abs_of_pos p] at o1
      rw [abs_of_pos q] at o2
      exact Or.inr ⟨by linarith, by linarith⟩
    · rw [abs_of_neg p] at o1
      rw [abs_of_neg q] at o2
      exact Or.inl ⟨by linarith, by linarith⟩

theorem of_r8 (c : ℝ) : B64.of (r8 c) = B64.of (rd (r8 c)) := (B64.of_rd _).symm

/-- the program's point, once stored, is the exact one rounded to eight decimals -/
theorem store_f64 {w c : R3} (hw : w.isF) (hc : c.inRange) (dx : |w.x - c.x| ≤ 2 / 10 ^ 12) (dy : |w.y - c.y| ≤ 2 / 10 ^ 12)
    (dz : |w.z - c.z| ≤ 2 / 10 ^ 12) (mx : clearOfHalf c.x) (my : clearOfHalf c.y) (mz : clearOfHalf c.z) :
    w.f64.roundPlaces 8 = c.round8.f64 := by
  unfold Point.roundPlaces
  simp only [R3.f64, R3.round8]
  rw [B64.roundPlaces_of hw.1 hc.1 dx mx, B64.roundPlaces_of hw.2.1 hc.2.1 dy my, B64.roundPlaces_of hw.2.2 hc.2.2 dz mz]

theorem stored_isF {c : R3} (hc : c.inRange) : ∃ s : R3, c.round8.f64 = s.f64 ∧ s.isF ∧ s.inBox ∧
    s = ⟨rd (r8 c.x), rd (r8 c.y), rd (r8 c.z)⟩ := by
  refine ⟨⟨rd (r8 c.x), rd (r8 c.y), rd (r8 c.z)⟩, ?_, ⟨(store_err hc.1).2.2, (store_err hc.2.1).2.2, (store_err hc.2.2).2.2⟩,
    ⟨(store_err hc.1).2.1, (store_err hc.2.1).2.1, (store_err hc.2.2).2.1⟩, rfl⟩
  simp only [R3.f64, R3.round8]
  rw [of_r8, of_r8, of_r8]

/-- stored points of clearly separate crossings are told apart -/
theorem stored_apart {c d : R3} (hc : c.inRange) (hd : d.inRange)
    (h : 103 / 10 ^ 8 ≤ |c.x - d.x| ∨ 103 / 10 ^ 8 ≤ |c.y - d.y|) : c.round8.f64.equal d.round8.f64 = false := by
  obtain ⟨s, e1, f1, b1, s1⟩ := stored_isF hc
  obtain ⟨s', e2, f2, b2, s2⟩ := stored_isF hd
  rw [e1, e2]
  refine equal_apart f1 f2 b1 b2 ?_
  have key : ∀ {x y : ℝ}, |x| ≤ 1000 → |y| ≤ 1000 → 103 / 10 ^ 8 ≤ |x - y| → 101 / 10 ^ 8 ≤ |rd (r8 x) - rd (r8 y)| := by
    intro x y hx hy h
    have p := abs_le.1 (store_err hx).1
    have q := abs_le.1 (store_err hy).1
    rcases le_abs.1 h with h | h
    · exact le_abs.2 (Or.inl (by norm_num at *; linarith))
    · exact le_abs.2 (Or.inr (by norm_num at *; linarith))
  rw [s1, s2]
  rcases h with h | h
  · exact Or.inl (key hc.1 hd.1 h)
  · exact Or.inr (key hc.2.1 hd.2.1 h)

/-- the raw points are told apart as well -/
theorem raw_apart {u v c d : R3} (hu : u.isF) (hv : v.isF) (hc : c.inRange) (hd : d.inRange)
    (ux : |u.x - c.x| ≤ 2 / 10 ^ 12) (uy : |u.y - c.y| ≤ 2 / 10 ^ 12) (uz : |u.z - c.z| ≤ 2 / 10 ^ 12)
    (vx : |v.x - d.x| ≤ 2 / 10 ^ 12) (vy : |v.y - d.y| ≤ 2 / 10 ^ 12) (vz : |v.z - d.z| ≤ 2 / 10 ^ 12)
    (h : 103 / 10 ^ 8 ≤ |c.x - d.x| ∨ 103 / 10 ^ 8 ≤ |c.y - d.y|) : u.f64.equal v.f64 = false := by
  have box : ∀ {x y : ℝ}, |y| ≤ 1000 → |x - y| ≤ 2 / 10 ^ 12 → |x| ≤ 1100 := by
    intro x y hy h
    have := abs_sub_abs_le_abs_sub x y
    norm_num at *
    linarith
  refine equal_apart hu hv ⟨box hc.1 ux, box hc.2.1 uy, box hc.2.2 uz⟩ ⟨box hd.1 vx, box hd.2.1 vy, box hd.2.2 vz⟩ ?_
  have key : ∀ {x y x' y' : ℝ}, |x' - x| ≤ 2 / 10 ^ 12 → |y' - y| ≤ 2 / 10 ^ 12 → 103 / 10 ^ 8 ≤ |x - y| → 101 / 10 ^ 8 ≤ |x' - y'| := by
    intro x y x' y' hx hy h
    have p := abs_le.1 hx
    have q := abs_le.1 hy
    rcases le_abs.1 h with h | h
    · exact le_abs.2 (Or.inl (by norm_num at *; linarith))
    · exact le_abs.2 (Or.inr (by norm_num at *; linarith))
  rcases h with h | h
  · exact Or.inl (key ux vx h)
  · exact Or.inr (key uy vy h)

/-- the stored normal -/
theorem nrm_f64 {t : RTri} (ha : t.a.isF) (hb : t.b.isF) (hc : t.c.isF) (ra : t.a.inRange) (rb : t.b.inRange) (rc : t.c.inRange) :
    ∃ m : R3, t.f64.n = m.f64v ∧ m.isF ∧ |m.x - t.nrm.x| ≤ 1 / 10 ^ 8 ∧ |m.y - t.nrm.y| ≤ 1 / 10 ^ 8 ∧ |m.z - t.nrm.z| ≤ 1 / 10 ^ 8 ∧
      |m.x| ≤ 10 ^ 7 ∧ |m.y| ≤ 10 ^ 7 ∧ |m.z| ≤ 10 ^ 7 := by
  have d : ∀ {x y : ℝ}, |x| ≤ 1000 → |y| ≤ 1000 → |x - y| ≤ 2000 := by
    intro x y hx hy; have := abs_sub_range hx hy; linarith
  have ux := d rb.1 ra.1
  have uy := d rb.2.1 ra.2.1
  have uz := d rb.2.2 ra.2.2
  have wx := d rc.1 ra.1
  have wy := d rc.2.1 ra.2.1
  have wz := d rc.2.2 ra.2.2
  have big : ∀ {p q r s m : ℝ}, |p| ≤ 2000 → |q| ≤ 2000 → |r| ≤ 2000 → |s| ≤ 2000 → |m - (p * q - r * s)| ≤ 1 / 10 ^ 8 → |m| ≤ 10 ^ 7 := by
    intro p q r s m hp hq hr hs hm
    have a1 : |p * q| ≤ 2000 * 2000 := by rw [abs_mul]; exact mul_le_mul hp hq (abs_nonneg _) (by norm_num)
    have a2 : |r * s| ≤ 2000 * 2000 := by rw [abs_mul]; exact mul_le_mul hr hs (abs_nonneg _) (by norm_num)
    have a3 := abs_sub (p * q) (r * s)
    have a4 := abs_sub_abs_le_abs_sub m (p * q - r * s)
    norm_num at *
    linarith
  refine ⟨⟨detF (t.b.y - t.a.y) (t.c.z - t.a.z) (t.b.z - t.a.z) (t.c.y - t.a.y),
    detF (t.b.z - t.a.z) (t.c.x - t.a.x) (t.b.x - t.a.x) (t.c.z - t.a.z),
    detF (t.b.x - t.a.x) (t.c.y - t.a.y) (t.b.y - t.a.y) (t.c.x - t.a.x)⟩, ?_,
    ⟨(det_err uy wz uz wy).2, (det_err uz wx ux wz).2, (det_err ux wy uy wx).2⟩,
    (det_err uy wz uz wy).1, (det_err uz wx ux wz).1, (det_err ux wy uy wx).1,
    big uy wz uz wy (det_err uy wz uz wy).1, big uz wx ux wz (det_err uz wx ux wz).1, big ux wy uy wx (det_err ux wy uy wx).1⟩
  show (⟨(B64.of t.b.y - B64.of t.a.y) * (B64.of t.c.z - B64.of t.a.z) - (B64.of t.b.z - B64.of t.a.z) * (B64.of t.c.y - B64.of t.a.y),
    (B64.of t.b.z - B64.of t.a.z) * (B64.of t.c.x - B64.of t.a.x) - (B64.of t.b.x - B64.of t.a.x) * (B64.of t.c.z - B64.of t.a.z),
    (B64.of t.b.x - B64.of t.a.x) * (B64.of t.c.y - B64.of t.a.y) - (B64.of t.b.y - B64.of t.a.y) * (B64.of t.c.x - B64.of t.a.x)⟩ : Vec B64) = _
  rw [B64.sub_of hb.1 ha.1, B64.sub_of hb.2.1 ha.2.1, B64.sub_of hb.2.2 ha.2.2, B64.sub_of hc.1 ha.1, B64.sub_of hc.2.1 ha.2.1,
    B64.sub_of hc.2.2 ha.2.2, det_of uy wz uz wy, det_of uz wx ux wz, det_of ux wy uy wx]
  rfl

/-- the test of the program on which side the material lies -/
theorem side_f64 {a b c : ℝ} {m : R3} (ha : IsF a) (hb : IsF b) (hc : IsF c) (hm : m.isF) (ba : |a| ≤ 2300) (bb : |b| ≤ 2300)
    (mx : |m.x| ≤ 10 ^ 7) (my : |m.y| ≤ 10 ^ 7) :
    ((((⟨B64.of a, B64.of b, B64.of c⟩ : Vec B64).cross zUp.f64v).dot m.f64v) <? (Flt.lit 0 0 : B64)) =
      decide (rd (b * m.x) + rd (-a * m.y) < 0) := by
  have F0 := isF_zero
  have e1 : B64.of b * B64.of 1 - B64.of c * B64.of 0 = B64.of b := by
    rw [B64.mul_of hb isF_one, B64.mul_of hc F0, mul_one, mul_zero, rd_zero, rd_of_rep hb.1, B64.sub_of hb F0, sub_zero, rd_of_rep hb.1]
  have e2 : B64.of c * B64.of 0 - B64.of a * B64.of 1 = B64.of (-a) := by
    rw [B64.mul_of ha isF_one, B64.mul_of hc F0, mul_one, mul_zero, rd_zero, rd_of_rep ha.1, B64.sub_of F0 ha, zero_sub, rd_of_rep ha.1.neg]
  have e3 : B64.of a * B64.of 0 - B64.of b * B64.of 0 = B64.of 0 := by
    rw [B64.mul_of ha F0, B64.mul_of hb F0, mul_zero, mul_zero, rd_zero, B64.sub_of F0 F0, sub_zero, rd_zero]
  have ex : ((⟨B64.of a, B64.of b, B64.of c⟩ : Vec B64).cross zUp.f64v) = ⟨B64.of b, B64.of (-a), B64.of 0⟩ := by
    show (⟨B64.of b * B64.of 1 - B64.of c * B64.of 0, B64.of c * B64.of 0 - B64.of a * B64.of 1,
      B64.of a * B64.of 0 - B64.of b * B64.of 0⟩ : Vec B64) = _
    rw [e1, e2, e3]
  have p1 : |b * m.x| ≤ 2300 * 10 ^ 7 := by rw [abs_mul]; exact mul_le_mul bb mx (abs_nonneg _) (by norm_num)
  have p2 : |-a * m.y| ≤ 2300 * 10 ^ 7 := by rw [abs_mul, abs_neg]; exact mul_le_mul ba my (abs_nonneg _) (by norm_num)
  have F1 : IsF (rd (b * m.x)) := isF_rd (p1.trans (by norm_num))
  have F2 : IsF (rd (-a * m.y)) := isF_rd (p2.trans (by norm_num))
  have q1 := rd_bound (by norm_num) p1
  have q2 := rd_bound (by norm_num) p2
  have q3 : |rd (b * m.x) + rd (-a * m.y)| ≤ 2 ^ 100 := by
    have := abs_add_le (rd (b * m.x)) (rd (-a * m.y))
    norm_num at *
    linarith
  rw [ex]
  show ((B64.of b * B64.of m.x + B64.of (-a) * B64.of m.y + B64.of 0 * B64.of m.z) <? _) = _
  rw [B64.mul_of hb hm.1, B64.mul_of ha.neg hm.2.1, B64.mul_of F0 hm.2.2, zero_mul, rd_zero, B64.add_of F1 F2,
    B64.add_of (isF_rd q3) F0, add_zero, rd_rd, B64.lit0, B64.lt_of (isF_rd q3) F0, decide_eq_decide]
  exact rd_neg_iff (F1.1.onGrid.add F2.1.onGrid)

/-- the chord runs from the upward to the downward crossing, with the material on the expected side -/
theorem chord_dir {P N : R3} {t : RTri} {e f : R3 × R3} (he : e ∈ t.edges) (hf : f ∈ t.edges) (ha : ascends P N e)
    (hd : descends P N f) (hw : N.cross t.nrm ≠ 0) : (crossAt P N f - crossAt P N e).dot (N.cross t.nrm) < 0 := by
  have wA : N.cross ((t.b - t.a).cross (t.c - t.a)) = N.cross t.nrm := rfl
  have wB : N.cross ((t.c - t.b).cross (t.a - t.b)) = N.cross t.nrm := by rw [← nrm_rot t]; rfl
  have wC : N.cross ((t.a - t.c).cross (t.b - t.c)) = N.cross t.nrm := by
    rw [← nrm_rot t, ← nrm_rot ⟨t.b, t.c, t.a⟩]; rfl
  obtain ⟨a1, a2⟩ := ha
  obtain ⟨d1, d2⟩ := hd
  simp only [RTri.edges, List.mem_cons, List.not_mem_nil, or_false] at he hf
  rcases he with rfl | rfl | rfl <;> rcases hf with rfl | rfl | rfl <;> simp only at a1 a2 d1 d2
  · linarith
  · have := (apex_dir (P := P) (by rw [wB]; exact hw) (Or.inl ⟨a2, d1, a1⟩)).1 a2
    rw [wB] at this; exact this
  · have := (apex_dir (P := P) (by rw [wA]; exact hw) (Or.inr ⟨a1, a2, d2⟩)).2 a1
    rw [wA] at this; exact this
  · have := (apex_dir (P := P) (by rw [wB]; exact hw) (Or.inr ⟨a1, a2, d2⟩)).2 a1
    rw [wB] at this; exact this
  · linarith
  · have := (apex_dir (P := P) (by rw [wC]; exact hw) (Or.inl ⟨a2, d1, a1⟩)).1 a2
    rw [wC] at this; exact this
  · have := (apex_dir (P := P) (by rw [wA]; exact hw) (Or.inl ⟨a2, d1, a1⟩)).1 a2
    rw [wA] at this; exact this
  · have := (apex_dir (P := P) (by rw [wC]; exact hw) (Or.inr ⟨a1, a2, d2⟩)).2 a1
    rw [wC] at this; exact this
  · linarith

/-- the two crossings in the order in which the program finds them -/
theorem ends_f64 {h : ℝ} {ts : List RTri} (H : FloatSafe h ts) {t : RTri} (ht : t ∈ ts) {e f : R3 × R3} (he : e ∈ t.edges)
    (hf : f ∈ t.edges) (ha : ascends (lvl h) zUp e) (hd : descends (lvl h) zUp f) {u v : Point B64}
    (hu : (levelF h).intersectSegment e.1.f64 e.2.f64 = some u) (hv : (levelF h).intersectSegment f.1.f64 f.2.f64 = some v)
    (huv : u.equal v = false) (hvu : v.equal u = false) :
    (levelF h).chordEnds t.f64 = some (u, v) ∨ (levelF h).chordEnds t.f64 = some (v, u) := by
  have hce : (levelF h).chordEnds t.f64 =
      (Plane.distinctPair ((levelF h).intersectSegment t.a.f64 t.b.f64) ((levelF h).intersectSegment t.b.f64 t.c.f64)).orElse
      fun _ => (Plane.distinctPair ((levelF h).intersectSegment t.a.f64 t.b.f64) ((levelF h).intersectSegment t.c.f64 t.a.f64)).orElse
      fun _ => Plane.distinctPair ((levelF h).intersectSegment t.b.f64 t.c.f64) ((levelF h).intersectSegment t.c.f64 t.a.f64) := rfl
  have dp : ∀ {x y : Point B64}, x.equal y = false → Plane.distinctPair (some x) (some y) = some (x, y) := by
    intro x y h; simp [Plane.distinctPair, h]
  have dn1 : ∀ {x : Option (Point B64)}, Plane.distinctPair none x = none := by
    intro x; simp [Plane.distinctPair]
  have dn2 : ∀ {x : Option (Point B64)}, Plane.distinctPair x none = none := by
    intro x; cases x <;> simp [Plane.distinctPair]
  have va := vert_mem ht (w := t.a) (by simp)
  have vb := vert_mem ht (w := t.b) (by simp)
  have vc := vert_mem ht (w := t.c) (by simp)
  obtain ⟨a1, a2⟩ := ha
  obtain ⟨d1, d2⟩ := hd
  simp only [RTri.edges, List.mem_cons, List.not_mem_nil, or_false] at he hf
  rw [hce]
  rcases he with rfl | rfl | rfl <;> rcases hf with rfl | rfl | rfl <;> simp only at a1 a2 d1 d2 hu hv
  · linarith
  · left; rw [hu, hv, dp huv]; rfl
  · left; rw [hu, hv, same_f64 H vb vc (mul_pos a2 d2), dp huv, dn2]; rfl
  · right; rw [hu, hv, dp hvu]; rfl
  · linarith
  · left; rw [hu, hv, same_f64 H va vb (mul_pos_of_neg_of_neg d1 a1), dp huv, dn1, dn1]; rfl
  · right; rw [hu, hv, same_f64 H vb vc (mul_pos_of_neg_of_neg d1 a1), dp hvu, dn2]; rfl
  · right; rw [hu, hv, same_f64 H va vb (mul_pos a2 d2), dp hvu, dn1, dn1]; rfl
  · linarith

theorem apart_sep {x y x' y' : ℝ} (h1 : plainlyApart x x') (h2 : plainlyApart y y') (hne : ¬ (x = x' ∧ y = y')) :
    103 / 10 ^ 8 ≤ |x - x'| ∨ 103 / 10 ^ 8 ≤ |y - y'| := by
  rcases h1 with h1 | h1
  · rcases h2 with h2 | h2
    · exact absurd ⟨h1, h2⟩ hne
    · exact Or.inr h2
  · exact Or.inl h1

/-- the segment the program stores for a triangle crossed upwards along `e` and downwards along `f` -/
theorem line_f64 {h : ℝ} {ts : List RTri} (H : FloatSafe h ts) {t : RTri} (ht : t ∈ ts) (hdeg : t.nrm ≠ 0) {e f : R3 × R3}
    (he : e ∈ t.edges) (hf : f ∈ t.edges) (ha : ascends (lvl h) zUp e) (hd : descends (lvl h) zUp f) (hef : e ≠ f) (hes : e ≠ f.swap) :
    (levelF h).intersectTriangle t.f64 = some ⟨(crossAt (lvl h) zUp e).round8.f64, (crossAt (lvl h) zUp f).round8.f64⟩ := by
  have me := mem_edges ht he
  have mf := mem_edges ht hf
  have ce : crossesAt h e := Or.inl ha
  have cf : crossesAt h f := Or.inr hd
  obtain ⟨u, iu, Fu, ux, uy, uz⟩ := cross_f64 H me ce
  obtain ⟨v, iv, Fv, vx, vy, vz⟩ := cross_f64 H mf cf
  have ru := H.crossRange me ce
  have rv := H.crossRange mf cf
  obtain ⟨_, _, _, _, w0, wp⟩ := edge_pair ht H.small hdeg H.wellSep he hf hef hes ce cf
  have hdir := chord_dir he hf ha hd w0
  have zu := (crossAt_lvl ce).2.1
  have zv := (crossAt_lvl cf).2.1
  obtain ⟨a1, a2, a3⟩ := H.apart e me f mf ce cf
  obtain ⟨hux, huy⟩ := H.half e me ce
  obtain ⟨hvx, hvy⟩ := H.half f mf cf
  have hsteep := H.steep t ht ⟨e, he, ce⟩
  generalize hU : crossAt (lvl h) zUp e = U at *
  generalize hV : crossAt (lvl h) zUp f = V at *
  have hsep : 103 / 10 ^ 8 ≤ |U.x - V.x| ∨ 103 / 10 ^ 8 ≤ |U.y - V.y| := by
    refine apart_sep a1 a2 ?_
    rintro ⟨h1, h2⟩
    rcases a3 (R3.ext h1 h2 (zu.trans zv.symm)) with h | h
    · exact hef h
    · exact hes h
  have hsep' : 103 / 10 ^ 8 ≤ |V.x - U.x| ∨ 103 / 10 ^ 8 ≤ |V.y - U.y| := by
    rwa [abs_sub_comm V.x, abs_sub_comm V.y]
  have hmz : clearOfHalf U.z := by rw [zu]; exact H.heightHalf
  have hmz' : clearOfHalf V.z := by rw [zv]; exact H.heightHalf
  have su := store_f64 Fu ru ux uy uz hux huy hmz
  have sv := store_f64 Fv rv vx vy vz hvx hvy hmz'
  have q1 := raw_apart Fu Fv ru rv ux uy uz vx vy vz hsep
  have q2 := raw_apart Fv Fu rv ru vx vy vz ux uy uz hsep'
  have s1 := stored_apart ru rv hsep
  have s2 := stored_apart rv ru hsep'
  have hva := vert_mem ht (w := t.a) (by simp)
  have hvb := vert_mem ht (w := t.b) (by simp)
  have hvc := vert_mem ht (w := t.c) (by simp)
  obtain ⟨m, em, Fm, mx, my, _, bx, by', _⟩ := nrm_f64 (H.isF _ hva) (H.isF _ hvb) (H.isF _ hvc) (H.range _ hva) (H.range _ hvb) (H.range _ hvc)
  obtain ⟨dx1, dx2, dx3⟩ := store_diff ru.1 rv.1
  obtain ⟨dy1, dy2, dy3⟩ := store_diff ru.2.1 rv.2.1
  obtain ⟨_, dz2, _⟩ := store_diff ru.2.2 rv.2.2
  obtain ⟨_, ex2, ex3⟩ := store_diff rv.1 ru.1
  obtain ⟨_, ey2, ey3⟩ := store_diff rv.2.1 ru.2.1
  obtain ⟨_, ez2, _⟩ := store_diff rv.2.2 ru.2.2
  have vec : ∀ {c d : R3}, c.inRange → d.inRange → c.round8.f64.vectorTo d.round8.f64 =
      ⟨B64.of (rd (rd (r8 d.x) - rd (r8 c.x))), B64.of (rd (rd (r8 d.y) - rd (r8 c.y))), B64.of (rd (rd (r8 d.z) - rd (r8 c.z)))⟩ := by
    intro c d hc hd
    show (⟨B64.of (r8 d.x) - B64.of (r8 c.x), B64.of (r8 d.y) - B64.of (r8 c.y), B64.of (r8 d.z) - B64.of (r8 c.z)⟩ : Vec B64) = _
    rw [of_r8 d.x, of_r8 c.x, of_r8 d.y, of_r8 c.y, of_r8 d.z, of_r8 c.z, B64.sub_of (store_err hd.1).2.2 (store_err hc.1).2.2,
      B64.sub_of (store_err hd.2.1).2.2 (store_err hc.2.1).2.2, B64.sub_of (store_err hd.2.2).2.2 (store_err hc.2.2).2.2]
  have hperp : (V.x - U.x) * t.nrm.x + (V.y - U.y) * t.nrm.y = 0 := by
    have := congrArg R3.z wp
    simp [R3.cross, zUp] at this
    linarith
  have hneg : (V.y - U.y) * t.nrm.x - (V.x - U.x) * t.nrm.y < 0 := by
    have := hdir
    simp [R3.dot, R3.cross, zUp] at this
    linarith
  have hsign := side_sign hperp hneg hsep' hsteep dx1 dy1 mx my
  have hrev : ¬ (rd (rd (rd (r8 U.y) - rd (r8 V.y)) * m.x) + rd (-rd (rd (r8 U.x) - rd (r8 V.x)) * m.y) < 0) := by
    have r1 : rd (rd (r8 U.y) - rd (r8 V.y)) = -rd (rd (r8 V.y) - rd (r8 U.y)) := by rw [← rd_neg]; congr 1; ring
    have r2 : rd (rd (r8 U.x) - rd (r8 V.x)) = -rd (rd (r8 V.x) - rd (r8 U.x)) := by rw [← rd_neg]; congr 1; ring
    rw [r1, r2, neg_mul, rd_neg, neg_neg, show rd (rd (r8 V.x) - rd (r8 U.x)) * m.y = -(-rd (rd (r8 V.x) - rd (r8 U.x)) * m.y) by ring, rd_neg]
    intro hc
    linarith
  have hn : (levelF h).n = zUp.f64v := rfl
  unfold Plane.intersectTriangle
  rcases ends_f64 H ht he hf ha hd iu iv q1 q2 with hce | hce
  · rw [hce]
    simp only [su, sv, s1, Bool.false_eq_true, if_false, vec ru rv, hn, em, side_f64 dx2 dy2 dz2 Fm dx3 dy3 bx by', hsign,
      decide_true, if_true]
  · rw [hce]
    simp only [su, sv, s2, Bool.false_eq_true, if_false, vec rv ru, hn, em, side_f64 ex2 ey2 ez2 Fm ex3 ey3 bx by', hrev,
      decide_false, if_false]

/-- what one triangle contributes -/
theorem triangle_f64 {h : ℝ} {ts : List RTri} (H : FloatSafe h ts) {t : RTri} (ht : t ∈ ts) (hdeg : t.nrm ≠ 0) :
    ((levelF h).intersectTriangle t.f64 = none ∧ ups (lvl h) zUp t.edges = [] ∧ downs (lvl h) zUp t.edges = []) ∨
    ∃ e f, (levelF h).intersectTriangle t.f64 = some ⟨(crossAt (lvl h) zUp e).round8.f64, (crossAt (lvl h) zUp f).round8.f64⟩ ∧
      ups (lvl h) zUp t.edges = [e] ∧ downs (lvl h) zUp t.edges = [f] := by
  rcases triangle_section ht H.small H.offPlane hdeg H.wellSep with ⟨_, e2, e3⟩ | ⟨e, f, hi, e2, e3⟩
  · left
    refine ⟨?_, e2, e3⟩
    have va := vert_mem ht (w := t.a) (by simp)
    have vb := vert_mem ht (w := t.b) (by simp)
    have vc := vert_mem ht (w := t.c) (by simp)
    have same : ∀ {a b : R3}, (a, b) ∈ t.edges → a ∈ allVerts ts → b ∈ allVerts ts → 0 < R3.height (lvl h) zUp a * R3.height (lvl h) zUp b := by
      intro a b hm va vb
      have n1 : ¬ ascends (lvl h) zUp (a, b) := fun hc => by
        have := mem_ups.2 ⟨hm, hc⟩; rw [e2] at this; simp at this
      have n2 : ¬ descends (lvl h) zUp (a, b) := fun hc => by
        have := mem_downs.2 ⟨hm, hc⟩; rw [e3] at this; simp at this
      rcases lt_or_gt_of_ne (H.offPlane a va) with p | p <;> rcases lt_or_gt_of_ne (H.offPlane b vb) with q | q
      · exact mul_pos_of_neg_of_neg p q
      · exact absurd ⟨p, q⟩ n1
      · exact absurd ⟨q, p⟩ n2
      · exact mul_pos p q
    have i1 := same_f64 H va vb (same (by simp [RTri.edges]) va vb)
    have i2 := same_f64 H vb vc (same (by simp [RTri.edges]) vb vc)
    have i3 := same_f64 H vc va (same (by simp [RTri.edges]) vc va)
    have hce : (levelF h).chordEnds t.f64 = none := by
      show (Plane.distinctPair ((levelF h).intersectSegment t.a.f64 t.b.f64) ((levelF h).intersectSegment t.b.f64 t.c.f64)).orElse
        (fun _ => (Plane.distinctPair ((levelF h).intersectSegment t.a.f64 t.b.f64) ((levelF h).intersectSegment t.c.f64 t.a.f64)).orElse
        fun _ => Plane.distinctPair ((levelF h).intersectSegment t.b.f64 t.c.f64) ((levelF h).intersectSegment t.c.f64 t.a.f64)) = none
      rw [i1, i2, i3]; rfl
    unfold Plane.intersectTriangle
    rw [hce]
  · right
    refine ⟨e, f, ?_, e2, e3⟩
    obtain ⟨he, ha⟩ := mem_ups.1 (by rw [e2]; simp : e ∈ ups (lvl h) zUp t.edges)
    obtain ⟨hf, hd⟩ := mem_downs.1 (by rw [e3]; simp : f ∈ downs (lvl h) zUp t.edges)
    refine line_f64 H ht hdeg he hf ha hd ?_ ?_
    · rintro rfl
      have := ha.1; have := hd.2; linarith
    · -- an edge and its reverse do not both belong to a triangle that is not degenerate
      intro hc
      have nab : t.a ≠ t.b := by
        intro h; apply hdeg; unfold RTri.nrm; rw [h]; apply R3.ext <;> simp [R3.cross]
      have nbc : t.b ≠ t.c := by
        intro h; apply hdeg; unfold RTri.nrm; rw [h]; apply R3.ext <;> simp [R3.cross] <;> ring
      have nca : t.c ≠ t.a := by
        intro h; apply hdeg; unfold RTri.nrm; rw [h]; apply R3.ext <;> simp [R3.cross]
      simp only [RTri.edges, List.mem_cons, List.not_mem_nil, or_false] at he hf
      rcases he with rfl | rfl | rfl <;> rcases hf with rfl | rfl | rfl <;>
        simp [Prod.swap, nab, nbc, nca, nab.symm, nbc.symm, nca.symm] at hc

/-! ## the whole mesh -/

/-- the nearest `float64` point -/
noncomputable def Point.nearest (p : Point XR) : Point B64 := ⟨B64.rnd p.x, B64.rnd p.y, B64.rnd p.z⟩

/-- **C94 (segments).** For a horizontal plane and a mesh that keep the distances of `FloatSafe`, the program, computing in
`float64`, stores for every triangle exactly the segment of the exact computation, each coordinate replaced by the nearest
`float64`. -/
theorem C94_segments (ts : List RTri) (h : ℝ) (hdeg : ∀ t ∈ ts, t.nrm ≠ 0) (H : FloatSafe h ts) :
    sectionPaths (levelF h) (fmesh ts).triangles =
      (sectionPaths (Plane.mk (lvl h).pt zUp.vec) (rmesh ts).triangles).map fun q => ⟨q.points.map Point.nearest⟩ := by
  have key : ∀ t ∈ ts, (levelF h).intersectTriangle t.f64 =
      ((Plane.mk (lvl h).pt zUp.vec).intersectTriangle t.tri).map fun l => ⟨l.p1.nearest, l.p2.nearest⟩ := by
    intro t ht
    have h1 := triangle_section ht H.small H.offPlane (hdeg t ht) H.wellSep
    have h2 := triangle_f64 H ht (hdeg t ht)
    rcases h1 with ⟨a1, a2, a3⟩ | ⟨e, f, a1, a2, a3⟩
    · rcases h2 with ⟨b1, _, _⟩ | ⟨e', f', _, b2, _⟩
      · rw [a1, b1]; rfl
      · rw [a2] at b2; cases b2
    · rcases h2 with ⟨_, b2, _⟩ | ⟨e', f', b1, b2, b3⟩
      · rw [a2] at b2; cases b2
      · rw [a2] at b2
        rw [a3] at b3
        cases b2
        cases b3
        rw [a1, b1]; rfl
  unfold sectionPaths fmesh rmesh
  simp only [List.filterMap_map, List.map_filterMap]
  refine List.filterMap_congr fun t ht => ?_
  simp only [Function.comp, key t ht, Option.map_map]
  rfl

theorem mesh_f64 {h : ℝ} {all : List RTri} (H : FloatSafe h all) (hdeg : ∀ t ∈ all, t.nrm ≠ 0) :
    ∀ ts, (∀ t ∈ ts, t ∈ all) → ∃ segs : List (Point B64 × Point B64),
      List.Forall₂ pathFromTo (sectionPaths (levelF h) (fmesh ts).triangles) segs ∧
      segs.map Prod.fst = (ups (lvl h) zUp (dirEdges ts)).map (fun e => (crossAt (lvl h) zUp e).round8.f64) ∧
      segs.map Prod.snd = (downs (lvl h) zUp (dirEdges ts)).map (fun e => (crossAt (lvl h) zUp e).round8.f64) := by
  intro ts
  induction ts with
  | nil => intro _; exact ⟨[], List.Forall₂.nil, rfl, rfl⟩
  | cons t ts ih =>
    intro hsub
    obtain ⟨segs, h1, h2, h3⟩ := ih (fun t ht => hsub t (by simp [ht]))
    have hu : ups (lvl h) zUp (dirEdges (t :: ts)) = ups (lvl h) zUp t.edges ++ ups (lvl h) zUp (dirEdges ts) := by
      unfold ups dirEdges; rw [List.flatMap_cons, List.filter_append]
    have hd : downs (lvl h) zUp (dirEdges (t :: ts)) = downs (lvl h) zUp t.edges ++ downs (lvl h) zUp (dirEdges ts) := by
      unfold downs dirEdges; rw [List.flatMap_cons, List.filter_append]
    have ht := hsub t (by simp)
    have hcons : sectionPaths (levelF h) (fmesh (t :: ts)).triangles =
        (((levelF h).intersectTriangle t.f64).map fun l => (⟨[l.p1, l.p2]⟩ : Path B64)).toList ++
          sectionPaths (levelF h) (fmesh ts).triangles := by
      unfold sectionPaths fmesh
      rw [List.map_cons, List.filterMap_cons]
      cases (levelF h).intersectTriangle t.f64 <;> rfl
    rcases triangle_f64 H ht (hdeg t ht) with ⟨e1, e2, e3⟩ | ⟨e, f, e1, e2, e3⟩
    · refine ⟨segs, ?_, ?_, ?_⟩
      · rw [hcons, e1]; exact h1
      · rw [hu, e2]; exact h2
      · rw [hd, e3]; exact h3
    · refine ⟨((crossAt (lvl h) zUp e).round8.f64, (crossAt (lvl h) zUp f).round8.f64) :: segs, ?_, ?_, ?_⟩
      · rw [hcons, e1]
        exact List.Forall₂.cons ⟨by simp, rfl, rfl⟩ h1
      · rw [hu, e2, List.map_cons, h2]; rfl
      · rw [hd, e3, List.map_cons, h3]; rfl

/-! ## order of stored points -/

/-- stored coordinates are equal or told apart -/
theorem stored_coord {x y : ℝ} (hx : |x| ≤ 1000) (hy : |y| ≤ 1000) (h : plainlyApart x y) :
    (almostZero (B64.of (r8 x) - B64.of (r8 y)) = true ∧ rd (r8 x) = rd (r8 y)) ∨
    (almostZero (B64.of (r8 x) - B64.of (r8 y)) = false ∧ rd (r8 x) ≠ rd (r8 y)) := by
  obtain ⟨x1, x2, x3⟩ := store_err hx
  obtain ⟨y1, y2, y3⟩ := store_err hy
  rw [of_r8 x, of_r8 y]
  rcases h with rfl | h
  · exact Or.inl ⟨almostZero_same x3, rfl⟩
  · right
    have : 101 / 10 ^ 8 ≤ |rd (r8 x) - rd (r8 y)| := by
      have p := abs_le.1 x1
      have q := abs_le.1 y1
      rcases le_abs.1 h with h | h
      · exact le_abs.2 (Or.inl (by norm_num at *; linarith))
      · exact le_abs.2 (Or.inr (by norm_num at *; linarith))
    refine ⟨almostZero_apart x3 y3 x2 y2 this, ?_⟩
    intro hc
    rw [hc] at this
    norm_num at this

/-- the numbers behind a stored point -/
noncomputable def storedAt (c : R3) : R3 := ⟨rd (r8 c.x), rd (r8 c.y), rd (r8 c.z)⟩

/-- the order in which the program sorts stored points at one height -/
def storedLt (a b : Point B64) : Prop :=
  (a.x <? b.x) = true ∨ (a.x = b.x ∧ (a.y <? b.y) = true)

theorem stored_clean {cs : List R3} {h : ℝ} (hr : ∀ c ∈ cs, c.inRange) (hz : ∀ c ∈ cs, c.z = h)
    (ha : ∀ c ∈ cs, ∀ d ∈ cs, plainlyApart c.x d.x ∧ plainlyApart c.y d.y) :
    CleanPoints (cs.map fun c => c.round8.f64) storedLt := by
  have val : ∀ {c d : R3}, c ∈ cs → d ∈ cs →
      (((c.round8.f64.x <? d.round8.f64.x) = decide (rd (r8 c.x) < rd (r8 d.x))) ∧
       ((c.round8.f64.y <? d.round8.f64.y) = decide (rd (r8 c.y) < rd (r8 d.y))) ∧
       ((c.round8.f64.z <? d.round8.f64.z) = false) ∧
       (c.round8.f64.x = d.round8.f64.x ↔ rd (r8 c.x) = rd (r8 d.x)) ∧
       (c.round8.f64.y = d.round8.f64.y ↔ rd (r8 c.y) = rd (r8 d.y)) ∧
       (c.round8.f64 = d.round8.f64 ↔ rd (r8 c.x) = rd (r8 d.x) ∧ rd (r8 c.y) = rd (r8 d.y))) := by
    intro c d hc hd
    have Fx := fun c (hc : c ∈ cs) => (store_err (hr c hc).1).2.2
    have Fy := fun c (hc : c ∈ cs) => (store_err (hr c hc).2.1).2.2
    have Fz := fun c (hc : c ∈ cs) => (store_err (hr c hc).2.2).2.2
    simp only [R3.f64, R3.round8, of_r8]
    refine ⟨B64.lt_of (Fx c hc) (Fx d hd), B64.lt_of (Fy c hc) (Fy d hd), ?_, B64.of_inj (Fx c hc) (Fx d hd),
      B64.of_inj (Fy c hc) (Fy d hd), ?_⟩
    · rw [B64.lt_of (Fz c hc) (Fz d hd), hz c hc, hz d hd]; simp
    · rw [Point.mk.injEq, B64.of_inj (Fx c hc) (Fx d hd), B64.of_inj (Fy c hc) (Fy d hd), hz c hc, hz d hd]
      simp
  have lt_iff : ∀ {c d : R3}, c ∈ cs → d ∈ cs → (storedLt c.round8.f64 d.round8.f64 ↔
      rd (r8 c.x) < rd (r8 d.x) ∨ (rd (r8 c.x) = rd (r8 d.x) ∧ rd (r8 c.y) < rd (r8 d.y))) := by
    intro c d hc hd
    obtain ⟨v1, v2, _, v4, _, _⟩ := val hc hd
    unfold storedLt
    rw [v1, v2, v4]
    simp
  have az : ∀ {c d : R3}, c ∈ cs → d ∈ cs → almostZero (c.round8.f64.z - d.round8.f64.z) = true := by
    intro c d hc hd
    simp only [R3.f64, R3.round8, hz c hc, hz d hd, of_r8]
    refine almostZero_same ?_
    have := (store_err (hr c hc).2.2).2.2
    rwa [hz c hc] at this
  have coord : ∀ {c d : R3}, c ∈ cs → d ∈ cs →
      ((almostZero (c.round8.f64.x - d.round8.f64.x) = true ∧ rd (r8 c.x) = rd (r8 d.x)) ∨
       (almostZero (c.round8.f64.x - d.round8.f64.x) = false ∧ rd (r8 c.x) ≠ rd (r8 d.x))) ∧
      ((almostZero (c.round8.f64.y - d.round8.f64.y) = true ∧ rd (r8 c.y) = rd (r8 d.y)) ∨
       (almostZero (c.round8.f64.y - d.round8.f64.y) = false ∧ rd (r8 c.y) ≠ rd (r8 d.y))) := by
    intro c d hc hd
    obtain ⟨p, q⟩ := ha c hc d hd
    exact ⟨stored_coord (hr c hc).1 (hr d hd).1 p, stored_coord (hr c hc).2.1 (hr d hd).2.1 q⟩
  constructor
  · intro a ha b hb
    obtain ⟨c, hc, rfl⟩ := List.mem_map.1 ha
    obtain ⟨d, hd, rfl⟩ := List.mem_map.1 hb
    obtain ⟨_, _, _, _, _, v6⟩ := val hc hd
    rw [v6]
    unfold Point.equal
    rw [az hc hd]
    obtain ⟨p, q⟩ := coord hc hd
    rcases p with ⟨p1, p2⟩ | ⟨p1, p2⟩ <;> rcases q with ⟨q1, q2⟩ | ⟨q1, q2⟩ <;> rw [p1, q1] <;> simp [p2, q2]
  · intro a ha b hb i j
    obtain ⟨c, hc, rfl⟩ := List.mem_map.1 ha
    obtain ⟨d, hd, rfl⟩ := List.mem_map.1 hb
    obtain ⟨v1, v2, v3, _, _, _⟩ := val hc hd
    rw [lt_iff hc hd]
    unfold joinLess
    simp only [v1, v2, v3]
    obtain ⟨p, q⟩ := coord hc hd
    rcases p with ⟨p1, p2⟩ | ⟨p1, p2⟩ <;> rw [p1] <;> simp [p2]
  · intro a ha
    obtain ⟨c, hc, rfl⟩ := List.mem_map.1 ha
    rw [lt_iff hc hc]
    simp
  · intro a ma b mb c mc
    obtain ⟨a, ka, rfl⟩ := List.mem_map.1 ma
    obtain ⟨b, kb, rfl⟩ := List.mem_map.1 mb
    obtain ⟨c, kc, rfl⟩ := List.mem_map.1 mc
    rw [lt_iff ka kb, lt_iff kb kc, lt_iff ka kc]
    rintro (h1 | ⟨h1, h2⟩) (h3 | ⟨h3, h4⟩)
    · exact Or.inl (h1.trans h3)
    · exact Or.inl (by rw [← h3]; exact h1)
    · exact Or.inl (by rw [h1]; exact h3)
    · exact Or.inr ⟨h1.trans h3, h2.trans h4⟩
  · intro a ma b mb
    obtain ⟨a, ka, rfl⟩ := List.mem_map.1 ma
    obtain ⟨b, kb, rfl⟩ := List.mem_map.1 mb
    obtain ⟨_, _, _, _, _, v6⟩ := val ka kb
    rw [lt_iff ka kb, lt_iff kb ka, v6]
    intro h1 h2
    push Not at h1 h2
    have e : rd (r8 a.x) = rd (r8 b.x) := le_antisymm h2.1 h1.1
    exact ⟨e, le_antisymm (h2.2 e.symm) (h1.2 e)⟩

/-- **C94.** Let a watertight, consistently oriented mesh without degenerate triangles and a horizontal plane keep the
distances of `FloatSafe`. Then the program, computing in `float64`, assembles the segments of the plane with the triangles,
in any order and for every admissible sort, into closed contours only: each ends exactly where it starts. -/
theorem C94_closed (S : Sorter) (ts : List RTri) (h : ℝ) (hw : Watertight ts) (hdeg : ∀ t ∈ ts, t.nrm ≠ 0) (H : FloatSafe h ts)
    (p : List (Path B64)) (hp : p.Perm (sectionPaths (levelF h) (fmesh ts).triangles)) :
    ∃ out, joinPaths3 S p = .ok out ∧
      ∀ q ∈ out, q.isClosed = true ∧ 2 ≤ q.points.length ∧ q.points.head? = q.points.getLast? := by
  obtain ⟨segs0, h1, h2, h3⟩ := mesh_f64 H hdeg ts (fun t ht => ht)
  obtain ⟨segs, hf, hsp⟩ := List.perm_comp_forall₂ hp h1
  have hnd : (ups (lvl h) zUp (dirEdges ts)).Nodup := hw.1.filter _
  have hndd : (downs (lvl h) zUp (dirEdges ts)).Nodup := hw.1.filter _
  have hcs : CleanPoints (((ups (lvl h) zUp (dirEdges ts)).map (crossAt (lvl h) zUp)).map fun c => c.round8.f64) storedLt := by
    refine stored_clean (h := h) ?_ ?_ ?_
    · intro c hc
      obtain ⟨e, he, rfl⟩ := List.mem_map.1 hc
      obtain ⟨he, ha⟩ := mem_ups.1 he
      exact H.crossRange he (Or.inl ha)
    · intro c hc
      obtain ⟨e, he, rfl⟩ := List.mem_map.1 hc
      obtain ⟨he, ha⟩ := mem_ups.1 he
      exact (crossAt_lvl (Or.inl ha)).2.1
    · intro c hc d hd
      obtain ⟨e, he, rfl⟩ := List.mem_map.1 hc
      obtain ⟨f, hf, rfl⟩ := List.mem_map.1 hd
      obtain ⟨he, ha⟩ := mem_ups.1 he
      obtain ⟨hf, hb⟩ := mem_ups.1 hf
      obtain ⟨a1, a2, _⟩ := H.apart e he f hf (Or.inl ha) (Or.inl hb)
      exact ⟨a1, a2⟩
  rw [List.map_map] at hcs
  have hcr : ∀ e ∈ ups (lvl h) zUp (dirEdges ts), ∀ f ∈ ups (lvl h) zUp (dirEdges ts),
      (crossAt (lvl h) zUp e).round8.f64 = (crossAt (lvl h) zUp f).round8.f64 → e = f := by
    intro e he f hf heq
    obtain ⟨me, ha⟩ := mem_ups.1 he
    obtain ⟨mf, hb⟩ := mem_ups.1 hf
    have ce : crossesAt h e := Or.inl ha
    have cf : crossesAt h f := Or.inl hb
    obtain ⟨a1, a2, a3⟩ := H.apart e me f mf ce cf
    by_contra hne
    have hsep := apart_sep a1 a2 (by
      rintro ⟨x, y⟩
      rcases a3 (R3.ext x y ((crossAt_lvl ce).2.1.trans (crossAt_lvl cf).2.1.symm)) with hc | hc
      · exact hne hc
      · rw [hc] at ha
        have := ha.1; have := hb.2
        simp only [Prod.fst_swap] at *
        linarith)
    have := stored_apart (H.crossRange me ce) (H.crossRange mf cf) hsep
    have heq' := (hcs.equal _ (List.mem_map.2 ⟨e, he, rfl⟩) _ (List.mem_map.2 ⟨f, hf, rfl⟩)).2 heq
    simp only [Function.comp] at heq'
    rw [heq'] at this
    cases this
  have hst : (segs0.map Prod.fst).Nodup := by
    rw [h2]
    exact List.Nodup.map_on hcr hnd
  have hpr : (segs0.map Prod.snd).Perm (segs0.map Prod.fst) := by
    rw [h2, h3]
    have hperm : (downs (lvl h) zUp (dirEdges ts)).Perm ((ups (lvl h) zUp (dirEdges ts)).map Prod.swap) := by
      rw [List.perm_ext_iff_of_nodup hndd (hnd.map Prod.swap_injective)]
      intro e
      rw [mem_downs, List.mem_map]
      constructor
      · rintro ⟨he, hd⟩
        exact ⟨e.swap, mem_ups.2 ⟨hw.2 e he, hd⟩, Prod.swap_swap e⟩
      · rintro ⟨f, hf, rfl⟩
        obtain ⟨hf, ha⟩ := mem_ups.1 hf
        exact ⟨hw.2 f hf, ha⟩
    refine (hperm.map _).trans ?_
    rw [List.map_map]
    have : (ups (lvl h) zUp (dirEdges ts)).map ((fun e => (crossAt (lvl h) zUp e).round8.f64) ∘ Prod.swap) =
        (ups (lvl h) zUp (dirEdges ts)).map (fun e => (crossAt (lvl h) zUp e).round8.f64) := by
      refine List.map_congr_left fun e he => ?_
      obtain ⟨_, ha⟩ := mem_ups.1 he
      show (crossAt (lvl h) zUp e.swap).round8.f64 = _
      rw [crossAt_swap (by have := ha.1; have := ha.2; intro hc; linarith)]
    rw [this]
  refine C14_loops S segs p hf ?_ ?_ storedLt ?_
  · exact (hsp.map Prod.fst).nodup_iff.2 hst
  · exact ((hsp.map Prod.snd).trans hpr).trans (hsp.map Prod.fst).symm
  · have hmem : ∀ a, a ∈ segs.map Prod.fst → a ∈ (ups (lvl h) zUp (dirEdges ts)).map ((fun c => c.round8.f64) ∘ crossAt (lvl h) zUp) := by
      intro a ha
      have := (hsp.map Prod.fst).mem_iff.1 ha
      rw [h2] at this
      exact this
    exact ⟨fun a ha b hb => hcs.equal a (hmem a ha) b (hmem b hb), fun a ha b hb => hcs.less a (hmem a ha) b (hmem b hb),
      fun a ha => hcs.irrefl a (hmem a ha), fun a ha b hb c hc => hcs.trans a (hmem a ha) b (hmem b hb) c (hmem c hc),
      fun a ha b hb => hcs.tri a (hmem a ha) b (hmem b hb)⟩

/-! ## Non-vacuity: the tetrahedron, cut at the height that the program writes `0.1` -/

theorem clearOfHalf_near {c : ℝ} {n : ℤ} (h : |c - n / 10 ^ 8| ≤ 1 / 10 ^ 9) : clearOfHalf c := by
  intro k
  have h1 := abs_le.1 h
  by_cases hk : k < n
  · have : ((k : ℤ) : ℝ) + 1 ≤ n := by exact_mod_cast hk
    exact le_abs.2 (Or.inl (by norm_num at *; linarith))
  · have : (n : ℝ) ≤ k := by exact_mod_cast not_lt.1 hk
    exact le_abs.2 (Or.inr (by norm_num at h1 ⊢; linarith))

/-- the `float64` nearest to one tenth -/
noncomputable def tenth : ℝ := rd (1 / 10)

theorem tenth_near : |tenth - 1 / 10| ≤ 1 / 10 ^ 12 := by
  have := rd_err (x := 1 / 10) (M := 1) (by norm_num) (by rw [abs_of_pos] <;> norm_num)
  unfold tenth
  norm_num at *
  linarith

theorem exTetra_crossF {h : ℝ} (h0 : 0 < h) : ∀ e ∈ dirEdges exTetra, crossesAt h e →
    ((e = (⟨4, 0, 0⟩, ⟨0, 0, 4⟩) ∨ e = (⟨0, 0, 4⟩, ⟨4, 0, 0⟩)) ∧ crossAt (lvl h) zUp e = ⟨4 - h, 0, h⟩) ∨
    ((e = (⟨0, 4, 0⟩, ⟨0, 0, 4⟩) ∨ e = (⟨0, 0, 4⟩, ⟨0, 4, 0⟩)) ∧ crossAt (lvl h) zUp e = ⟨0, 4 - h, h⟩) ∨
    ((e = (⟨0, 0, 0⟩, ⟨0, 0, 4⟩) ∨ e = (⟨0, 0, 4⟩, ⟨0, 0, 0⟩)) ∧ crossAt (lvl h) zUp e = ⟨0, 0, h⟩) := by
  intro e he hc
  obtain ⟨hz, cz, cx, cy⟩ := crossAt_lvl hc
  have out : ∀ {x y : ℝ}, (crossAt (lvl h) zUp e).x = x → (crossAt (lvl h) zUp e).y = y → crossAt (lvl h) zUp e = ⟨x, y, h⟩ :=
    fun h1 h2 => R3.ext h1 h2 cz
  rw [exTetra_edges] at he
  simp only [List.mem_cons, List.not_mem_nil, or_false] at he
  rcases he with rfl | rfl | rfl | rfl | rfl | rfl | rfl | rfl | rfl | rfl | rfl | rfl
  all_goals simp only at hz cx cy
  · exfalso; rcases hz with ⟨a, b⟩ | ⟨a, b⟩ <;> linarith
  · exfalso; rcases hz with ⟨a, b⟩ | ⟨a, b⟩ <;> linarith
  · exfalso; rcases hz with ⟨a, b⟩ | ⟨a, b⟩ <;> linarith
  · exfalso; rcases hz with ⟨a, b⟩ | ⟨a, b⟩ <;> linarith
  · exact Or.inl ⟨Or.inl rfl, out (by rw [cx]; ring) (by rw [cy]; ring)⟩
  · exact Or.inr (Or.inr ⟨Or.inr rfl, out (by rw [cx]; ring) (by rw [cy]; ring)⟩)
  · exfalso; rcases hz with ⟨a, b⟩ | ⟨a, b⟩ <;> linarith
  · exact Or.inr (Or.inl ⟨Or.inl rfl, out (by rw [cx]; ring) (by rw [cy]; ring)⟩)
  · exact Or.inl ⟨Or.inr rfl, out (by rw [cx]; ring) (by rw [cy]; ring)⟩
  · exfalso; rcases hz with ⟨a, b⟩ | ⟨a, b⟩ <;> linarith
  · exact Or.inr (Or.inr ⟨Or.inl rfl, out (by rw [cx]; ring) (by rw [cy]; ring)⟩)
  · exact Or.inr (Or.inl ⟨Or.inr rfl, out (by rw [cx]; ring) (by rw [cy]; ring)⟩)

/-- the tetrahedron is in order at every height close to a multiple of `1e-8` -/
theorem exTetra_safeAt {h : ℝ} (hF : IsF h) (n : ℤ) (hn : |h - n / 10 ^ 8| ≤ 1 / 10 ^ 9) (h1 : 1 / 100 ≤ h) (h2 : h ≤ 399 / 100) :
    FloatSafe h exTetra := by
  have ht := abs_le.1 hn
  have t0 : 0 < h := by linarith
  have t4 : h < 4 := by linarith
  have F4 : IsF 4 := by simpa using isF_int (n := 4) (by norm_num)
  have F0 := isF_zero
  have cr := exTetra_crossF t0
  have half0 : clearOfHalf 0 := clearOfHalf_near (n := 0) (by norm_num)
  have halfT : clearOfHalf h := clearOfHalf_near hn
  have half4 : clearOfHalf (4 - h) := clearOfHalf_near (n := 4 * 10 ^ 8 - n) (by
    rw [abs_le]; push_cast; constructor <;> linarith [ht.1, ht.2])
  constructor
  · intro w hw
    rcases exTetra_verts w hw with rfl | rfl | rfl | rfl
    · exact ⟨F0, F0, F0⟩
    · exact ⟨F4, F0, F0⟩
    · exact ⟨F0, F4, F0⟩
    · exact ⟨F0, F0, F4⟩
  · intro w hw
    rcases exTetra_verts w hw with rfl | rfl | rfl | rfl <;> simp [R3.inRange] <;> norm_num
  · exact hF
  · rw [abs_of_pos t0]; linarith
  · intro w hw
    rcases exTetra_verts w hw with rfl | rfl | rfl | rfl
    · exact le_abs.2 (Or.inr (by norm_num at *; linarith))
    · exact le_abs.2 (Or.inr (by norm_num at *; linarith))
    · exact le_abs.2 (Or.inr (by norm_num at *; linarith))
    · exact le_abs.2 (Or.inl (by norm_num at *; linarith))
  · intro t ht hc
    simp only [exTetra, List.mem_cons, List.not_mem_nil, or_false] at ht
    rcases ht with rfl | rfl | rfl | rfl
    · exfalso
      obtain ⟨e, he, hc⟩ := hc
      have hz := (crossAt_lvl hc).1
      simp only [RTri.edges, List.mem_cons, List.not_mem_nil, or_false] at he
      rcases he with rfl | rfl | rfl <;> simp only at hz <;> rcases hz with ⟨a, b⟩ | ⟨a, b⟩ <;> linarith
    · right; simp [RTri.nrm, R3.cross]; norm_num
    · left; simp [RTri.nrm, R3.cross]; norm_num
    · left; simp [RTri.nrm, R3.cross]; norm_num
  · intro e he hc
    rcases cr e he hc with ⟨_, h⟩ | ⟨_, h⟩ | ⟨_, h⟩ <;> rw [h]
    · exact ⟨half4, half0⟩
    · exact ⟨half0, half4⟩
    · exact ⟨half0, half0⟩
  · exact halfT
  · have d4 : 103 / 10 ^ 8 ≤ |4 - h - 0| := le_abs.2 (Or.inl (by norm_num at *; linarith))
    have d4' : 103 / 10 ^ 8 ≤ |0 - (4 - h)| := by rw [abs_sub_comm]; exact d4
    intro e he f hf hce hcf
    have n4 : (4 : ℝ) - h ≠ 0 := by linarith
    rcases cr e he hce with ⟨e1, h1⟩ | ⟨e1, h1⟩ | ⟨e1, h1⟩ <;> rcases cr f hf hcf with ⟨f1, h2⟩ | ⟨f1, h2⟩ | ⟨f1, h2⟩ <;> rw [h1, h2]
    · exact ⟨Or.inl rfl, Or.inl rfl, fun _ => by rcases e1 with rfl | rfl <;> rcases f1 with rfl | rfl <;> simp [Prod.swap]⟩
    · exact ⟨Or.inr d4, Or.inr d4', fun hc => absurd (congrArg R3.x hc) n4⟩
    · exact ⟨Or.inr d4, Or.inl rfl, fun hc => absurd (congrArg R3.x hc) n4⟩
    · exact ⟨Or.inr d4', Or.inr d4, fun hc => absurd (congrArg R3.x hc).symm n4⟩
    · exact ⟨Or.inl rfl, Or.inl rfl, fun _ => by rcases e1 with rfl | rfl <;> rcases f1 with rfl | rfl <;> simp [Prod.swap]⟩
    · exact ⟨Or.inl rfl, Or.inr d4, fun hc => absurd (congrArg R3.y hc) n4⟩
    · exact ⟨Or.inr d4', Or.inl rfl, fun hc => absurd (congrArg R3.x hc).symm n4⟩
    · exact ⟨Or.inl rfl, Or.inr d4', fun hc => absurd (congrArg R3.y hc).symm n4⟩
    · exact ⟨Or.inl rfl, Or.inl rfl, fun _ => by rcases e1 with rfl | rfl <;> rcases f1 with rfl | rfl <;> simp [Prod.swap]⟩

theorem exTetra_safe : FloatSafe tenth exTetra := by
  have ht := abs_le.1 tenth_near
  refine exTetra_safeAt (isF_rd (by rw [abs_of_pos] <;> norm_num)) (10 ^ 7) ?_ ?_ ?_
  · rw [abs_le]; push_cast; constructor <;> linarith [ht.1, ht.2]
  · linarith [ht.1]
  · linarith [ht.2]

/-- the hypotheses are met, and there is something to assemble -/
example : Watertight exTetra ∧ (∀ t ∈ exTetra, t.nrm ≠ 0) ∧ FloatSafe tenth exTetra ∧
    ∃ e ∈ dirEdges exTetra, crossesAt tenth e := by
  refine ⟨exTetra_ok.1, exTetra_ok.2.1, exTetra_safe, (⟨4, 0, 0⟩, ⟨0, 0, 4⟩), by rw [exTetra_edges]; simp, Or.inl ⟨?_, ?_⟩⟩
  · have := abs_le.1 tenth_near
    rw [height_lvl]
    norm_num at *
    linarith
  · have := abs_le.1 tenth_near
    rw [height_lvl]
    norm_num at *
    linarith

end Goosli
