import Verif.Props.C89
import Verif.Props.C95
/-!
# C101: in `float64` the contours of a layer enclose the material of the model
-/
set_option linter.unusedSectionVars false
set_option autoImplicit false
namespace Goosli
open Flt R3

/-! ## the contours before merging -/

/-- the section of a triangle as the program stores it -/
noncomputable def storedSegF (s : R3 × R3) : Path B64 := ⟨[(storedAt s.1).f64, (storedAt s.2).f64]⟩

theorem stored_f64 (c : R3) : c.round8.f64 = (storedAt c).f64 := by
  simp only [R3.f64, R3.round8, storedAt]
  rw [of_r8, of_r8, of_r8]

theorem sectionPaths_f64 {h : ℝ} {ts : List RTri} (H : FloatSafe h ts) (hdeg : ∀ t ∈ ts, t.nrm ≠ 0) :
    sectionPaths (levelF h) (fmesh ts).triangles = (ts.filterMap (secOf (lvl h) zUp)).map storedSegF := by
  have key : ∀ t ∈ ts, ((levelF h).intersectTriangle t.f64).map (fun l => (⟨[l.p1, l.p2]⟩ : Path B64)) =
      (secOf (lvl h) zUp t).map storedSegF := by
    intro t ht
    rcases triangle_f64 H ht (hdeg t ht) with ⟨h1, h2, h3⟩ | ⟨e, f, h1, h2, h3⟩
    · rw [h1]; unfold secOf; rw [h2, h3]; rfl
    · rw [h1]; unfold secOf; rw [h2, h3]
      simp only [Option.map_some, storedSegF, stored_f64]
  unfold sectionPaths fmesh
  rw [List.filterMap_map, List.map_filterMap]
  exact List.filterMap_congr fun t ht => key t ht

theorem FloatSafe.crossPoint {h : ℝ} {ts : List RTri} (H : FloatSafe h ts) {u : R3} (hu : CrossPoint (lvl h) zUp ts u) :
    u.inRange ∧ u.z = h := by
  obtain ⟨e, he, ce, rfl⟩ := hu
  exact ⟨H.crossRange he ce, (crossAt_lvl ce).2.1⟩

theorem FloatSafe.same {h : ℝ} {ts : List RTri} (H : FloatSafe h ts) {u v : R3} (hu : CrossPoint (lvl h) zUp ts u)
    (hv : CrossPoint (lvl h) zUp ts v) (he : (storedAt u).f64.equal (storedAt v).f64 = true) : u = v := by
  have ru := H.crossPoint hu
  have rv := H.crossPoint hv
  obtain ⟨e, me, ce, rfl⟩ := hu
  obtain ⟨f, mf, cf, rfl⟩ := hv
  obtain ⟨a1, a2, _⟩ := H.apart e me f mf ce cf
  by_contra hne
  have := stored_apart ru.1 rv.1 (apart_sep a1 a2 fun h => hne (R3.ext h.1 h.2 (ru.2.trans rv.2.symm)))
  rw [stored_f64, stored_f64, he] at this
  cases this

theorem storedAt_isF {c : R3} (hc : c.inRange) : (storedAt c).isF ∧ (storedAt c).inBox :=
  ⟨⟨(store_err hc.1).2.2, (store_err hc.2.1).2.2, (store_err hc.2.2).2.2⟩,
   ⟨(store_err hc.1).2.1, (store_err hc.2.1).2.1, (store_err hc.2.2).2.1⟩⟩

theorem FloatSafe.sameF {h : ℝ} {ts : List RTri} (H : FloatSafe h ts) {u v : R3} (hu : CrossPoint (lvl h) zUp ts u)
    (hv : CrossPoint (lvl h) zUp ts v) (he : (storedAt u).f64 = (storedAt v).f64) : u = v :=
  H.same hu hv (by rw [he]; exact equal_f64 (storedAt_isF (H.crossPoint hv).1).1)

theorem concat_storedF (es : List (R3 × R3)) : concatPath (es.map storedSegF) = ⟨(contourOf es).map fun w => (storedAt w).f64⟩ := by
  cases es with
  | nil => rfl
  | cons s t =>
    have : ∀ t : List (R3 × R3), (t.map storedSegF).flatMap (fun q => q.points.tail) = t.map fun s => (storedAt s.2).f64 := by
      intro t
      induction t with
      | nil => rfl
      | cons a t ih => simp only [List.map_cons, List.flatMap_cons, ih]; rfl
    simp only [List.map_cons, concatPath, contourOf, this]
    simp [storedSegF, List.map_map, Function.comp_def]

/-- **C101, before merging.** The contours assembled in `float64` are, up to the storing of their corners, closed contours the sides of
which are the exact sections of the triangles, each used once. -/
theorem C101_contours (S : Sorter) (ts : List RTri) (h : ℝ) (hw : Watertight ts) (hdeg : ∀ t ∈ ts, t.nrm ≠ 0) (H : FloatSafe h ts)
    (p : List (Path B64)) (hp : p.Perm (sectionPaths (levelF h) (fmesh ts).triangles)) :
    ∃ cs : List (List R3), joinPaths3 S p = .ok (cs.map fun c => ⟨c.map fun w => (storedAt w).f64⟩) ∧
      (∀ c ∈ cs, 2 ≤ c.length ∧ c.head? = c.getLast?) ∧ (cs.flatMap sides).Perm (ts.filterMap (secOf (lvl h) zUp)) := by
  obtain ⟨out', ho', hcl⟩ := C94_closed S ts h hw hdeg H p hp
  rw [sectionPaths_f64 H hdeg] at hp
  set E := ts.filterMap (secOf (lvl h) zUp) with hE
  have hX : ∀ s ∈ E, CrossPoint (lvl h) zUp ts s.1 ∧ CrossPoint (lvl h) zUp ts s.2 := by
    intro s hs
    obtain ⟨t, ht, h⟩ := List.mem_filterMap.1 hs
    exact secOf_cross ht h
  have inj : ∀ a ∈ E, ∀ b ∈ E, storedSegF a = storedSegF b → a = b := by
    intro a ha b hb h
    simp only [storedSegF, Path.mk.injEq, List.cons.injEq, and_true] at h
    exact Prod.ext (H.sameF (hX a ha).1 (hX b hb).1 h.1) (H.sameF (hX a ha).2 (hX b hb).2 h.2)
  have two : ∀ q ∈ p, q.points.length = 2 := by
    intro q hq
    obtain ⟨s, _, rfl⟩ := List.mem_map.1 (hp.mem_iff.1 hq)
    rfl
  obtain ⟨out, groups, ho, hgp, hne, hog, _, hch⟩ := C13_join_conserves S p (by
    intro q hq h; have := two q hq; rw [h] at this; cases this)
  have hch := hch fun q hq => (two q hq).ge
  rw [ho] at ho'
  injection ho' with ho'
  subst ho'
  obtain ⟨gs, hgs, hgr⟩ := pull_groups storedSegF E inj groups (hgp.trans hp)
  have hmem : ∀ g ∈ gs, ∀ s ∈ g, s ∈ E := fun g hg s hs => hgs.mem_iff.1 (List.mem_flatten.2 ⟨g, hg, hs⟩)
  have hchain : ∀ g ∈ gs, g.IsChain (fun a b => a.2 = b.1) := by
    intro g hg
    have hc := hch (g.map storedSegF) (by rw [hgr]; exact List.mem_map_of_mem hg)
    rw [List.isChain_map] at hc
    have hm := hmem g hg
    clear hg
    induction g with
    | nil => exact .nil
    | cons a t ih =>
      cases t with
      | nil => exact .singleton _
      | cons b t =>
        cases hc with
        | cons_cons h1 h2 =>
          refine .cons_cons ?_ (ih h2 fun s hs => hm s (by simp [hs]))
          obtain ⟨x, y, hx, hy, hxy⟩ := h1
          simp [storedSegF] at hx hy
          subst hx; subst hy
          exact H.same (hX a (hm a (by simp))).2 (hX b (hm b (by simp))).1 hxy
  refine ⟨gs.map contourOf, ?_, ?_, ?_⟩
  · rw [ho, hog, hgr, List.map_map, List.map_map]
    congr 1
    exact List.map_congr_left fun g _ => concat_storedF g
  · intro c hc
    obtain ⟨g, hg, rfl⟩ := List.mem_map.1 hc
    have hgne : g ≠ [] := by
      rintro rfl
      exact hne [] (by rw [hgr]; exact List.mem_map.2 ⟨[], hg, rfl⟩) rfl
    obtain ⟨_, hl, hh⟩ := hcl (concatPath (g.map storedSegF)) (by
      rw [hog, hgr]; exact List.mem_map_of_mem (List.mem_map_of_mem hg))
    rw [concat_storedF] at hl hh
    simp only [List.length_map, List.head?_map, List.getLast?_map] at hl hh
    refine ⟨hl, ?_⟩
    have hcp : ∀ w ∈ contourOf g, CrossPoint (lvl h) zUp ts w := by
      intro w hw
      cases g with
      | nil => exact absurd rfl hgne
      | cons s t =>
        simp only [contourOf, List.mem_cons, List.mem_map] at hw
        rcases hw with rfl | ⟨r, hr, rfl⟩
        · exact (hX s (hmem _ hg s (by simp))).1
        · exact (hX r (hmem _ hg r (by simpa using hr))).2
    cases h1 : (contourOf g).head? with
    | none => rw [List.head?_eq_none_iff] at h1; rw [h1] at hl; simp at hl
    | some a =>
      cases h2 : (contourOf g).getLast? with
      | none => rw [List.getLast?_eq_none_iff] at h2; rw [h2] at hl; simp at hl
      | some b =>
        rw [h1, h2] at hh
        simp only [Option.map_some, Option.some.injEq] at hh
        rw [H.sameF (hcp a (List.mem_of_mem_head? h1)) (hcp b (List.mem_of_mem_getLast? h2)) hh]
  · have : (gs.map contourOf).flatMap sides = gs.flatten := by
      rw [List.flatMap_map, ← List.flatMap_id']
      exact List.flatMap_congr fun g hg => sides_contourOf g (hchain g hg)
    rw [this]; exact hgs

/-! ## merging collinear sides -/

theorem mul_box_err {p q : ℝ} (hp : |p| ≤ 2200) (hq : |q| ≤ 2200) :
    |rd (rd p * rd q) - p * q| ≤ 20 / 10 ^ 10 ∧ |rd p * rd q| ≤ 5 * 10 ^ 6 ∧ |rd (rd p * rd q)| ≤ 5 * 10 ^ 6 + 1 := by
  have e1 := rd_err (by norm_num) hp
  have e2 := rd_err (by norm_num) hq
  have b1 := rd_bound (by norm_num) hp
  have b2 := rd_bound (by norm_num) hq
  have m := abs_mul_sub_mul p q (rd p) (rd q)
  have m1 : |rd p - p| * |rd q| ≤ 2200 * (12 / 10 ^ 17) * (2200 * (1 + 12 / 10 ^ 17)) := mul_le_mul e1 b2 (abs_nonneg _) (by norm_num)
  have m2 : |p| * |rd q - q| ≤ 2200 * (2200 * (12 / 10 ^ 17)) := mul_le_mul hp e2 (abs_nonneg _) (by norm_num)
  have b3 : |rd p * rd q| ≤ 5 * 10 ^ 6 := by
    rw [abs_mul]
    refine (mul_le_mul b1 b2 (abs_nonneg _) (by norm_num)).trans (by norm_num)
  have e3 := rd_err (by norm_num) b3
  have b4 := rd_bound (by norm_num) b3
  refine ⟨?_, b3, by norm_num at *; linarith⟩
  have t := abs_add_le (rd (rd p * rd q) - rd p * rd q) (rd p * rd q - p * q)
  rw [sub_add_sub_cancel] at t
  norm_num at *
  linarith

/-- sides of a level contour are taken for collinear only if the triangle they span has an area of less than `5.1e-7` -/
theorem collinear_f64 {u v w : R3} (hu : u.isF) (hv : v.isF) (hw : w.isF) (bu : u.inBox) (bv : v.inBox) (bw : w.inBox)
    (huv : u.z = v.z) (hvw : v.z = w.z) (h : (Line.mk u.f64 v.f64).isCollinear (Line.mk v.f64 w.f64) = true) :
    |(v - u).cross2 (w - v)| < 102 / 10 ^ 8 := by
  have d : ∀ {x y : ℝ}, |x| ≤ 1100 → |y| ≤ 1100 → |x - y| ≤ 2200 := by
    intro x y hx hy; have := abs_sub_range hx hy; linarith
  have ux := d bv.1 bu.1
  have uy := d bv.2.1 bu.2.1
  have wx := d bw.1 bv.1
  have wy := d bw.2.1 bv.2.1
  have F : ∀ {x : ℝ}, |x| ≤ 2200 → IsF (rd x) := fun h => isF_rd (h.trans (by norm_num))
  have F0 := isF_zero
  obtain ⟨a1, a2, a3⟩ := mul_box_err ux wy
  obtain ⟨b1, b2, b3⟩ := mul_box_err uy wx
  have FA : IsF (rd (rd (v.x - u.x) * rd (w.y - v.y))) := isF_rd (a2.trans (by norm_num))
  have FB : IsF (rd (rd (v.y - u.y) * rd (w.x - v.x))) := isF_rd (b2.trans (by norm_num))
  have hs : |rd (rd (v.x - u.x) * rd (w.y - v.y)) - rd (rd (v.y - u.y) * rd (w.x - v.x))| ≤ 11 * 10 ^ 6 := by
    have := abs_sub (rd (rd (v.x - u.x) * rd (w.y - v.y))) (rd (rd (v.y - u.y) * rd (w.x - v.x)))
    linarith
  set m := rd (rd (rd (v.x - u.x) * rd (w.y - v.y)) - rd (rd (v.y - u.y) * rd (w.x - v.x))) with hm
  have em := rd_err (by norm_num) hs
  have Bm := rd_bound (by norm_num) hs
  rw [← hm] at em Bm
  have Fm : IsF m := isF_rd (hs.trans (by norm_num))
  have hc : ((Line.mk u.f64 v.f64).toVector.cross (Line.mk v.f64 w.f64).toVector) = ⟨B64.of 0, B64.of 0, B64.of m⟩ := by
    show (⟨(B64.of v.y - B64.of u.y) * (B64.of w.z - B64.of v.z) - (B64.of v.z - B64.of u.z) * (B64.of w.y - B64.of v.y),
      (B64.of v.z - B64.of u.z) * (B64.of w.x - B64.of v.x) - (B64.of v.x - B64.of u.x) * (B64.of w.z - B64.of v.z),
      (B64.of v.x - B64.of u.x) * (B64.of w.y - B64.of v.y) - (B64.of v.y - B64.of u.y) * (B64.of w.x - B64.of v.x)⟩ : Vec B64) = _
    rw [B64.sub_of hv.1 hu.1, B64.sub_of hv.2.1 hu.2.1, B64.sub_of hv.2.2 hu.2.2, B64.sub_of hw.1 hv.1, B64.sub_of hw.2.1 hv.2.1,
      B64.sub_of hw.2.2 hv.2.2, huv, hvw, sub_self, rd_zero, B64.mul_of (F uy) F0, B64.mul_of F0 (F wy), B64.mul_of F0 (F wx),
      B64.mul_of (F ux) F0, B64.mul_of (F ux) (F wy), B64.mul_of (F uy) (F wx), mul_zero, mul_zero, zero_mul, zero_mul, rd_zero,
      B64.sub_of F0 F0, sub_zero, rd_zero, B64.sub_of FA FB]
  have hmm : |m * m| ≤ 2 ^ 100 := by
    rw [abs_mul]
    have : |m| ≤ 2 * 10 ^ 7 := Bm.trans (by norm_num)
    have := mul_le_mul this this (abs_nonneg _) (by norm_num)
    exact this.trans (by norm_num)
  have hl : ((Line.mk u.f64 v.f64).toVector.cross (Line.mk v.f64 w.f64).toVector).length = B64.of (rd (Real.sqrt (rd (m * m)))) := by
    rw [hc]
    show Flt.sqrt (B64.of 0 * B64.of 0 + B64.of 0 * B64.of 0 + B64.of m * B64.of m) = _
    rw [B64.mul_of F0 F0, mul_zero, rd_zero, B64.add_of F0 F0, add_zero, rd_zero, B64.mul_of Fm Fm, B64.add_of F0 (isF_rd hmm),
      zero_add, rd_rd, B64.sqrt_of (isF_rd hmm) (rd_nonneg (mul_self_nonneg m))]
  unfold Line.isCollinear at h
  rw [hl] at h
  by_contra hlt
  push Not at hlt
  have hx : 101 / 10 ^ 8 ≤ |m| := by
    have e : (v - u).cross2 (w - v) = (v.x - u.x) * (w.y - v.y) - (v.y - u.y) * (w.x - v.x) := by simp [R3.cross2]
    rw [e] at hlt
    have t : |(v.x - u.x) * (w.y - v.y) - (v.y - u.y) * (w.x - v.x)| ≤ |m| + 1 / 10 ^ 8 := by
      have := abs_le.1 a1
      have := abs_le.1 b1
      have := abs_le.1 em
      have h1 : |((v.x - u.x) * (w.y - v.y) - (v.y - u.y) * (w.x - v.x)) - m| ≤ 1 / 10 ^ 8 := by
        rw [abs_le]
        norm_num at *
        constructor <;> linarith
      have := abs_sub_abs_le_abs_sub ((v.x - u.x) * (w.y - v.y) - (v.y - u.y) * (w.x - v.x)) m
      linarith
    norm_num at *
    linarith
  have q1 : (1005 / 10 ^ 9) ^ 2 ≤ rd (m * m) := by
    have h1 : (101 / 10 ^ 8) ^ 2 ≤ m * m := by
      rw [← abs_mul_abs_self m, ← sq]
      exact pow_le_pow_left₀ (by norm_num) hx 2
    refine le_trans ?_ (rd_mono h1)
    have h2 := abs_le.1 (rd_error ((101 / 10 ^ 8 : ℝ) ^ 2))
    have h3 := tiny_le
    generalize (1 : ℝ) / 2 ^ 1075 = t at *
    rw [abs_of_pos (by norm_num)] at h2
    norm_num at *
    linarith
  have q2 : 1005 / 10 ^ 9 ≤ Real.sqrt (rd (m * m)) := Real.le_sqrt_of_sq_le q1
  have q3 : 1004 / 10 ^ 9 ≤ rd (Real.sqrt (rd (m * m))) := by
    refine le_trans ?_ (rd_mono q2)
    have h2 := abs_le.1 (rd_error (1005 / 10 ^ 9 : ℝ))
    have h3 := tiny_le
    generalize (1 : ℝ) / 2 ^ 1075 = t at *
    rw [abs_of_pos (by norm_num)] at h2
    norm_num at *
    linarith
  have FS : IsF (rd (Real.sqrt (rd (m * m)))) := by
    refine isF_rd ?_
    rw [abs_of_nonneg (Real.sqrt_nonneg _)]
    refine Real.sqrt_le_iff.2 ⟨by norm_num, ?_⟩
    exact (le_trans (le_abs_self _) (rd_bound (by norm_num) hmm)).trans (by norm_num)
  rw [B64.almostZero_of FS, decide_eq_true_eq, abs_of_nonneg (by linarith)] at h
  have := rd_tol_le.1
  norm_num at *
  linarith

/-! ## the contours as they are stored -/

/-- seen from above, `x` is in no triangle of stored crossing points with an area of less than `5.1e-7` -/
def OffThinCuts (h : ℝ) (ts : List RTri) (x : R3) : Prop :=
  ∀ a b c, CrossPoint (lvl h) zUp ts a → CrossPoint (lvl h) zUp ts b → CrossPoint (lvl h) zUp ts c →
    storedAt a ≠ storedAt b → storedAt b ≠ storedAt c → storedAt a ≠ storedAt c →
    |(storedAt b - storedAt a).cross2 (storedAt c - storedAt b)| < 102 / 10 ^ 8 → ¬ InTri2 x (storedAt a) (storedAt b) (storedAt c)

/-- the contours `cs` are the cross-section of the model at height `h`: they are closed, their corners are stored crossing points of edges
with the plane, and a point of the plane farther than `1e-8` from the surface and in no thin triangle is off them, and inside an odd number
of them exactly if it is in the material -/
def BoundMaterialF (h : ℝ) (ts : List RTri) (cs : List (List R3)) : Prop :=
  (∀ c ∈ cs, c ≠ [] ∧ c.head? = c.getLast? ∧ ∀ w ∈ c, ∃ a, CrossPoint (lvl h) zUp ts a ∧ w = storedAt a) ∧
  ∀ x : R3, x.z = h → FarFromSurface (1 / 10 ^ 8) (lvl h) zUp ts x → OffThinCuts h ts x →
    (∀ c ∈ cs, ¬ OnContour x c) ∧ (InsideOdd x cs ↔ InMaterial (lvl h) zUp ts x)

/-- a contour of real points that the numbers of the program represent -/
noncomputable def fpath (c : List R3) : Path B64 := ⟨c.map R3.f64⟩

theorem storedAt_moved {c : List R3} (hc : ∀ w ∈ c, w.inRange) : MovedBy (1 / 10 ^ 8) c (c.map storedAt) := by
  unfold MovedBy
  rw [List.forall₂_map_right_iff, List.forall₂_same]
  intro w hw
  have h1 := abs_le.1 (store_err (hc w hw).1).1
  have h2 := abs_le.1 (store_err (hc w hw).2.1).1
  simp only [R3.distSq2, storedAt]
  generalize rd (r8 w.x) - w.x = a at *
  generalize rd (r8 w.y) - w.y = b at *
  norm_num at h1 h2 ⊢
  nlinarith

/-- **C101, one plane.** The contours of a horizontal cut computed in `float64`: they are closed, their corners are stored crossing points, and
they enclose the material of the model for every point that is farther than 1e-8 from the surface and in no thin triangle. -/
theorem C101_bound (S : Sorter) (ts : List RTri) (h : ℝ) (hw : Watertight ts) (hdeg : ∀ t ∈ ts, t.nrm ≠ 0) (H : FloatSafe h ts)
    (p : List (Path B64)) (hp : p.Perm (sectionPaths (levelF h) (fmesh ts).triangles)) :
    ∃ cs : List (List R3), joinPaths3AndMinimize S p = .ok (cs.map fpath) ∧ BoundMaterialF h ts cs := by
  have hN : zUp.z ≠ 0 := by simp [zUp]
  have hz : ∀ x : R3, R3.height (lvl h) zUp x = x.z - h := by
    intro x; simp [R3.height, R3.dot, zUp, lvl]
  obtain ⟨cs, ho, hc, hperm⟩ := C101_contours S ts h hw hdeg H p hp
  have hoff : ∀ w ∈ allVerts ts, R3.height (lvl h) zUp w ≠ 0 := H.offPlane
  have hcross : ∀ c ∈ cs, ∀ w ∈ c, CrossPoint (lvl h) zUp ts w := by
    intro c h w hw
    obtain ⟨q, hq, hwq⟩ := corner_side (hc c h).1 hw
    obtain ⟨t, ht, hs⟩ := List.mem_filterMap.1 (hperm.mem_iff.1 (List.mem_flatMap.2 ⟨c, h, hq⟩))
    obtain ⟨c1, c2⟩ := secOf_cross ht hs
    rcases hwq with rfl | rfl
    · exact c1
    · exact c2
  have hslim : ∀ c ∈ cs, MergesSlim R3.f64 (fun u v w => |(v - u).cross2 (w - v)| < 102 / 10 ^ 8) (c.map storedAt) := by
    intro c hm u hu v hv w hw hcol
    obtain ⟨u, mu, rfl⟩ := List.mem_map.1 hu
    obtain ⟨v, mv, rfl⟩ := List.mem_map.1 hv
    obtain ⟨w, mw, rfl⟩ := List.mem_map.1 hw
    have ru := H.crossPoint (hcross c hm u mu)
    have rv := H.crossPoint (hcross c hm v mv)
    have rw' := H.crossPoint (hcross c hm w mw)
    exact collinear_f64 (storedAt_isF ru.1).1 (storedAt_isF rv.1).1 (storedAt_isF rw'.1).1 (storedAt_isF ru.1).2 (storedAt_isF rv.1).2
      (storedAt_isF rw'.1).2 (by simp only [storedAt, ru.2, rv.2]) (by simp only [storedAt, rv.2, rw'.2]) hcol
  obtain ⟨cs', hcs'⟩ := exists_map (fun (c c' : List R3) => (fpath (c.map storedAt)).minimizeLines = fpath c' ∧ c' ≠ [] ∧ c'.head? = c'.getLast? ∧
      (∀ w ∈ c', w ∈ c.map storedAt) ∧
      ∀ x, ¬ OnContour x (c.map storedAt) → OffSlimBy (fun u v w => |(v - u).cross2 (w - v)| < 102 / 10 ^ 8) x (c.map storedAt) →
        ¬ OnContour x c' ∧ (Within x (c.map storedAt) ↔ Within x c')) cs
    fun c h => minimize_inside (c.map storedAt) (hslim c h) (by rw [List.length_map]; exact (hc c h).1) (by
      rw [List.head?_map, List.getLast?_map, (hc c h).2])
  refine ⟨cs', ?_, ?_, ?_⟩
  · unfold joinPaths3AndMinimize
    rw [ho]
    show Except.ok _ = _
    congr 1
    rw [List.map_map]
    clear ho hc hperm hcross hslim
    induction hcs' with
    | nil => rfl
    | cons h _ ih =>
      simp only [List.map_cons, ih]
      rw [← h.1]
      simp [fpath, Function.comp_def]
  · intro c' hm
    obtain ⟨c, h, hr⟩ := forall₂_mem_right hcs' hm
    obtain ⟨-, h1, h2, h3, -⟩ := hr
    refine ⟨h1, h2, fun w hw => ?_⟩
    obtain ⟨a, ha, rfl⟩ := List.mem_map.1 (h3 w hw)
    exact ⟨a, hcross c h a ha, rfl⟩
  · intro x hx hfar hthin
    have hx : R3.height (lvl h) zUp x = 0 := by rw [hz, hx, sub_self]
    have hf : ∀ c ∈ cs, FarFrom (1 / 10 ^ 8) x c := by
      intro c h q hq r h0 h1
      obtain ⟨t, ht, hs⟩ := List.mem_filterMap.1 (hperm.mem_iff.1 (List.mem_flatMap.2 ⟨c, h, hq⟩))
      have hv := fun w hw => hoff w (List.mem_flatMap.2 ⟨t, ht, hw⟩)
      obtain ⟨c1, c2⟩ := secOf_cross ht hs
      have hz := height_between (crossPoint_height c1) (crossPoint_height c2) r
      exact hfar t ht _ ((onTri_secOf _ zUp t (hv _ (by simp [RTri.verts])) (hv _ (by simp [RTri.verts])) (hv _ (by simp [RTri.verts]))
        _ hz).2 ⟨q, hs, r, h0, h1, rfl⟩) hz
    have hmoved : ∀ c ∈ cs, ¬ OnContour x (c.map storedAt) ∧ (Within x c ↔ Within x (c.map storedAt)) := by
      intro c hm
      have mv := storedAt_moved fun w hw => (H.crossPoint (hcross c hm w hw)).1
      refine (C87_moved (hc c hm).1 (hc c hm).2 ?_ mv (hf c hm)).2
      rw [List.head?_map, List.getLast?_map, (hc c hm).2]
    have hio := insideOdd_map (x := x) (List.map storedAt) cs fun c hm => (hmoved c hm).2
    have hso : ∀ c ∈ cs, OffSlimBy (fun u v w => |(v - u).cross2 (w - v)| < 102 / 10 ^ 8) x (c.map storedAt) := by
      intro c h u hu v hv w hw n1 n2 n3 hn
      obtain ⟨u, mu, rfl⟩ := List.mem_map.1 hu
      obtain ⟨v, mv, rfl⟩ := List.mem_map.1 hv
      obtain ⟨w, mw, rfl⟩ := List.mem_map.1 hw
      exact hthin u v w (hcross c h u mu) (hcross c h v mv) (hcross c h w mw) n1 n2 n3 hn
    have hsurf : ∀ t ∈ ts, ¬ OnTri t x := by
      intro t ht hon
      have := hfar t ht x hon hx
      simp [R3.distSq2] at this
      norm_num at this
    have h1 : InsideOdd x (cs.map (List.map storedAt)) ↔ InsideOdd x cs' := by
      refine insideOdd_forall₂ (List.forall₂_map_left_iff.2 ?_)
      refine forall₂_imp_mem hcs' fun c c' h hr => (hr.2.2.2.2 x (hmoved c h).1 (hso c h)).2
    refine ⟨?_, ?_⟩
    · intro c' hm
      obtain ⟨c, h, hr⟩ := forall₂_mem_right hcs' hm
      exact (hr.2.2.2.2 x (hmoved c h).1 (hso c h)).1
    · rw [← h1, ← hio]
      constructor
      · intro hi
        obtain ⟨d, hd, hg⟩ := exists_ray (P := lvl h) (x := x) hN ts fun w hw => by
          obtain ⟨t, ht, hon⟩ := crossPoint_onTri hw
          have := hfar t ht w hon (crossPoint_height hw)
          by_contra hn
          push Not at hn
          simp [R3.distSq2, hn.1, hn.2] at this
          norm_num at this
        exact ⟨d, hd, hg, (contours_bound hN hoff hc hperm hx hsurf hd hg).1 hi⟩
      · rintro ⟨d, hd, hg, h⟩
        exact (contours_bound hN hoff hc hperm hx hsurf hd hg).2 h

/-- **C101.** Slicing a watertight mesh along the vertical in `float64`, supports off: if every plane keeps the distances of `FloatSafe`, the
contours of the layer of the plane number `m` enclose the material of the model at its height. Only an empty first and an empty last layer
are dropped. -/
theorem C101_slice (S : Sorter) (A : Arrival B64) (ts : List RTri) (lo hi t : ℝ) (hw : Watertight ts) (hdeg : ∀ t ∈ ts, t.nrm ≠ 0)
    (he : Extent ts zUp lo hi) (hh : 1 / 10 ^ 6 ≤ hi - lo) (tF : IsF t) (t0 : 1 / 1000 ≤ t) (t1 : t ≤ 1000)
    (sett : Settings B64) (ht : sett.layerHeight = B64.of t) (hs : sett.supportsOn = false)
    (hF : ∀ w ∈ allVerts ts, w.isF) (hR : ∀ w ∈ allVerts ts, w.inRange)
    (hsafe : ∀ m : ℕ, (m : ℤ) < floatCount lo hi t → FloatSafe (floatLevel lo hi t m) ts) :
    ∃ full : List (Layer B64), (full.length : ℤ) = floatCount lo hi t ∧
      (∀ (m : ℕ) (l : Layer B64), full[m]? = some l → l.order = m ∧ l.norm = zUp.f64v ∧ l.middlePs = [] ∧ l.innerPs = [] ∧ l.fill = [] ∧
        ∃ cs, l.paths = cs.map fpath ∧ BoundMaterialF (floatLevel lo hi t m) ts cs) ∧
      (2 ≤ full.length → ∃ layers, sliceByVector S A (some (fmesh ts)) zUp.f64v sett = .ok layers) ∧
      ∀ layers, sliceByVector S A (some (fmesh ts)) zUp.f64v sett = .ok layers →
        ∃ pre post, full = pre ++ layers ++ post ∧ pre.length ≤ 1 ∧ post.length ≤ 1 ∧
          (∀ l ∈ pre, l.paths = []) ∧ (∀ l ∈ post, l.paths = []) := by
  refine slice_layers S A ts lo hi t he hh tF t0 t1 sett ht hs hF hR (fun m l => l.order = m ∧ l.norm = zUp.f64v ∧ l.middlePs = [] ∧ l.innerPs = [] ∧ l.fill = [] ∧
    ∃ cs, l.paths = cs.map fpath ∧ BoundMaterialF (floatLevel lo hi t m) ts cs) hsafe fun m j m1 ho hp hp2 => ?_
  obtain ⟨cs, h1, h2⟩ := C101_bound S ts _ hw hdeg (hsafe m m1) (jobPaths j) hp2
  refine ⟨⟨j.order, j.plane.n, cs.map fpath, [], [], []⟩, ?_, congrArg Int.ofNat ho, by rw [hp]; rfl, rfl, rfl, rfl, cs, rfl, h2⟩
  unfold runJob
  rw [h1]; rfl

/-! ## Non-vacuity -/

theorem exTetra_safe1 : FloatSafe 1 exTetra :=
  exTetra_safeAt isF_one (10 ^ 8) (by norm_num) (by norm_num) (by norm_num)

theorem exTetra_thin : OffThinCuts 1 exTetra ⟨1, 1 / 2, 1⟩ := by
  have key : ∀ w, CrossPoint (lvl 1) zUp exTetra w → storedAt w = ⟨0, 0, 1⟩ ∨ storedAt w = ⟨3, 0, 1⟩ ∨ storedAt w = ⟨0, 3, 1⟩ := by
    intro w hw
    have r3 : rd 3 = 3 := rd_of_rep (by simpa using rep_int (n := 3) (by norm_num))
    have r1 : rd 1 = 1 := rd_of_rep isF_one.1
    have e : storedAt w = ⟨rd w.round8.x, rd w.round8.y, rd w.round8.z⟩ := rfl
    rcases exTetra_cuts (w := w) hw with h | h | h <;> rw [e, h] <;> simp [r1, r3, rd_zero]
  intro a b c ha hb hc n1 n2 n3 hn
  rcases key a ha with h1 | h1 | h1 <;> rcases key b hb with h2 | h2 | h2 <;> rcases key c hc with h3 | h3 | h3 <;>
    first
    | exact absurd (h1.trans h2.symm) n1
    | exact absurd (h2.trans h3.symm) n2
    | exact absurd (h1.trans h3.symm) n3
    | (rw [h1, h2, h3] at hn; norm_num [R3.cross2] at hn)

/-- the tetrahedron cut at height 1 in `float64`: the contours have the point `(1, 0.5)` inside -/
example (S : Sorter) : ∃ cs : List (List R3), joinPaths3AndMinimize S (sectionPaths (levelF 1) (fmesh exTetra).triangles) = .ok (cs.map fpath) ∧
    cs ≠ [] ∧ InsideOdd ⟨1, 1 / 2, 1⟩ cs := by
  obtain ⟨cs, h1, _, h2⟩ := C101_bound S exTetra 1 exTetra_ok.1 exTetra_ok.2.1 exTetra_safe1 _ (.refl _)
  have h3 := ((h2 ⟨1, 1 / 2, 1⟩ rfl exTetra_material.1 exTetra_thin).2).2 exTetra_material.2.2.1
  refine ⟨cs, h1, ?_, h3⟩
  rintro rfl
  simp [InsideOdd] at h3

end Goosli
