import Verif.Props.C105
import Verif.Props.C111

/-!
# C115: the file prints nothing outside the model's bounding box

C104 bounds the deviation of the nozzle from a path by `0.0005 + 0.001 i` at the `i`-th point, since a coordinate that changes by less than
0.001 is not written (primitives/point.go:29-43); on a contour of thousands of short segments this says little.  Here: whatever is not written
keeps a value that was written for an earlier point, so each coordinate of the nozzle is, with three decimals, the coordinate of some point of
the path.  The deviation never adds up to leaving the path's bounding box: every print move of the file of a vertical run stays within
`0.000501` mm of the bounding box of the model, and within `0.000501` mm of its layer's height — on every machine.
-/

set_option autoImplicit false

namespace Goosli

open Flt R3 Spec

/-- each coordinate of `w` is between those of `p` and `q`, up to `δ` -/
def R3.inBoxBy (δ : ℝ) (p q w : R3) : Prop :=
  (p.x - δ ≤ w.x ∧ w.x ≤ q.x + δ) ∧ (p.y - δ ≤ w.y ∧ w.y ≤ q.y + δ) ∧ (p.z - δ ≤ w.z ∧ w.z ≤ q.z + δ)

/-- each coordinate of `w` is the three-decimals coordinate of some point of `c`, not necessarily of the same point -/
def FromPoints (c : List R3) (w : R3) : Prop :=
  (∃ a ∈ c, w.x = thousandth a.x) ∧ (∃ a ∈ c, w.y = thousandth a.y) ∧ ∃ a ∈ c, w.z = thousandth a.z

theorem coordAfter_cases (n a b : ℝ) : coordAfter n a b = n ∨ coordAfter n a b = thousandth b := by
  unfold coordAfter
  split
  · exact Or.inr rfl
  · exact Or.inl rfl

theorem FromPoints.nozzleTo {c : List R3} {n a b : R3} (h : FromPoints c n) (hb : b ∈ c) : FromPoints c (nozzleTo n a b) := by
  obtain ⟨h1, h2, h3⟩ := h
  refine ⟨?_, ?_, ?_⟩
  · show ∃ w ∈ c, coordAfter n.x a.x b.x = _
    rcases coordAfter_cases n.x a.x b.x with e | e
    · rw [e]; exact h1
    · exact ⟨b, hb, e⟩
  · show ∃ w ∈ c, coordAfter n.y a.y b.y = _
    rcases coordAfter_cases n.y a.y b.y with e | e
    · rw [e]; exact h2
    · exact ⟨b, hb, e⟩
  · show ∃ w ∈ c, coordAfter n.z a.z b.z = _
    rcases coordAfter_cases n.z a.z b.z with e | e
    · rw [e]; exact h3
    · exact ⟨b, hb, e⟩

theorem nozzleRun_from (c : List R3) : ∀ (ps : List R3), (∀ w ∈ ps, w ∈ c) → ∀ n : R3, FromPoints c n →
    ∀ q ∈ nozzleRun n ps, FromPoints c q.1 ∧ FromPoints c q.2 := by
  intro ps
  induction ps with
  | nil => intro _ n _ q hq; simp [nozzleRun] at hq
  | cons a t ih =>
    intro h n hn q hq
    cases t with
    | nil => simp [nozzleRun] at hq
    | cons b t =>
      have hb := hn.nozzleTo (a := a) (h b (by simp))
      rw [nozzleRun] at hq
      rcases List.mem_cons.1 hq with rfl | hq
      · exact ⟨hn, hb⟩
      · exact ih (fun w hw => h w (List.mem_cons_of_mem _ hw)) _ hb q hq

/-- **C115, no drift.** Each coordinate of the nozzle on its way along a path is a coordinate of a point of this path, with three decimals. -/
theorem C115_from (c : List R3) : ∀ q ∈ pathRun c, FromPoints c q.1 ∧ FromPoints c q.2 := by
  cases c with
  | nil => intro q hq; simp [pathRun] at hq
  | cons a t =>
    exact nozzleRun_from (a :: t) (a :: t) (fun w hw => hw) a.thousandth ⟨⟨a, by simp, rfl⟩, ⟨a, by simp, rfl⟩, ⟨a, by simp, rfl⟩⟩

theorem FromPoints.inBoxBy {c : List R3} {p q w : R3} {δ : ℝ} (h : FromPoints c w) (hc : ∀ a ∈ c, R3.inBoxBy δ p q a) :
    R3.inBoxBy (δ + 1 / 2000) p q w := by
  obtain ⟨⟨a, ha, ea⟩, ⟨b, hb, eb⟩, d, hd, ed⟩ := h
  have h1 := abs_le.1 (thousandth_near a.x)
  have h2 := abs_le.1 (thousandth_near b.y)
  have h3 := abs_le.1 (thousandth_near d.z)
  obtain ⟨⟨a1, a2⟩, -, -⟩ := hc a ha
  obtain ⟨-, ⟨b1, b2⟩, -⟩ := hc b hb
  obtain ⟨-, -, d1, d2⟩ := hc d hd
  refine ⟨?_, ?_, ?_⟩
  · rw [ea]; constructor <;> linarith [h1.1, h1.2]
  · rw [eb]; constructor <;> linarith [h2.1, h2.2]
  · rw [ed]; constructor <;> linarith [h3.1, h3.2]

/-- **C115, path.** The nozzle leaves no box that contains the path by more than half a thousandth, however long the path. -/
theorem C115_path (c : List R3) (p q : R3) (hc : ∀ a ∈ c, R3.inBoxBy 0 p q a) :
    ∀ s ∈ pathRun c, R3.inBoxBy (1 / 2000) p q s.1 ∧ R3.inBoxBy (1 / 2000) p q s.2 := by
  intro s hs
  have h := C115_from c s hs
  have h1 := h.1.inBoxBy hc
  have h2 := h.2.inBoxBy hc
  rw [zero_add] at h1 h2
  exact ⟨h1, h2⟩

/-! ## the corners of the contours and the ends of the fill lines -/

theorem between {x y l u s : ℝ} (s0 : 0 ≤ s) (s1 : s ≤ 1) (x0 : l ≤ x) (x1 : x ≤ u) (y0 : l ≤ y) (y1 : y ≤ u) :
    l ≤ x + s * (y - x) ∧ x + s * (y - x) ≤ u := by
  constructor
  · nlinarith [mul_nonneg s0 (sub_nonneg.2 y0), mul_nonneg (sub_nonneg.2 s1) (sub_nonneg.2 x0)]
  · nlinarith [mul_nonneg s0 (sub_nonneg.2 y1), mul_nonneg (sub_nonneg.2 s1) (sub_nonneg.2 x1)]

theorem crossPoint_box {h : ℝ} {ts : List RTri} {p q u : R3} (hV : ∀ w ∈ allVerts ts, R3.inBoxBy 0 p q w)
    (hu : CrossPoint (lvl h) zUp ts u) : R3.inBoxBy 0 p q u := by
  obtain ⟨e, he, ce, rfl⟩ := hu
  obtain ⟨hz, ez, ex, ey⟩ := crossAt_lvl ce
  obtain ⟨v1, v2⟩ := edge_verts he
  obtain ⟨⟨a1, a2⟩, ⟨a3, a4⟩, a5, a6⟩ := hV _ v1
  obtain ⟨⟨b1, b2⟩, ⟨b3, b4⟩, b5, b6⟩ := hV _ v2
  have s : 0 ≤ (h - e.1.z) / (e.2.z - e.1.z) ∧ (h - e.1.z) / (e.2.z - e.1.z) ≤ 1 := by
    rcases hz with ⟨z1, z2⟩ | ⟨z1, z2⟩
    · have : 0 < e.2.z - e.1.z := by linarith
      exact ⟨div_nonneg (by linarith) this.le, (div_le_one this).2 (by linarith)⟩
    · have : e.2.z - e.1.z < 0 := by linarith
      exact ⟨div_nonneg_of_nonpos (by linarith) this.le, (div_le_one_of_neg this).2 (by linarith)⟩
  refine ⟨?_, ?_, ?_⟩
  · rw [ex]; exact between s.1 s.2 a1 a2 b1 b2
  · rw [ey]; exact between s.1 s.2 a3 a4 b3 b4
  · rw [ez]
    rcases hz with ⟨z1, z2⟩ | ⟨z1, z2⟩ <;> constructor <;> linarith

theorem corner_box {h : ℝ} {ts : List RTri} {cs : List (List R3)} {p q : R3} (H : FloatSafe h ts) (hb : BoundMaterialF h ts cs)
    (hV : ∀ w ∈ allVerts ts, R3.inBoxBy 0 p q w) :
    ∀ c ∈ cs, ∀ w ∈ c, R3.inBoxBy (51 / 10 ^ 10) p q w ∧ |w.z - h| ≤ 51 / 10 ^ 10 := by
  intro c hc w hw
  obtain ⟨a, ha, rfl⟩ := (hb.1 c hc).2.2 w hw
  obtain ⟨⟨r1, r2, r3⟩, rz⟩ := H.crossPoint ha
  have e1 := abs_le.1 (store_err r1).1
  have e2 := abs_le.1 (store_err r2).1
  have e3 := abs_le.1 (store_err r3).1
  obtain ⟨⟨a1, a2⟩, ⟨a3, a4⟩, a5, a6⟩ := crossPoint_box hV ha
  have d : (1 : ℝ) / 2 / 10 ^ 8 + 2 / 10 ^ 13 ≤ 51 / 10 ^ 10 := by norm_num
  refine ⟨⟨?_, ?_, ?_⟩, ?_⟩
  · simp only [storedAt]; constructor <;> linarith [e1.1, e1.2]
  · simp only [storedAt]; constructor <;> linarith [e2.1, e2.2]
  · simp only [storedAt]; constructor <;> linarith [e3.1, e3.2]
  · simp only [storedAt]
    rw [← rz]
    exact abs_le.2 ⟨by linarith [e3.1], by linarith [e3.2]⟩

theorem fill_ends {h : ℝ} {ts : List RTri} {cs : List (List R3)} {planes segs : List (R3 × R3)} (hf : FillIsModelF h ts cs planes segs) :
    ∀ s ∈ segs, ∀ w ∈ [s.1, s.2], w.z = rd (r8 h) ∧ NearSide cs w := by
  obtain ⟨lines, l, hp, hl, he, -⟩ := hf
  intro s hs w hw
  replace hw : w = s.1 ∨ w = s.2 := by simpa using hw
  obtain ⟨u, hu, hsu⟩ : ∃ u ∈ l, s = u ∨ s = u.swap := by
    clear hp he
    induction hl with
    | nil => simp at hs
    | cons h _ ih =>
      rcases List.mem_cons.1 hs with rfl | hs
      · exact ⟨_, by simp, h⟩
      · obtain ⟨u, hu, e⟩ := ih hs
        exact ⟨u, by simp [hu], e⟩
  obtain ⟨f, hf, hu⟩ := List.mem_flatMap.1 (hp.mem_iff.1 hu)
  have := he f hf u hu w (by
    rcases hsu with rfl | rfl
    · exact hw
    · exact hw.symm)
  exact this.2.2

theorem fill_box {h : ℝ} {ts : List RTri} {cs : List (List R3)} {planes segs : List (R3 × R3)} {p q : R3} (H : FloatSafe h ts)
    (hb : BoundMaterialF h ts cs) (hf : FillIsModelF h ts cs planes segs) (hV : ∀ w ∈ allVerts ts, R3.inBoxBy 0 p q w) :
    ∀ s ∈ segs, ∀ w ∈ [s.1, s.2], R3.inBoxBy (52 / 10 ^ 10) p q w ∧ |w.z - h| ≤ 51 / 10 ^ 10 := by
  intro s hs w hw
  obtain ⟨hz, c, hc, e, he, t, t0, t1, ex, ey⟩ := fill_ends hf s hs w hw
  have m := mem_sides he
  obtain ⟨⟨⟨a1, a2⟩, ⟨a3, a4⟩, a5, a6⟩, az⟩ := corner_box H hb hV c hc _ m.1
  obtain ⟨⟨⟨b1, b2⟩, ⟨b3, b4⟩, -, -⟩, -⟩ := corner_box H hb hV c hc _ m.2
  have wz : w.z = e.1.z := by rw [hz, ((bound_bed H hb c hc).2.2 _ m.1)]
  have kx := between t0 t1 a1 a2 b1 b2
  have ky := between t0 t1 a3 a4 b3 b4
  have ex' := abs_le.1 ex
  have ey' := abs_le.1 ey
  have d : (51 : ℝ) / 10 ^ 10 + 1 / 10 ^ 12 ≤ 52 / 10 ^ 10 := by norm_num
  have d' : (51 : ℝ) / 10 ^ 10 ≤ 52 / 10 ^ 10 := by norm_num
  refine ⟨⟨?_, ?_, ?_⟩, ?_⟩
  · constructor <;> linarith [ex'.1, ex'.2, kx.1, kx.2]
  · constructor <;> linarith [ey'.1, ey'.2, ky.1, ky.2]
  · rw [wz]; constructor <;> linarith
  · rw [wz]; exact az

/-! ## layers -/

theorem inBoxBy_mono {δ ε : ℝ} {p q w : R3} (h : δ ≤ ε) (hw : R3.inBoxBy δ p q w) : R3.inBoxBy ε p q w := by
  obtain ⟨⟨a1, a2⟩, ⟨a3, a4⟩, a5, a6⟩ := hw
  exact ⟨⟨by linarith, by linarith⟩, ⟨by linarith, by linarith⟩, by linarith, by linarith⟩

/-- a point the nozzle goes to while printing the layer at height `h` of a model in the box from `p` to `q` -/
def PrintsAt (p q : R3) (h : ℝ) (w : R3) : Prop := R3.inBoxBy (501 / 10 ^ 6) p q w ∧ |w.z - h| ≤ 501 / 10 ^ 6

theorem path_prints {c : List R3} {p q : R3} {h : ℝ} (hc : ∀ w ∈ c, R3.inBoxBy (52 / 10 ^ 10) p q w ∧ |w.z - h| ≤ 51 / 10 ^ 10) :
    ∀ s ∈ pathRun c, PrintsAt p q h s.1 ∧ PrintsAt p q h s.2 := by
  have d : (52 : ℝ) / 10 ^ 10 + 1 / 2000 ≤ 501 / 10 ^ 6 := by norm_num
  have d' : (51 : ℝ) / 10 ^ 10 + 1 / 2000 ≤ 501 / 10 ^ 6 := by norm_num
  have key : ∀ {w : R3}, FromPoints c w → PrintsAt p q h w := by
    intro w hw
    refine ⟨inBoxBy_mono d (hw.inBoxBy fun a ha => (hc a ha).1), ?_⟩
    obtain ⟨-, -, a, ha, e⟩ := hw
    have h1 := thousandth_near a.z
    have h2 := (hc a ha).2
    have h3 := abs_sub_le (thousandth a.z) a.z h
    rw [e]
    linarith
  intro s hs
  have := C115_from c s hs
  exact ⟨key this.1, key this.2⟩

theorem layer_prints {h : ℝ} {ts : List RTri} {d : List (List R3) × List (R3 × R3)} {planes : List (R3 × R3)} {p q : R3} (H : FloatSafe h ts)
    (hb : BoundMaterialF h ts d.1) (hf : FillIsModelF h ts d.1 planes d.2) (hV : ∀ w ∈ allVerts ts, R3.inBoxBy 0 p q w) (k : ℕ) :
    ∀ m ∈ layerRun k d, m.layer = k ∧ PrintsAt p q h m.start ∧ PrintsAt p q h m.stop := by
  intro m hm
  have dd : (51 : ℝ) / 10 ^ 10 ≤ 52 / 10 ^ 10 := by norm_num
  rcases List.mem_append.1 hm with hm | hm
  · obtain ⟨s, hs, rfl⟩ := List.mem_map.1 hm
    obtain ⟨c, hc, hs⟩ := List.mem_flatMap.1 hs
    exact ⟨rfl, path_prints (fun w hw => ⟨inBoxBy_mono dd (corner_box H hb hV c hc w hw).1, (corner_box H hb hV c hc w hw).2⟩) s hs⟩
  · obtain ⟨s, hs, rfl⟩ := List.mem_map.1 hm
    obtain ⟨c, hc, hs⟩ := List.mem_flatMap.1 hs
    exact ⟨rfl, path_prints (fill_box H hb hf hV c hc) s hs⟩

theorem layersRun_layer {ds : List (List (List R3) × List (R3 × R3))} : ∀ {k : ℕ}, ∀ m ∈ layersRun k ds,
    ∃ i d, ds[i]? = some d ∧ m ∈ layerRun (k + i) d := by
  induction ds with
  | nil => intro k m hm; simp [layersRun] at hm
  | cons a t ih =>
    intro k m hm
    rw [layersRun] at hm
    rcases List.mem_append.1 hm with hm | hm
    · exact ⟨0, a, rfl, hm⟩
    · obtain ⟨i, d, hd, hm⟩ := ih m hm
      refine ⟨i + 1, d, hd, ?_⟩
      have e : k + (i + 1) = k + 1 + i := by omega
      rw [e]
      exact hm

/-- **C115, program.** A run as in C105 on a model in the box from `p` to `q` writes a file with which every machine lays down filament only
within `0.000501` mm of this box, and layer `j` (numbered from 0) within `0.000501` mm of the height of the `j`-th printed level. -/
theorem C115_program (M : Machine B64) (fuel : ℕ) (read : String → Option Bytes) (templates : String → Option (List Char))
    (canWrite : String → Bool) (now : String) (fl : GoosliFlags B64) (ts0 : List RTri) (o : R3) (lo hi t lw : ℝ)
    (hread : Loads (read fl.stl) (fmesh ts0)) (hF : ∀ w ∈ allVerts ts0, w.isF) (hty : fl.slicingType = "3axes") (ho : o.isF)
    (horg : fl.origin = o.f64v) (hout : canWrite fl.out = true)
    (htop : templates "data/header_template.txt" = some (template '{' '}' shippedHeader))
    (hbot : templates "data/footer_template.txt" = some (template '{' '}' shippedFooter))
    (hnow : '{' ∉ now.toList ∧ '\n' ∉ now.toList)
    (hw : Watertight (ts0.map (RTri.movedF o))) (hdeg : ∀ t ∈ ts0.map (RTri.movedF o), t.nrm ≠ 0)
    (he : Extent (ts0.map (RTri.movedF o)) zUp lo hi) (hh : 1 / 10 ^ 6 ≤ hi - lo) (tF : IsF t) (t0 : 1 / 1000 ≤ t) (t1 : t ≤ 1000)
    (ht : fl.layerHeight = B64.of t) (hs : fl.supportsOn = false) (hR : ∀ w ∈ allVerts (ts0.map (RTri.movedF o)), w.inRange)
    (hsafe : ∀ m : ℕ, (m : ℤ) < floatCount lo hi t → FloatSafe (floatLevel lo hi t m) (ts0.map (RTri.movedF o)))
    (h2 : 2 ≤ floatCount lo hi t)
    (hlw : fl.lineWidth = B64.of lw) (Flw : IsF lw) (l0 : 1 / 50 ≤ lw) (l1 : lw ≤ 10)
    (hd0 : 1 ≤ densityShare fl.fillingType fl.fillDensity) (hd1 : densityShare fl.fillingType fl.fillDensity ≤ 100)
    (p q : R3) (hV : ∀ w ∈ allVerts (ts0.map (RTri.movedF o)), R3.inBoxBy 0 p q w) :
    ∃ (file : List Char) (k : ℕ), runGoosli M fuel read templates canWrite now fl = ⟨[(fl.out, file)], .ok ()⟩ ∧ k ≤ 1 ∧
      ∀ r : Rig, ∀ m ∈ rigMoves r (parseText (String.ofList file)),
        ∃ j : ℕ, m.layer = j ∧ ((k + j : ℕ) : ℤ) < floatCount lo hi t ∧
          PrintsAt p q (floatLevel lo hi t (k + j)) m.start ∧ PrintsAt p q (floatLevel lo hi t (k + j)) m.stop := by
  obtain ⟨file, sparse, full, ds, k, n, hrun, -, -, hn, hk, hkn, -, hds, -, hrig⟩ :=
    C105_program M fuel read templates canWrite now fl ts0 o lo hi t lw hread hF hty ho horg hout htop hbot hnow hw hdeg he hh tF t0 t1 ht hs hR
      hsafe h2 hlw Flw l0 l1 hd0 hd1
  refine ⟨file, k, hrun, hk, ?_⟩
  intro r m hm
  rw [(hrig r).1] at hm
  obtain ⟨i, d, hd, hm⟩ := layersRun_layer m hm
  rw [zero_add] at hm
  obtain ⟨hb, hf⟩ := hds i d hd
  have hlen : i < ds.length := (List.getElem?_eq_some_iff.1 hd).1
  have hj : ((k + i : ℕ) : ℤ) < floatCount lo hi t := by rw [← hn]; exact_mod_cast (by omega)
  obtain ⟨e, h3⟩ := layer_prints (hsafe _ hj) hb hf hV i m hm
  exact ⟨i, e, hj, h3⟩

/-! ## how far the nozzle can be from the path -/

/-- `n` steps of 1/2048 mm in `x` -/
noncomputable def shortSteps (n : ℕ) : List R3 := (List.range (n + 1)).map fun (k : ℕ) => ⟨k / 2048, 0, 0⟩

theorem coordAfter_short (n a : ℝ) : coordAfter n a (a + 1 / 2048) = n := by
  unfold coordAfter
  rw [if_neg]
  have e1 : rd (a + 1 / 2048 - a) = 1 / 2048 := by
    rw [add_sub_cancel_left]
    refine rd_of_rep ?_
    have := rep_zpow (e := -11) (by norm_num)
    norm_num at this ⊢
    exact this
  have e2 : (1 : ℝ) / 1024 ≤ rd (1 / 1000) := by
    have h : Rep (1 / 1024) := by
      have := rep_zpow (e := -10) (by norm_num)
      norm_num at this ⊢
      exact this
    rw [← rd_of_rep h]
    exact rd_mono (by norm_num)
  rw [e1, abs_of_pos (by norm_num)]
  intro h
  have := e2.trans h
  norm_num at this

theorem thousandth_zero' : thousandth 0 = 0 := by
  have := thousandth_near 0
  unfold thousandth at this ⊢
  rw [sub_zero, mul_zero, abs_le] at this
  have e : roundEven (0 : ℝ) = 0 := by
    have h1 : (roundEven (0 : ℝ) : ℝ) < 1 := by linarith [this.2]
    have h2 : (-1 : ℝ) < roundEven (0 : ℝ) := by linarith [this.1]
    have h3 : roundEven (0 : ℝ) < 1 := by exact_mod_cast h1
    have h4 : -1 < roundEven (0 : ℝ) := by exact_mod_cast h2
    omega
  rw [mul_zero, e]
  simp

/-- **C115, drift.** Within its bounding box the nozzle can be anywhere: along `n` steps of 1/2048 mm it does not move at all, so at the end it
is `n / 2048` mm from where the path is. -/
theorem C115_drift (n : ℕ) (hn : n ≤ 2 ^ 30) : BedLine (shortSteps n) ∧ (shortSteps n).getLast? = some ⟨n / 2048, 0, 0⟩ ∧
    pathRun (shortSteps n) = List.replicate n (⟨0, 0, 0⟩, ⟨0, 0, 0⟩) := by
  refine ⟨?_, ?_, ?_⟩
  · intro w hw
    obtain ⟨k, hk, rfl⟩ := List.mem_map.1 hw
    have hk' : k ≤ 2 ^ 30 := by have := List.mem_range.1 hk; omega
    have hk'' : (k : ℝ) ≤ 1073741824 := by
      norm_num at hk'
      exact_mod_cast hk'
    have k0 : (0 : ℝ) ≤ k := Nat.cast_nonneg k
    refine ⟨⟨isF_rep ⟨k, -11, ?_, by norm_num, ?_⟩ ?_, isF_zero, isF_zero⟩, ?_, by norm_num, by norm_num⟩
    · rw [abs_of_nonneg (by positivity)]; norm_num; omega
    · push_cast; norm_num; ring
    · rw [abs_of_nonneg (by positivity)]; norm_num; linarith
    · show |(k : ℝ) / 2048| ≤ _
      rw [abs_of_nonneg (by positivity)]; norm_num; linarith
  · unfold shortSteps
    rw [List.range_succ, List.map_append, List.map_singleton, List.getLast?_append]
    simp
  · have key : ∀ (m k : ℕ), nozzleRun ⟨0, 0, 0⟩ ((List.range' k (m + 1)).map fun (k : ℕ) => (⟨k / 2048, 0, 0⟩ : R3)) =
        List.replicate m (⟨0, 0, 0⟩, ⟨0, 0, 0⟩) := by
      intro m
      induction m with
      | zero => intro k; simp [nozzleRun]
      | succ m ih =>
        intro k
        have e : nozzleTo ⟨0, 0, 0⟩ ⟨k / 2048, 0, 0⟩ ⟨((k + 1 : ℕ) : ℝ) / 2048, 0, 0⟩ = ⟨0, 0, 0⟩ := by
          unfold nozzleTo
          have h1 : ((k + 1 : ℕ) : ℝ) / 2048 = (k : ℝ) / 2048 + 1 / 2048 := by push_cast; ring
          dsimp only
          rw [h1, coordAfter_short, coordAfter_same 0 0 thousandth_zero'.symm]
        have ih' := ih (k + 1)
        rw [List.range'_succ, List.map_cons] at ih' ⊢
        rw [List.range'_succ, List.map_cons, nozzleRun, e, ih', List.replicate_succ]
    have h0 := key n 0
    rw [← List.range_eq_range'] at h0
    unfold shortSteps
    rw [List.range_succ_eq_map, List.map_cons] at h0 ⊢
    unfold pathRun
    have hz : R3.thousandth ⟨((0 : ℕ) : ℝ) / 2048, 0, 0⟩ = ⟨0, 0, 0⟩ := by
      unfold R3.thousandth
      simp [thousandth_zero']
    dsimp only
    rw [hz]
    exact h0

/-! ## Non-vacuity -/

/-- a path with a drift: the nozzle stays at the start, and in the box -/
example : (⟨0, 0, 0⟩, ⟨0, 0, 0⟩) ∈ pathRun (shortSteps 2048) ∧ ∀ a ∈ shortSteps 2048, R3.inBoxBy 0 ⟨0, 0, 0⟩ ⟨1, 0, 0⟩ a := by
  refine ⟨by rw [(C115_drift 2048 (by norm_num)).2.2]; exact List.mem_replicate.2 ⟨by norm_num, rfl⟩, ?_⟩
  intro a ha
  obtain ⟨k, hk, rfl⟩ := List.mem_map.1 ha
  have hk' : k ≤ 2048 := by have := List.mem_range.1 hk; omega
  have hk'' : (k : ℝ) ≤ 2048 := by exact_mod_cast hk'
  have k0 : (0 : ℝ) ≤ k := Nat.cast_nonneg k
  refine ⟨⟨?_, ?_⟩, ⟨?_, ?_⟩, ?_, ?_⟩ <;> dsimp only <;> try norm_num
  · positivity
  · linarith

/-- the templates that come with the program -/
private def exTemplates : String → Option (List Char) := fun f =>
  if f = "data/header_template.txt" then some (template '{' '}' shippedHeader)
  else if f = "data/footer_template.txt" then some (template '{' '}' shippedFooter) else none

/-- flags for a vertical slice in layers of one millimetre -/
private noncomputable def exRun : GoosliFlags B64 :=
  ⟨"in.stl", "out.gcode", (⟨0, 0, 0⟩ : R3).f64v, (⟨0, 0, 0⟩ : R3).f64, B64.of 10, B64.of 1, B64.of 1, 20, 1, 1, 60, 200, 50, 30, 40, false,
    B64.of (1 / 2), "Squares", false, 20, B64.of 5, "planes.txt", "3axes", B64.of 30, zUp.f64v, false, B64.of 1, B64.of 2, B64.of 1, 3⟩

/-- the run on the file of the tetrahedron: nothing is printed outside the cube of edge 4, on any machine -/
example (M : Machine B64) (fuel : ℕ) : ∃ file : List Char,
    runGoosli M fuel (fun _ => some (saveSTL (fmesh exTetra))) exTemplates (fun _ => true) "16 Nov 26 12:00 UTC" exRun =
      ⟨[("out.gcode", file)], .ok ()⟩ ∧
    ∀ r : Rig, ∀ m ∈ rigMoves r (parseText (String.ofList file)), 0 ≤ m.stop.x + 501 / 10 ^ 6 ∧ m.stop.x ≤ 4 + 501 / 10 ^ 6 := by
  have em := movedF_zero (ts := exTetra) exTetra_safe.isF
  obtain ⟨file, k, h1, -, h2⟩ :=
    C115_program M fuel (fun _ => some (saveSTL (fmesh exTetra))) exTemplates (fun _ => true) "16 Nov 26 12:00 UTC" exRun exTetra ⟨0, 0, 0⟩ 0 4 1
      (1 / 2) exTetra_loads exTetra_safe.isF rfl ⟨isF_zero, isF_zero, isF_zero⟩ rfl rfl rfl rfl (by decide) (by rw [em]; exact exTetra_ok.1)
      (by rw [em]; exact exTetra_ok.2.1) (by rw [em]; exact exTetra_extentF) (by norm_num) isF_one (by norm_num) (by norm_num) rfl rfl
      (by rw [em]; exact exTetra_safe.range) (by rw [em]; exact exFloat_safe) (by rw [exFloat_count]; norm_num) rfl isF_half (by norm_num)
      (by norm_num) (by decide) (by decide) ⟨0, 0, 0⟩ ⟨4, 4, 4⟩ (by
        rw [em]
        intro w hw
        rcases exTetra_verts w hw with rfl | rfl | rfl | rfl <;> norm_num [R3.inBoxBy])
  refine ⟨file, h1, fun r m hm => ?_⟩
  obtain ⟨j, -, -, -, ⟨⟨a, b⟩, -, -⟩, -⟩ := h2 r m hm
  dsimp only at a b
  exact ⟨by linarith, b⟩

end Goosli
