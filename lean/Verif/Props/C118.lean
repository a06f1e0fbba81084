import Verif.Proofs.BoxLoop
import Verif.Props.C117
/-!
# C118: the contour of every layer of a box is its rectangle, gone round once
-/
set_option autoImplicit false
namespace Goosli
open Flt R3 Spec

/-! ## specification -/

open Classical in
/-- the moves along the contours of layer `i` -/
noncomputable def rimMovesOf (i : ℕ) (ms : List PrintedMove) : List PrintedMove :=
  ms.filter fun m => m.layer = (i : ℤ) ∧ m.sect = "OUTER_PATHES".toList

/-- the four moves once around the rectangle of a box at height `z`, from corner `j` back to it -/
noncomputable def rectMoves (p q : R3) (z : ℝ) (layer j : ℕ) : List PrintedMove :=
  (List.range 4).map fun i => ⟨layer, "OUTER_PATHES".toList, rectCorner p q z (j + i), rectCorner p q z (j + i + 1)⟩

/-- the layer of number `m` of a box with its contour only: the rectangle at height `h`, gone round from corner `j` -/
noncomputable def rectLayer (p q : R3) (h : ℝ) (m j : ℕ) : Layer B64 := ⟨m, zUp.f64v, [fpath (rectLoop p q h j)], [], [], []⟩

/-! ## the slicer -/

theorem even_facts {k n : ℕ} {p q : R3} {t : ℝ} (H : GoodBox k p q) (E : EvenLayers k n p.z q.z t) (hn : 2 ≤ n) :
    1 / 1000 ≤ t ∧ t ≤ 1000 ∧ IsF t ∧ 1 / 10 ^ 6 ≤ q.z - p.z := by
  have t0 := E.pos
  have tg := E.gridT.le_abs t0.ne'
  rw [abs_of_pos t0] at tg
  have h8 : (1 : ℝ) / 2 ^ 8 ≤ 1 / 2 ^ k := one_div_le_one_div_of_le (by positivity) (pow_le_pow_right₀ (by norm_num) H.coarse)
  have a := abs_le.1 E.lo1; have b := abs_le.1 E.hi1
  have hh := E.height
  have n2 : (2 : ℝ) ≤ n := by exact_mod_cast hn
  have t1 : t ≤ 1000 := by nlinarith
  have t2 : 1 / 1000 ≤ t := le_trans (by norm_num) (h8.trans tg)
  exact ⟨t2, t1, grid_isF H.coarse E.gridT (by rw [abs_of_pos t0]; exact t1), by norm_num at t2 ⊢; nlinarith⟩

theorem even_mid {k n : ℕ} {p q : R3} {t : ℝ} (E : EvenLayers k n p.z q.z t) {m : ℕ} (hm : m < n) :
    Dyadic k (p.z + (m + 1 / 2) * t) ∧ p.z < p.z + (m + 1 / 2) * t ∧ p.z + (m + 1 / 2) * t < q.z := by
  have t0 := E.pos
  have hm' : (m : ℝ) + 1 ≤ n := by exact_mod_cast hm
  have m0 : (0 : ℝ) ≤ m := Nat.cast_nonneg m
  have := E.height
  have e : p.z + ((m : ℝ) + 1 / 2) * t = p.z + (2 * m + 1 : ℕ) * (t / 2) := by push_cast; ring
  refine ⟨by rw [e]; exact E.loG.add (E.half.nat_mul _), ?_, ?_⟩ <;> nlinarith

theorem box_levels {k n : ℕ} {p q : R3} {t : ℝ} (H : GoodBox k p q) (E : EvenLayers k n p.z q.z t) :
    floatCount p.z q.z t = n ∧ ∀ m : ℕ, (m : ℤ) < floatCount p.z q.z t →
      floatLevel p.z q.z t m = p.z + (m + 1 / 2) * t ∧ FloatSafe (floatLevel p.z q.z t m) (brick p q) := by
  refine C109_levels (box_grid H) E fun w hw m hm e => ?_
  obtain ⟨-, a, b⟩ := even_mid E hm
  have e' : p.z + ((m : ℝ) + 1 / 2) * t = p.z + (2 * m + 1 : ℕ) * (t / 2) := by push_cast; ring
  rw [e'] at a b
  rcases (box_vert hw).2.2 with h | h <;> linarith

/-- **C118, slicer.** The vertical slicer in `float64` on a box with whole coordinates that is cut into `n` even layers gives exactly `n` layers;
layer `m` has one contour, which goes from one corner of the box once around its rectangle and back, at the middle of the layer. No coordinate is
off, whatever the order of the sorting and of the workers is. -/
theorem C118_slice (S : Sorter) (A : Arrival B64) {k n : ℕ} {p q : R3} {t : ℝ} (H : GoodBox k p q) (E : EvenLayers k n p.z q.z t) (hn : 2 ≤ n)
    (sett : Settings B64) (ht : sett.layerHeight = B64.of t) (hs : sett.supportsOn = false) :
    ∃ j : ℕ → ℕ, (∀ m, j m < 4) ∧ sliceByVector S A (some (fmesh (brick p q))) zUp.f64v sett =
      .ok ((List.range n).map fun m : ℕ => rectLayer p q (p.z + (m + 1 / 2) * t) m (j m)) := by
  obtain ⟨t0, t1, tF, hh⟩ := even_facts H E hn
  obtain ⟨c, L⟩ := box_levels H E
  obtain ⟨full, hlen, hgood, hex, hdrop⟩ := slice_layers S A (brick p q) p.z q.z t (box_extent H.below) hh tF t0 t1 sett ht hs (box_isF H)
    (box_grid H).range (fun m l => ∃ j, j < 4 ∧ l = rectLayer p q (p.z + (m + 1 / 2) * t) m j) (fun m hm => (L m hm).2) fun m jb hm ho hp hperm => by
      rw [(L m hm).1] at hp hperm
      rw [c] at hm
      obtain ⟨g, a, b⟩ := even_mid E (m := m) (by exact_mod_cast hm)
      obtain ⟨j, hj, e⟩ := box_outline S H g a b _ hperm
      refine ⟨_, ?_, j, hj, rfl⟩
      unfold runJob
      rw [e, hp, ho]
      rfl
  rw [c] at hlen
  have hlen : full.length = n := by exact_mod_cast hlen
  obtain ⟨layers, hl⟩ := hex (by omega)
  obtain ⟨pre, post, happ, -, -, epre, epost⟩ := hdrop layers hl
  have ne : ∀ l ∈ full, l.paths ≠ [] := by
    intro l hl'
    obtain ⟨m, hm⟩ := List.mem_iff_getElem?.1 hl'
    obtain ⟨j, -, rfl⟩ := hgood m l hm
    simp [rectLayer]
  have e1 : pre = [] := List.eq_nil_iff_forall_not_mem.2 fun l h => ne l (by rw [happ]; simp [h]) (epre l h)
  have e2 : post = [] := List.eq_nil_iff_forall_not_mem.2 fun l h => ne l (by rw [happ]; simp [h]) (epost l h)
  subst e1 e2
  rw [List.nil_append, List.append_nil] at happ
  subst happ
  have hex : ∀ m : ℕ, ∃ j, j < 4 ∧ ∀ l, full[m]? = some l → l = rectLayer p q (p.z + (m + 1 / 2) * t) m j := by
    intro m
    cases h : full[m]? with
    | none => exact ⟨0, by norm_num, fun l hl => by cases hl⟩
    | some l =>
      obtain ⟨j, hj, e⟩ := hgood m l h
      exact ⟨j, hj, fun l' hl' => by injection hl' with hl'; rw [← hl', e]⟩
  choose j hj e using hex
  refine ⟨j, hj, hl.trans (congrArg _ ?_)⟩
  apply List.ext_getElem? fun m => ?_
  rw [List.getElem?_map]
  by_cases hm : m < n
  · rw [List.getElem?_range hm, List.getElem?_eq_getElem (by omega)]
    exact congrArg some (e m _ (List.getElem?_eq_getElem (by omega)))
  · rw [List.getElem?_eq_none (by omega), List.getElem?_eq_none (by simp; omega)]
    rfl

/-! ## the moves along a rectangle -/

theorem thousandth_whole {x : ℝ} (h : Dyadic 0 x) : thousandth x = x := by
  obtain ⟨m, rfl⟩ := h
  unfold thousandth
  rw [pow_zero, div_one, show (1000 : ℝ) * m = ((1000 * m : ℤ) : ℝ) by push_cast; ring, roundEven_int]
  push_cast
  field_simp

theorem coordAfter_whole {a b : ℝ} (ha : Dyadic 0 a) (hb : Dyadic 0 b) (ra : |a| ≤ 1000) (rb : |b| ≤ 1000) : coordAfter a a b = b := by
  by_cases e : b - a = 0
  · rw [sub_eq_zero.1 e]
    exact coordAfter_same _ _ (thousandth_whole ha).symm
  · unfold coordAfter
    have g := hb.sub ha
    have h1 := g.le_abs e
    obtain ⟨m, hm⟩ := g
    rw [pow_zero, div_one] at hm
    have hr : |b - a| ≤ 2000 := (abs_sub _ _).trans (by linarith)
    rw [if_pos, thousandth_whole hb]
    have : rd (b - a) = b - a := by
      rw [hm]
      refine rd_of_rep (rep_int ?_)
      rw [hm, ← Int.cast_abs] at hr
      have : |m| ≤ 2000 := by exact_mod_cast hr
      exact this.trans (by norm_num)
    rw [this]
    have h2 : rd (1 / 1000) ≤ rd 1 := rd_mono (by norm_num)
    rw [rd_of_rep isF_one.1] at h2
    norm_num at h1 ⊢
    norm_num at h2
    linarith

theorem corner_whole {k : ℕ} {p q : R3} (H : GoodBox k p q) (h : ℝ) (i : ℕ) :
    Dyadic 0 (rectCorner p q h i).x ∧ |(rectCorner p q h i).x| ≤ 1000 ∧ Dyadic 0 (rectCorner p q h i).y ∧ |(rectCorner p q h i).y| ≤ 1000 ∧
      (rectCorner p q h i).z = h := by
  unfold rectCorner
  have : i % 4 < 4 := Nat.mod_lt _ (by norm_num)
  interval_cases i % 4
  · exact ⟨H.qx, H.qr.1, H.py, H.pr.2.1, rfl⟩
  · exact ⟨H.px, H.pr.1, H.py, H.pr.2.1, rfl⟩
  · exact ⟨H.px, H.pr.1, H.qy, H.qr.2.1, rfl⟩
  · exact ⟨H.qx, H.qr.1, H.qy, H.qr.2.1, rfl⟩

theorem corner_at (p q : R3) (h h' : ℝ) (i : ℕ) : (⟨(rectCorner p q h i).x, (rectCorner p q h i).y, h'⟩ : R3) = rectCorner p q h' i := by
  unfold rectCorner
  have : i % 4 < 4 := Nat.mod_lt _ (by norm_num)
  interval_cases i % 4 <;> rfl

theorem corner_thousandth {k : ℕ} {p q : R3} (H : GoodBox k p q) (h : ℝ) (i : ℕ) :
    (rectCorner p q h i).thousandth = rectCorner p q (thousandth h) i := by
  obtain ⟨a, -, b, -, c⟩ := corner_whole H h i
  unfold R3.thousandth
  rw [thousandth_whole a, thousandth_whole b, c, corner_at]

theorem corner_next {k : ℕ} {p q : R3} (H : GoodBox k p q) (h : ℝ) (i j : ℕ) :
    nozzleTo (rectCorner p q (thousandth h) i) (rectCorner p q h i) (rectCorner p q h j) = rectCorner p q (thousandth h) j := by
  obtain ⟨a, ra, b, rb, c⟩ := corner_whole H h i
  obtain ⟨a', ra', b', rb', c'⟩ := corner_whole H h j
  unfold nozzleTo
  have e := corner_at p q h (thousandth h) i
  rw [← e]
  dsimp only
  rw [coordAfter_whole a a' ra ra', coordAfter_whole b b' rb rb', c, c', coordAfter_same _ _ rfl, corner_at]

theorem corner_round (p q : R3) (h : ℝ) (i : ℕ) : rectCorner p q h (i + 4) = rectCorner p q h i := by
  unfold rectCorner
  rw [Nat.add_mod_right]

theorem rect_run {k : ℕ} {p q : R3} (H : GoodBox k p q) (h : ℝ) (j : ℕ) : pathRun (rectLoop p q h j) =
    (List.range 4).map fun i => (rectCorner p q (thousandth h) (j + i), rectCorner p q (thousandth h) (j + i + 1)) := by
  have e := corner_round p q h j
  have e' := corner_round p q (thousandth h) j
  show nozzleRun (rectCorner p q h j).thousandth (rectLoop p q h j) = _
  rw [corner_thousandth H]
  unfold rectLoop
  simp only [nozzleRun, corner_next H]
  show _ = [(rectCorner p q (thousandth h) (j + 0), rectCorner p q (thousandth h) (j + 0 + 1)), (rectCorner p q (thousandth h) (j + 1), rectCorner p q (thousandth h) (j + 1 + 1)),
    (rectCorner p q (thousandth h) (j + 2), rectCorner p q (thousandth h) (j + 2 + 1)), (rectCorner p q (thousandth h) (j + 3), rectCorner p q (thousandth h) (j + 3 + 1))]
  rw [show j + 3 + 1 = j + 4 from rfl, e']
  rfl

/-- the moves along the contours of a layer -/
theorem rimMoves_run : ∀ {ds : List (List (List R3) × List (R3 × R3))} {k j : ℕ} {d : List (List R3) × List (R3 × R3)}, ds[j]? = some d →
    rimMovesOf (k + j) (layersRun k ds) = (d.1.flatMap pathRun).map fun q => ⟨(k + j : ℕ), "OUTER_PATHES".toList, q.1, q.2⟩
  | [], k, j, d, h => by simp at h
  | a :: t, k, j, d, h => by
    classical
    have part : ∀ i : ℕ, rimMovesOf i (layerRun k a) =
        if i = k then (a.1.flatMap pathRun).map fun q => ⟨k, "OUTER_PATHES".toList, q.1, q.2⟩ else [] := by
      intro i
      unfold rimMovesOf layerRun
      have last : ((a.2.flatMap fun s => pathRun [s.1, s.2]).map fun q => (⟨k, "FILL_PATHES".toList, q.1, q.2⟩ : PrintedMove)).filter
          (fun m => decide (m.layer = (i : ℤ) ∧ m.sect = "OUTER_PATHES".toList)) = [] := List.filter_eq_nil_iff.2 (by
        intro m hm
        obtain ⟨u, -, rfl⟩ := List.mem_map.1 hm
        have ne : "FILL_PATHES".toList ≠ "OUTER_PATHES".toList := by decide
        rw [decide_eq_true_eq]
        exact fun e => ne e.2)
      rw [List.filter_append, last, List.append_nil]
      split
      · next e =>
        rw [List.filter_eq_self]
        intro m hm
        obtain ⟨u, -, rfl⟩ := List.mem_map.1 hm
        rw [decide_eq_true_eq]
        exact ⟨by rw [e], rfl⟩
      · next e =>
        rw [List.filter_eq_nil_iff]
        intro m hm
        obtain ⟨u, -, rfl⟩ := List.mem_map.1 hm
        rw [decide_eq_true_eq]
        exact fun e' => e (Nat.cast_injective e'.1).symm
    rw [layersRun]
    have app : rimMovesOf (k + j) (layerRun k a ++ layersRun (k + 1) t) = rimMovesOf (k + j) (layerRun k a) ++ rimMovesOf (k + j) (layersRun (k + 1) t) := by
      unfold rimMovesOf
      exact List.filter_append ..
    rw [app, part]
    cases j with
    | zero =>
      simp only [List.getElem?_cons_zero, Option.some.injEq] at h
      subst h
      have none : rimMovesOf (k + 0) (layersRun (k + 1) t) = [] := by
        unfold rimMovesOf
        rw [List.filter_eq_nil_iff]
        intro m hm
        have := layersRun_ge t (k + 1) m hm
        rw [decide_eq_true_eq]
        rintro ⟨e, -⟩
        rw [e] at this
        push_cast at this
        omega
      rw [none, if_pos (Nat.add_zero k), List.append_nil]
      rfl
    | succ j =>
      rw [if_neg (by omega), List.nil_append]
      have := rimMoves_run (k := k + 1) (j := j) (ds := t) (d := d) (by simpa using h)
      rw [show k + 1 + j = k + (j + 1) by omega] at this
      exact this

theorem layersRun_lt : ∀ (ds : List (List (List R3) × List (R3 × R3))) (k : ℕ), ∀ m ∈ layersRun k ds, m.layer < (k + ds.length : ℕ)
  | [], k, m, h => by simp [layersRun] at h
  | d :: ds, k, m, h => by
    rw [layersRun] at h
    rcases List.mem_append.1 h with h | h
    · unfold layerRun at h
      rcases List.mem_append.1 h with h | h <;> (obtain ⟨u, -, rfl⟩ := List.mem_map.1 h; simp)
    · have := layersRun_lt ds (k + 1) m h
      rw [List.length_cons]
      push_cast at this ⊢
      linarith

/-! ## the program -/

theorem fillLayers_paths {S : Sorter} {layers out : List (Layer B64)} {planes full : List (Plane B64)} {sett : Settings B64}
    (h : fillLayers S layers planes full sett = .ok out) : out.map Layer.paths = layers.map Layer.paths := by
  have h2 := mapM_mem _ _ _ h
  have key : ∀ {l : List (Layer B64 × ℕ)} {out : List (Layer B64)},
      List.Forall₂ (fun q o => fillLayer S planes full sett layers.length q.2 q.1 = .ok o) l out →
      out.map Layer.paths = l.map fun q => q.1.paths := by
    intro l out h
    induction h with
    | nil => rfl
    | @cons q o _ _ h _ ih =>
      rw [List.map_cons, List.map_cons, ih]
      congr 1
      unfold fillLayer at h
      dsimp only at h
      cases hs : sortFillPathes (q.1.fill ++ (if solidLayer sett layers.length q.2 then full else planes).flatMap fun p => intersectByPlane S (fillContours q.1) p) with
      | error e => rw [hs] at h; cases h
      | ok v => rw [hs] at h; injection h with h; rw [← h]
  rw [key h2]
  have : (fun q : Layer B64 × ℕ => q.1.paths) = Layer.paths ∘ Prod.fst := rfl
  rw [this, ← List.map_map, List.zipIdx_map_fst]

theorem fpath_inj {c d : List R3} (hc : ∀ w ∈ c, w.isF) (hd : ∀ w ∈ d, w.isF) (h : fpath c = fpath d) : c = d := by
  have h : c.map R3.f64 = d.map R3.f64 := congrArg Path.points h
  induction c generalizing d with
  | nil => cases d with
    | nil => rfl
    | cons a t => simp at h
  | cons a t ih => cases d with
    | nil => simp at h
    | cons b s =>
      rw [List.map_cons, List.map_cons] at h
      injection h with h1 h2
      have ha := hc a (by simp); have hb := hd b (by simp)
      have e : a = b := by
        unfold R3.f64 at h1
        injection h1 with x y z
        exact R3.ext ((B64.of_inj ha.1 hb.1).1 x) ((B64.of_inj ha.2.1 hb.2.1).1 y) ((B64.of_inj ha.2.2 hb.2.2).1 z)
      rw [e, ih (fun w hw => hc w (by simp [hw])) (d := s) (fun w hw => hd w (by simp [hw])) (by unfold fpath; rw [h2]) h2]

theorem corner_isF {k : ℕ} {p q : R3} (H : GoodBox k p q) {h : ℝ} (hg : Dyadic k h) (h0 : p.z < h) (h1 : h < q.z) (i : ℕ) :
    (rectCorner p q h i).isF := by
  obtain ⟨a, ra, b, rb, c⟩ := corner_whole H h i
  exact ⟨grid_isF (by norm_num) a ra, grid_isF (by norm_num) b rb, by rw [c]; exact grid_isF H.coarse hg (H.level_range h0 h1)⟩

theorem loop_isF {k : ℕ} {p q : R3} (H : GoodBox k p q) {h : ℝ} (hg : Dyadic k h) (h0 : p.z < h) (h1 : h < q.z) (j : ℕ) :
    ∀ w ∈ rectLoop p q h j, w.isF := by
  have c := corner_isF H hg h0 h1
  intro w hw
  unfold rectLoop at hw
  simp only [List.mem_cons, List.not_mem_nil, or_false] at hw
  rcases hw with rfl | rfl | rfl | rfl | rfl <;> exact c _

/-- a run of the program on a box: the program is made of layers with one rectangle and the fill lines of the layer -/
theorem box_run_exact (M : Machine B64) (fuel : ℕ) (read : String → Option Bytes) (templates : String → Option (List Char))
    (canWrite : String → Bool) (now : String) (fl : GoosliFlags B64) (ts0 : List RTri) (o p q : R3) (t lw : ℝ) (k n : ℕ)
    (hread : Loads (read fl.stl) (fmesh ts0)) (hF : ∀ w ∈ allVerts ts0, w.isF) (hty : fl.slicingType = "3axes") (ho : o.isF)
    (horg : fl.origin = o.f64v) (hout : canWrite fl.out = true) (htop : (templates "data/header_template.txt").isSome)
    (hbot : (templates "data/footer_template.txt").isSome) (hts : ts0.map (RTri.movedF o) = brick p q)
    (H : GoodBox k p q) (E : EvenLayers k n p.z q.z t) (hn : 2 ≤ n)
    (ht : fl.layerHeight = B64.of t) (hs : fl.supportsOn = false)
    (hlw : fl.lineWidth = B64.of lw) (Flw : IsF lw) (l0 : 1 / 50 ≤ lw) (l1 : lw ≤ 10)
    (hd0 : 1 ≤ densityShare fl.fillingType fl.fillDensity) (hd1 : densityShare fl.fillingType fl.fillDensity ≤ 100) :
    ∃ (hd ft : List Char) (text : String) (sparse full : List (R3 × R3)) (j : ℕ → ℕ) (fills : ℕ → List (R3 × R3)),
      runGoosli M fuel read templates canWrite now fl = ⟨[(fl.out, hd ++ text.toList ++ ft)], .ok ()⟩ ∧
      PatternF (brick p q) (stepF (densityShare fl.fillingType fl.fillDensity) lw) (patternDirs fl.fillingType) sparse ∧
      GridF (brick p q) lw ⟨1, 0, 0⟩ full ∧ (∀ i, j i < 4) ∧
      (∀ i < n, FillIsModelF (p.z + (i + 1 / 2) * t) (brick p q) [rectLoop p q (p.z + (i + 1 / 2) * t) (j i)] (planesAtF fl.settings sparse full n i) (fills i)) ∧
      ∀ P : Printer, P.tool = 0 → printedMoves P (parseText text) =
        layersRun 0 ((List.range n).map fun i : ℕ => ([rectLoop p q (p.z + (i + 1 / 2) * t) (j i)], fills i)) := by
  obtain ⟨t0, t1, tF, hh⟩ := even_facts H E hn
  obtain ⟨c, L⟩ := box_levels H E
  obtain ⟨g, text, sparse, full, ds, i0, n', hg, h3, h2, h2', h4, -, h6, h7, h8, -, ⟨layers, hcm, hall⟩, h9⟩ :=
    C104_sliced_layers M fuel read fl ts0 o p.z q.z t lw hF hty ho horg (hts ▸ box_watertight H.below) (hts ▸ (box_grid H).solid)
      (hts ▸ box_extent H.below) hh tF t0 t1 ht hs (hts ▸ (box_grid H).range) (fun m hm => hts ▸ (L m hm).2) (by rw [c]; exact_mod_cast hn)
      hlw Flw l0 l1 hd0 hd1
  rw [hts] at h2 h2' h8
  have hnn : n' = n := by rw [c] at h4; exact_mod_cast h4
  subst hnn
  obtain ⟨j, hj, hsl⟩ := C118_slice M.sorter M.arrival H E hn fl.settings ht hs
  have hlay : layers.map Layer.paths = (List.range n').map fun m : ℕ => [fpath (rectLoop p q (p.z + (m + 1 / 2) * t) (j m))] := by
    unfold sliceAs at hg
    rw [if_pos hty, horg, shiftLoaded_f64 ho hF, axisZ_f64, hts] at hg
    unfold sliceByVectorToGcode at hg
    rw [hsl] at hg
    simp only [go_ok_bind] at hg
    cases hfl : fillLayers M.sorter ((List.range n').map fun m : ℕ => rectLayer p q (p.z + (m + 1 / 2) * t) m (j m))
        (calcFillPlanes (fmesh (brick p q)) fl.settings).1 (calcFillPlanes (fmesh (brick p q)) fl.settings).2 fl.settings with
    | error e => rw [hfl] at hg; cases hg
    | ok out =>
      rw [hfl] at hg
      injection hg with hg
      have eo : out = layers := by
        rw [← hg] at hcm
        simpa [Gcode.addLayers, Gcode.add, Gcode.new] using hcm
      rw [← eo, fillLayers_paths hfl, List.map_map]
      rfl
  have hlen : ds.length = n' := by
    rw [← hall.length_eq]
    simpa using congrArg List.length hlay
  have e0 : i0 = 0 := by omega
  subst e0
  have lev : ∀ m < n', floatLevel p.z q.z t m = p.z + (m + 1 / 2) * t := fun m hm => (L m (by rw [c]; exact_mod_cast hm)).1
  have hone : ∀ (i : ℕ) d, ds[i]? = some d → d.1 = [rectLoop p q (p.z + (i + 1 / 2) * t) (j i)] ∧
      FillIsModelF (p.z + (i + 1 / 2) * t) (brick p q) d.1 (planesAtF fl.settings sparse full n' i) d.2 := by
    intro i d hd'
    have hi : i < ds.length := (List.getElem?_eq_some_iff.1 hd').1
    have hi' : i < n' := by omega
    have f := (h8 i d hd').2
    rw [Nat.zero_add, lev i hi', hlen] at f
    refine ⟨?_, f⟩
    have hil : i < layers.length := by rw [hall.length_eq]; exact hi
    have hL : LayerOf layers[i] d := by
      have := (List.forall₂_iff_get.1 hall).2 i hil hi
      have e : ds.get ⟨i, hi⟩ = d := by
        have := (List.getElem?_eq_some_iff.1 hd').2
        simpa using this
      rw [e] at this
      exact this
    have hp : layers[i].paths = [fpath (rectLoop p q (p.z + (i + 1 / 2) * t) (j i))] := by
      have := congrArg (fun l => l[i]?) hlay
      simp only [List.getElem?_map, List.getElem?_eq_getElem hil, List.getElem?_range hi'] at this
      simpa using this
    obtain ⟨g', a, b⟩ := even_mid E hi'
    obtain ⟨q1, -, -, -, q2, -⟩ := hL
    rw [hp] at q1
    obtain ⟨cs, e⟩ : ∃ cs, d.1 = [cs] := by
      have := congrArg List.length q1
      simp only [List.length_map, List.length_cons, List.length_nil] at this
      exact List.length_eq_one_iff.1 this.symm
    rw [e] at q1 q2 ⊢
    rw [List.map_cons, List.map_nil] at q1
    injection q1 with q1
    rw [fpath_inj (loop_isF H g' a b (j i)) (fun w hw => ((q2 cs (by simp)).2 w hw).1) q1]
  obtain ⟨top, htop⟩ := Option.isSome_iff_exists.1 htop
  obtain ⟨bot, hbot⟩ := Option.isSome_iff_exists.1 hbot
  obtain ⟨hd, ft, hc⟩ : ∃ hd ft, commandsWithTemplates (templates "data/header_template.txt") (templates "data/footer_template.txt") M.maps g
      fl.settings (fl.info now) = .ok (hd ++ text.toList ++ ft) := by
    unfold commandsWithTemplates
    rw [htop, hbot, h3]
    exact ⟨_, _, rfl⟩
  have hds : ds = (List.range n').map fun i : ℕ => ([rectLoop p q (p.z + (i + 1 / 2) * t) (j i)], (ds[i]?.getD ([], [])).2) := by
    apply List.ext_getElem? fun i => ?_
    rw [List.getElem?_map]
    by_cases hi : i < n'
    · have e := List.getElem?_eq_getElem (l := ds) (i := i) (by omega)
      rw [List.getElem?_range hi, e, Option.map_some, ← (hone i _ e).1, e]
      rfl
    · rw [List.getElem?_eq_none (by omega), List.getElem?_eq_none (by simp; omega)]
      rfl
  refine ⟨hd, ft, text, sparse, full, j, fun i => (ds[i]?.getD ([], [])).2, ?_, h2, h2', hj, fun i hi => ?_, fun P hP => ?_⟩
  · unfold runGoosli
    simp only [loadMesh_loads hread, go_ok_bind, hg, hc]
    show writeFiles canWrite [(fl.out, hd ++ text.toList ++ ft)] = _
    unfold writeFiles
    rw [if_pos hout]
    rfl
  · have e := List.getElem?_eq_getElem (l := ds) (i := i) (by omega)
    obtain ⟨f1, f2⟩ := hone i _ e
    rw [f1] at f2
    show FillIsModelF _ _ _ _ (ds[i]?.getD ([], [])).2
    rw [e]
    exact f2
  · rw [h9 P hP, ← hds]

/-- **C118, program.** A run of the program in `float64` as in C110 on a box: it ends normally and writes one file; along the contours of layer `i` the
nozzle makes four moves, from one corner of the box once around its rectangle and back to it, at the middle of the layer with three decimals. The
corners are exactly those of the box. -/
theorem C118_program (M : Machine B64) (fuel : ℕ) (read : String → Option Bytes) (templates : String → Option (List Char))
    (canWrite : String → Bool) (now : String) (fl : GoosliFlags B64) (ts0 : List RTri) (o p q : R3) (t lw : ℝ) (k n : ℕ)
    (hread : Loads (read fl.stl) (fmesh ts0)) (hF : ∀ w ∈ allVerts ts0, w.isF) (hty : fl.slicingType = "3axes") (ho : o.isF)
    (horg : fl.origin = o.f64v) (hout : canWrite fl.out = true) (htop : (templates "data/header_template.txt").isSome)
    (hbot : (templates "data/footer_template.txt").isSome) (hts : ts0.map (RTri.movedF o) = brick p q)
    (H : GoodBox k p q) (E : EvenLayers k n p.z q.z t) (hn : 2 ≤ n)
    (ht : fl.layerHeight = B64.of t) (hs : fl.supportsOn = false)
    (hlw : fl.lineWidth = B64.of lw) (Flw : IsF lw) (l0 : 1 / 50 ≤ lw) (l1 : lw ≤ 10)
    (hd0 : 1 ≤ densityShare fl.fillingType fl.fillDensity) (hd1 : densityShare fl.fillingType fl.fillDensity ≤ 100) :
    ∃ (hd ft : List Char) (text : String),
      runGoosli M fuel read templates canWrite now fl = ⟨[(fl.out, hd ++ text.toList ++ ft)], .ok ()⟩ ∧
      (∀ P : Printer, P.tool = 0 → ∀ m ∈ printedMoves P (parseText text), m.layer < n) ∧
      ∀ i < n, ∃ j < 4, ∀ P : Printer, P.tool = 0 →
        rimMovesOf i (printedMoves P (parseText text)) = rectMoves p q (thousandth (p.z + (i + 1 / 2) * t)) i j := by
  obtain ⟨hd, ft, text, sparse, full, j, fills, h1, -, -, hj, -, h2⟩ := box_run_exact M fuel read templates canWrite now fl ts0 o p q t lw k n hread hF hty
    ho horg hout htop hbot hts H E hn ht hs hlw Flw l0 l1 hd0 hd1
  refine ⟨hd, ft, text, h1, fun P hP m hm => ?_, fun i hi => ⟨j i, hj i, fun P hP => ?_⟩⟩
  · rw [h2 P hP] at hm
    have := layersRun_lt _ 0 m hm
    simpa using this
  · have := rimMoves_run (k := 0) (j := i) (ds := (List.range n).map fun i : ℕ => ([rectLoop p q (p.z + (i + 1 / 2) * t) (j i)], fills i))
      (d := ([rectLoop p q (p.z + (i + 1 / 2) * t) (j i)], fills i)) (by rw [List.getElem?_map, List.getElem?_range hi]; rfl)
    rw [Nat.zero_add] at this
    rw [h2 P hP, this]
    simp only [List.flatMap_cons, List.flatMap_nil, List.append_nil, rect_run H]
    rfl

/-! ## Non-vacuity -/

/-- flags for a vertical slice in layers of a quarter of a millimetre -/
private noncomputable def exFlags : GoosliFlags B64 :=
  ⟨"in.stl", "out.gcode", (⟨0, 0, 0⟩ : R3).f64v, (⟨0, 0, 0⟩ : R3).f64, B64.of 10, B64.of (1 / 4), B64.of 1, 20, 1, 1, 60, 200, 50, 30, 40, false,
    B64.of (1 / 2), "Squares", false, 20, B64.of 5, "planes.txt", "3axes", B64.of 30, zUp.f64v, false, B64.of 1, B64.of 2, B64.of 1, 3⟩

/-- every box of whole sides with a height of at most 12 mm: each of its layers of a quarter of a millimetre begins with the rectangle of the box -/
example (M : Machine B64) (fuel : ℕ) (now : String) (p q : R3) (c : ℕ) (c0 : 1 ≤ c) (c1 : c ≤ 12) (hc : q.z - p.z = c) (H : GoodBox 3 p q) :
    ∃ (hd ft : List Char) (text : String),
    runGoosli M fuel (fun _ => some (saveSTL (fmesh (brick p q)))) (fun _ => some []) (fun _ => true) now exFlags =
      ⟨[("out.gcode", hd ++ text.toList ++ ft)], .ok ()⟩ ∧
    ∀ i < 4 * c, ∃ j < 4, ∀ P : Printer, P.tool = 0 →
        rimMovesOf i (printedMoves P (parseText text)) = rectMoves p q (thousandth (p.z + (i + 1 / 2) * (1 / 4))) i j := by
  have em := movedF_zero (ts := brick p q) (box_isF H)
  have step : rd (((4 * c : ℕ) : ℝ) * (1 / 4) * rd (1 / ((4 * c : ℕ) : ℝ))) = 1 / 4 := by
    have := even_upto48 (n := 4 * c) (by omega) (by omega) (b := -2) (by norm_num)
    have e : (2 : ℝ) ^ (-2 : ℤ) = 1 / 4 := by norm_num
    rwa [e] at this
  have E : EvenLayers 3 (4 * c) p.z q.z (1 / 4) :=
    ⟨H.pz.mono (by norm_num), ⟨1, by norm_num⟩, by norm_num, by rw [hc]; push_cast; ring, H.pr.2.2, H.qr.2.2, step⟩
  obtain ⟨hd, ft, text, h1, -, h2⟩ :=
    C118_program M fuel (fun _ => some (saveSTL (fmesh (brick p q)))) (fun _ => some []) (fun _ => true) now exFlags (brick p q) ⟨0, 0, 0⟩ p q (1 / 4) (1 / 2) 3 (4 * c)
      (box_loads H) (box_isF H) rfl ⟨isF_zero, isF_zero, isF_zero⟩ rfl rfl rfl rfl em H E (by omega) rfl rfl rfl isF_half (by norm_num)
      (by norm_num) (by decide) (by decide)
  exact ⟨hd, ft, text, h1, h2⟩

/-- the four moves around a box of 40 by 30 mm, from the corner at `(20, 5)` -/
example (z : ℝ) : rectMoves ⟨-20, 5, 0⟩ ⟨20, 35, 12⟩ z 7 0 = [⟨7, "OUTER_PATHES".toList, ⟨20, 5, z⟩, ⟨-20, 5, z⟩⟩,
    ⟨7, "OUTER_PATHES".toList, ⟨-20, 5, z⟩, ⟨-20, 35, z⟩⟩, ⟨7, "OUTER_PATHES".toList, ⟨-20, 35, z⟩, ⟨20, 35, z⟩⟩,
    ⟨7, "OUTER_PATHES".toList, ⟨20, 35, z⟩, ⟨20, 5, z⟩⟩] := rfl

end Goosli
