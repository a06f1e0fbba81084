import Verif.Props.C103
import Verif.Props.C97
import Verif.Props.C100
import Verif.Props.C68
/-!
# C104: from the bytes of the model to the moves in the file, in float64
-/
set_option autoImplicit false
namespace Goosli
open Flt R3 Spec

/-! ## what a printer does with the points of a path -/

/-- a coordinate of the nozzle after a move from `a` to `b`, if it was `n` before: it is not written if it changes by less than 0.001 -/
noncomputable def coordAfter (n a b : ℝ) : ℝ := open Classical in if rd (1 / 1000) ≤ |rd (b - a)| then thousandth b else n

/-- the nozzle after a move from `a` to `b`, if it was at `n` before -/
noncomputable def nozzleTo (n a b : R3) : R3 := ⟨coordAfter n.x a.x b.x, coordAfter n.y a.y b.y, coordAfter n.z a.z b.z⟩

/-- the moves of the nozzle along a path, if it starts at `n` -/
noncomputable def nozzleRun : R3 → List R3 → List (R3 × R3)
  | n, a :: b :: t => (n, nozzleTo n a b) :: nozzleRun (nozzleTo n a b) (b :: t)
  | _, _ => []

/-- the moves of the nozzle along a path: it starts at the first point with three decimals -/
noncomputable def pathRun : List R3 → List (R3 × R3)
  | [] => []
  | a :: t => nozzleRun a.thousandth (a :: t)

theorem coord_f64 {x y : ℝ} (hx : IsF x) (hy : IsF y) (bx : |x| ≤ 2 ^ 20) (by' : |y| ≤ 2 ^ 20) (n : ℝ) :
    (if (lit 1 3 : B64) ≤? Flt.abs (B64.of y - B64.of x) then readDec (FltText.fmt3 (B64.of y)).toList else n) = coordAfter n x y := by
  have hF : IsF (rd (y - x)) := ⟨rep_rd _, le_max ((diff_range by' bx).trans (by norm_num))⟩
  have hlit : (lit 1 3 : B64) = B64.of (rd (1 / 1000)) := by
    rw [B64.lit_of, B64.of_rd]; norm_num
  have hlF : IsF (rd (1 / 1000)) := isF_rd (by rw [abs_of_pos] <;> norm_num)
  have hFa : IsF |rd (y - x)| := by
    rcases abs_choice (rd (y - x)) with e | e
    · rw [e]; exact hF
    · rw [e]; exact hF.neg
  rw [B64.sub_of hy hx, B64.abs_of hF, hlit, B64.le_of hlF hFa, val_of64 hy]
  unfold coordAfter
  simp only [decide_eq_true_eq]

theorem nozzleMoves_f64 (ps : List R3) (hb : BedLine ps) : ∀ n, nozzleMoves n (ps.map R3.f64) = nozzleRun n ps := by
  induction ps with
  | nil => intro n; rfl
  | cons a t ih =>
    intro n
    cases t with
    | nil => rfl
    | cons b t =>
      obtain ⟨⟨fx, fy, fz⟩, rx, ry, rz⟩ := hb a (by simp)
      obtain ⟨⟨gx, gy, gz⟩, sx, sy, sz⟩ := hb b (by simp)
      have hn : nozzleAfter n a.f64 b.f64 = nozzleTo n a b := by
        show R3.mk (if (lit 1 3 : B64) ≤? Flt.abs (B64.of b.x - B64.of a.x) then readDec (FltText.fmt3 (B64.of b.x)).toList else _)
          (if (lit 1 3 : B64) ≤? Flt.abs (B64.of b.y - B64.of a.y) then readDec (FltText.fmt3 (B64.of b.y)).toList else _)
          (if (lit 1 3 : B64) ≤? Flt.abs (B64.of b.z - B64.of a.z) then readDec (FltText.fmt3 (B64.of b.z)).toList else _) = _
        rw [coord_f64 fx gx rx sx, coord_f64 fy gy ry sy, coord_f64 fz gz rz sz]
        rfl
      rw [List.map_cons, List.map_cons, nozzleMoves, hn, nozzleRun]
      congr 1
      exact ih (fun w hw => hb w (List.mem_cons_of_mem _ hw)) _

theorem jobMoves_f64 (k : ℕ) (sect : String) (c : List R3) (hb : BedLine c) :
    jobMoves ⟨k, sect, fpath c⟩ = (pathRun c).map fun q => ⟨k, sect.toList, q.1, q.2⟩ := by
  unfold jobMoves fpath
  cases c with
  | nil => rfl
  | cons a t =>
    have h0 : ∀ {x : ℝ}, IsF x → B64.of x + lit 0 0 = B64.of x := by
      intro x hx
      rw [B64.lit0, B64.add_of hx isF_zero, add_zero, B64.of_rd]
    have hs : nozzleStart a.f64 = a.thousandth := by
      obtain ⟨fx, fy, fz⟩ := (hb a (by simp)).1
      show R3.mk (readDec (FltText.fmt3 (B64.of a.x + lit 0 0)).toList) (readDec (FltText.fmt3 (B64.of a.y + lit 0 0)).toList)
        (readDec (FltText.fmt3 (B64.of a.z + lit 0 0)).toList) = _
      rw [h0 fx, h0 fy, h0 fz, val_of64 fx, val_of64 fy, val_of64 fz]
      rfl
    rw [List.map_cons]
    dsimp only
    rw [hs, ← List.map_cons, nozzleMoves_f64 _ hb]
    rfl

theorem coordAfter_small {n a b : ℝ} (h : ¬ rd (1 / 1000) ≤ |rd (b - a)|) : |b - a| < 1 / 1000 := by
  by_contra hc
  rw [not_lt] at hc
  apply h
  rcases le_total 0 (b - a) with h0 | h0
  · rw [abs_of_nonneg h0] at hc
    rw [abs_of_nonneg (rd_nonneg h0)]
    exact rd_mono hc
  · rw [abs_of_nonpos h0] at hc
    rw [abs_of_nonpos (rd_nonpos h0), ← rd_neg]
    exact rd_mono hc

theorem coordAfter_near {n a b δ : ℝ} (hδ : 1 / 2000 ≤ δ) (h : |n - a| ≤ δ) : |coordAfter n a b - b| ≤ δ + 1 / 1000 := by
  unfold coordAfter
  split
  · exact (thousandth_near b).trans (by linarith)
  · rename_i hc
    have h1 := coordAfter_small (n := n) hc
    have := abs_sub_le n a b
    rw [abs_sub_comm a b] at this
    linarith

theorem coordAfter_same (n a : ℝ) (hn : n = thousandth a) : coordAfter n a a = n := by
  unfold coordAfter
  split
  · rw [hn]
  · rfl

/-- each coordinate is off by at most `δ` -/
def R3.offBy (δ : ℝ) (w v : R3) : Prop := |w.x - v.x| ≤ δ ∧ |w.y - v.y| ≤ δ ∧ |w.z - v.z| ≤ δ

theorem nozzleRun_near (ps : List R3) : ∀ (n : R3) (δ : ℝ), 1 / 2000 ≤ δ → (∀ a ∈ ps.head?, n.offBy δ a) →
    List.Forall₂ (fun (q : R3 × R3) (s : (R3 × R3) × ℕ) => q.1.offBy (δ + s.2 / 1000) s.1.1 ∧ q.2.offBy (δ + (s.2 + 1) / 1000) s.1.2)
      (nozzleRun n ps) (adjPairs ps).zipIdx := by
  have key : ∀ (ps : List R3) (n : R3) (δ : ℝ) (k : ℕ), 1 / 2000 ≤ δ → (∀ a ∈ ps.head?, n.offBy (δ + k / 1000) a) →
    List.Forall₂ (fun (q : R3 × R3) (s : (R3 × R3) × ℕ) => q.1.offBy (δ + s.2 / 1000) s.1.1 ∧ q.2.offBy (δ + (s.2 + 1) / 1000) s.1.2)
      (nozzleRun n ps) ((adjPairs ps).zipIdx k) := by
    intro ps
    induction ps with
    | nil => intro n δ k _ _; simp [nozzleRun, adjPairs]
    | cons a t ih =>
      intro n δ k hδ hn
      cases t with
      | nil => simp [nozzleRun, adjPairs]
      | cons b t =>
        obtain ⟨h1, h2, h3⟩ := hn a (by simp)
        have hk : (0 : ℝ) ≤ k / 1000 := by positivity
        have e : δ + ((k : ℝ) + 1) / 1000 = δ + k / 1000 + 1 / 1000 := by ring
        have hn' : (nozzleTo n a b).offBy (δ + ((k : ℝ) + 1) / 1000) b := by
          rw [e]
          exact ⟨coordAfter_near (by linarith) h1, coordAfter_near (by linarith) h2, coordAfter_near (by linarith) h3⟩
        rw [nozzleRun, adjPairs_cons, List.zipIdx_cons]
        refine .cons ⟨⟨h1, h2, h3⟩, hn'⟩ (ih _ δ (k + 1) hδ ?_)
        intro b' hb'
        have : b = b' := by simpa using hb'
        subst this
        push_cast
        exact hn'
  intro n δ hδ hn
  exact key ps n δ 0 hδ (by simpa using hn)

/-- **C104, deviation.** The nozzle runs along a path segment by segment; at the `i`-th point it is off by at most `0.0005 + 0.001 i` in each
coordinate: a fill line is printed within 0.0015 mm, always. -/
theorem C104_deviation (c : List R3) :
    List.Forall₂ (fun (q : R3 × R3) (s : (R3 × R3) × ℕ) => q.1.offBy (1 / 2000 + s.2 / 1000) s.1.1 ∧ q.2.offBy (1 / 2000 + (s.2 + 1) / 1000) s.1.2)
      (pathRun c) (adjPairs c).zipIdx := by
  cases c with
  | nil => simp [pathRun, adjPairs]
  | cons a t =>
    refine nozzleRun_near (a :: t) _ _ le_rfl ?_
    intro b hb
    have : a = b := by simpa using hb
    subst this
    exact ⟨thousandth_near _, thousandth_near _, thousandth_near _⟩

/-- **C104, exact.** If each coordinate changes by nothing or by at least 0.001 per segment, the nozzle runs along the segments with three
decimals. -/
theorem C104_exact (c : List R3) (hc : ∀ q ∈ adjPairs c, coarse q.1 q.2) :
    pathRun c = (adjPairs c).map fun q => (q.1.thousandth, q.2.thousandth) := by
  have h1 : ∀ {a b : ℝ}, (b = a ∨ 1 / 1000 ≤ |b - a|) → coordAfter (thousandth a) a b = thousandth b := by
    intro a b h
    rcases h with rfl | h
    · exact coordAfter_same _ _ rfl
    · unfold coordAfter
      rw [if_pos]
      by_contra hn
      exact absurd (coordAfter_small (n := a) hn) (by linarith)
  have key : ∀ ps : List R3, (∀ q ∈ adjPairs ps, coarse q.1 q.2) → ∀ a ∈ ps.head?,
      nozzleRun a.thousandth ps = (adjPairs ps).map fun q => (q.1.thousandth, q.2.thousandth) := by
    intro ps
    induction ps with
    | nil => intro _ a ha; simp at ha
    | cons a t ih =>
      intro hc a' ha
      have : a = a' := by simpa using ha
      subst this
      cases t with
      | nil => simp [nozzleRun, adjPairs]
      | cons b t =>
        obtain ⟨cx, cy, cz⟩ := hc (a, b) (by simp [adjPairs_cons])
        have hn : nozzleTo a.thousandth a b = b.thousandth := by
          unfold nozzleTo R3.thousandth
          dsimp only
          rw [h1 cx, h1 cy, h1 cz]
        rw [nozzleRun, hn, adjPairs_cons, List.map_cons]
        congr 1
        exact ih (fun q hq => hc q (by rw [adjPairs_cons]; simp [hq])) b rfl
  cases c with
  | nil => rfl
  | cons a t => exact key _ hc a rfl

/-- **C104, height.** The moves for a path at one height are all at this height with three decimals. -/
theorem C104_height (z : ℝ) (c : List R3) (h : ∀ w ∈ c, w.z = z) : ∀ q ∈ pathRun c, q.1.z = thousandth z ∧ q.2.z = thousandth z := by
  have key : ∀ ps : List R3, (∀ w ∈ ps, w.z = z) → ∀ n : R3, n.z = thousandth z → ∀ q ∈ nozzleRun n ps, q.1.z = thousandth z ∧ q.2.z = thousandth z := by
    intro ps
    induction ps with
    | nil => intro _ n _ q hq; simp [nozzleRun] at hq
    | cons a t ih =>
      intro h n hn q hq
      cases t with
      | nil => simp [nozzleRun] at hq
      | cons b t =>
        have e : (nozzleTo n a b).z = thousandth z := by
          show coordAfter n.z a.z b.z = _
          rw [h a (by simp), h b (by simp), coordAfter_same _ _ hn, hn]
        rw [nozzleRun] at hq
        rcases List.mem_cons.1 hq with rfl | hq
        · exact ⟨hn, e⟩
        · exact ih (fun w hw => h w (List.mem_cons_of_mem _ hw)) _ e q hq
  cases c with
  | nil => intro q hq; simp [pathRun] at hq
  | cons a t =>
    refine key _ h _ ?_
    show thousandth a.z = _
    rw [h a (by simp)]

/-! ## the file of a slice -/

/-- the print moves of layer number `k` with contours `d.1` and fill lines `d.2` -/
noncomputable def layerRun (k : ℕ) (d : List (List R3) × List (R3 × R3)) : List PrintedMove :=
  (d.1.flatMap pathRun).map (fun q => ⟨k, "OUTER_PATHES".toList, q.1, q.2⟩) ++
    (d.2.flatMap fun s => pathRun [s.1, s.2]).map fun q => ⟨k, "FILL_PATHES".toList, q.1, q.2⟩

/-- the print moves of consecutive layers, numbered from `k` -/
noncomputable def layersRun : ℕ → List (List (List R3) × List (R3 × R3)) → List PrintedMove
  | _, [] => []
  | k, d :: ds => layerRun k d ++ layersRun (k + 1) ds

/-- the layer with contours `d.1` and fill lines `d.2`, all on the bed -/
def LayerOf (l : Layer B64) (d : List (List R3) × List (R3 × R3)) : Prop :=
  l.paths = d.1.map fpath ∧ l.middlePs = [] ∧ l.innerPs = [] ∧ l.fill = d.2.map fline ∧ (∀ c ∈ d.1, c ≠ [] ∧ BedLine c) ∧
    ∀ s ∈ d.2, BedLine [s.1, s.2]

theorem layer_moves {l : Layer B64} {d : List (List R3) × List (R3 × R3)} (h : LayerOf l d) (k : ℕ) :
    (layerJobs k l).flatMap jobMoves = layerRun k d := by
  obtain ⟨h1, h2, h3, h4, h5, h6⟩ := h
  have e1 : ∀ (cs : List (List R3)), (∀ c ∈ cs, c ≠ [] ∧ BedLine c) → ∀ sect : String,
      (cs.map fun c => (⟨k, sect, fpath c⟩ : Spec.Job B64)).flatMap jobMoves = (cs.flatMap pathRun).map fun q => ⟨k, sect.toList, q.1, q.2⟩ := by
    intro cs hcs sect
    induction cs with
    | nil => rfl
    | cons c cs ih =>
      rw [List.map_cons, List.flatMap_cons, List.flatMap_cons, List.map_append, ih fun c hc => hcs c (List.mem_cons_of_mem _ hc),
        jobMoves_f64 _ _ _ (hcs c (by simp)).2]
  have e2 : ∀ (ss : List (R3 × R3)), (∀ s ∈ ss, BedLine [s.1, s.2]) → ∀ sect : String,
      (ss.map fun s => (⟨k, sect, fline s⟩ : Spec.Job B64)).flatMap jobMoves =
        (ss.flatMap fun s => pathRun [s.1, s.2]).map fun q => ⟨k, sect.toList, q.1, q.2⟩ := by
    intro ss hss sect
    induction ss with
    | nil => rfl
    | cons s ss ih =>
      rw [List.map_cons, List.flatMap_cons, List.flatMap_cons, List.map_append, ih fun s hs => hss s (List.mem_cons_of_mem _ hs)]
      congr 1
      exact jobMoves_f64 _ _ _ (hss s (by simp))
  unfold layerJobs layerSections layerRun
  rw [h1, h2, h3, h4]
  simp only [List.flatMap_cons, List.flatMap_nil, List.map_nil, List.map_map, List.append_nil, List.nil_append, List.flatMap_append]
  rw [← e1 d.1 h5, ← e2 d.2 h6]
  rfl

theorem layers_moves {layers : List (Layer B64)} {ds : List (List (List R3) × List (R3 × R3))} (h : List.Forall₂ LayerOf layers ds) :
    ∀ k, (jobsFrom k layers).flatMap jobMoves = layersRun k ds := by
  induction h with
  | nil => intro k; rfl
  | cons h _ ih =>
    intro k
    rw [jobsFrom, List.flatMap_append, layersRun, layer_moves h, ih]

theorem layers_nonempty {layers : List (Layer B64)} {ds : List (List (List R3) × List (R3 × R3))} (h : List.Forall₂ LayerOf layers ds) :
    ∀ k, ∀ j ∈ jobsFrom k layers, j.path.points ≠ [] := by
  induction h with
  | nil => intro k j hj; simp [jobsFrom] at hj
  | cons h _ ih =>
    intro k j hj
    rw [jobsFrom] at hj
    rcases List.mem_append.1 hj with hj | hj
    · obtain ⟨h1, h2, h3, h4, h5, h6⟩ := h
      unfold layerJobs layerSections at hj
      rw [h1, h2, h3, h4] at hj
      simp only [List.flatMap_cons, List.flatMap_nil, List.map_nil, List.append_nil, List.nil_append, List.mem_append, List.mem_map,
        exists_exists_and_eq_and] at hj
      rcases hj with ⟨c, hc, rfl⟩ | ⟨s, -, rfl⟩
      · simpa [fpath] using (h5 c hc).1
      · simp [fline, fpath]
    · exact ih _ j hj

theorem bound_bed {h : ℝ} {ts : List RTri} {cs : List (List R3)} (H : FloatSafe h ts) (hb : BoundMaterialF h ts cs) :
    ∀ c ∈ cs, c ≠ [] ∧ BedLine c ∧ ∀ w ∈ c, w.z = rd (r8 h) := by
  intro c hc
  have hst : ∀ w ∈ c, w.isF ∧ w.inBox ∧ w.z = rd (r8 h) := by
    intro w hw
    obtain ⟨a, ha, rfl⟩ := (hb.1 c hc).2.2 w hw
    have r := H.crossPoint ha
    exact ⟨(storedAt_isF r.1).1, (storedAt_isF r.1).2, by simp only [storedAt, r.2]⟩
  refine ⟨(hb.1 c hc).1, fun w hw => ⟨(hst w hw).1, ?_⟩, fun w hw => (hst w hw).2.2⟩
  have h1100 : (1100 : ℝ) ≤ 2 ^ 20 := by norm_num
  exact ⟨(hst w hw).2.1.1.trans h1100, (hst w hw).2.1.2.1.trans h1100, (hst w hw).2.1.2.2.trans h1100⟩

theorem fill_bed {h : ℝ} {ts : List RTri} {cs : List (List R3)} {planes segs : List (R3 × R3)} (hf : FillIsModelF h ts cs planes segs) :
    ∀ s ∈ segs, BedLine [s.1, s.2] ∧ ∀ w ∈ [s.1, s.2], w.z = rd (r8 h) := by
  obtain ⟨lines, l, hp, hl, he, -⟩ := hf
  have key : ∀ s ∈ segs, ∀ w, w = s.1 ∨ w = s.2 → w.isF ∧ w.onBed ∧ w.z = rd (r8 h) := by
    intro s hs w hw
    obtain ⟨u, hu, hsu⟩ : ∃ u ∈ l, s = u ∨ s = u.swap := by
      clear hp he
      induction hl with
      | nil => simp at hs
      | cons h _ ih =>
        rcases List.mem_cons.1 hs with rfl | hs
        · exact ⟨_, by simp, h⟩
        · obtain ⟨u, hu, e⟩ := ih hs
          exact ⟨u, by simp [hu], e⟩
    obtain ⟨f, hf, hu⟩ := List.mem_flatMap.1 (hp.mem_iff.1 hu)
    have := he f hf u hu w (by
      rcases hsu with rfl | rfl
      · exact hw
      · exact hw.symm)
    exact ⟨this.1, this.2.1, this.2.2.1⟩
  intro s hs
  constructor
  · intro w hw
    obtain ⟨h1, h2, -⟩ := key s hs w (by simpa using hw)
    exact ⟨h1, h2⟩
  · intro w hw
    exact (key s hs w (by simpa using hw)).2.2

/-- what `C104_file` says, and which layers the program consists of -/
theorem C104_layers (S : Sorter) (A : Arrival B64) (ts : List RTri) (lo hi t lw : ℝ) (hw : Watertight ts) (hdeg : ∀ t ∈ ts, t.nrm ≠ 0)
    (he : Extent ts zUp lo hi) (hh : 1 / 10 ^ 6 ≤ hi - lo) (tF : IsF t) (t0 : 1 / 1000 ≤ t) (t1 : t ≤ 1000)
    (sett : Settings B64) (ht : sett.layerHeight = B64.of t) (hs : sett.supportsOn = false)
    (hF : ∀ w ∈ allVerts ts, w.isF) (hR : ∀ w ∈ allVerts ts, w.inRange)
    (hsafe : ∀ m : ℕ, (m : ℤ) < floatCount lo hi t → FloatSafe (floatLevel lo hi t m) ts) (h2 : 2 ≤ floatCount lo hi t)
    (hlw : sett.gs.lineWidth = B64.of lw) (Flw : IsF lw) (l0 : 1 / 50 ≤ lw) (l1 : lw ≤ 10)
    (hd0 : 1 ≤ densityShare sett.fillingType sett.fillDensity) (hd1 : densityShare sett.fillingType sett.fillDensity ≤ 100) :
    ∃ (g : Gcode B64) (text : String) (sparse full : List (R3 × R3)) (ds : List (List (List R3) × List (R3 × R3))) (k n : ℕ),
      sliceByVectorToGcode S A (fmesh ts) zUp.f64v sett = .ok g ∧ g.text = .ok text ∧
      PatternF ts (stepF (densityShare sett.fillingType sett.fillDensity) lw) (patternDirs sett.fillingType) sparse ∧ GridF ts lw ⟨1, 0, 0⟩ full ∧
      (n : ℤ) = floatCount lo hi t ∧ k ≤ 1 ∧ k + ds.length ≤ n ∧ n ≤ k + ds.length + 1 ∧
      (∀ i d, ds[i]? = some d → BoundMaterialF (floatLevel lo hi t (k + i)) ts d.1 ∧
        FillIsModelF (floatLevel lo hi t (k + i)) ts d.1 (planesAtF sett sparse full ds.length i) d.2) ∧
      (∀ m < n, m < k ∨ k + ds.length ≤ m → NoMaterialF (floatLevel lo hi t m) ts) ∧
      (∃ layers, g.cmds = [.layersMoving layers] ∧ List.Forall₂ LayerOf layers ds) ∧
      ∀ p : Printer, p.tool = 0 → printedMoves p (parseText text) = layersRun 0 ds := by
  obtain ⟨layers, sparse, full, n, h1, hpat, hgrid, h4, ⟨k, k1, k2, k3, k4⟩, h5⟩ :=
    C103_slice S A ts lo hi t lw hw hdeg he hh tF t0 t1 sett ht hs hF hR hsafe h2 hlw Flw l0 l1 hd0 hd1
  have hord : ∀ (i : ℕ) (l : Layer B64), layers[i]? = some l → l.order = ((k + i : ℕ) : ℤ) := by
    intro i l h
    have : (layers.map Layer.order)[i]? = some l.order := by simp [h]
    obtain ⟨hi', -⟩ := List.getElem?_eq_some_iff.1 h
    rw [k2, List.getElem?_map, List.getElem?_range' hi'] at this
    simp at this
    rw [← this]; push_cast; ring
  have hlayer : ∀ (i : ℕ) (l : Layer B64), layers[i]? = some l →
      LayerIsModelF (floatLevel lo hi t (k + i)) ts (planesAtF sett sparse full layers.length i) l := by
    intro i l h
    obtain ⟨hi', -⟩ := List.getElem?_eq_some_iff.1 h
    rcases h5 (k + i) (by omega) with ⟨i', l', e1, e2, e3⟩ | ⟨-, e, -⟩
    · have := hord _ _ e1
      rw [this] at e2
      have : i' = i := by
        have : k + i' = k + i := by exact_mod_cast e2
        omega
      subst this
      rw [h] at e1
      injection e1 with e1
      subst e1
      exact e3
    · exact absurd (hord i l h) (e l (List.mem_of_getElem? h))
  have hex : ∀ i : ℕ, ∃ d : List (List R3) × List (R3 × R3), ∀ l, layers[i]? = some l → LayerOf l d ∧
      BoundMaterialF (floatLevel lo hi t (k + i)) ts d.1 ∧
        FillIsModelF (floatLevel lo hi t (k + i)) ts d.1 (planesAtF sett sparse full layers.length i) d.2 := by
    intro i
    cases h : layers[i]? with
    | none => exact ⟨([], []), fun l hl => by cases hl⟩
    | some l =>
      obtain ⟨hi', -⟩ := List.getElem?_eq_some_iff.1 h
      obtain ⟨cs, segs, a1, a2, a3, a4, -, a5, a6⟩ := hlayer i l h
      refine ⟨(cs, segs), fun l' hl' => ?_⟩
      injection hl' with e
      subst e
      have hb := bound_bed (hsafe (k + i) (by omega)) a5
      exact ⟨⟨a1, a2, a3, a4, fun c hc => ⟨(hb c hc).1, (hb c hc).2.1⟩, fun s hs => (fill_bed a6 s hs).1⟩, a5, a6⟩
  choose d hd' using hex
  have hall : List.Forall₂ LayerOf layers ((List.range layers.length).map d) := by
    rw [List.forall₂_iff_get]
    refine ⟨by simp, fun i hi1 hi2 => ?_⟩
    simp only [List.get_eq_getElem, List.getElem_map, List.getElem_range]
    exact (hd' i _ (List.getElem?_eq_getElem hi1)).1
  obtain ⟨ds, hds⟩ : ∃ ds, ds = (List.range layers.length).map d := ⟨_, rfl⟩
  rw [← hds] at hall
  have hlen : ds.length = layers.length := hall.length_eq.symm
  have hcmds : allJobs ((Gcode.new sett.gs).addLayers layers).cmds = jobsFrom 0 layers := by
    have : allLayers ((Gcode.new sett.gs).addLayers layers).cmds = layers := by
      simp [allLayers, Gcode.addLayers, Gcode.add, Gcode.new]
    unfold allJobs
    rw [this]
  obtain ⟨ls, hls⟩ := toOutput_total (sett := sett.gs) ((Gcode.new sett.gs).addLayers layers).cmds (by
    rw [hcmds]
    exact layers_nonempty hall 0)
  have htext : ((Gcode.new sett.gs).addLayers layers).text = .ok (renderAll ls) := by
    have hls : ((Gcode.new sett.gs).addLayers layers).toOutput = .ok ls := hls
    simp only [Gcode.text, hls, bind, Except.bind]
    rfl
  refine ⟨_, _, sparse, full, ds, k, n, h1, htext, hpat, hgrid, h4, k1, by omega, by omega, ?_, ?_, ⟨layers, rfl, hall⟩, ?_⟩
  · intro i e h
    have hi' : i < layers.length := by
      have := (List.getElem?_eq_some_iff.1 h).1
      omega
    rw [hds, List.getElem?_map, List.getElem?_range hi'] at h
    injection h with h
    subst h
    rw [hlen]
    exact (hd' i _ (List.getElem?_eq_getElem hi')).2
  · intro m hm hout
    rcases h5 m hm with ⟨i, l, e1, e2, -⟩ | ⟨-, -, e⟩
    · have := hord _ _ e1
      rw [this] at e2
      obtain ⟨hi', -⟩ := List.getElem?_eq_some_iff.1 e1
      have : k + i = m := by exact_mod_cast e2
      omega
    · exact e
  · intro p hp
    rw [C100_moves _ _ htext p hp, hcmds, layers_moves hall]

/-- **C104, file.** The file of a vertical slice exists, and a printer that reads it moves, layer by layer from the bottom up, along the
contours and then along the fill lines of the model at the heights of the levels, as they are in C103. -/
theorem C104_file (S : Sorter) (A : Arrival B64) (ts : List RTri) (lo hi t lw : ℝ) (hw : Watertight ts) (hdeg : ∀ t ∈ ts, t.nrm ≠ 0)
    (he : Extent ts zUp lo hi) (hh : 1 / 10 ^ 6 ≤ hi - lo) (tF : IsF t) (t0 : 1 / 1000 ≤ t) (t1 : t ≤ 1000)
    (sett : Settings B64) (ht : sett.layerHeight = B64.of t) (hs : sett.supportsOn = false)
    (hF : ∀ w ∈ allVerts ts, w.isF) (hR : ∀ w ∈ allVerts ts, w.inRange)
    (hsafe : ∀ m : ℕ, (m : ℤ) < floatCount lo hi t → FloatSafe (floatLevel lo hi t m) ts) (h2 : 2 ≤ floatCount lo hi t)
    (hlw : sett.gs.lineWidth = B64.of lw) (Flw : IsF lw) (l0 : 1 / 50 ≤ lw) (l1 : lw ≤ 10)
    (hd0 : 1 ≤ densityShare sett.fillingType sett.fillDensity) (hd1 : densityShare sett.fillingType sett.fillDensity ≤ 100) :
    ∃ (g : Gcode B64) (text : String) (sparse full : List (R3 × R3)) (ds : List (List (List R3) × List (R3 × R3))) (k n : ℕ),
      sliceByVectorToGcode S A (fmesh ts) zUp.f64v sett = .ok g ∧ g.text = .ok text ∧
      PatternF ts (stepF (densityShare sett.fillingType sett.fillDensity) lw) (patternDirs sett.fillingType) sparse ∧ GridF ts lw ⟨1, 0, 0⟩ full ∧
      (n : ℤ) = floatCount lo hi t ∧ k ≤ 1 ∧ k + ds.length ≤ n ∧ n ≤ k + ds.length + 1 ∧
      (∀ i d, ds[i]? = some d → BoundMaterialF (floatLevel lo hi t (k + i)) ts d.1 ∧
        FillIsModelF (floatLevel lo hi t (k + i)) ts d.1 (planesAtF sett sparse full ds.length i) d.2) ∧
      (∀ m < n, m < k ∨ k + ds.length ≤ m → NoMaterialF (floatLevel lo hi t m) ts) ∧
      ∀ p : Printer, p.tool = 0 → printedMoves p (parseText text) = layersRun 0 ds := by
  obtain ⟨g, text, sparse, full, ds, k, n, h1, h3, e1, e2, e3, e4, e5, e6, e7, e8, -, h4⟩ :=
    C104_layers S A ts lo hi t lw hw hdeg he hh tF t0 t1 sett ht hs hF hR hsafe h2 hlw Flw l0 l1 hd0 hd1
  exact ⟨g, text, sparse, full, ds, k, n, h1, h3, e1, e2, e3, e4, e5, e6, e7, e8, h4⟩

/-! ## the whole program -/

/-- the point moved by `o`, as it is computed -/
noncomputable def R3.movedF (o w : R3) : R3 := ⟨rd (w.x + o.x), rd (w.y + o.y), rd (w.z + o.z)⟩

/-- the triangle moved by `o`, as it is computed -/
noncomputable def RTri.movedF (o : R3) (t : RTri) : RTri := ⟨o.movedF t.a, o.movedF t.b, o.movedF t.c⟩

theorem shiftLoaded_f64 {ts : List RTri} {o : R3} (ho : o.isF) (hF : ∀ w ∈ allVerts ts, w.isF) :
    shiftLoaded (fmesh ts) o.f64v = fmesh (ts.map (RTri.movedF o)) := by
  have hp : ∀ w : R3, w.isF → w.f64.shift o.f64v = (o.movedF w).f64 := by
    intro w hw
    obtain ⟨x, y, z⟩ := hw
    obtain ⟨ox, oy, oz⟩ := ho
    unfold Point.shift R3.f64 R3.f64v R3.movedF
    dsimp only
    rw [B64.add_of x ox, B64.add_of y oy, B64.add_of z oz]
  show Mesh.mk ((ts.map RTri.f64).map fun t => t.shift o.f64v) = Mesh.mk ((ts.map (RTri.movedF o)).map RTri.f64)
  rw [List.map_map, List.map_map]
  congr 1
  refine List.map_congr_left fun t ht => ?_
  have hv : ∀ w, w = t.a ∨ w = t.b ∨ w = t.c → w.isF := fun w hw => hF w (by
    unfold allVerts
    exact List.mem_flatMap.2 ⟨t, ht, by unfold RTri.verts; simpa using hw⟩)
  show newTriangle (t.a.f64.shift o.f64v) (t.b.f64.shift o.f64v) (t.c.f64.shift o.f64v) = newTriangle _ _ _
  rw [hp _ (hv _ (by simp)), hp _ (hv _ (by simp)), hp _ (hv _ (by simp))]
  rfl

/-- with the origin at zero the model stays where it is -/
theorem movedF_zero {ts : List RTri} (hF : ∀ w ∈ allVerts ts, w.isF) : ts.map (RTri.movedF ⟨0, 0, 0⟩) = ts := by
  have hp : ∀ w : R3, w.isF → (⟨0, 0, 0⟩ : R3).movedF w = w := by
    intro w hw
    unfold R3.movedF
    apply R3.ext <;> simp only [add_zero]
    · exact rd_of_rep hw.1.1
    · exact rd_of_rep hw.2.1.1
    · exact rd_of_rep hw.2.2.1
  conv_rhs => rw [← List.map_id ts]
  refine List.map_congr_left fun t ht => ?_
  have hv : ∀ w, w = t.a ∨ w = t.b ∨ w = t.c → w.isF := fun w hw => hF w (by
    unfold allVerts
    exact List.mem_flatMap.2 ⟨t, ht, by unfold RTri.verts; simpa using hw⟩)
  unfold RTri.movedF
  rw [hp _ (hv _ (by simp)), hp _ (hv _ (by simp)), hp _ (hv _ (by simp))]
  rfl

theorem axisZ_f64 : (axisZ : Vec B64) = zUp.f64v := by
  simp only [axisZ, V, R3.f64v, zUp, B64.lit0, B64.lit1]

/-- what `C104_sliced` says, and which layers the program consists of -/
theorem C104_sliced_layers (M : Machine B64) (fuel : ℕ) (read : String → Option Bytes) (fl : GoosliFlags B64) (ts0 : List RTri) (o : R3) (lo hi t lw : ℝ)
    (hF : ∀ w ∈ allVerts ts0, w.isF) (hty : fl.slicingType = "3axes") (ho : o.isF)
    (horg : fl.origin = o.f64v)
    (hw : Watertight (ts0.map (RTri.movedF o))) (hdeg : ∀ t ∈ ts0.map (RTri.movedF o), t.nrm ≠ 0)
    (he : Extent (ts0.map (RTri.movedF o)) zUp lo hi) (hh : 1 / 10 ^ 6 ≤ hi - lo) (tF : IsF t) (t0 : 1 / 1000 ≤ t) (t1 : t ≤ 1000)
    (ht : fl.layerHeight = B64.of t) (hs : fl.supportsOn = false) (hR : ∀ w ∈ allVerts (ts0.map (RTri.movedF o)), w.inRange)
    (hsafe : ∀ m : ℕ, (m : ℤ) < floatCount lo hi t → FloatSafe (floatLevel lo hi t m) (ts0.map (RTri.movedF o)))
    (h2 : 2 ≤ floatCount lo hi t)
    (hlw : fl.lineWidth = B64.of lw) (Flw : IsF lw) (l0 : 1 / 50 ≤ lw) (l1 : lw ≤ 10)
    (hd0 : 1 ≤ densityShare fl.fillingType fl.fillDensity) (hd1 : densityShare fl.fillingType fl.fillDensity ≤ 100) :
    ∃ (g : Gcode B64) (text : String) (sparse full : List (R3 × R3)) (ds : List (List (List R3) × List (R3 × R3))) (k n : ℕ),
      sliceAs M.sorter M.arrival M.simplify fuel (read fl.planesFile) fl.slicingType (shiftLoaded (fmesh ts0) fl.origin) fl.settings = .ok g ∧
      g.text = .ok text ∧
      PatternF (ts0.map (RTri.movedF o)) (stepF (densityShare fl.fillingType fl.fillDensity) lw) (patternDirs fl.fillingType) sparse ∧
      GridF (ts0.map (RTri.movedF o)) lw ⟨1, 0, 0⟩ full ∧
      (n : ℤ) = floatCount lo hi t ∧ k ≤ 1 ∧ k + ds.length ≤ n ∧ n ≤ k + ds.length + 1 ∧
      (∀ i d, ds[i]? = some d → BoundMaterialF (floatLevel lo hi t (k + i)) (ts0.map (RTri.movedF o)) d.1 ∧
        FillIsModelF (floatLevel lo hi t (k + i)) (ts0.map (RTri.movedF o)) d.1 (planesAtF fl.settings sparse full ds.length i) d.2) ∧
      (∀ m < n, m < k ∨ k + ds.length ≤ m → NoMaterialF (floatLevel lo hi t m) (ts0.map (RTri.movedF o))) ∧
      (∃ layers, g.cmds = [.layersMoving layers] ∧ List.Forall₂ LayerOf layers ds) ∧
      ∀ p : Printer, p.tool = 0 → printedMoves p (parseText text) = layersRun 0 ds := by
  have hF' : ∀ w ∈ allVerts (ts0.map (RTri.movedF o)), w.isF := by
    intro w hw
    obtain ⟨t, ht, hw⟩ := List.mem_flatMap.1 (show w ∈ _ from hw)
    obtain ⟨t', -, rfl⟩ := List.mem_map.1 ht
    have hm : (1000 : ℝ) ≤ XR.maxF64R := by
      have := isF_rep (x := 1000) (by simpa using rep_int (n := 1000) (by norm_num)) (by rw [abs_of_pos] <;> norm_num)
      exact (le_abs_self _).trans this.2
    have hr := hR w ‹_›
    have : ∃ v, w = o.movedF v := by
      unfold RTri.verts RTri.movedF at hw
      simp only [List.mem_cons, List.not_mem_nil, or_false] at hw
      rcases hw with h | h | h <;> exact ⟨_, h⟩
    obtain ⟨v, rfl⟩ := this
    exact ⟨⟨rep_rd _, hr.1.trans hm⟩, ⟨rep_rd _, hr.2.1.trans hm⟩, ⟨rep_rd _, hr.2.2.trans hm⟩⟩
  obtain ⟨g, text, sparse, full, ds, k, n, h1, h3, h4⟩ :=
    C104_layers M.sorter M.arrival (ts0.map (RTri.movedF o)) lo hi t lw hw hdeg he hh tF t0 t1 fl.settings ht hs hF' hR hsafe h2 hlw Flw l0 l1 hd0 hd1
  have hg : sliceAs M.sorter M.arrival M.simplify fuel (read fl.planesFile) fl.slicingType (shiftLoaded (fmesh ts0) fl.origin) fl.settings = .ok g := by
    unfold sliceAs
    rw [if_pos hty, horg, shiftLoaded_f64 ho hF, axisZ_f64]
    exact h1
  exact ⟨g, text, sparse, full, ds, k, n, hg, h3, h4⟩

/-- a run of the slicer for the slicing type "3axes" and supports off on a model in `float64` -/
theorem C104_sliced (M : Machine B64) (fuel : ℕ) (read : String → Option Bytes) (fl : GoosliFlags B64) (ts0 : List RTri) (o : R3) (lo hi t lw : ℝ)
    (hF : ∀ w ∈ allVerts ts0, w.isF) (hty : fl.slicingType = "3axes") (ho : o.isF)
    (horg : fl.origin = o.f64v)
    (hw : Watertight (ts0.map (RTri.movedF o))) (hdeg : ∀ t ∈ ts0.map (RTri.movedF o), t.nrm ≠ 0)
    (he : Extent (ts0.map (RTri.movedF o)) zUp lo hi) (hh : 1 / 10 ^ 6 ≤ hi - lo) (tF : IsF t) (t0 : 1 / 1000 ≤ t) (t1 : t ≤ 1000)
    (ht : fl.layerHeight = B64.of t) (hs : fl.supportsOn = false) (hR : ∀ w ∈ allVerts (ts0.map (RTri.movedF o)), w.inRange)
    (hsafe : ∀ m : ℕ, (m : ℤ) < floatCount lo hi t → FloatSafe (floatLevel lo hi t m) (ts0.map (RTri.movedF o)))
    (h2 : 2 ≤ floatCount lo hi t)
    (hlw : fl.lineWidth = B64.of lw) (Flw : IsF lw) (l0 : 1 / 50 ≤ lw) (l1 : lw ≤ 10)
    (hd0 : 1 ≤ densityShare fl.fillingType fl.fillDensity) (hd1 : densityShare fl.fillingType fl.fillDensity ≤ 100) :
    ∃ (g : Gcode B64) (text : String) (sparse full : List (R3 × R3)) (ds : List (List (List R3) × List (R3 × R3))) (k n : ℕ),
      sliceAs M.sorter M.arrival M.simplify fuel (read fl.planesFile) fl.slicingType (shiftLoaded (fmesh ts0) fl.origin) fl.settings = .ok g ∧
      g.text = .ok text ∧
      PatternF (ts0.map (RTri.movedF o)) (stepF (densityShare fl.fillingType fl.fillDensity) lw) (patternDirs fl.fillingType) sparse ∧
      GridF (ts0.map (RTri.movedF o)) lw ⟨1, 0, 0⟩ full ∧
      (n : ℤ) = floatCount lo hi t ∧ k ≤ 1 ∧ k + ds.length ≤ n ∧ n ≤ k + ds.length + 1 ∧
      (∀ i d, ds[i]? = some d → BoundMaterialF (floatLevel lo hi t (k + i)) (ts0.map (RTri.movedF o)) d.1 ∧
        FillIsModelF (floatLevel lo hi t (k + i)) (ts0.map (RTri.movedF o)) d.1 (planesAtF fl.settings sparse full ds.length i) d.2) ∧
      (∀ m < n, m < k ∨ k + ds.length ≤ m → NoMaterialF (floatLevel lo hi t m) (ts0.map (RTri.movedF o))) ∧
      ∀ p : Printer, p.tool = 0 → printedMoves p (parseText text) = layersRun 0 ds := by
  obtain ⟨g, text, sparse, full, ds, k, n, h1, h3, e1, e2, e3, e4, e5, e6, e7, e8, -, h4⟩ :=
    C104_sliced_layers M fuel read fl ts0 o lo hi t lw hF hty ho horg hw hdeg he hh tF t0 t1 ht hs hR hsafe h2 hlw Flw l0 l1 hd0 hd1
  exact ⟨g, text, sparse, full, ds, k, n, h1, h3, e1, e2, e3, e4, e5, e6, e7, e8, h4⟩

/-- **C104, program.** A run of the program in `float64` with slicing type "3axes" and supports off on a file that loads as a model which, moved
by the origin, is watertight and at whose levels the distances of `FloatSafe` are kept: it ends normally and writes one file, which is a
header, the program and a footer; and the program moves the nozzle layer by layer along the contours and the fill lines of the model. -/
theorem C104_program (M : Machine B64) (fuel : ℕ) (read : String → Option Bytes) (templates : String → Option (List Char))
    (canWrite : String → Bool) (now : String) (fl : GoosliFlags B64) (ts0 : List RTri) (o : R3) (lo hi t lw : ℝ)
    (hread : Loads (read fl.stl) (fmesh ts0)) (hF : ∀ w ∈ allVerts ts0, w.isF) (hty : fl.slicingType = "3axes") (ho : o.isF)
    (horg : fl.origin = o.f64v) (hout : canWrite fl.out = true) (htop : (templates "data/header_template.txt").isSome)
    (hbot : (templates "data/footer_template.txt").isSome)
    (hw : Watertight (ts0.map (RTri.movedF o))) (hdeg : ∀ t ∈ ts0.map (RTri.movedF o), t.nrm ≠ 0)
    (he : Extent (ts0.map (RTri.movedF o)) zUp lo hi) (hh : 1 / 10 ^ 6 ≤ hi - lo) (tF : IsF t) (t0 : 1 / 1000 ≤ t) (t1 : t ≤ 1000)
    (ht : fl.layerHeight = B64.of t) (hs : fl.supportsOn = false) (hR : ∀ w ∈ allVerts (ts0.map (RTri.movedF o)), w.inRange)
    (hsafe : ∀ m : ℕ, (m : ℤ) < floatCount lo hi t → FloatSafe (floatLevel lo hi t m) (ts0.map (RTri.movedF o)))
    (h2 : 2 ≤ floatCount lo hi t)
    (hlw : fl.lineWidth = B64.of lw) (Flw : IsF lw) (l0 : 1 / 50 ≤ lw) (l1 : lw ≤ 10)
    (hd0 : 1 ≤ densityShare fl.fillingType fl.fillDensity) (hd1 : densityShare fl.fillingType fl.fillDensity ≤ 100) :
    ∃ (hd ft : List Char) (text : String) (sparse full : List (R3 × R3)) (ds : List (List (List R3) × List (R3 × R3))) (k n : ℕ),
      runGoosli M fuel read templates canWrite now fl = ⟨[(fl.out, hd ++ text.toList ++ ft)], .ok ()⟩ ∧
      PatternF (ts0.map (RTri.movedF o)) (stepF (densityShare fl.fillingType fl.fillDensity) lw) (patternDirs fl.fillingType) sparse ∧
      GridF (ts0.map (RTri.movedF o)) lw ⟨1, 0, 0⟩ full ∧
      (n : ℤ) = floatCount lo hi t ∧ k ≤ 1 ∧ k + ds.length ≤ n ∧ n ≤ k + ds.length + 1 ∧
      (∀ i d, ds[i]? = some d → BoundMaterialF (floatLevel lo hi t (k + i)) (ts0.map (RTri.movedF o)) d.1 ∧
        FillIsModelF (floatLevel lo hi t (k + i)) (ts0.map (RTri.movedF o)) d.1 (planesAtF fl.settings sparse full ds.length i) d.2) ∧
      (∀ m < n, m < k ∨ k + ds.length ≤ m → NoMaterialF (floatLevel lo hi t m) (ts0.map (RTri.movedF o))) ∧
      ∀ p : Printer, p.tool = 0 → printedMoves p (parseText text) = layersRun 0 ds := by
  obtain ⟨g, text, sparse, full, ds, k, n, hg, h3, h4⟩ :=
    C104_sliced M fuel read fl ts0 o lo hi t lw hF hty ho horg hw hdeg he hh tF t0 t1 ht hs hR hsafe h2 hlw Flw l0 l1 hd0 hd1
  obtain ⟨top, htop⟩ := Option.isSome_iff_exists.1 htop
  obtain ⟨bot, hbot⟩ := Option.isSome_iff_exists.1 hbot
  obtain ⟨hd, ft, hc⟩ : ∃ hd ft, commandsWithTemplates (templates "data/header_template.txt") (templates "data/footer_template.txt") M.maps g
      fl.settings (fl.info now) = .ok (hd ++ text.toList ++ ft) := by
    unfold commandsWithTemplates
    rw [htop, hbot, h3]
    exact ⟨_, _, rfl⟩
  refine ⟨hd, ft, text, sparse, full, ds, k, n, ?_, h4⟩
  unfold runGoosli
  simp only [loadMesh_loads hread, go_ok_bind, hg, hc]
  show writeFiles canWrite [(fl.out, hd ++ text.toList ++ ft)] = _
  unfold writeFiles
  rw [if_pos hout]
  rfl

/-! ## Non-vacuity -/

theorem exTetra_loads : Loads (some (saveSTL (fmesh exTetra))) (fmesh exTetra) := by
  have h := (C97_save exTetra (by simp [exTetra]) exTetra_safe.isF (fun w hw => by
    have h := exTetra_safe.range w hw
    have h3 : (1000 : ℝ) ≤ 2 ^ 127 := by norm_num
    exact ⟨h.1.trans h3, h.2.1.trans h3, h.2.2.trans h3⟩)).1
  have e : exTetra.map RTri.round32 = exTetra := by
    have r0 : rd32 0 = 0 := rd32_of_rep (by simpa using rep32_int (n := 0) (by norm_num))
    have r4 : rd32 4 = 4 := rd32_of_rep (by simpa using rep32_int (n := 4) (by norm_num))
    simp [exTetra, RTri.round32, R3.round32, r0, r4]
  rw [e] at h
  exact ⟨_, rfl, h⟩

/-- flags for a vertical slice in layers of one millimetre -/
private noncomputable def exFlags : GoosliFlags B64 :=
  ⟨"in.stl", "out.gcode", (⟨0, 0, 0⟩ : R3).f64v, (⟨0, 0, 0⟩ : R3).f64, B64.of 10, B64.of 1, B64.of 1, 20, 1, 1, 60, 200, 50, 30, 40, false,
    B64.of (1 / 2), "Squares", false, 20, B64.of 5, "planes.txt", "3axes", B64.of 30, zUp.f64v, false, B64.of 1, B64.of 2, B64.of 1, 3⟩

/-- the run on the file of the tetrahedron: it ends normally, and in the file there are at least two layers; their contours enclose the model at the
heights of the levels -/
example (M : Machine B64) (fuel : ℕ) (now : String) : ∃ (hd ft : List Char) (text : String) (ds : List (List (List R3) × List (R3 × R3))) (k : ℕ),
    runGoosli M fuel (fun _ => some (saveSTL (fmesh exTetra))) (fun _ => some []) (fun _ => true) now exFlags =
      ⟨[("out.gcode", hd ++ text.toList ++ ft)], .ok ()⟩ ∧ 2 ≤ ds.length ∧
    (∀ i d, ds[i]? = some d → BoundMaterialF (floatLevel 0 4 1 (k + i)) exTetra d.1) ∧
    ∀ p : Printer, p.tool = 0 → printedMoves p (parseText text) = layersRun 0 ds := by
  have em := movedF_zero (ts := exTetra) exTetra_safe.isF
  obtain ⟨hd, ft, text, sparse, full, ds, k, n, h1, -, -, h2, h3, h4, h5, h6, -, h7⟩ :=
    C104_program M fuel (fun _ => some (saveSTL (fmesh exTetra))) (fun _ => some []) (fun _ => true) now exFlags exTetra ⟨0, 0, 0⟩ 0 4 1 (1 / 2)
      exTetra_loads exTetra_safe.isF rfl ⟨isF_zero, isF_zero, isF_zero⟩ rfl rfl rfl rfl (by rw [em]; exact exTetra_ok.1)
      (by rw [em]; exact exTetra_ok.2.1) (by rw [em]; exact exTetra_extentF) (by norm_num) isF_one (by norm_num) (by norm_num) rfl rfl
      (by rw [em]; exact exTetra_safe.range) (by rw [em]; exact exFloat_safe) (by rw [exFloat_count]; norm_num) rfl isF_half (by norm_num)
      (by norm_num) (by decide) (by decide)
  rw [em] at h6
  rw [exFloat_count] at h2
  exact ⟨hd, ft, text, ds, k, h1, by omega, fun i d h => (h6 i d h).1, h7⟩

end Goosli
