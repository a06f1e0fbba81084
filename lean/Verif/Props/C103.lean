import Verif.Props.C102
import Verif.Props.C90
/-!
# C103: a vertical slice in float64 is the model, layer by layer
-/
set_option autoImplicit false
namespace Goosli
open Flt R3

/-! ## the fill planes of the patterns -/

/-- the density of one direction of the pattern, in whole percents -/
def densityShare (pattern : String) (d : ℤ) : ℤ :=
  if pattern = "Squares" then d.tdiv 2 else if pattern = "Triangles" then d.tdiv 3 else d

/-- the distance of the planes of a direction with density `d`, as it is computed -/
noncomputable def stepF (d : ℤ) (lw : ℝ) : ℝ := rd (rd (100 / d) * lw)

/-- the normals of the planes of a pattern, as they are stored -/
noncomputable def patternDirs (pattern : String) : List R3 :=
  if pattern = "Squares" then [⟨rd (7071067812 / 10 ^ 10), rd (7071067812 / 10 ^ 10), 0⟩, ⟨rd (-7071067812 / 10 ^ 10), rd (7071067812 / 10 ^ 10), 0⟩]
  else if pattern = "Triangles" then [⟨1, 0, 0⟩, ⟨1 / 2, rd (8660254038 / 10 ^ 10), 0⟩, ⟨-(1 / 2), rd (8660254038 / 10 ^ 10), 0⟩]
  else [⟨1, 0, 0⟩]

/-- the planes of a pattern: a grid for each of its directions -/
def PatternF (ts : List RTri) (s : ℝ) (dirs : List R3) (fs : List (R3 × R3)) : Prop :=
  ∃ parts : List (List (R3 × R3)), fs = parts.flatten ∧ List.Forall₂ (fun u p => GridF ts s u p) dirs parts

theorem PatternF.planes {ts : List RTri} {s : ℝ} {dirs : List R3} {fs : List (R3 × R3)} (h : PatternF ts s dirs fs) :
    ∀ f ∈ fs, FillPlaneF f.1 f.2 := by
  obtain ⟨parts, rfl, h⟩ := h
  intro f hf
  obtain ⟨p, hp, hf⟩ := List.mem_flatten.1 hf
  obtain ⟨u, -, hu⟩ := forall₂_mem_right h hp
  exact (hu.1 f hf).1

theorem stepF_spec {d : ℤ} {lw : ℝ} (hd0 : 1 ≤ d) (hd1 : d ≤ 100) (hlw : IsF lw) (l0 : 1 / 50 ≤ lw) (l1 : lw ≤ 10) :
    (fillStep d (B64.of lw) : B64) = B64.of (stepF d lw) ∧ IsF (stepF d lw) ∧ 1 / 100 ≤ stepF d lw ∧ stepF d lw ≤ 1000 ∧
      |stepF d lw - 100 / d * lw| ≤ 1 / 10 ^ 12 := by
  have d0 : (1 : ℝ) ≤ d := by exact_mod_cast hd0
  have d1 : (d : ℝ) ≤ 100 := by exact_mod_cast hd1
  have dp : (0 : ℝ) < d := by linarith
  have q0 : 1 ≤ 100 / (d : ℝ) := by rw [le_div_iff₀ dp]; linarith
  have q1 : 100 / (d : ℝ) ≤ 100 := by rw [div_le_iff₀ dp]; nlinarith
  have r100 : IsF 100 := by simpa using isF_int (n := 100) (by norm_num)
  have Fd : IsF (d : ℝ) := isF_int (by rw [abs_of_pos (by omega)]; exact hd1.trans (by norm_num))
  have bq : |100 / (d : ℝ)| ≤ 100 := by rw [abs_of_pos (by linarith)]; exact q1
  have Fq := isF_rd (bq.trans (by norm_num))
  have e1 := rd_err (by norm_num) bq
  have g0 : 1 ≤ rd (100 / (d : ℝ)) := le_rd isF_one.1 q0
  have g1 : rd (100 / (d : ℝ)) ≤ 100 := rd_le r100.1 q1
  have bm : |rd (100 / (d : ℝ)) * lw| ≤ 1000 := by
    rw [abs_of_nonneg (by nlinarith)]
    calc rd (100 / (d : ℝ)) * lw ≤ 100 * 10 := mul_le_mul g1 l1 (by linarith) (by norm_num)
      _ = 1000 := by norm_num
  have e2 := rd_err (by norm_num) bm
  have e3 : |rd (100 / (d : ℝ)) * lw - 100 / d * lw| ≤ 100 * (12 / 10 ^ 17) * 10 := by
    rw [← sub_mul, abs_mul, abs_of_nonneg (by linarith : 0 ≤ lw)]
    exact mul_le_mul e1 l1 (by linarith) (by norm_num)
  have hm : lw ≤ rd (100 / (d : ℝ)) * lw := by nlinarith
  refine ⟨?_, isF_rd (bm.trans (by norm_num)), ?_, ?_, ?_⟩
  · unfold fillStep
    rw [B64.lit_of, B64.ofInt_of]
    have : ((100 : ℤ) : ℝ) / 10 ^ 0 = 100 := by norm_num
    rw [this, B64.div_of r100 Fd dp.ne', B64.mul_of Fq hlw]
    rfl
  · have := abs_le.1 e2
    unfold stepF
    norm_num at *
    linarith
  · have : IsF 1000 := by simpa using isF_int (n := 1000) (by norm_num)
    exact rd_le this.1 ((le_abs_self _).trans bm)
  · have := abs_add_le (rd (rd (100 / (d : ℝ)) * lw) - rd (100 / (d : ℝ)) * lw) (rd (100 / (d : ℝ)) * lw - 100 / d * lw)
    rw [sub_add_sub_cancel] at this
    unfold stepF
    norm_num at *
    linarith

theorem normal_ex : NormalF ⟨1, 0, 0⟩ := ⟨⟨isF_one, isF_zero, isF_zero⟩, by norm_num, by norm_num, rfl, by norm_num⟩

theorem normal_of {a b : ℝ} (ha : |a| ≤ 9 / 10) (ha' : 1 / 2 ≤ |a|) (hb : |b| ≤ 9 / 10) (hF : 1 / 2 ≤ |rd a|) : NormalF ⟨rd a, rd b, 0⟩ := by
  have e1 := rd_bound (by norm_num) ha
  have e2 := rd_bound (by norm_num) hb
  exact ⟨⟨isF_rd (ha.trans (by norm_num)), isF_rd (hb.trans (by norm_num)), isF_zero⟩, by norm_num at *; linarith, by norm_num at *; linarith, rfl, hF⟩

/-- the normals of all patterns are vertical planes that run rather along Y -/
theorem patternDirs_normal (pattern : String) : ∀ u ∈ patternDirs pattern, NormalF u := by
  have r7 : |rd (7071067812 / 10 ^ 10) - 7071067812 / 10 ^ 10| ≤ 1 * (12 / 10 ^ 17) := rd_err (by norm_num) (by rw [abs_of_pos] <;> norm_num)
  have r7' : |rd (-7071067812 / 10 ^ 10) - -7071067812 / 10 ^ 10| ≤ 1 * (12 / 10 ^ 17) := rd_err (by norm_num) (by rw [abs_le]; constructor <;> norm_num)
  have g7 : 1 / 2 ≤ |rd (7071067812 / 10 ^ 10)| := by
    refine le_abs.2 (Or.inl ?_)
    have := abs_le.1 r7
    norm_num at *
    linarith
  have g7' : 1 / 2 ≤ |rd (-7071067812 / 10 ^ 10)| := by
    refine le_abs.2 (Or.inr ?_)
    have := abs_le.1 r7'
    norm_num at *
    linarith
  have hh : rd (1 / 2) = 1 / 2 := rd_of_rep isF_half.1
  have hh' : rd (-(1 / 2)) = -(1 / 2) := rd_of_rep isF_half.1.neg
  intro u hu
  unfold patternDirs at hu
  split at hu
  · simp only [List.mem_cons, List.not_mem_nil, or_false] at hu
    rcases hu with rfl | rfl
    · exact normal_of (by rw [abs_le]; constructor <;> norm_num) (le_abs.2 (Or.inl (by norm_num))) (by rw [abs_le]; constructor <;> norm_num) g7
    · exact normal_of (by rw [abs_le]; constructor <;> norm_num) (le_abs.2 (Or.inr (by norm_num))) (by rw [abs_le]; constructor <;> norm_num) g7'
  · split at hu
    · simp only [List.mem_cons, List.not_mem_nil, or_false] at hu
      rcases hu with rfl | rfl | rfl
      · exact normal_ex
      · have := normal_of (a := 1 / 2) (b := 8660254038 / 10 ^ 10) (by rw [abs_le]; constructor <;> norm_num) (le_abs.2 (Or.inl (by norm_num)))
          (by rw [abs_le]; constructor <;> norm_num) (by rw [hh]; exact le_abs_self _)
        rwa [hh] at this
      · have := normal_of (a := -(1 / 2)) (b := 8660254038 / 10 ^ 10) (by rw [abs_le]; constructor <;> norm_num)
          (le_abs.2 (Or.inr (by norm_num))) (by rw [abs_le]; constructor <;> norm_num) (by rw [hh', abs_neg]; exact le_abs_self _)
        rwa [hh'] at this
    · simp only [List.mem_cons, List.not_mem_nil, or_false] at hu
      subst hu
      exact normal_ex

/-- **C103, fill planes.** In `float64` the fill planes of a model are, for every direction of the pattern, vertical planes at a distance of
the step from each other, up to `1e-6`, from the lowest to the highest coordinate of the model; and for solid layers the same along X with
the line width as step. -/
theorem C103_planes {ts : List RTri} (hne : ts ≠ []) (hF : ∀ w ∈ allVerts ts, w.isF) (hR : ∀ w ∈ allVerts ts, w.inRange) (sett : Settings B64)
    {lw : ℝ} (hlw : sett.gs.lineWidth = B64.of lw) (Flw : IsF lw) (l0 : 1 / 50 ≤ lw) (l1 : lw ≤ 10)
    (hd0 : 1 ≤ densityShare sett.fillingType sett.fillDensity) (hd1 : densityShare sett.fillingType sett.fillDensity ≤ 100) :
    ∃ sparse full : List (R3 × R3), calcFillPlanes (fmesh ts) sett = (planesF sparse, planesF full) ∧
      PatternF ts (stepF (densityShare sett.fillingType sett.fillDensity) lw) (patternDirs sett.fillingType) sparse ∧ GridF ts lw ⟨1, 0, 0⟩ full := by
  obtain ⟨estep, Fs, s0, s1, -⟩ := stepF_spec hd0 hd1 Flw l0 l1
  set s := stepF (densityShare sett.fillingType sett.fillDensity) lw with hs
  have hX : (axisX : Vec B64) = (⟨1, 0, 0⟩ : R3).f64v := by
    simp only [axisX, V, R3.f64v, B64.lit0, B64.lit1]
  obtain ⟨full, hfull, gfull⟩ := planes_f64 hne hF hR Flw (by linarith) (by linarith) normal_ex
  have hsparse : ∃ sparse, (calcFillPlanes (fmesh ts) sett).1 = planesF sparse ∧ PatternF ts s (patternDirs sett.fillingType) sparse := by
    have hdirs := patternDirs_normal sett.fillingType
    have hl : ∀ (a b c d : ℝ), B64.of a = B64.of c → B64.of b = B64.of d → Vec.mk (B64.of a) (B64.of b) (B64.of 0) = (⟨c, d, 0⟩ : R3).f64v := by
      intro a b c d h1 h2
      rw [h1, h2]; rfl
    have hV : ∀ (m n : ℤ) (i j : ℕ) (c d : ℝ), B64.of ((m : ℝ) / 10 ^ i) = B64.of c → B64.of ((n : ℝ) / 10 ^ j) = B64.of d →
        (V (lit m i) (lit n j) (lit 0 0) : Vec B64) = (⟨c, d, 0⟩ : R3).f64v := by
      intro m n i j c d h1 h2
      unfold V
      rw [B64.lit_of, B64.lit_of, B64.lit0]
      exact hl _ _ _ _ h1 h2
    have ofr : ∀ {x y : ℝ}, x = y → B64.of x = B64.of (rd y) := fun h => by rw [h, B64.of_rd]
    unfold calcFillPlanes
    dsimp only
    by_cases h2 : sett.fillingType = "Squares"
    · rw [if_neg (by rw [h2]; decide), if_pos h2]
      unfold calcFillPlanesSquares
      dsimp only
      have ed : sett.fillDensity.tdiv 2 = densityShare sett.fillingType sett.fillDensity := by unfold densityShare; rw [if_pos h2]
      have ep : patternDirs sett.fillingType = [⟨rd (7071067812 / 10 ^ 10), rd (7071067812 / 10 ^ 10), 0⟩, ⟨rd (-7071067812 / 10 ^ 10), rd (7071067812 / 10 ^ 10), 0⟩] := by
        unfold patternDirs; rw [if_pos h2]
      rw [ed, hlw, estep]
      rw [hV 7071067812 7071067812 10 10 (rd (7071067812 / 10 ^ 10)) (rd (7071067812 / 10 ^ 10)) (ofr (by norm_num)) (ofr (by norm_num)),
        hV (-7071067812) 7071067812 10 10 (rd (-7071067812 / 10 ^ 10)) (rd (7071067812 / 10 ^ 10)) (ofr (by norm_num)) (ofr (by norm_num))]
      rw [ep] at hdirs ⊢
      obtain ⟨a, ha, ga⟩ := planes_f64 hne hF hR Fs s0 s1 (hdirs ⟨rd (7071067812 / 10 ^ 10), rd (7071067812 / 10 ^ 10), 0⟩ (by simp))
      obtain ⟨b, hb, gb⟩ := planes_f64 hne hF hR Fs s0 s1 (hdirs ⟨rd (-7071067812 / 10 ^ 10), rd (7071067812 / 10 ^ 10), 0⟩ (by simp))
      refine ⟨a ++ b, ?_, [a, b], by simp, .cons ga (.cons gb .nil)⟩
      rw [ha, hb]
      unfold planesF
      rw [List.map_append]
    · by_cases h3 : sett.fillingType = "Triangles"
      · rw [if_neg (by rw [h3]; decide), if_neg h2, if_pos h3]
        unfold calcFillPlanesTriangles
        dsimp only
        have ed : sett.fillDensity.tdiv 3 = densityShare sett.fillingType sett.fillDensity := by unfold densityShare; rw [if_neg h2, if_pos h3]
        have ep : patternDirs sett.fillingType = [⟨1, 0, 0⟩, ⟨1 / 2, rd (8660254038 / 10 ^ 10), 0⟩, ⟨-(1 / 2), rd (8660254038 / 10 ^ 10), 0⟩] := by
          unfold patternDirs; rw [if_neg h2, if_pos h3]
        rw [ed, hlw, estep]
        rw [hV 1 0 0 0 1 0 (by norm_num) (by norm_num), hV 5 8660254038 1 10 (1 / 2) (rd (8660254038 / 10 ^ 10)) (by norm_num) (ofr (by norm_num)),
          hV (-5) 8660254038 1 10 (-(1 / 2)) (rd (8660254038 / 10 ^ 10)) (by norm_num) (ofr (by norm_num))]
        rw [ep] at hdirs ⊢
        obtain ⟨a, ha, ga⟩ := planes_f64 hne hF hR Fs s0 s1 (hdirs ⟨1, 0, 0⟩ (by simp))
        obtain ⟨b, hb, gb⟩ := planes_f64 hne hF hR Fs s0 s1 (hdirs ⟨1 / 2, rd (8660254038 / 10 ^ 10), 0⟩ (by simp))
        obtain ⟨c, hc, gc⟩ := planes_f64 hne hF hR Fs s0 s1 (hdirs ⟨-(1 / 2), rd (8660254038 / 10 ^ 10), 0⟩ (by simp))
        refine ⟨a ++ b ++ c, ?_, [a, b, c], by simp, .cons ga (.cons gb (.cons gc .nil))⟩
        rw [ha, hb, hc]
        unfold planesF
        rw [List.map_append, List.map_append]
      · have ed : sett.fillDensity = densityShare sett.fillingType sett.fillDensity := by unfold densityShare; rw [if_neg h2, if_neg h3]
        have ep : patternDirs sett.fillingType = [⟨1, 0, 0⟩] := by unfold patternDirs; rw [if_neg h2, if_neg h3]
        have e : calcFillPlanesLines (fmesh ts) sett = calcFillPlanesCommon (fmesh ts) (⟨1, 0, 0⟩ : R3).f64v (B64.of s) := by
          unfold calcFillPlanesLines
          rw [ed, hlw, estep, hX]
        rw [if_neg h2, if_neg h3, ite_self, e, ep]
        obtain ⟨a, ha, ga⟩ := planes_f64 hne hF hR Fs s0 s1 normal_ex
        exact ⟨a, ha, [a], by simp, .cons ga .nil⟩
  obtain ⟨sparse, h1, h2⟩ := hsparse
  refine ⟨sparse, full, ?_, h2, gfull⟩
  have : (calcFillPlanes (fmesh ts) sett).2 = planesF full := by
    show calcFillFullPlane (fmesh ts) sett = _
    unfold calcFillFullPlane
    rw [hlw, hX, hfull]
  rw [← h1, ← this]

/-- **C103, coverage.** Along X the planes leave no gap: every abscissa of the model is within one step and `3e-6` of a fill plane. -/
theorem C103_cover {ts : List RTri} {s : ℝ} {fs : List (R3 × R3)} (h : GridF ts s ⟨1, 0, 0⟩ fs) (s0 : 1 / 100 ≤ s) {v w : R3} (hv : v ∈ allVerts ts)
    (hw : w ∈ allVerts ts) (hvw : v.x + 1 / 10 ^ 5 ≤ w.x) {x : ℝ} (h1 : v.x ≤ x) (h2 : x ≤ w.x) : ∃ f ∈ fs, |x - f.1.x| ≤ s + 3 / 10 ^ 6 := by
  obtain ⟨-, k, hk, hcov⟩ := h
  have sp : 0 < s := by linarith
  have a1 := (hcov v hv v.x (Or.inl rfl)).1
  have a2 := (hcov w hw w.x (Or.inl rfl)).2
  have hat : ∀ i : ℕ, i < fs.length → ∃ f ∈ fs, |f.1.x - (k + i) * s| ≤ 1 / 10 ^ 6 := by
    intro i hi
    refine ⟨fs[i], List.getElem_mem hi, ?_⟩
    have := (hk i _ (List.getElem?_eq_getElem hi)).1
    simpa using this
  have near : ∀ i : ℕ, i < fs.length → |x - (k + i) * s| ≤ s + 2 / 10 ^ 6 → ∃ f ∈ fs, |x - f.1.x| ≤ s + 3 / 10 ^ 6 := by
    intro i hi hx
    obtain ⟨f, hf, hfx⟩ := hat i hi
    refine ⟨f, hf, ?_⟩
    have := abs_sub_le x ((k + i) * s) f.1.x
    rw [abs_sub_comm ((k + i) * s) f.1.x] at this
    norm_num at *
    linarith
  have hn : 0 < fs.length := by
    by_contra h0
    have : fs.length = 0 := by omega
    rw [this] at a2
    push_cast at a2
    norm_num at *
    linarith
  rcases lt_or_ge x (k * s) with hlow | hlow
  · refine near 0 hn ?_
    push_cast
    rw [add_zero, abs_le]
    norm_num at *
    constructor <;> linarith
  · obtain ⟨j, hj⟩ : ∃ j : ℕ, (j : ℤ) = ⌊x / s⌋ - k := by
      refine ⟨(⌊x / s⌋ - k).toNat, Int.toNat_of_nonneg ?_⟩
      have : k ≤ ⌊x / s⌋ := Int.le_floor.2 (by rw [le_div_iff₀ sp]; exact hlow)
      omega
    have hjr : (j : ℝ) = (⌊x / s⌋ : ℝ) - k := by exact_mod_cast hj
    have f1 : (⌊x / s⌋ : ℝ) * s ≤ x := by
      have := Int.floor_le (x / s); rwa [le_div_iff₀ sp] at this
    have f2 : x < ((⌊x / s⌋ : ℝ) + 1) * s := by
      have := Int.lt_floor_add_one (x / s); rwa [div_lt_iff₀ sp] at this
    rcases lt_or_ge j fs.length with hlt | hge
    · refine near j hlt ?_
      rw [hjr, abs_le]
      norm_num at *
      constructor <;> linarith
    · refine near (fs.length - 1) (by omega) ?_
      have e : ((fs.length - 1 : ℕ) : ℝ) = (fs.length : ℝ) - 1 := by
        rw [Nat.cast_sub (by omega)]; norm_num
      rw [e, abs_le]
      have hge' : (fs.length : ℝ) ≤ j := by exact_mod_cast hge
      have : ((k : ℝ) + fs.length) * s ≤ (k + j) * s := by gcongr
      rw [hjr] at this
      norm_num at *
      constructor <;> linarith

/-! ## the whole slice -/

/-- there is nothing of the model at height `h`, but for points within `1e-8` of its surface and in thin triangles -/
def NoMaterialF (h : ℝ) (ts : List RTri) : Prop :=
  ∀ x : R3, x.z = h → FarFromSurface (1 / 10 ^ 8) (lvl h) zUp ts x → OffThinCuts h ts x → ¬ InMaterial (lvl h) zUp ts x

/-- the layer is the model at height `h`: its contours enclose the material, and its fill lines are the material on the planes -/
def LayerIsModelF (h : ℝ) (ts : List RTri) (planes : List (R3 × R3)) (l : Layer B64) : Prop :=
  ∃ (cs : List (List R3)) (segs : List (R3 × R3)), l.paths = cs.map fpath ∧ l.middlePs = [] ∧ l.innerPs = [] ∧ l.fill = segs.map fline ∧
    l.norm = zUp.f64v ∧ BoundMaterialF h ts cs ∧ FillIsModelF h ts cs planes segs

/-- the fill planes of layer `i` of `n`: those of solid layers for the first and the last ones, those of the pattern for the others -/
noncomputable def planesAtF (sett : Settings B64) (sparse full : List (R3 × R3)) (n i : ℕ) : List (R3 × R3) :=
  open Classical in if (i : ℤ) < sett.bottomLayers ∨ (n : ℤ) - i ≤ sett.topLayers then full else sparse

theorem planesAtF_eq (sett : Settings B64) (sparse full : List (R3 × R3)) (n i : ℕ) :
    planesAtF sett sparse full n i = if solidLayer sett n i then full else sparse := by
  unfold planesAtF solidLayer
  have : ((n : ℤ) - i ≤ sett.topLayers) ↔ ((n : ℤ) - sett.topLayers ≤ i) := by constructor <;> intro h <;> omega
  simp only [this, Bool.or_eq_true, decide_eq_true_eq]

/-- **C103.** Slicing and filling a watertight model vertically in `float64` (supports off) succeeds. The layers are numbered upwards without
gaps and leave out at most the first and the last level; the layer of each level is the model at its height, with the fill planes for its
place; and where a level is left out, there is nothing of the model. -/
theorem C103_slice (S : Sorter) (A : Arrival B64) (ts : List RTri) (lo hi t lw : ℝ) (hw : Watertight ts) (hdeg : ∀ t ∈ ts, t.nrm ≠ 0)
    (he : Extent ts zUp lo hi) (hh : 1 / 10 ^ 6 ≤ hi - lo) (tF : IsF t) (t0 : 1 / 1000 ≤ t) (t1 : t ≤ 1000)
    (sett : Settings B64) (ht : sett.layerHeight = B64.of t) (hs : sett.supportsOn = false)
    (hF : ∀ w ∈ allVerts ts, w.isF) (hR : ∀ w ∈ allVerts ts, w.inRange)
    (hsafe : ∀ m : ℕ, (m : ℤ) < floatCount lo hi t → FloatSafe (floatLevel lo hi t m) ts) (h2 : 2 ≤ floatCount lo hi t)
    (hlw : sett.gs.lineWidth = B64.of lw) (Flw : IsF lw) (l0 : 1 / 50 ≤ lw) (l1 : lw ≤ 10)
    (hd0 : 1 ≤ densityShare sett.fillingType sett.fillDensity) (hd1 : densityShare sett.fillingType sett.fillDensity ≤ 100) :
    ∃ (layers : List (Layer B64)) (sparse full : List (R3 × R3)) (n : ℕ),
      sliceByVectorToGcode S A (fmesh ts) zUp.f64v sett = .ok ((Gcode.new sett.gs).addLayers layers) ∧
      PatternF ts (stepF (densityShare sett.fillingType sett.fillDensity) lw) (patternDirs sett.fillingType) sparse ∧ GridF ts lw ⟨1, 0, 0⟩ full ∧
      (n : ℤ) = floatCount lo hi t ∧
      (∃ k, k ≤ 1 ∧ layers.map Layer.order = (List.range' k layers.length).map (fun m : ℕ => (m : ℤ)) ∧ k + layers.length ≤ n ∧
        n ≤ k + layers.length + 1) ∧
      ∀ m < n, (∃ i l, layers[i]? = some l ∧ l.order = (m : ℤ) ∧
          LayerIsModelF (floatLevel lo hi t m) ts (planesAtF sett sparse full layers.length i) l) ∨
        ((m = 0 ∨ m + 1 = n) ∧ (∀ l ∈ layers, l.order ≠ (m : ℤ)) ∧ NoMaterialF (floatLevel lo hi t m) ts) := by
  have hne : ts ≠ [] := by
    rintro rfl
    obtain ⟨w, hw, -⟩ := he.1.1
    simp [allVerts] at hw
  obtain ⟨sparse, full, hpl, hpat, hgrid⟩ := C103_planes hne hF hR sett hlw Flw l0 l1 hd0 hd1
  have hvert : ∀ f ∈ sparse ++ full, FillPlaneF f.1 f.2 := by
    intro f hf
    rcases List.mem_append.1 hf with hf | hf
    · exact hpat.planes f hf
    · exact (hgrid.1 f hf).1
  obtain ⟨fl, hlen, hlev, hex, hdrop⟩ := C101_slice S A ts lo hi t hw hdeg he hh tF t0 t1 sett ht hs hF hR hsafe
  obtain ⟨layers0, hlay⟩ := hex (by omega)
  obtain ⟨pre, post, happ, hpre, hpost, epre, epost⟩ := hdrop layers0 hlay
  have hlens : fl.length = pre.length + layers0.length + post.length := by rw [happ]; simp; omega
  have hmid : ∀ (i : ℕ) (l : Layer B64), layers0[i]? = some l → fl[pre.length + i]? = some l := by
    intro i l h
    have hi : i < layers0.length := (List.getElem?_eq_some_iff.1 h).1
    rw [happ, List.getElem?_append_left (by simp; omega), List.getElem?_append_right (by omega), Nat.add_sub_cancel_left]
    exact h
  -- filling
  have hone : ∀ (i : ℕ) (l : Layer B64), layers0[i]? = some l → ∃ o, fillLayer S (planesF sparse) (planesF full) sett layers0.length i l = .ok o ∧
      o.order = ((pre.length + i : ℕ) : ℤ) ∧
      LayerIsModelF (floatLevel lo hi t (pre.length + i)) ts (planesAtF sett sparse full layers0.length i) o := by
    intro i l h
    have hi : i < layers0.length := (List.getElem?_eq_some_iff.1 h).1
    obtain ⟨a1, a2, a3, a4, a5, cs, a6, a7⟩ := hlev _ l (hmid i l h)
    obtain ⟨segs, b1, b2⟩ := C102_fill S ts _ (hsafe (pre.length + i) (by omega)) cs a7 sett sparse full hvert layers0.length i l a6 a4 a5
    rw [← planesAtF_eq] at b2
    exact ⟨_, b1, a1, cs, segs, a6, a3, a4, rfl, a2, a7, b2⟩
  obtain ⟨out, hout, hfa⟩ := go_mapM_total (fun q : Layer B64 × ℕ => fillLayer S (planesF sparse) (planesF full) sett layers0.length q.2 q.1)
    layers0.zipIdx (fun q hq => by
      obtain ⟨o, ho, -⟩ := hone q.2 q.1 (List.mem_zipIdx_iff_getElem?.1 hq)
      exact ⟨o, ho⟩)
  have hol : out.length = layers0.length := by rw [← hfa.length_eq]; simp
  have hfill : ∀ (i : ℕ) (l : Layer B64), layers0[i]? = some l → ∃ o, out[i]? = some o ∧ o.order = ((pre.length + i : ℕ) : ℤ) ∧
      LayerIsModelF (floatLevel lo hi t (pre.length + i)) ts (planesAtF sett sparse full layers0.length i) o := by
    intro i l h
    obtain ⟨o, h1, h2⟩ := forall₂_get hfa i (l, i) (by simp [List.getElem?_zipIdx, h])
    obtain ⟨o', k1, k2⟩ := hone i l h
    simp only at h2
    rw [h2] at k1
    injection k1 with k1
    subst k1
    exact ⟨o, h1, k2⟩
  have hords : out.map Layer.order = (List.range' pre.length out.length).map (fun m : ℕ => (m : ℤ)) := by
    apply List.ext_getElem?
    intro i
    rw [List.getElem?_map, List.getElem?_map]
    by_cases hi : i < layers0.length
    · obtain ⟨o, h1, h2, -⟩ := hfill i _ (List.getElem?_eq_getElem hi)
      rw [h1, List.getElem?_range' (by omega)]
      simp [h2]
    · rw [List.getElem?_eq_none (by omega), List.getElem?_eq_none (by simp; omega)]
      rfl
  refine ⟨out, sparse, full, fl.length, ?_, hpat, hgrid, hlen, ⟨pre.length, hpre, hords, by omega, by omega⟩, ?_⟩
  · unfold sliceByVectorToGcode
    rw [hlay]
    show (fillLayers S layers0 (calcFillPlanes (fmesh ts) sett).1 (calcFillPlanes (fmesh ts) sett).2 sett).bind _ = _
    rw [hpl]
    unfold fillLayers
    rw [hout]
    rfl
  · intro m hm
    have hno : ∀ l, fl[m]? = some l → l.paths = [] → NoMaterialF (floatLevel lo hi t m) ts := by
      intro l h hp
      obtain ⟨-, -, -, -, -, cs, a6, a7⟩ := hlev m l h
      have : cs = [] := by
        rw [hp] at a6
        exact List.map_eq_nil_iff.1 a6.symm
      subst this
      intro x hx hfar hoff hin
      have := ((a7.2 x hx hfar hoff).2.2 hin)
      simp [InsideOdd] at this
    have hnotin : m < pre.length ∨ pre.length + layers0.length ≤ m → ∀ l ∈ out, l.order ≠ (m : ℤ) := by
      intro h l hl ho
      have : (m : ℤ) ∈ out.map Layer.order := List.mem_map.2 ⟨l, hl, ho⟩
      rw [hords] at this
      simp only [List.mem_map, List.mem_range'_1] at this
      omega
    by_cases c1 : m < pre.length
    · refine Or.inr ⟨Or.inl (by omega), hnotin (Or.inl c1), ?_⟩
      have hg : fl[m]? = some pre[m] := by
        rw [happ, List.getElem?_append_left (by simp; omega), List.getElem?_append_left c1, List.getElem?_eq_getElem]
      exact hno _ hg (epre _ (List.getElem_mem c1))
    · by_cases c2 : m < pre.length + layers0.length
      · obtain ⟨i, rfl⟩ := Nat.exists_eq_add_of_le (by omega : pre.length ≤ m)
        have hi : i < layers0.length := by omega
        obtain ⟨o, h1, h2, h3⟩ := hfill i _ (List.getElem?_eq_getElem hi)
        exact Or.inl ⟨i, o, h1, h2, by rw [hol]; exact h3⟩
      · refine Or.inr ⟨Or.inr (by omega), hnotin (Or.inr (by omega)), ?_⟩
        have hp : m - (pre.length + layers0.length) < post.length := by omega
        have hg : fl[m]? = some post[m - (pre.length + layers0.length)] := by
          rw [happ, List.getElem?_append_right (by simp; omega), List.length_append, List.getElem?_eq_getElem]
        exact hno _ hg (epost _ (List.getElem_mem hp))

/-! ## Non-vacuity -/

/-- the hypotheses of `C103_slice` are met by the tetrahedron in four layers, with the lines of a fill of 20 percent -/
example (sett : Settings B64) (h1 : sett.fillingType = "Squares") (h2 : sett.fillDensity = 20) : Watertight exTetra ∧ (∀ t ∈ exTetra, t.nrm ≠ 0) ∧ Extent exTetra zUp 0 4 ∧ IsF 1 ∧ 2 ≤ floatCount 0 4 1 ∧
    (∀ w ∈ allVerts exTetra, w.isF) ∧ (∀ w ∈ allVerts exTetra, w.inRange) ∧
    (∀ m : ℕ, (m : ℤ) < floatCount 0 4 1 → FloatSafe (floatLevel 0 4 1 m) exTetra) ∧
    densityShare sett.fillingType sett.fillDensity = 10 ∧ IsF (1 / 2) ∧ |stepF 10 (1 / 2) - 5| ≤ 1 / 10 ^ 12 := by
  refine ⟨exTetra_ok.1, exTetra_ok.2.1, exTetra_extentF, isF_one, by rw [exFloat_count]; norm_num, exTetra_safe.isF, exTetra_safe.range, exFloat_safe, ?_, isF_half, ?_⟩
  · rw [h1, h2]; rfl
  · have := (stepF_spec (d := 10) (by norm_num) (by norm_num) isF_half (by norm_num) (by norm_num)).2.2.2.2
    norm_num at this ⊢
    exact this

/-- the fill planes of the tetrahedron with a step of half a millimetre leave no gap between 0 and 4 -/
example : ∃ fs : List (R3 × R3), calcFillPlanesCommon (fmesh exTetra) (⟨1, 0, 0⟩ : R3).f64v (B64.of (1 / 2)) = planesF fs ∧
    ∀ x : ℝ, 0 ≤ x → x ≤ 4 → ∃ f ∈ fs, |x - f.1.x| ≤ 1 / 2 + 3 / 10 ^ 6 := by
  obtain ⟨fs, h1, h2⟩ := planes_f64 (ts := exTetra) (by simp [exTetra]) exTetra_safe.isF exTetra_safe.range isF_half (by norm_num) (by norm_num) normal_ex
  refine ⟨fs, h1, fun x x0 x1 => C103_cover h2 (by norm_num) (v := ⟨0, 0, 0⟩) (w := ⟨4, 0, 0⟩) ?_ ?_ (by norm_num) x0 x1⟩ <;>
    simp [exTetra, allVerts, RTri.verts]

end Goosli
