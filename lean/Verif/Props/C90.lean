import Verif.Props.C89
import Verif.Props.C45
import Verif.Props.C12
/-!
# C90: a vertical slice is the model, layer by layer
-/
set_option autoImplicit false
namespace Goosli
open Flt R3

/-- the density of the planes of one direction: the pattern shares the density among its directions, in whole percents -/
def patternDensity (sett : Settings XR) : Int :=
  if sett.fillingType = "Squares" then sett.fillDensity.tdiv 2 else if sett.fillingType = "Triangles" then sett.fillDensity.tdiv 3 else sett.fillDensity

/-- a plane with real coordinates -/
def planeOf (f : R3 × R3) : Plane XR := ⟨f.1.pt, f.2.vec⟩

theorem grid_planes {ts : List RTri} {s M : ℝ} (h : FillBounds ts s M) (u : R3) (hz : u.z = 0) (hu : u ≠ 0) :
    ∃ fs : List (R3 × R3), calcFillPlanesCommon (rmesh ts) u.vec (XR.fin s) = fs.map planeOf ∧ ∀ f ∈ fs, f.2.z = 0 ∧ f.2 ≠ 0 := by
  obtain ⟨k, n, r, -, he, -⟩ := C45_grid h u
  refine ⟨(List.range n).map fun i : Nat => ((((k : ℝ) + i) * s) • u, u), ?_, ?_⟩
  · rw [he, List.map_map]
    rfl
  · intro f hf
    obtain ⟨i, -, rfl⟩ := List.mem_map.1 hf
    exact ⟨hz, hu⟩

/-- the fill planes of a model are vertical planes with real coordinates -/
theorem fill_planes {ts : List RTri} {sett : Settings XR} {lw M : ℝ} (hlw : sett.gs.lineWidth = XR.fin lw) (hd : patternDensity sett ≠ 0)
    (hs : FillBounds ts (100 / (patternDensity sett : ℝ) * lw) M) (hf : FillBounds ts lw M) :
    ∃ sparse full : List (R3 × R3), calcFillPlanes (rmesh ts) sett = (sparse.map planeOf, full.map planeOf) ∧
      ∀ f ∈ sparse ++ full, f.2.z = 0 ∧ f.2 ≠ 0 := by
  have hstep : fillStep (patternDensity sett) sett.gs.lineWidth = XR.fin (100 / (patternDensity sett : ℝ) * lw) := by
    unfold fillStep
    rw [hlw, XR.lit_def, XR.ofInt_def, XR.fin_div (by exact_mod_cast hd), XR.fin_mul]
    norm_num
  have hne : ∀ a b : ℝ, b ≠ 0 ∨ a ≠ 0 → (⟨a, b, 0⟩ : R3) ≠ 0 := by
    intro a b h e
    have h1 := congrArg R3.x e
    have h2 := congrArg R3.y e
    simp at h1 h2
    rcases h with h | h <;> contradiction
  obtain ⟨full, hfull, vfull⟩ := grid_planes hf R3.ex rfl (hne 1 0 (by norm_num))
  have hsparse : ∃ sparse : List (R3 × R3), (calcFillPlanes (rmesh ts) sett).1 = sparse.map planeOf ∧ ∀ f ∈ sparse, f.2.z = 0 ∧ f.2 ≠ 0 := by
    unfold calcFillPlanes
    dsimp only
    by_cases h2 : sett.fillingType = "Squares"
    · rw [if_neg (by rw [h2]; decide), if_pos h2]
      unfold calcFillPlanesSquares
      dsimp only
      have : sett.fillDensity.tdiv 2 = patternDensity sett := by unfold patternDensity; rw [if_pos h2]
      rw [this, hstep]
      obtain ⟨a, ha, va⟩ := grid_planes hs ⟨7071067812 / 10 ^ 10, 7071067812 / 10 ^ 10, 0⟩ rfl (hne _ _ (by norm_num))
      obtain ⟨b, hb, vb⟩ := grid_planes hs ⟨-7071067812 / 10 ^ 10, 7071067812 / 10 ^ 10, 0⟩ rfl (hne _ _ (by norm_num))
      refine ⟨a ++ b, ?_, fun f hf => ?_⟩
      · rw [List.map_append, ← ha, ← hb]
        simp [V, R3.vec]
      · rcases List.mem_append.1 hf with h | h
        · exact va f h
        · exact vb f h
    · by_cases h3 : sett.fillingType = "Triangles"
      · rw [if_neg (by rw [h3]; decide), if_neg h2, if_pos h3]
        unfold calcFillPlanesTriangles
        dsimp only
        have : sett.fillDensity.tdiv 3 = patternDensity sett := by unfold patternDensity; rw [if_neg h2, if_pos h3]
        rw [this, hstep]
        obtain ⟨a, ha, va⟩ := grid_planes hs ⟨1, 0, 0⟩ rfl (hne _ _ (by norm_num))
        obtain ⟨b, hb, vb⟩ := grid_planes hs ⟨5 / 10, 8660254038 / 10 ^ 10, 0⟩ rfl (hne _ _ (by norm_num))
        obtain ⟨c, hc, vc⟩ := grid_planes hs ⟨-5 / 10, 8660254038 / 10 ^ 10, 0⟩ rfl (hne _ _ (by norm_num))
        refine ⟨a ++ b ++ c, ?_, fun f hf => ?_⟩
        · rw [List.map_append, List.map_append, ← ha, ← hb, ← hc]
          simp [V, R3.vec]
        · rcases List.mem_append.1 hf with h | h
          · rcases List.mem_append.1 h with h | h
            · exact va f h
            · exact vb f h
          · exact vc f h
      · have : sett.fillDensity = patternDensity sett := by unfold patternDensity; rw [if_neg h2, if_neg h3]
        have e : calcFillPlanesLines (rmesh ts) sett = calcFillPlanesCommon (rmesh ts) R3.ex.vec (XR.fin (100 / (patternDensity sett : ℝ) * lw)) := by
          unfold calcFillPlanesLines
          rw [this, hstep, axisX_vec]
        rw [if_neg h2, if_neg h3, ite_self, e]
        exact grid_planes hs R3.ex rfl (hne 1 0 (by norm_num))
  obtain ⟨sparse, h1, h2⟩ := hsparse
  refine ⟨sparse, full, ?_, fun f hf => ?_⟩
  · have : (calcFillPlanes (rmesh ts) sett).2 = full.map planeOf := by
      show calcFillFullPlane (rmesh ts) sett = _
      unfold calcFillFullPlane
      rw [hlw, axisX_vec, hfull]
    rw [← h1, ← this]
  · rcases List.mem_append.1 hf with h | h
    · exact h2 f h
    · exact vfull f h

/-- the layer `i` of the output is filled with these planes -/
def planesOfLayer (sett : Settings XR) (sparse full : List (R3 × R3)) (n i : Nat) : List (R3 × R3) :=
  if (i : Int) < sett.bottomLayers ∨ (n : Int) - sett.topLayers ≤ i then full else sparse

theorem planesOfLayer_eq (sett : Settings XR) (sparse full : List (R3 × R3)) (n i : Nat) :
    (if solidLayer sett n i then full else sparse) = planesOfLayer sett sparse full n i := by
  unfold planesOfLayer solidLayer
  simp only [Bool.or_eq_true, decide_eq_true_eq]

/-- the level plane at height `z` passes through no vertex, and the edges of the model cross it at well separated points -/
def GoodLevel (ts : List RTri) (z : ℝ) : Prop := (∀ w ∈ allVerts ts, w.z ≠ z) ∧ WellSeparated ⟨0, 0, z⟩ ⟨0, 0, 1⟩ ts

/-- nothing of the model is at height `z` -/
def NoMaterial (ts : List RTri) (z : ℝ) : Prop :=
  ∀ x : R3, x.z = z → FarFromSurface (1 / 10 ^ 8) ⟨0, 0, z⟩ ⟨0, 0, 1⟩ ts x → OffSlimCuts ⟨0, 0, z⟩ ⟨0, 0, 1⟩ ts x →
    ¬ InMaterial ⟨0, 0, z⟩ ⟨0, 0, 1⟩ ts x

theorem fillLayer_keeps {S : Sorter} {planes full : List (Plane XR)} {sett : Settings XR} {n i : Nat} {l o : Layer XR}
    (h : fillLayer S planes full sett n i l = .ok o) : o.paths = l.paths ∧ o.order = l.order := by
  unfold fillLayer at h
  obtain ⟨f, -, h⟩ := bind_ok h
  have := pure_ok h
  subst this
  exact ⟨rfl, rfl⟩

theorem forall₂_get {β γ : Type} {R : β → γ → Prop} {l : List β} {m : List γ} (h : List.Forall₂ R l m) :
    ∀ (i : Nat) (b : β), l[i]? = some b → ∃ c, m[i]? = some c ∧ R b c := by
  induction h with
  | nil => intro i b h; simp at h
  | cons hr _ ih =>
    intro i b h
    cases i with
    | zero => simp at h; subst h; exact ⟨_, rfl, hr⟩
    | succ i => simpa using ih i b (by simpa using h)

/-- **C90.** Slicing and filling a model of more than one layer vertically succeeds (supports off). The layers are numbered upwards without gaps, and leave out
at most the first and the last of the `n = ⌈height / layer height⌉` levels. Each good level is the model at its height in the layer with
its number, filled with the planes for its place; if it is left out, there is nothing of the model. -/
theorem C90_print_partial (S : Sorter) (A : Arrival XR) (ts : List RTri) (sett : Settings XR) (hs : sett.supportsOn = false)
    (hw : Watertight ts) (hdeg : ∀ t ∈ ts, t.nrm ≠ 0) (hsm : ∀ w ∈ allVerts ts, w.small) (lo hi t lw M : ℝ)
    (he : Extent ts ⟨0, 0, 1⟩ lo hi) (hh : sett.layerHeight = XR.fin t) (ht : 0 < t) (htl : t < hi - lo) (hb : ⌈(hi - lo) / t⌉ < 2 ^ 63)
    (hlw : sett.gs.lineWidth = XR.fin lw) (hd : patternDensity sett ≠ 0)
    (hsp : FillBounds ts (100 / (patternDensity sett : ℝ) * lw) M) (hfp : FillBounds ts lw M) :
    ∃ (layers : List (Layer XR)) (sparse full : List (R3 × R3)) (n : Nat),
      sliceByVectorToGcode S A (rmesh ts) (R3.mk 0 0 1).vec sett = .ok ((Gcode.new sett.gs).addLayers layers) ∧
      calcFillPlanes (rmesh ts) sett = (sparse.map planeOf, full.map planeOf) ∧ (∀ f ∈ sparse ++ full, f.2.z = 0 ∧ f.2 ≠ 0) ∧
      (n : ℤ) = ⌈(hi - lo) / t⌉ ∧ (∃ k, k ≤ 1 ∧ layers.map Layer.order = (List.range' k layers.length).map (fun m : Nat => (m : ℤ)) ∧ k + layers.length ≤ n ∧ n ≤ k + layers.length + 1) ∧
      ∀ m < n, GoodLevel ts (lo + ((m : ℝ) + 1 / 2) * ((hi - lo) / n)) →
        (∃ i l, layers[i]? = some l ∧ l.order = (m : ℤ) ∧
          LayerIsModel ⟨0, 0, lo + ((m : ℝ) + 1 / 2) * ((hi - lo) / n)⟩ ts (planesOfLayer sett sparse full layers.length i) l) ∨
        ((m = 0 ∨ m + 1 = n) ∧ (∀ l ∈ layers, l.order ≠ (m : ℤ)) ∧ NoMaterial ts (lo + ((m : ℝ) + 1 / 2) * ((hi - lo) / n))) := by
  have hne := hfp.ne
  have hu : (R3.mk 0 0 1).unit = ⟨0, 0, 1⟩ := upUnit
  have hz : ∀ w : R3, w.dot ⟨0, 0, 1⟩ = w.z := fun w => by simp [R3.dot]
  have hmax : roundLimit ≤ XR.maxF64R := by
    refine le_trans ?_ (show (10 : ℝ) ^ 11 ≤ XR.maxF64R from ?_)
    · unfold roundLimit; norm_num
    · unfold XR.maxF64R
      have : (2 : ℝ) ^ 40 ≤ 2 ^ 1023 := pow_le_pow_right₀ (by norm_num) (by norm_num)
      generalize (2 : ℝ) ^ 1023 = B at this ⊢
      norm_num at this ⊢
      linarith
  have hr : ∀ w ∈ allVerts ts, |w.z| ≤ XR.maxF64R := fun w h => (hsm w h).2.2.trans hmax
  have hr' : ∀ w ∈ allVerts ts, |w.dot (R3.mk 0 0 1).unit| ≤ XR.maxF64R := by
    rw [hu]; intro w h; rw [hz]; exact hr w h
  have he' : Extent ts (R3.mk 0 0 1).unit lo hi := by rw [hu]; exact he
  have hf : SupportsFinite sett := fun h => by rw [hs] at h; cases h
  have hup : (⟨0, 0, 1⟩ : R3) ≠ 0 := by intro h; have := congrArg R3.z h; simp at this
  obtain ⟨sparse, full, hpl, hvert⟩ := fill_planes hlw hd hsp hfp
  obtain ⟨layers0, hlay⟩ : ∃ layers, sliceByVector S A (some (rmesh ts)) (R3.mk 0 0 1).vec sett = .ok layers := by
    rcases C12_returns S A ts ⟨0, 0, 1⟩ hup sett lo hi t he' hr' hf (by linarith) hh ht hb with h | ⟨h, _⟩
    · exact h
    · exact absurd h (by linarith)
  obtain ⟨jobs, hj, hl, hpos, -, -⟩ := C11_planes S ts ⟨0, 0, 1⟩ hup sett lo hi t he' hr' hf (by linarith) hh ht hb
  obtain ⟨jobs', fl, pre, post, hj', hfl, happ, hpre, hpost, epre, epost⟩ := C11_dropped S A (rmesh ts) _ sett (by simpa [rmesh] using hne) layers0 hlay
  rw [hj] at hj'
  injection hj' with hj'
  subst hj'
  obtain ⟨fl', hfl', hall⟩ := go_mapM_total (runJob S) jobs fun j _ => by
    obtain ⟨l, h, _⟩ := runJob_total S j; exact ⟨l, h⟩
  rw [hfl] at hfl'
  injection hfl' with hfl'
  subst hfl'
  have hflen : jobs.length = fl.length := hall.length_eq
  obtain ⟨_, _, hspec⟩ := sliceJobs_spec (S := S) he' hr' hf (by rw [← normalize_vec]; exact hj)
  -- the layers of all levels
  have hget : ∀ (m : Nat) (l : Layer XR), fl[m]? = some l → ∃ j, jobs[m]? = some j ∧ runJob S j = .ok l ∧ l.order = m := by
    intro m l h
    obtain ⟨hlt, -⟩ := List.getElem?_eq_some_iff.1 h
    obtain ⟨l', h1, h2⟩ := forall₂_get hall m jobs[m] (List.getElem?_eq_getElem (by omega))
    rw [h] at h1
    injection h1 with h1
    subst h1
    refine ⟨_, List.getElem?_eq_getElem (by omega), h2, ?_⟩
    obtain ⟨l', k1, k2, -⟩ := runJob_total S jobs[m]
    rw [h2] at k1
    injection k1 with k1
    subst k1
    rw [k2, (hspec m _ (List.getElem?_eq_getElem (by omega))).1]
  -- filling
  have hnofill : ∀ l ∈ layers0, ∀ q ∈ l.fill, q.points ≠ [] := by
    intro l h q hq
    obtain ⟨m, hm⟩ := List.mem_iff_getElem?.1 (show l ∈ fl by rw [happ]; simp [h])
    obtain ⟨j, -, hrun, -⟩ := hget m l hm
    unfold runJob at hrun
    obtain ⟨f, -, hrun⟩ := bind_ok hrun
    have := pure_ok hrun
    subst this
    simp at hq
  have hone : ∀ q ∈ layers0.zipIdx, ∃ o, fillLayer S (sparse.map planeOf) (full.map planeOf) sett layers0.length q.2 q.1 = .ok o := by
    intro q hq
    have hq1 : q.1 ∈ layers0 := by
      obtain ⟨q1, q2⟩ := q
      exact (List.mem_zipIdx' hq).2 ▸ List.getElem_mem _
    unfold fillLayer
    dsimp only
    obtain ⟨fill, h1, -⟩ := sortFillPathes_total (q.1.fill ++ (if solidLayer sett layers0.length q.2 then full.map planeOf else sparse.map planeOf).flatMap
        fun p => intersectByPlane S (fillContours q.1) p) (by
      intro x hx
      rcases List.mem_append.1 hx with h | h
      · exact hnofill _ hq1 x h
      · obtain ⟨p, _, hp⟩ := List.mem_flatMap.1 h
        obtain ⟨a, b, rfl, _⟩ := intersectByPlane_points S _ p x hp
        simp)
    rw [h1]
    exact ⟨_, rfl⟩
  obtain ⟨out, hout, hfa⟩ := go_mapM_total (fun q : Layer XR × Nat => fillLayer S (sparse.map planeOf) (full.map planeOf) sett layers0.length q.2 q.1)
    layers0.zipIdx hone
  have hlen : out.length = layers0.length := by rw [← hfa.length_eq]; simp
  have hfill : ∀ (i : Nat) (l : Layer XR), layers0[i]? = some l → ∃ o, out[i]? = some o ∧
      fillLayer S (sparse.map planeOf) (full.map planeOf) sett layers0.length i l = .ok o := by
    intro i l h
    exact forall₂_get hfa i (l, i) (by simp [List.getElem?_zipIdx, h])
  refine ⟨out, sparse, full, jobs.length, ?_, hpl, hvert, hl, ⟨pre.length, hpre, ?_, ?_, ?_⟩, ?_⟩
  · unfold sliceByVectorToGcode
    rw [hlay]
    show (fillLayers S layers0 (calcFillPlanes (rmesh ts) sett).1 (calcFillPlanes (rmesh ts) sett).2 sett).bind _ = _
    rw [hpl]
    unfold fillLayers
    rw [hout]
    rfl
  · apply List.ext_getElem?
    intro i
    rw [List.getElem?_map, List.getElem?_map]
    by_cases hi : i < layers0.length
    · obtain ⟨o, ho, hfo⟩ := hfill i _ (List.getElem?_eq_getElem hi)
      have : fl[pre.length + i]? = some layers0[i] := by
        rw [happ, List.append_assoc, List.getElem?_append_right (by omega), Nat.add_sub_cancel_left, List.getElem?_append_left hi,
          List.getElem?_eq_getElem hi]
      obtain ⟨-, -, -, ho'⟩ := hget _ _ this
      rw [ho, List.getElem?_range' (by omega)]
      simp [(fillLayer_keeps hfo).2, ho']
    · rw [List.getElem?_eq_none (by omega), List.getElem?_eq_none (by simp; omega)]
      rfl
  · have := congrArg List.length happ
    simp at this
    omega
  · have := congrArg List.length happ
    simp at this
    omega
  · intro m hm hgood
    set z := lo + ((m : ℝ) + 1 / 2) * ((hi - lo) / jobs.length) with hzdef
    obtain ⟨hord, hplane, -⟩ := hspec m _ (List.getElem?_eq_getElem hm)
    have hQ : jobs[m].plane = ⟨(⟨0, 0, z⟩ : R3).pt, (R3.mk 0 0 1).vec⟩ := by
      rw [hplane, hu]
      congr 2
      apply R3.ext <;> simp [hzdef]
    have hlay := fun n i => C89_layer S ts hne sett hs hr hw hdeg hsm jobs hj jobs[m] (List.getElem_mem hm) ⟨0, 0, z⟩ hQ (by
      intro w hw' h
      simp [R3.height, R3.dot] at h
      exact hgood.1 w hw' (by linarith)) hgood.2 n i sparse full
    obtain ⟨l, hl'⟩ : ∃ l, fl[m]? = some l := ⟨_, List.getElem?_eq_getElem (by omega)⟩
    obtain ⟨j, hjm, hrun, hlo⟩ := hget m l hl'
    rw [List.getElem?_eq_getElem hm] at hjm
    injection hjm with hjm
    subst hjm
    have hsum := congrArg List.length happ
    simp at hsum
    by_cases hin : pre.length ≤ m ∧ m < pre.length + layers0.length
    · left
      have hl0 : layers0[m - pre.length]? = some l := by
        rw [happ, List.append_assoc, List.getElem?_append_right hin.1, List.getElem?_append_left (by omega)] at hl'
        exact hl'
      obtain ⟨o, ho, hfo⟩ := hfill _ _ hl0
      obtain ⟨l', o', h1, h2, h3, h4⟩ := hlay layers0.length (m - pre.length)
      rw [hrun] at h1
      injection h1 with h1
      subst h1
      have : o' = o := by
        have h2 : fillLayer S (sparse.map planeOf) (full.map planeOf) sett layers0.length (m - pre.length) l = .ok o' := h2
        rw [hfo] at h2
        injection h2 with h2
        exact h2.symm
      subst this
      refine ⟨m - pre.length, o', ho, ?_, ?_⟩
      · rw [(fillLayer_keeps hfo).2, hlo]
      · rw [hlen, ← planesOfLayer_eq]
        exact h4
    · right
      have hempty : l.paths = [] ∧ (m = 0 ∨ m + 1 = jobs.length) := by
        rw [happ, List.append_assoc] at hl'
        by_cases hm1 : m < pre.length
        · rw [List.getElem?_append_left hm1] at hl'
          exact ⟨epre l (List.mem_of_getElem? hl'), by omega⟩
        · rw [List.getElem?_append_right (by omega), List.getElem?_append_right (by omega)] at hl'
          exact ⟨epost l (List.mem_of_getElem? hl'), by omega⟩
      refine ⟨hempty.2, ?_, ?_⟩
      · intro o ho hom
        obtain ⟨i, hi⟩ := List.mem_iff_getElem?.1 ho
        obtain ⟨hi', -⟩ := List.getElem?_eq_some_iff.1 hi
        rw [hlen] at hi'
        obtain ⟨o', ho', hfo⟩ := hfill i _ (List.getElem?_eq_getElem hi')
        rw [hi] at ho'
        injection ho' with ho'
        subst ho'
        have : fl[pre.length + i]? = some layers0[i] := by
          rw [happ, List.append_assoc, List.getElem?_append_right (by omega), Nat.add_sub_cancel_left, List.getElem?_append_left hi',
            List.getElem?_eq_getElem hi']
        obtain ⟨-, -, -, ho'⟩ := hget _ _ this
        rw [(fillLayer_keeps hfo).2, ho'] at hom
        have : pre.length + i = m := by exact_mod_cast hom
        omega
      · obtain ⟨l', o', h1, h2, h3, cs, segs, hcs, -, -, -, ⟨-, hb⟩, -⟩ := hlay layers0.length 0
        rw [hrun] at h1
        injection h1 with h1
        subst h1
        rw [(fillLayer_keeps h2).1, hempty.1] at hcs
        have : cs = [] := List.map_eq_nil_iff.1 hcs.symm
        subst this
        intro x hx hfar hslim hmat
        have := ((hb x (by simp [R3.height, R3.dot, hx]) hfar hslim).2).2 hmat
        simp [InsideOdd] at this

/-! ## Non-vacuity -/

theorem exTetra_extent : Extent exTetra ⟨0, 0, 1⟩ 0 4 := by
  refine ⟨⟨⟨⟨0, 0, 0⟩, by simp [allVerts, RTri.verts, exTetra], by simp [R3.dot]⟩, ?_⟩, ⟨⟨0, 0, 4⟩, by simp [allVerts, RTri.verts, exTetra], by simp [R3.dot]⟩, ?_⟩ <;>
    (rintro x ⟨w, hw, rfl⟩; rcases exTetra_verts w hw with rfl | rfl | rfl | rfl <;> simp [R3.dot])

theorem exTetra_at {z : ℝ} (h0 : 0 < z) (h4 : z < 4) {e : R3 × R3} (he : e ∈ dirEdges exTetra)
    (hc : ascends ⟨0, 0, z⟩ ⟨0, 0, 1⟩ e ∨ descends ⟨0, 0, z⟩ ⟨0, 0, 1⟩ e) :
    ((e = (⟨4, 0, 0⟩, ⟨0, 0, 4⟩) ∨ e = (⟨0, 0, 4⟩, ⟨4, 0, 0⟩)) ∧ crossAt ⟨0, 0, z⟩ ⟨0, 0, 1⟩ e = ⟨4 - z, 0, z⟩) ∨
    ((e = (⟨0, 4, 0⟩, ⟨0, 0, 4⟩) ∨ e = (⟨0, 0, 4⟩, ⟨0, 4, 0⟩)) ∧ crossAt ⟨0, 0, z⟩ ⟨0, 0, 1⟩ e = ⟨0, 4 - z, z⟩) ∨
    ((e = (⟨0, 0, 0⟩, ⟨0, 0, 4⟩) ∨ e = (⟨0, 0, 4⟩, ⟨0, 0, 0⟩)) ∧ crossAt ⟨0, 0, z⟩ ⟨0, 0, 1⟩ e = ⟨0, 0, z⟩) := by
  have no : ∀ e : R3 × R3, e.1.z = 0 → e.2.z = 0 → (ascends ⟨0, 0, z⟩ ⟨0, 0, 1⟩ e ∨ descends ⟨0, 0, z⟩ ⟨0, 0, 1⟩ e) → False := by
    intro e e1 e2 h
    simp only [ascends, descends, R3.height, R3.dot, R3.sub_x, R3.sub_y, R3.sub_z, e1, e2] at h
    rcases h with h | h <;> linarith [h.1, h.2]
  rw [exTetra_edges] at he
  simp only [List.mem_cons, List.not_mem_nil, or_false] at he
  rcases he with h | h | h | h | h | h | h | h | h | h | h | h <;> rw [h] at hc ⊢
  · exact (no _ rfl rfl hc).elim
  · exact (no _ rfl rfl hc).elim
  · exact (no _ rfl rfl hc).elim
  · exact (no _ rfl rfl hc).elim
  · left; refine ⟨Or.inl rfl, ?_⟩; apply R3.ext <;> simp [crossAt, R3.height, R3.dot] <;> field_simp <;> ring
  · right; right; refine ⟨Or.inr rfl, ?_⟩; apply R3.ext <;> simp [crossAt, R3.height, R3.dot] <;> field_simp <;> ring
  · exact (no _ rfl rfl hc).elim
  · right; left; refine ⟨Or.inl rfl, ?_⟩; apply R3.ext <;> simp [crossAt, R3.height, R3.dot] <;> field_simp <;> ring
  · left; refine ⟨Or.inr rfl, ?_⟩; apply R3.ext <;> simp [crossAt, R3.height, R3.dot] <;> field_simp <;> ring
  · exact (no _ rfl rfl hc).elim
  · right; right; refine ⟨Or.inl rfl, ?_⟩; apply R3.ext <;> simp [crossAt, R3.height, R3.dot] <;> field_simp <;> ring
  · right; left; refine ⟨Or.inr rfl, ?_⟩; apply R3.ext <;> simp [crossAt, R3.height, R3.dot] <;> field_simp <;> ring

theorem exTetra_good {z : ℝ} (h0 : 0 < z) (h4 : z ≤ 3) : GoodLevel exTetra z := by
  have ext_iff : ∀ a b c x y z : ℝ, ((⟨a, b, c⟩ : R3) = ⟨x, y, z⟩) ↔ a = x ∧ b = y ∧ c = z := by
    intro a b c x y z; exact R3.mk.injEq .. ▸ Iff.rfl
  refine ⟨fun w hw h => ?_, ?_⟩
  · rcases exTetra_verts w hw with rfl | rfl | rfl | rfl <;> simp at h <;> linarith
  · intro e he f hf h1 h2
    have hne : 4 - z ≠ 0 := by linarith
    have far : (101 : ℝ) / 10 ^ 8 ≤ |4 - z - 0| ∧ (101 : ℝ) / 10 ^ 8 ≤ |0 - (4 - z)| := by
      rw [abs_of_nonneg (by linarith), abs_of_nonpos (by linarith)]
      constructor <;> norm_num <;> linarith
    rcases exTetra_at h0 (by linarith) he h1 with ⟨h, ec⟩ | ⟨h, ec⟩ | ⟨h, ec⟩ <;>
      rcases exTetra_at h0 (by linarith) hf h2 with ⟨h', fc⟩ | ⟨h', fc⟩ | ⟨h', fc⟩ <;> rw [ec, fc]
    · refine ⟨Or.inl rfl, Or.inl rfl, Or.inl rfl, fun _ => ?_⟩
      rcases h with rfl | rfl <;> rcases h' with rfl | rfl <;> simp
    · exact ⟨Or.inr far.1, Or.inr far.2, Or.inl rfl, fun h => by simp [ext_iff, hne] at h⟩
    · exact ⟨Or.inr far.1, Or.inl rfl, Or.inl rfl, fun h => by simp [ext_iff, hne] at h⟩
    · exact ⟨Or.inr far.2, Or.inr far.1, Or.inl rfl, fun h => by simp [ext_iff, hne.symm] at h⟩
    · refine ⟨Or.inl rfl, Or.inl rfl, Or.inl rfl, fun _ => ?_⟩
      rcases h with rfl | rfl <;> rcases h' with rfl | rfl <;> simp
    · exact ⟨Or.inl rfl, Or.inr far.1, Or.inl rfl, fun h => by simp [ext_iff, hne] at h⟩
    · exact ⟨Or.inr far.2, Or.inl rfl, Or.inl rfl, fun h => by simp [ext_iff, hne.symm] at h⟩
    · exact ⟨Or.inl rfl, Or.inr far.2, Or.inl rfl, fun h => by simp [ext_iff, hne.symm] at h⟩
    · refine ⟨Or.inl rfl, Or.inl rfl, Or.inl rfl, fun _ => ?_⟩
      rcases h with rfl | rfl <;> rcases h' with rfl | rfl <;> simp

theorem exTetra_fill (s : ℝ) (hs : 1 ≤ s) : FillBounds exTetra s 4 := by
  refine ⟨by simp [exTetra], ?_, le_trans (by norm_num) million_le_maxF64R, by linarith, by norm_num; linarith⟩
  intro w hw
  rcases exTetra_verts w hw with rfl | rfl | rfl | rfl <;> norm_num

/-- the tetrahedron in layers of at most 3: two levels, at 1 and 3; the one at 1 is good and in the file -/
example (S : Sorter) (A : Arrival XR) :
    ∃ layers : List (Layer XR), sliceByVectorToGcode S A (rmesh exTetra) (R3.mk 0 0 1).vec (exampleSettings 3) =
        .ok ((Gcode.new (exampleSettings 3).gs).addLayers layers) ∧
      ∃ (i : Nat) (l : Layer XR) (planes : List (R3 × R3)), layers[i]? = some l ∧ LayerIsModel ⟨0, 0, 1⟩ exTetra planes l := by
  obtain ⟨h1, h2, h3, -, -⟩ := exTetra_ok
  have hn : ⌈((4 : ℝ) - 0) / 3⌉ = 2 := by rw [Int.ceil_eq_iff]; norm_num
  obtain ⟨layers, sparse, full, n, g1, -, -, g2, -, g3⟩ := C90_print_partial S A exTetra (exampleSettings 3) rfl h1 h2 h3 0 4 3 1 4 exTetra_extent rfl
    (by norm_num) (by norm_num) (by rw [hn]; norm_num) rfl (by unfold patternDensity exampleSettings; decide)
    (exTetra_fill _ (by unfold patternDensity exampleSettings; simp; norm_num)) (exTetra_fill _ le_rfl)
  rw [hn] at g2
  have : n = 2 := by exact_mod_cast g2
  subst this
  refine ⟨layers, g1, ?_⟩
  have e : (0 : ℝ) + (((0 : ℕ) : ℝ) + 1 / 2) * ((4 - 0) / ((2 : ℕ) : ℝ)) = 1 := by norm_num
  have := g3 0 (by norm_num)
  rw [e] at this
  rcases this (exTetra_good (by norm_num) (by norm_num)) with ⟨i, l, k1, -, k2⟩ | ⟨-, -, k⟩
  · exact ⟨i, l, _, k1, k2⟩
  · exact absurd exTetra_material.2.2.1 (k _ rfl exTetra_material.1 exTetra_material.2.1)

end Goosli
