import Verif.Proofs.SweepJobs
/-!
# C10: the sweep equals brute force
-/
set_option linter.unusedSectionVars false
namespace Goosli
open Flt

/-- **C10.** For every job of `SliceByVector`, the segments collected by its worker are, up to order, the segments of the
job's plane with *all* triangles of the mesh and *all* support triangles (`sectionPaths`), with multiplicity. -/
theorem C10_sweep (S : Sorter) (ts : List RTri) (hne : ts ≠ []) (d : R3) (sett : Settings XR)
    (hr : ∀ w ∈ allVerts ts, |w.dot d.unit| ≤ XR.maxF64R) (hf : SupportsFinite sett) (jobs : List (Job XR))
    (hj : sliceJobs S (rmesh ts) d.vec.normalize sett = .ok jobs) :
    ∃ sup, supportsOf S (rmesh ts) d.vec.normalize sett = .ok sup ∧
      ∀ j ∈ jobs, (jobPaths j).Perm (sectionPaths j.plane (sup ++ (rmesh ts).triangles)) := by
  rw [normalize_vec] at hj ⊢
  obtain ⟨lo, hi, he⟩ := exists_extent (u := d.unit) hne hr
  obtain ⟨sup, hs, h⟩ := sliceJobs_spec he hr hf hj
  refine ⟨sup, hs, ?_⟩
  intro j hm
  obtain ⟨m, hm⟩ := List.mem_iff_getElem?.1 hm
  exact (h m j hm).2.2

/-- **C10 (result).** The layers `SliceByVector` returns come, after dropping an empty first and last one, from layers
numbered `0, 1, …`, each assembled from exactly the brute-force segments of its plane in some order. -/
theorem C10_layers (S : Sorter) (A : Arrival XR) (ts : List RTri) (hne : ts ≠ []) (d : R3) (sett : Settings XR)
    (hr : ∀ w ∈ allVerts ts, |w.dot d.unit| ≤ XR.maxF64R) (hf : SupportsFinite sett) (layers : List (Layer XR))
    (h : sliceByVector S A (some (rmesh ts)) d.vec sett = .ok layers) :
    ∃ sup full, supportsOf S (rmesh ts) d.vec.normalize sett = .ok sup ∧ trimEmpty full = .ok layers ∧
      ∀ (m : Nat) (l : Layer XR), full[m]? = some l → l.order = m ∧ ∃ pl segs, l.norm = pl.n ∧
        segs.Perm (sectionPaths pl (sup ++ (rmesh ts).triangles)) ∧ joinPaths3AndMinimize S segs = .ok l.paths := by
  rw [sliceByVector_real S A ts hne] at h
  cases hj : sliceJobs S (rmesh ts) d.unit.vec sett with
  | error e => rw [hj] at h; cases h
  | ok jobs =>
    rw [hj] at h
    obtain ⟨lo, hi, he⟩ := exists_extent (u := d.unit) hne hr
    obtain ⟨sup, hs, hall⟩ := sliceJobs_spec he hr hf hj
    have h : (jobs.mapM (runJob S)).bind trimEmpty = .ok layers := h
    cases hm : jobs.mapM (runJob S) with
    | error e => rw [hm] at h; cases h
    | ok full =>
      rw [hm] at h
      refine ⟨sup, full, by rw [normalize_vec]; exact hs, h, ?_⟩
      intro m l hl
      have hfa := mapM_mem _ _ _ hm
      obtain ⟨hlt, hle⟩ := List.getElem?_eq_some_iff.1 hl
      have hlt' : m < jobs.length := by rw [hfa.length_eq]; exact hlt
      have hrun : runJob S jobs[m] = .ok l := by
        have := List.Forall₂.get hfa hlt' hlt
        simpa [hle] using this
      obtain ⟨g1, g2, g3⟩ := hall m jobs[m] (List.getElem?_eq_getElem hlt')
      unfold runJob at hrun
      cases hp : joinPaths3AndMinimize S (jobPaths jobs[m]) with
      | error e => rw [hp] at hrun; cases hrun
      | ok ps =>
        rw [hp] at hrun
        have hrun : (Except.ok _ : Go (Layer XR)) = Except.ok l := hrun
        injection hrun with hrun
        subst hrun
        exact ⟨by simp [g1], jobs[m].plane, jobPaths jobs[m], rfl, g3, hp⟩

/-! Non-vacuity. -/

/-- settings of the examples -/
noncomputable def exampleSettings (t : ℝ) : Settings XR :=
  { gs := ⟨XR.fin 1, XR.fin 1, XR.fin t, XR.fin 1, false, 10, 10, 10, false, 10, XR.fin 0⟩
    epsilon := XR.fin 10
    layerHeight := XR.fin t
    wallThickness := XR.fin 1
    fillDensity := 20
    rotationCenter := (0 : R3).pt
    fillingType := "Lines"
    colorizedAngle := XR.fin 30
    unitVector := (⟨0, 0, 1⟩ : R3).vec
    supportsOn := false
    supportOffset := XR.fin 0
    topLayers := 0
    bottomLayers := 0
    skirtLineCount := 0 }

/-- one vertical triangle of height 2 -/
def exampleTri : RTri := ⟨⟨0, 0, 0⟩, ⟨0, 0, 2⟩, ⟨1, 0, 1⟩⟩

theorem upUnit : (⟨0, 0, 1⟩ : R3).unit = ⟨0, 0, 1⟩ := by
  have : (⟨0, 0, 1⟩ : R3).norm = 1 := by simp [R3.norm, R3.normSq, R3.dot]
  unfold R3.unit
  rw [this]
  apply R3.ext <;> simp

theorem exampleExtent : Extent [exampleTri] (⟨0, 0, 1⟩ : R3) 0 2 := by
  refine ⟨⟨⟨⟨0, 0, 0⟩, by simp [allVerts, RTri.verts, exampleTri], by simp [R3.dot]⟩, ?_⟩,
    ⟨⟨0, 0, 2⟩, by simp [allVerts, RTri.verts, exampleTri], by simp [R3.dot]⟩, ?_⟩
  all_goals
    rintro x ⟨w, hw, rfl⟩
    simp only [allVerts, RTri.verts, exampleTri, List.flatMap_cons, List.flatMap_nil, List.append_nil, List.mem_cons,
      List.not_mem_nil, or_false] at hw
    rcases hw with rfl | rfl | rfl <;> simp [R3.dot]

theorem maxF64R_big : (2 : ℝ) ≤ XR.maxF64R := by
  unfold XR.maxF64R
  have h1 : (1 : ℝ) ≤ 2 - 2⁻¹ ^ 52 := by norm_num
  have h2 : (2 : ℝ) ≤ 2 ^ 1023 := by
    calc (2 : ℝ) = 2 ^ 1 := by norm_num
      _ ≤ 2 ^ 1023 := pow_le_pow_right₀ (by norm_num) (by norm_num)
  calc (2 : ℝ) = 1 * 2 := by norm_num
    _ ≤ _ := mul_le_mul h1 h2 (by norm_num) (by linarith)

theorem exampleRange : ∀ w ∈ allVerts [exampleTri], |w.dot (⟨0, 0, 1⟩ : R3)| ≤ XR.maxF64R := by
  intro w hw
  have := maxF64R_big
  simp only [allVerts, RTri.verts, exampleTri, List.flatMap_cons, List.flatMap_nil, List.append_nil, List.mem_cons,
    List.not_mem_nil, or_false] at hw
  rcases hw with rfl | rfl | rfl <;> simp [R3.dot] <;> linarith

theorem exampleJobs (S : Sorter) : ∃ jobs, sliceJobs S (rmesh [exampleTri]) (⟨0, 0, 1⟩ : R3).vec.normalize (exampleSettings 1) = .ok jobs ∧
    jobs.length = 2 := by
  rw [normalize_vec, upUnit]
  have hc : layerCountOf (rmesh [exampleTri]) (⟨0, 0, 1⟩ : R3).vec (exampleSettings 1).layerHeight = 2 := by
    have e : ⌈(2 - 0 : ℝ) / 1⌉ = 2 := by norm_num
    have := layerCountOf_eq exampleExtent exampleRange (t := 1) (by norm_num) (by rw [e]; norm_num)
    rw [e] at this
    exact this
  refine ⟨_, by unfold sliceJobs; rw [hc, if_neg (by decide)]; rfl, ?_⟩
  rw [sweep_length]
  rfl

/-- the hypotheses of `C10_sweep` hold for a mesh with two layers -/
example : ∃ (ts : List RTri) (d : R3) (sett : Settings XR) (jobs : List (Job XR)), ts ≠ [] ∧
    (∀ w ∈ allVerts ts, |w.dot d.unit| ≤ XR.maxF64R) ∧ SupportsFinite sett ∧
    sliceJobs Sorter.insertion (rmesh ts) d.vec.normalize sett = .ok jobs ∧ jobs.length = 2 := by
  obtain ⟨jobs, hj, hl⟩ := exampleJobs Sorter.insertion
  exact ⟨[exampleTri], ⟨0, 0, 1⟩, exampleSettings 1, jobs, by simp, by rw [upUnit]; exact exampleRange,
    (fun h => by cases h), hj, hl⟩

end Goosli
