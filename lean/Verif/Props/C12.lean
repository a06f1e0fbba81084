import Verif.Props.C11
/-!
# C12: degenerate slicing requests
-/
set_option linter.unusedSectionVars false
namespace Goosli
open Flt

/-- **C12.** A nil or an empty mesh has no layers (every arithmetic, direction and setting). -/
theorem C12_empty {α : Type} [Flt α] (S : Sorter) (A : Arrival α) (Z : Vec α) (sett : Settings α) :
    sliceByVector S A none Z sett = .ok [] ∧ sliceByVector S A (some ⟨[]⟩) Z sett = .ok [] := ⟨rfl, rfl⟩

/-- **C12.** With positive height and positive layer height `SliceByVector` returns normally, unless there is a single
plane whose layer is empty. -/
theorem C12_returns (S : Sorter) (A : Arrival XR) (ts : List RTri) (d : R3) (hd : d ≠ 0) (sett : Settings XR) (lo hi t : ℝ)
    (he : Extent ts d.unit lo hi) (hr : ∀ w ∈ allVerts ts, |w.dot d.unit| ≤ XR.maxF64R) (hf : SupportsFinite sett)
    (hlt : lo < hi) (hh : sett.layerHeight = XR.fin t) (ht : 0 < t) (hb : ⌈(hi - lo) / t⌉ < 2 ^ 63) :
    (∃ layers, sliceByVector S A (some (rmesh ts)) d.vec sett = .ok layers) ∨
      (hi - lo ≤ t ∧ ∃ (j : Job XR) (l : Layer XR), sliceJobs S (rmesh ts) d.vec.normalize sett = .ok [j] ∧ runJob S j = .ok l ∧
        l.paths = [] ∧ sliceByVector S A (some (rmesh ts)) d.vec sett = .error .index) := by
  have hne : ts ≠ [] := by
    rintro rfl
    obtain ⟨w, hw, _⟩ := he.1.1
    simp [allVerts] at hw
  obtain ⟨jobs, hj, hl, hpos, hsp, _⟩ := C11_planes S ts d hd sett lo hi t he hr hf hlt hh ht hb
  have hex : ∀ j, ∃ l : Layer XR, runJob S j = .ok l := fun j => by
    obtain ⟨l, hl, _⟩ := runJob_total S j; exact ⟨l, hl⟩
  choose f hfj using hex
  have hmap := mapM_ok (runJob S) f jobs (fun j _ => hfj j)
  have hrun : sliceByVector S A (some (rmesh ts)) d.vec sett = trimEmpty (jobs.map f) := by
    rw [C01_slice S A _ _ _ (by simpa [rmesh] using hne), hj]
    show (jobs.mapM (runJob S)).bind trimEmpty = _
    rw [hmap]
    rfl
  by_cases c : ∃ l, jobs.map f = [l] ∧ l.paths = []
  · right
    obtain ⟨l, hl1, hl2⟩ := c
    cases jobs with
    | nil => simp at hl1
    | cons j rest =>
      simp only [List.map_cons, List.cons.injEq, List.map_eq_nil_iff] at hl1
      obtain ⟨rfl, rfl⟩ := hl1
      refine ⟨by simpa using hsp, j, f j, hj, hfj j, hl2, ?_⟩
      rw [hrun]
      show trimEmpty [f j] = _
      unfold trimEmpty
      show (do
        let layers ← if (f j).paths.isEmpty then goTail [f j] else pure [f j]
        let last ← goLast layers
        if last.paths.isEmpty then goInit layers else pure layers : Go _) = _
      rw [hl2]
      rfl
  · left
    push Not at c
    rw [hrun]
    refine trimEmpty_ok _ ?_ (fun l hl => c l hl)
    intro h
    rw [List.map_eq_nil_iff] at h
    rw [h] at hpos
    simp at hpos

/-- **C12 (crash).** A mesh that is flat in the slicing direction makes `SliceByVector` panic with an index out of range. -/
theorem C12_flat_panics (S : Sorter) (A : Arrival XR) (ts : List RTri) (d : R3) (hd : d ≠ 0) (sett : Settings XR) (lo t : ℝ)
    (he : Extent ts d.unit lo lo) (hr : ∀ w ∈ allVerts ts, |w.dot d.unit| ≤ XR.maxF64R) (hf : SupportsFinite sett)
    (hh : sett.layerHeight = XR.fin t) (ht : 0 < t) :
    sliceByVector S A (some (rmesh ts)) d.vec sett = .error .index := by
  have hne : ts ≠ [] := by
    rintro rfl
    obtain ⟨w, hw, _⟩ := he.1.1
    simp [allVerts] at hw
  have e : ⌈(lo - lo) / t⌉ = 0 := by simp
  have hc := layerCountOf_eq he hr ht (by rw [e]; norm_num)
  rw [e] at hc
  obtain ⟨sup, hs⟩ := supportsOf_total S hd he hr hf
  rw [sliceByVector_real S A ts hne]
  unfold sliceJobs
  rw [hh, hc, if_neg (by decide), hs]
  rfl

/-- **C12 (crash).** A zero layer height makes `SliceByVector` panic: the number of layers becomes `int(Inf)` or `int(NaN)`,
which is negative, and `make` of the channel fails. -/
theorem C12_zero_layer_height_panics (S : Sorter) (A : Arrival XR) (ts : List RTri) (hne : ts ≠ []) (d : R3)
    (hr : ∀ w ∈ allVerts ts, |w.dot d.unit| ≤ XR.maxF64R) (sett : Settings XR) (hh : sett.layerHeight = XR.fin 0) :
    sliceByVector S A (some (rmesh ts)) d.vec sett = .error .makeSize := by
  obtain ⟨lo, hi, he⟩ := exists_extent (u := d.unit) hne hr
  have hc : layerCountOf (rmesh ts) d.unit.vec sett.layerHeight < 0 := by
    unfold layerCountOf
    rw [minMaxZ_extent he hr, hh]
    simp only [XR.fin_sub]
    rw [XR.fin_div', if_pos rfl]
    unfold XR.infSign
    have hle := he.le
    split
    · show XR.toInt XR.pinf < 0; unfold XR.toInt; decide
    · rw [if_neg (by linarith)]
      show XR.toInt XR.nan < 0; unfold XR.toInt; decide
  rw [sliceByVector_real S A ts hne]
  unfold sliceJobs
  rw [if_pos hc]
  rfl

/-- **C12 (crash).** So does a negative one of at most the height of the model. -/
theorem C12_negative_layer_height_panics (S : Sorter) (A : Arrival XR) (ts : List RTri) (d : R3) (lo hi t : ℝ)
    (he : Extent ts d.unit lo hi) (hr : ∀ w ∈ allVerts ts, |w.dot d.unit| ≤ XR.maxF64R) (sett : Settings XR)
    (hh : sett.layerHeight = XR.fin (-t)) (ht : 0 < t) (hle : t ≤ hi - lo) :
    sliceByVector S A (some (rmesh ts)) d.vec sett = .error .makeSize := by
  have hne : ts ≠ [] := by
    rintro rfl
    obtain ⟨w, hw, _⟩ := he.1.1
    simp [allVerts] at hw
  have hc : layerCountOf (rmesh ts) d.unit.vec sett.layerHeight < 0 := by
    unfold layerCountOf
    rw [minMaxZ_extent he hr, hh]
    simp only [XR.fin_sub]
    rw [XR.fin_div (by linarith), XR.fin_ceil, XR.toInt_def]
    have h1 : (hi - lo) / -t ≤ -1 := by
      rw [div_neg, neg_le_neg_iff, le_div_iff₀ ht]; linarith
    have h2 : ⌈(hi - lo) / -t⌉ ≤ -1 := Int.ceil_le.2 (by push_cast; exact h1)
    have h3 : ¬ (0 : ℝ) ≤ ((⌈(hi - lo) / -t⌉ : Int) : ℝ) := by
      intro h
      have : (0 : Int) ≤ ⌈(hi - lo) / -t⌉ := by exact_mod_cast h
      omega
    unfold XR.toInt
    simp only [if_neg h3, Int.ceil_intCast]
    split <;> omega
  rw [sliceByVector_real S A ts hne]
  unfold sliceJobs
  rw [if_pos hc]
  rfl

/-! Non-vacuity: a flat triangle, the example triangle with layer heights 1 and 0. -/

example (S : Sorter) (A : Arrival XR) :
    sliceByVector S A (some (rmesh [exampleTri])) (⟨0, 0, 1⟩ : R3).vec (exampleSettings 0) = .error .makeSize :=
  C12_zero_layer_height_panics S A _ (by simp) _ (by rw [upUnit]; exact exampleRange) _ rfl

example (S : Sorter) (A : Arrival XR) :
    sliceByVector S A (some (rmesh [exampleTri])) (⟨0, 0, 1⟩ : R3).vec (exampleSettings (-1)) = .error .makeSize :=
  C12_negative_layer_height_panics S A _ _ 0 2 1 (by rw [upUnit]; exact exampleExtent) (by rw [upUnit]; exact exampleRange) _
    rfl (by norm_num) (by norm_num)

example (S : Sorter) (A : Arrival XR) : ∃ layers,
    sliceByVector S A (some (rmesh [exampleTri])) (⟨0, 0, 1⟩ : R3).vec (exampleSettings 1) = .ok layers := by
  have e : ⌈(2 - 0 : ℝ) / 1⌉ = 2 := by norm_num
  rcases C12_returns S A [exampleTri] ⟨0, 0, 1⟩ (by intro h; have := congrArg R3.z h; simp at this) (exampleSettings 1) 0 2 1
    (by rw [upUnit]; exact exampleExtent) (by rw [upUnit]; exact exampleRange)
    (fun h => by cases h) (by norm_num) rfl (by norm_num) (by rw [e]; norm_num) with h | ⟨h, _⟩
  · exact h
  · norm_num at h

example (S : Sorter) (A : Arrival XR) :
    sliceByVector S A (some (rmesh [⟨⟨0, 0, 1⟩, ⟨1, 0, 1⟩, ⟨0, 1, 1⟩⟩])) (⟨0, 0, 1⟩ : R3).vec (exampleSettings 1) =
      .error .index := by
  have hz : ∀ w ∈ allVerts [⟨⟨0, 0, 1⟩, ⟨1, 0, 1⟩, ⟨0, 1, 1⟩⟩], w.dot (⟨0, 0, 1⟩ : R3) = 1 := by
    intro w hw
    simp only [allVerts, RTri.verts, List.flatMap_cons, List.flatMap_nil, List.append_nil, List.mem_cons,
      List.not_mem_nil, or_false] at hw
    rcases hw with rfl | rfl | rfl <;> simp [R3.dot]
  refine C12_flat_panics S A _ _ (by intro h; have := congrArg R3.z h; simp at this) _ 1 1 ?_ ?_ (fun h => by cases h) rfl
    (by norm_num)
  · rw [upUnit]
    have hin : (⟨0, 0, 1⟩ : R3) ∈ allVerts [⟨⟨0, 0, 1⟩, ⟨1, 0, 1⟩, ⟨0, 1, 1⟩⟩] := by simp [allVerts, RTri.verts]
    exact ⟨⟨⟨_, hin, hz _ hin⟩, by rintro x ⟨w, hw, rfl⟩; rw [hz w hw]⟩, ⟨_, hin, hz _ hin⟩,
      by rintro x ⟨w, hw, rfl⟩; rw [hz w hw]⟩
  · rw [upUnit]
    intro w hw
    have := maxF64R_big
    rw [hz w hw]; simp; linarith

end Goosli
