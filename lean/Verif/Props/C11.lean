import Verif.Props.C10
/-!
# C11: layer count and layer heights
-/
set_option linter.unusedSectionVars false
namespace Goosli
open Flt

/-- **C11.** Let the mesh extend from `lo` to `hi` along the unit vector of `d`, `lo < hi`, and let the layer height be
`t > 0`. The jobs number `n = ⌈(hi - lo) / t⌉`; plane `m` has height `lo + (m + 1/2) h` with `h = (hi - lo) / n ≤ t` and is
strictly inside the model. -/
theorem C11_planes (S : Sorter) (ts : List RTri) (d : R3) (hd : d ≠ 0) (sett : Settings XR) (lo hi t : ℝ)
    (he : Extent ts d.unit lo hi) (hr : ∀ w ∈ allVerts ts, |w.dot d.unit| ≤ XR.maxF64R) (hf : SupportsFinite sett)
    (hlt : lo < hi) (hh : sett.layerHeight = XR.fin t) (ht : 0 < t) (hb : ⌈(hi - lo) / t⌉ < 2 ^ 63) :
    ∃ jobs, sliceJobs S (rmesh ts) d.vec.normalize sett = .ok jobs ∧ (jobs.length : Int) = ⌈(hi - lo) / t⌉ ∧
      0 < jobs.length ∧ (hi - lo) / jobs.length ≤ t ∧
      ∀ (m : Nat) (j : Job XR), jobs[m]? = some j → ∃ Q : R3, j.plane = ⟨Q.pt, d.unit.vec⟩ ∧
        Q.dot d.unit = lo + ((m : ℝ) + 1 / 2) * ((hi - lo) / jobs.length) ∧ lo < Q.dot d.unit ∧ Q.dot d.unit < hi := by
  rw [normalize_vec]
  obtain ⟨sup, hs⟩ := supportsOf_total S hd he hr hf
  have hc := layerCountOf_eq he hr ht hb
  have hq : 0 < (hi - lo) / t := div_pos (by linarith) ht
  have hcp : 0 < ⌈(hi - lo) / t⌉ := Int.ceil_pos.2 hq
  have hj : ∃ jobs, sliceJobs S (rmesh ts) d.unit.vec sett = .ok jobs := by
    unfold sliceJobs
    rw [hh, hc, if_neg (by omega), hs]
    exact ⟨_, rfl⟩
  obtain ⟨jobs, hj⟩ := hj
  have hlen := sliceJobs_length hj
  rw [hh, hc] at hlen
  have hpos : 0 < jobs.length := by omega
  have hn : (0 : ℝ) < jobs.length := by exact_mod_cast hpos
  refine ⟨jobs, hj, hlen, hpos, ?_, ?_⟩
  · rw [div_le_iff₀ hn]
    have h1 : (hi - lo) / t ≤ (⌈(hi - lo) / t⌉ : ℝ) := Int.le_ceil _
    have h2 : ((⌈(hi - lo) / t⌉ : Int) : ℝ) = jobs.length := by rw [← hlen]; simp
    rw [h2, div_le_iff₀ ht] at h1
    linarith
  · intro m j hm
    obtain ⟨_, _, h⟩ := sliceJobs_spec he hr hf hj
    obtain ⟨_, hp, _⟩ := h m j hm
    obtain ⟨hmlt, _⟩ := List.getElem?_eq_some_iff.1 hm
    have hm1 : (m : ℝ) + 1 ≤ jobs.length := by exact_mod_cast hmlt
    have hm0 : (0 : ℝ) ≤ m := by exact_mod_cast Nat.zero_le m
    have hdot : ∀ c : ℝ, (c • d.unit).dot d.unit = c := by
      intro c
      have : (c • d.unit).dot d.unit = c * d.unit.normSq := by simp [R3.dot, R3.normSq]; ring
      rw [this, R3.unit_ne hd, mul_one]
    refine ⟨_, hp, hdot _, ?_, ?_⟩
    · rw [hdot]
      have : 0 < ((m : ℝ) + 1 / 2) * ((hi - lo) / jobs.length) :=
        mul_pos (by linarith) (div_pos (by linarith) hn)
      linarith
    · rw [hdot]
      have h1 : 0 < (hi - lo) / jobs.length := div_pos (by linarith) hn
      have h2 : ((m : ℝ) + 1 / 2) * ((hi - lo) / jobs.length) < (jobs.length : ℝ) * ((hi - lo) / jobs.length) :=
        mul_lt_mul_of_pos_right (by linarith) h1
      rw [mul_div_cancel₀ _ hn.ne'] at h2
      linarith

/-- **C11 (dropped layers).** `SliceByVector` drops at most the first and the last of the layers of its planes, and only
empty ones. Holds for every arithmetic. -/
theorem C11_dropped {α : Type} [Flt α] (S : Sorter) (A : Arrival α) (m : Mesh α) (Z : Vec α) (sett : Settings α)
    (hm : m.triangles ≠ []) (layers : List (Layer α)) (h : sliceByVector S A (some m) Z sett = .ok layers) :
    ∃ jobs full pre post, sliceJobs S m Z.normalize sett = .ok jobs ∧ jobs.mapM (runJob S) = .ok full ∧
      full = pre ++ layers ++ post ∧ pre.length ≤ 1 ∧ post.length ≤ 1 ∧
      (∀ l ∈ pre, l.paths = []) ∧ (∀ l ∈ post, l.paths = []) := by
  rw [C01_slice S A m Z sett hm] at h
  cases hj : sliceJobs S m Z.normalize sett with
  | error e => rw [hj] at h; cases h
  | ok jobs =>
    rw [hj] at h
    have h : (jobs.mapM (runJob S)).bind trimEmpty = .ok layers := h
    cases hf : jobs.mapM (runJob S) with
    | error e => rw [hf] at h; cases h
    | ok full =>
      rw [hf] at h
      obtain ⟨pre, post, h1⟩ := trimEmpty_spec full layers h
      exact ⟨jobs, full, pre, post, rfl, hf, h1⟩

/-- the hypotheses of `C11_planes` hold: a triangle of height 2 cut with layer height 1 has planes at 1/2 and 3/2 -/
example (S : Sorter) : ∃ jobs, sliceJobs S (rmesh [exampleTri]) (⟨0, 0, 1⟩ : R3).vec.normalize (exampleSettings 1) = .ok jobs ∧
    jobs.length = 2 ∧ ∀ j, jobs[1]? = some j → ∃ Q : R3, j.plane.p = Q.pt ∧ Q.dot ⟨0, 0, 1⟩ = 3 / 2 := by
  have e : ⌈(2 - 0 : ℝ) / 1⌉ = 2 := by norm_num
  obtain ⟨jobs, hj, hl, _, _, h⟩ := C11_planes S [exampleTri] ⟨0, 0, 1⟩ (by intro h; have := congrArg R3.z h; simp at this)
    (exampleSettings 1) 0 2 1 (by rw [upUnit]; exact exampleExtent) (by rw [upUnit]; exact exampleRange)
    (fun h => by cases h) (by norm_num) rfl (by norm_num) (by rw [e]; norm_num)
  have hl2 : jobs.length = 2 := by rw [e] at hl; exact_mod_cast hl
  refine ⟨jobs, hj, hl2, ?_⟩
  intro j hm
  obtain ⟨Q, hQ, hd, _⟩ := h 1 j hm
  refine ⟨Q, by rw [hQ], ?_⟩
  rw [upUnit, hl2] at hd
  rw [hd]; norm_num

end Goosli
