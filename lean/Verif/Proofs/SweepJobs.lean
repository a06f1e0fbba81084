import Verif.Proofs.Sweep
import Verif.Props.C01
/-!
# The jobs of `SliceByVector` on real meshes
-/
set_option linter.unusedSectionVars false
namespace Goosli
open Flt

theorem R3.unit_normSq (d : R3) : d.unit.normSq = 1 ∨ d.unit = 0 := by
  by_cases h : d = 0
  · right; rw [h, R3.unit_zero]
  · left
    have h0 := R3.norm_pos h
    have : d.unit.normSq = (1 / d.norm) * (1 / d.norm) * d.normSq := by simp [R3.unit, R3.normSq, R3.dot]; ring
    rw [this, ← R3.norm_sq]
    field_simp

theorem R3.unit_ne {d : R3} (h : d ≠ 0) : d.unit.normSq = 1 := by
  rcases d.unit_normSq with h1 | h1
  · exact h1
  · exfalso
    apply h
    have h0 := R3.norm_pos h
    have hx : (1 / d.norm) • d = 0 := h1
    have e : d = d.norm • ((1 / d.norm) • d) := by apply R3.ext <;> simp <;> field_simp
    rw [e, hx]; apply R3.ext <;> simp

/-- the extent of a mesh along `u` -/
def Extent (ts : List RTri) (u : R3) (lo hi : ℝ) : Prop :=
  IsLeast {x | ∃ w ∈ allVerts ts, w.dot u = x} lo ∧ IsGreatest {x | ∃ w ∈ allVerts ts, w.dot u = x} hi

theorem Extent.le {ts : List RTri} {u : R3} {lo hi : ℝ} (h : Extent ts u lo hi) : lo ≤ hi := h.1.2 h.2.1

theorem minMaxZ_extent {ts : List RTri} {u : R3} {lo hi : ℝ} (h : Extent ts u lo hi)
    (hr : ∀ w ∈ allVerts ts, |w.dot u| ≤ XR.maxF64R) : (rmesh ts).minMaxZ u.vec = (XR.fin lo, XR.fin hi) := by
  have hne : ts ≠ [] := by
    rintro rfl
    obtain ⟨w, hw, _⟩ := h.1.1
    simp [allVerts] at hw
  obtain ⟨lo', hi', e, _, hb, ⟨w1, hw1, e1⟩, ⟨w2, hw2, e2⟩⟩ := C25_tight ts u hne hr
  have hA : lo' = lo := by
    apply le_antisymm
    · obtain ⟨w, hw, e⟩ := h.1.1
      rw [← e]; exact (hb w hw).1
    · exact h.1.2 ⟨w1, hw1, e1⟩
  have hB : hi' = hi := by
    apply le_antisymm
    · exact h.2.2 ⟨w2, hw2, e2⟩
    · obtain ⟨w, hw, e⟩ := h.2.1
      rw [← e]; exact (hb w hw).2
  rw [e, hA, hB]

theorem exists_extent {ts : List RTri} {u : R3} (hne : ts ≠ []) (hr : ∀ w ∈ allVerts ts, |w.dot u| ≤ XR.maxF64R) :
    ∃ lo hi, Extent ts u lo hi := by
  obtain ⟨lo', hi', e, _, hb, ⟨w1, hw1, e1⟩, ⟨w2, hw2, e2⟩⟩ := C25_tight ts u hne hr
  exact ⟨lo', hi', ⟨⟨w1, hw1, e1⟩, by rintro x ⟨w, hw, rfl⟩; exact (hb w hw).1⟩,
    ⟨⟨w2, hw2, e2⟩, by rintro x ⟨w, hw, rfl⟩; exact (hb w hw).2⟩⟩

/-- what the settings must satisfy if supports are on: their direction and offset are finite -/
def SupportsFinite (sett : Settings XR) : Prop :=
  sett.supportsOn = true → ∃ (un : R3) (so : ℝ), sett.unitVector = un.vec ∧ sett.supportOffset = XR.fin so

theorem supportsOf_low {S : Sorter} {ts : List RTri} {d : R3} {lo hi : ℝ} {sett : Settings XR} {sup : List (Triangle XR)}
    (he : Extent ts d.unit lo hi) (hr : ∀ w ∈ allVerts ts, |w.dot d.unit| ≤ XR.maxF64R) (hf : SupportsFinite sett)
    (h : supportsOf S (rmesh ts) d.unit.vec sett = .ok sup) : ∀ t ∈ sup, ∃ r : RTri, t = r.tri ∧ r.lo d.unit ≤ lo := by
  unfold supportsOf at h
  split at h
  · rename_i hs
    obtain ⟨un, so, h1, h2⟩ := hf hs
    rw [minMaxZ_extent he hr] at h
    refine supportTriangles_low S ts d.unit d.unit_normSq lo ?_ sett un so h1 h2 sup h
    intro hu
    obtain ⟨w, _, hw⟩ := he.1.1
    rw [hu] at hw
    simp [R3.dot] at hw
    exact hw.symm
  · injection h with h
    subst h
    simp

/-- plane and segments of every job -/
theorem sliceJobs_spec {S : Sorter} {ts : List RTri} {d : R3} {lo hi : ℝ} {sett : Settings XR} {jobs : List (Job XR)}
    (he : Extent ts d.unit lo hi) (hr : ∀ w ∈ allVerts ts, |w.dot d.unit| ≤ XR.maxF64R) (hf : SupportsFinite sett)
    (hj : sliceJobs S (rmesh ts) d.unit.vec sett = .ok jobs) :
    ∃ sup, supportsOf S (rmesh ts) d.unit.vec sett = .ok sup ∧ ∀ (m : Nat) (j : Job XR), jobs[m]? = some j →
      j.order = m ∧ j.plane = ⟨((lo + ((m : ℝ) + 1 / 2) * ((hi - lo) / jobs.length)) • d.unit).pt, d.unit.vec⟩ ∧
      (jobPaths j).Perm (sectionPaths j.plane (sup ++ (rmesh ts).triangles)) := by
  have hlen := sliceJobs_length hj
  obtain ⟨h0, sup, hs, hjobs⟩ := sliceJobs_ok hj
  refine ⟨sup, hs, ?_⟩
  intro m j hm
  have hpos : 0 < jobs.length := by
    obtain ⟨hlt, _⟩ := List.getElem?_eq_some_iff.1 hm
    omega
  have hn : (0 : ℝ) < jobs.length := by exact_mod_cast hpos
  have hmm := minMaxZ_extent he hr
  set u := d.unit with hu
  set n : ℝ := (jobs.length : ℝ) with hnd
  have hsh : layerShift (rmesh ts) u.vec sett.layerHeight = (((hi - lo) / n) • u).vec := by
    unfold layerShift
    rw [hmm, ← hlen]
    simp only [lit10, XR.ofInt_def, XR.fin_sub]
    rw [XR.fin_div (by push_cast; exact hn.ne'), mulScalar_vec, mulScalar_vec]
    congr 1
    push_cast
    rw [← hnd]
    apply R3.ext <;> simp <;> field_simp
  have hfp : firstPoint (rmesh ts) u.vec sett.layerHeight = ((lo + 1 / 2 * ((hi - lo) / n)) • u).pt := by
    unfold firstPoint
    rw [hmm, hsh, mulScalar_vec, toPoint_vec, XR.lit_def, mulScalar_vec, shift_pt]
    congr 1
    apply R3.ext <;> simp <;> ring
  have hle := he.le
  have hun : 0 ≤ u.normSq := u.normSq_nonneg
  have hsup := supportsOf_low he hr hf hs
  have hperm : (sortByMinZ S u.vec (rmesh ts).triangles).Perm (rmesh ts).triangles := S.perm _ _
  have hq : 0 ≤ (hi - lo) / n := div_nonneg (by linarith) hn.le
  rw [hjobs, hsh, hfp] at hm
  obtain ⟨g1, g2, g3⟩ := sweep_spec u (((hi - lo) / n) • u) (by
      have : (((hi - lo) / n) • u).dot u = ((hi - lo) / n) * u.normSq := by simp [R3.dot, R3.normSq]; ring
      rw [this]
      exact mul_nonneg hq hun)
    (sup ++ (rmesh ts).triangles) (by
      intro t ht
      rcases List.mem_append.1 ht with ht | ht
      · obtain ⟨r, hr, _⟩ := hsup t ht; exact ⟨r, hr⟩
      · obtain ⟨r, _, rfl⟩ := List.mem_map.1 ht; exact ⟨r, rfl⟩)
    _ 0 _ [] _ [] sup (sortByMinZ S u.vec (rmesh ts).triangles) (by
      simp only [List.nil_append]; exact (List.Perm.refl sup).append hperm.symm) rfl (by simp)
    (by
      intro t ht r hr
      obtain ⟨r', hr', hlo⟩ := hsup t ht
      have hrr : r = r' := by
        have e : r.tri = r'.tri := by rw [← hr, hr']
        simp only [RTri.tri, Triangle.mk.injEq] at e
        exact RTri.ext (R3.pt_inj e.2.1) (R3.pt_inj e.2.2.1) (R3.pt_inj e.2.2.2)
      rw [hrr]
      refine hlo.trans ?_
      have e : ((lo + 1 / 2 * ((hi - lo) / n)) • u).dot u = (lo + 1 / 2 * ((hi - lo) / n)) * u.normSq := by
        simp [R3.dot, R3.normSq]; ring
      rw [e]
      rcases d.unit_normSq with c | c
      · rw [← hu] at c; rw [c]; linarith
      · obtain ⟨w, _, hw⟩ := he.1.1
        rw [← hu] at c
        rw [c] at hw ⊢
        simp [R3.dot] at hw
        simp [R3.normSq, R3.dot, ← hw])
    (sortByMinZ_sorted S u ts) m j hm
  refine ⟨by simpa using g2, ?_, g3⟩
  rw [g1]
  congr 2
  apply R3.ext <;> simp <;> ring

/-- number of planes for a positive layer height -/
theorem layerCountOf_eq {ts : List RTri} {u : R3} {lo hi t : ℝ} (he : Extent ts u lo hi)
    (hr : ∀ w ∈ allVerts ts, |w.dot u| ≤ XR.maxF64R) (ht : 0 < t) (hb : ⌈(hi - lo) / t⌉ < 2 ^ 63) :
    layerCountOf (rmesh ts) u.vec (XR.fin t) = ⌈(hi - lo) / t⌉ := by
  have hle := he.le
  have h0 : 0 ≤ (hi - lo) / t := div_nonneg (by linarith) ht.le
  have h1 : (0 : Int) ≤ ⌈(hi - lo) / t⌉ := Int.ceil_nonneg h0
  unfold layerCountOf
  rw [minMaxZ_extent he hr]
  simp only [XR.fin_sub]
  rw [XR.fin_div ht.ne', XR.fin_ceil, XR.toInt_def]
  unfold XR.toInt
  have h2 : (0 : ℝ) ≤ (⌈(hi - lo) / t⌉ : ℝ) := by exact_mod_cast h1
  simp only [if_pos h2, Int.floor_intCast]
  rw [if_pos ⟨by omega, hb⟩]

/-- slicing by a direction works on its unit vector -/
theorem sliceByVector_real (S : Sorter) (A : Arrival XR) (ts : List RTri) (hne : ts ≠ []) (d : R3) (sett : Settings XR) :
    sliceByVector S A (some (rmesh ts)) d.vec sett =
      (sliceJobs S (rmesh ts) d.unit.vec sett).bind fun jobs => (jobs.mapM (runJob S)).bind trimEmpty := by
  rw [C01_slice S A _ _ _ (by simpa [rmesh] using hne), normalize_vec]

theorem supportsOf_total (S : Sorter) {ts : List RTri} {d : R3} (hd : d ≠ 0) {lo hi : ℝ} {sett : Settings XR}
    (he : Extent ts d.unit lo hi) (hr : ∀ w ∈ allVerts ts, |w.dot d.unit| ≤ XR.maxF64R) (hf : SupportsFinite sett) :
    ∃ sup, supportsOf S (rmesh ts) d.unit.vec sett = .ok sup := by
  unfold supportsOf
  split
  · rename_i hs
    obtain ⟨un, so, h1, h2⟩ := hf hs
    rw [minMaxZ_extent he hr]
    refine supportTriangles_ok S ts d.unit ?_ lo sett un so h1 h2
    intro h
    have := R3.unit_ne hd
    rw [h] at this
    simp [R3.normSq, R3.dot] at this
  · exact ⟨[], rfl⟩

/-- what the final trimming does -/
theorem trimEmpty_spec {α : Type} [Flt α] (full layers : List (Layer α)) (h : trimEmpty full = .ok layers) :
    ∃ pre post, full = pre ++ layers ++ post ∧ pre.length ≤ 1 ∧ post.length ≤ 1 ∧
      (∀ l ∈ pre, l.paths = []) ∧ (∀ l ∈ post, l.paths = []) := by
  have last : ∀ m : List (Layer α), (do
      let last ← goLast m
      if last.paths.isEmpty then goInit m else pure m : Go _) = .ok layers →
      ∃ post, m = layers ++ post ∧ post.length ≤ 1 ∧ ∀ l ∈ post, l.paths = [] := by
    intro m hm
    rcases List.eq_nil_or_concat m with rfl | ⟨i, x, rfl⟩
    · cases hm
    · rw [List.concat_eq_append] at hm ⊢
      have hl : goLast (i ++ [x]) = .ok x := by unfold goLast; rw [List.getLast?_append]; rfl
      rw [hl] at hm
      by_cases c : x.paths = []
      · have hm : (if x.paths.isEmpty = true then goInit (i ++ [x]) else pure (i ++ [x])) = Except.ok layers := hm
        rw [c] at hm
        have hi : goInit (i ++ [x]) = .ok i := by
          unfold goInit
          split
          · rename_i h; simp at h
          · simp
        have hm : goInit (i ++ [x]) = .ok layers := hm
        rw [hi] at hm
        injection hm with hm
        exact ⟨[x], by rw [hm], by simp, by simpa using c⟩
      · have hm : (if x.paths.isEmpty = true then goInit (i ++ [x]) else pure (i ++ [x])) = Except.ok layers := hm
        rw [if_neg (by simpa [List.isEmpty_iff] using c)] at hm
        injection hm with hm
        exact ⟨[], by simp [hm], by simp, by simp⟩
  unfold trimEmpty at h
  cases full with
  | nil => cases h
  | cons a t =>
    by_cases c : a.paths = []
    · have h : (do
        let layers ← if a.paths.isEmpty then goTail (a :: t) else pure (a :: t)
        let last ← goLast layers
        if last.paths.isEmpty then goInit layers else pure layers : Go _) = .ok layers := h
      rw [c] at h
      obtain ⟨post, hp, h1, h2⟩ := last t h
      exact ⟨[a], post, by rw [hp]; simp, by simp, h1, by simpa using c, h2⟩
    · have h : (do
        let layers ← if a.paths.isEmpty then goTail (a :: t) else pure (a :: t)
        let last ← goLast layers
        if last.paths.isEmpty then goInit layers else pure layers : Go _) = .ok layers := h
      rw [if_neg (by simpa [List.isEmpty_iff] using c)] at h
      obtain ⟨post, hp, h1, h2⟩ := last (a :: t) h
      exact ⟨[], post, by rw [hp]; simp, by simp, h1, by simp, h2⟩

/-- trimming crashes exactly on no layers and on a single empty one -/
theorem trimEmpty_ok {α : Type} [Flt α] (full : List (Layer α)) (h0 : full ≠ []) (h1 : ∀ l, full = [l] → l.paths ≠ []) :
    ∃ layers, trimEmpty full = .ok layers := by
  have last : ∀ m : List (Layer α), m ≠ [] → ∃ layers, (do
      let last ← goLast m
      if last.paths.isEmpty then goInit m else pure m : Go _) = .ok layers := by
    intro m hm
    cases hl : m.getLast? with
    | none => rw [List.getLast?_eq_none_iff] at hl; exact absurd hl hm
    | some x =>
      have e : goLast m = .ok x := by unfold goLast; rw [hl]
      rw [e]
      show ∃ layers, (if x.paths.isEmpty = true then goInit m else pure m) = Except.ok layers
      split
      · cases m with
        | nil => exact absurd rfl hm
        | cons a t => exact ⟨_, rfl⟩
      · exact ⟨_, rfl⟩
  unfold trimEmpty
  cases full with
  | nil => exact absurd rfl h0
  | cons a t =>
    show ∃ layers, (do
        let layers ← if a.paths.isEmpty then goTail (a :: t) else pure (a :: t)
        let last ← goLast layers
        if last.paths.isEmpty then goInit layers else pure layers : Go _) = .ok layers
    by_cases c : a.paths = []
    · rw [if_pos (by simpa [List.isEmpty_iff] using c)]
      refine last t ?_
      rintro rfl
      exact h1 a rfl c
    · rw [if_neg (by simpa [List.isEmpty_iff] using c)]
      exact last (a :: t) (by simp)

end Goosli
