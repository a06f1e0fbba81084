import Verif.Model.Slice
import Verif.Props.C13
import Verif.Proofs.Stl
/-!
# Lemmas about the slicing model
-/
set_option linter.unusedSectionVars false
namespace Goosli
open Flt
variable {α : Type} [Flt α]

theorem jobPaths_two (j : Job α) : ∀ q ∈ jobPaths j, q.points.length = 2 := by
  intro q hq
  unfold jobPaths at hq
  obtain ⟨t, _, ht⟩ := List.mem_filterMap.1 hq
  obtain ⟨l, _, rfl⟩ := Option.map_eq_some_iff.1 ht
  rfl

theorem joinPaths3AndMinimize_total (S : Sorter) (p : List (Path α)) (h : ∀ q ∈ p, q.points ≠ []) :
    ∃ r, joinPaths3AndMinimize S p = .ok r := by
  obtain ⟨out, _, ho, _⟩ := C13_join_conserves S p h
  exact ⟨out.map Path.minimizeLines, by unfold joinPaths3AndMinimize; rw [ho]; rfl⟩

theorem runJob_total (S : Sorter) (j : Job α) : ∃ l : Layer α, runJob S j = .ok l ∧ l.order = j.order ∧ l.norm = j.plane.n := by
  obtain ⟨r, hr⟩ := joinPaths3AndMinimize_total S (jobPaths j) (by
    intro q hq h; have := jobPaths_two j q hq; rw [h] at this; cases this)
  exact ⟨_, by unfold runJob; rw [hr]; rfl, rfl, rfl⟩

theorem sweep_length (Z sh : Vec α) : ∀ (k i : Nat) (P : Point α) (act rest : List (Triangle α)),
    (sweep Z sh k i P act rest).length = k
  | 0, _, _, _, _ => rfl
  | k + 1, i, P, act, rest => by simp [sweep, sweep_length Z sh k]

theorem sweep_orders (Z sh : Vec α) : ∀ (k i : Nat) (P : Point α) (act rest : List (Triangle α)),
    (sweep Z sh k i P act rest).map (·.order) = List.range' i k
  | 0, _, _, _, _ => rfl
  | k + 1, i, P, act, rest => by simp [sweep, sweep_orders Z sh k, List.range'_succ]

/-- what a successful `sliceJobs` returns -/
theorem sliceJobs_ok {S : Sorter} {m : Mesh α} {Z : Vec α} {sett : Settings α} {jobs : List (Job α)}
    (h : sliceJobs S m Z sett = .ok jobs) :
    0 ≤ layerCountOf m Z sett.layerHeight ∧ ∃ sup, supportsOf S m Z sett = .ok sup ∧
      jobs = sweep Z (layerShift m Z sett.layerHeight) (layerCountOf m Z sett.layerHeight).toNat 0
      (firstPoint m Z sett.layerHeight) [] (sup ++ sortByMinZ S Z m.triangles) := by
  unfold sliceJobs at h
  by_cases c : layerCountOf m Z sett.layerHeight < 0
  · rw [if_pos c] at h; cases h
  · rw [if_neg c] at h
    cases hs : supportsOf S m Z sett with
    | error e => rw [hs] at h; cases h
    | ok sup =>
      rw [hs] at h
      have h : Except.ok (sweep Z _ _ 0 _ [] (sup ++ _)) = (Except.ok jobs : Go _) := h
      injection h with h
      exact ⟨by omega, sup, rfl, h.symm⟩

theorem sliceJobs_length {S : Sorter} {m : Mesh α} {Z : Vec α} {sett : Settings α} {jobs : List (Job α)}
    (h : sliceJobs S m Z sett = .ok jobs) : (jobs.length : Int) = layerCountOf m Z sett.layerHeight := by
  obtain ⟨h0, sup, _, rfl⟩ := sliceJobs_ok h
  rw [sweep_length]; omega

theorem sliceJobs_orders {S : Sorter} {m : Mesh α} {Z : Vec α} {sett : Settings α} {jobs : List (Job α)}
    (h : sliceJobs S m Z sett = .ok jobs) : jobs.map (·.order) = List.range jobs.length := by
  obtain ⟨h0, sup, _, rfl⟩ := sliceJobs_ok h
  rw [sweep_orders, sweep_length, List.range_eq_range']

theorem orderLess_strictWeak (l : List (Layer α)) : StrictWeakOn (fun a b : Layer α => decide (a.order < b.order)) l := by
  constructor
  · intro a _; simp
  · intro a _ b _ c _ h1 h2; simp at *; omega
  · intro a _ b _ c _ h1 h2 h3 h4; simp at *; omega

/-- sorting by `Order` undoes every permutation -/
theorem sort_layers (S : Sorter) (l r : List (Layer α)) (h : l.Perm r) (hr : r.Pairwise fun a b => a.order < b.order) :
    S.run (fun a b : Layer α => decide (a.order < b.order)) l = r := by
  have hp := (S.perm (fun a b : Layer α => decide (a.order < b.order)) l).trans h
  have hs := S.sorted _ l (orderLess_strictWeak l)
  refine List.Perm.eq_of_pairwise (le := fun a b => a.order ≤ b.order) ?_ ?_ ?_ hp
  · intro a b ha hb h1 h2
    have ha' := hp.mem_iff.1 ha
    obtain ⟨i, hi, rfl⟩ := List.mem_iff_getElem.1 ha'
    obtain ⟨j, hj, rfl⟩ := List.mem_iff_getElem.1 hb
    rcases Nat.lt_trichotomy i j with c | c | c
    · have := List.pairwise_iff_getElem.1 hr i j hi hj c; omega
    · subst c; rfl
    · have := List.pairwise_iff_getElem.1 hr j i hj hi c; omega
  · exact hs.imp (by intro a b h; simp at h; exact h)
  · exact hr.imp (by intro a b h; omega)

end Goosli
