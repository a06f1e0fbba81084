import Verif.Proofs.Conc
import Verif.Proofs.Slice
import Verif.Spec.Toy
import Verif.Spec.Sorters
/-!
# C01: slicing is schedule independent and never deadlocks
-/
set_option linter.unusedSectionVars false
namespace Goosli
open Flt Conc
variable {α : Type} [Flt α]

/-- the layers of the jobs, in job order: contour of plane `k` at position `k` -/
theorem runJobs_ordered (S : Sorter) (jobs : List (Job α)) (f : Job α → Layer α) (hf : ∀ j ∈ jobs, runJob S j = .ok (f j))
    (ho : jobs.map (·.order) = List.range jobs.length) :
    (jobs.map f).Pairwise fun a b => a.order < b.order := by
  have h1 : ∀ j ∈ jobs, (f j).order = j.order := by
    intro j hj
    obtain ⟨l, hl, ho, _⟩ := runJob_total S j
    rw [hf j hj] at hl
    injection hl with hl
    rw [hl, ho]
  have h2 : (jobs.map (·.order)).Pairwise (· < ·) := by
    rw [ho]; exact List.pairwise_lt_range
  rw [List.pairwise_map] at h2 ⊢
  refine h2.imp_of_mem ?_
  intro a b ha hb h
  rw [h1 a ha, h1 b hb]
  exact_mod_cast h

/-- **C01 (every interleaving, every number of CPUs).** Let the main goroutine and `wn ≥ 1` workers interleave in any
way on jobs of `SliceByVector`. When the main goroutine has received its `n` results and sorted them, layer `k` is the
contour of plane `k`. -/
theorem C01_schedule (S : Sorter) (m : Mesh α) (Z : Vec α) (sett : Settings α) (jobs : List (Job α))
    (hj : sliceJobs S m Z sett = .ok jobs) (f : Job α → Layer α) (hf : ∀ j ∈ jobs, runJob S j = .ok (f j))
    (wn : Nat) (evs : List PEv) (s : Pool (Job α) (Layer α))
    (h : Exec (Pool.Step f jobs.length) evs (Pool.init jobs wn) s) (hfin : Pool.finished jobs.length s) :
    S.run (fun a b : Layer α => decide (a.order < b.order)) s.got = jobs.map f ∧
      (jobs.map f).map (·.order) = (List.range jobs.length).map Int.ofNat := by
  refine ⟨sort_layers S _ _ (Pool.finished_spec f jobs wn (Pool.inv f _ jobs wn h) hfin)
    (runJobs_ordered S jobs f hf (sliceJobs_orders hj)), ?_⟩
  rw [← sliceJobs_orders hj, List.map_map, List.map_map]
  refine List.map_congr_left fun j hm => ?_
  obtain ⟨l, hl, ho, _⟩ := runJob_total S j
  rw [hf j hm] at hl
  injection hl with hl
  simp [hl, ho]

/-- **C01 (no deadlock).** Every execution has at most `4 n + wn + 1` actions, and as long as the main goroutine has not
finished or a worker has not stopped some goroutine can act. So every maximal execution ends with all results received
and all workers stopped. -/
theorem C01_no_deadlock {J R : Type} (f : J → R) (jobs : List J) (wn : Nat) (hw : 0 < wn) (evs : List PEv) (s : Pool J R)
    (h : Exec (Pool.Step f jobs.length) evs (Pool.init jobs wn) s) :
    evs.length ≤ 4 * jobs.length + wn + 1 ∧
    ((∀ e t, ¬ Pool.Step f jobs.length e s t) → Pool.finished jobs.length s ∧ ∀ w ∈ s.ws, w = .stopped) := by
  constructor
  · have := Pool.exec_bound f jobs.length jobs wn h
    omega
  · intro hno
    by_contra c
    obtain ⟨e, t, he⟩ := Pool.progress f jobs wn hw (Pool.inv f _ jobs wn h) c
    exact hno e t he

/-- **C01 (no worker crashes).** A worker's computation returns normally on every job. -/
theorem C01_worker_total (S : Sorter) (j : Job α) : ∃ l : Layer α, runJob S j = .ok l ∧ l.order = j.order ∧ l.norm = j.plane.n :=
  runJob_total S j

/-- **C01.** The result of `SliceByVector` is the sequential one, whatever the arrival order of the layers. -/
theorem C01_slice (S : Sorter) (A : Arrival α) (m : Mesh α) (Z : Vec α) (sett : Settings α) (hm : m.triangles ≠ []) :
    sliceByVector S A (some m) Z sett =
      (sliceJobs S m Z.normalize sett).bind fun jobs => (jobs.mapM (runJob S)).bind trimEmpty := by
  have hm' : m.triangles.isEmpty = false := by simpa [List.isEmpty_iff] using hm
  unfold sliceByVector
  simp only [hm', Bool.false_eq_true, if_false]
  cases hj : sliceJobs S m Z.normalize sett with
  | error e => rfl
  | ok jobs =>
    have hex : ∀ j, ∃ l : Layer α, runJob S j = .ok l := fun j => by
      obtain ⟨l, hl, _⟩ := runJob_total S j; exact ⟨l, hl⟩
    choose f hf using hex
    have hmap := mapM_ok (runJob S) f jobs (fun j _ => hf j)
    have := sort_layers S (A.run (jobs.map f)) (jobs.map f) (A.perm _)
      (runJobs_ordered S jobs f (fun j _ => hf j) (sliceJobs_orders hj))
    show (jobs.mapM (runJob S)).bind (fun results => trimEmpty (S.run _ (A.run results))) =
      (jobs.mapM (runJob S)).bind trimEmpty
    rw [hmap]
    show trimEmpty (S.run _ (A.run (jobs.map f))) = trimEmpty (jobs.map f)
    rw [this]

/-- The arrival orders of the model include those that the goroutine machine can produce. -/
theorem C01_arrival (f : Job α → Layer α) (jobs : List (Job α)) (wn : Nat) (evs : List PEv) (s : Pool (Job α) (Layer α))
    (h : Exec (Pool.Step f jobs.length) evs (Pool.init jobs wn) s) (hfin : Pool.finished jobs.length s) :
    ∃ A : Arrival α, A.run (jobs.map f) = s.got := by
  classical
  have hp := Pool.finished_spec f jobs wn (Pool.inv f _ jobs wn h) hfin
  refine ⟨⟨fun l => if l = jobs.map f then s.got else l, fun l => ?_⟩, by simp⟩
  by_cases c : l = jobs.map f
  · simp only [if_pos c]; rw [c]; exact hp
  · simp only [if_neg c]; exact List.Perm.refl _

/-! Non-vacuity: an execution with two workers in which the second job overtakes the first. -/
example : ∃ evs s, Exec (Pool.Step (fun i : Nat => i + 10) 2) evs (Pool.init [1, 2] 2) s ∧ Pool.finished 2 s ∧
    s.got = [12, 11] := by
  have h0 := Exec.refl (step := Pool.Step (fun i : Nat => i + 10) 2) (Pool.init [1, 2] 2)
  have h1 := h0.snoc (Pool.Step.send _ 1 [2] rfl (by decide))
  have h2 := h1.snoc (Pool.Step.take _ 0 1 [] rfl rfl)
  have h3 := h2.snoc (Pool.Step.send _ 2 [] rfl (by decide))
  have h4 := h3.snoc (Pool.Step.take _ 1 2 [] rfl rfl)
  have h5 := h4.snoc (Pool.Step.put _ 1 12 rfl (by decide))
  have h6 := h5.snoc (Pool.Step.close _ rfl rfl)
  have h7 := h6.snoc (Pool.Step.recv _ 12 [] rfl rfl (by decide))
  have h8 := h7.snoc (Pool.Step.put _ 0 11 rfl (by decide))
  have h9 := h8.snoc (Pool.Step.recv _ 11 [] rfl rfl (by decide))
  exact ⟨_, _, h9, ⟨rfl, rfl⟩, rfl⟩

end Goosli
