import Verif.Proofs.Conc
import Verif.Props.C04
import Verif.Spec.Toy
/-!
# C02: parallel fills write every slot exactly once
-/
set_option linter.unusedSectionVars false
namespace Goosli
open Conc
variable {α : Type} [Flt α] {β : Type}

/-- **C02.** Whatever the number of workers and the interleaving: when `DoInParallelAndWait` has returned, slot `i` holds
`f i` for every `i`, and every slot was written exactly once. -/
theorem C02_fill (f : Nat → β) (zero : β) (n wn : Nat) (hw : 0 < wn) (evs : List FEv) (s : Fill β)
    (h : Exec (Fill.Step f n wn) evs (Fill.init zero n) s) (hr : s.returned = true) :
    s.slots = (List.range n).map f ∧ (writes evs).Perm (List.range n) :=
  Fill.returned_spec f n wn hw (Fill.inv f zero n wn hw h) hr

/-- **C02 (no late writes).** Once the call has returned no goroutine can act any more. -/
theorem C02_quiet (f : Nat → β) (zero : β) (n wn : Nat) (hw : 0 < wn) (evs : List FEv) (s : Fill β)
    (h : Exec (Fill.Step f n wn) evs (Fill.init zero n) s) (hr : s.returned = true) (e : FEv) (t : Fill β) :
    ¬ Fill.Step f n wn e s t := by
  have I := Fill.inv f zero n wn hw h
  obtain ⟨h1, h2⟩ := I.ret hr
  have hz : s.pcs.countP (·.isSome) = 0 := by rw [← I.wg]; exact h2
  have hn : ∀ w i : Nat, s.pcs[w]? ≠ some (some i) := by
    intro w i hc
    have := List.countP_eq_zero.1 hz _ (List.mem_of_getElem? hc)
    simp at this
  intro st
  cases st with
  | spawn _ c => omega
  | write _ w i c _ => exact hn w i c
  | done _ w i c _ => exact hn w i c
  | wait _ _ _ c => rw [hr] at c; cases c

/-- **C02 (no race).** Two different workers are never about to write the same slot. -/
theorem C02_no_race (f : Nat → β) (zero : β) (n wn : Nat) (hw : 0 < wn) (evs : List FEv) (s : Fill β)
    (h : Exec (Fill.Step f n wn) evs (Fill.init zero n) s) (w w' i : Nat) (h1 : s.pcs[w]? = some (some i))
    (h2 : s.pcs[w']? = some (some i)) : w = w' := by
  have I := Fill.inv f zero n wn hw h
  rw [← I.pc w i h1, I.pc w' i h2]

/-- **C02 (termination).** No execution is longer than `wn * (n + 2) + 1` actions, and one that has not returned can go
on: the call always returns. -/
theorem C02_terminates (f : Nat → β) (zero : β) (n wn : Nat) (hw : 0 < wn) (evs : List FEv) (s : Fill β)
    (h : Exec (Fill.Step f n wn) evs (Fill.init zero n) s) :
    evs.length ≤ wn * (n + 2) + 1 ∧ (s.returned = false → ∃ e t, Fill.Step f n wn e s t) := by
  refine ⟨?_, Fill.progress f n wn (Fill.inv f zero n wn hw h)⟩
  have := Fill.exec_bound f zero n wn hw h
  omega

/-- **C02 (CopyTriangles).** primitives/mesh.go:37-48: the copy has the same triangles in the same order. -/
theorem C02_copy (m : Mesh α) (f : Nat → Triangle α) (hf : ∀ (i : Nat) (h : i < m.triangles.length), f i = m.triangles[i])
    (zero : Triangle α) (wn : Nat) (hw : 0 < wn) (evs : List FEv) (s : Fill (Triangle α))
    (h : Exec (Fill.Step f m.triangles.length wn) evs (Fill.init zero m.triangles.length) s) (hr : s.returned = true) :
    s.slots = m.triangles := by
  rw [(C02_fill f zero _ wn hw evs s h hr).1]
  refine List.ext_getElem (by simp) fun i h1 h2 => ?_
  rw [List.getElem_map, List.getElem_range, hf i h2]

/-- **C02 (STL decoder).** primitives/stl.go:97-109: if worker iteration `i` decodes record `i`, the slice that is
returned is the one `loadSTLBinary` computes sequentially. -/
theorem C02_decode [FltBits α] (rest : Bytes) (count : Nat) (hc : count * 50 ≤ rest.length) (f : Nat → Triangle α)
    (hf : ∀ i : Nat, i < count → decodeAt (rest.take (count * 50)) i = .ok (f i))
    (zero : Triangle α) (wn : Nat) (hw : 0 < wn) (evs : List FEv) (s : Fill (Triangle α))
    (h : Exec (Fill.Step f count wn) evs (Fill.init zero count) s) (hr : s.returned = true) :
    loadSTLBinary rest count = .ok (some ⟨s.slots⟩, none) := by
  rw [(C02_fill f zero _ wn hw evs s h hr).1]
  unfold loadSTLBinary
  rw [if_neg (by omega)]
  have := mapM_ok (decodeAt (rest.take (count * 50))) f (List.range count)
    (fun i hi => hf i (List.mem_range.1 hi))
  dsimp only
  simp only [this]
  rfl

/-! Non-vacuity: two workers, three slots; worker 1 runs between two iterations of worker 0. -/
section
attribute [local instance] Toy.flt

/-- a complete execution -/
example : ∃ evs s, Exec (Fill.Step (fun i => i * i) 3 2) evs (Fill.init 7 3) s ∧ s.returned = true ∧
    s.slots = [0, 1, 4] ∧ writes evs = [0, 1, 2] := by
  have h0 := Exec.refl (step := Fill.Step (fun i : Nat => i * i) 3 2) (Fill.init 7 3)
  have h1 := h0.snoc (Fill.Step.spawn _ (by decide))
  have h2 := h1.snoc (Fill.Step.write _ 0 0 rfl (by decide))
  have h3 := h2.snoc (Fill.Step.spawn _ (by decide))
  have h4 := h3.snoc (Fill.Step.write _ 1 1 rfl (by decide))
  have h5 := h4.snoc (Fill.Step.write _ 0 2 rfl (by decide))
  have h6 := h5.snoc (Fill.Step.done _ 1 3 rfl (by decide))
  have h7 := h6.snoc (Fill.Step.done _ 0 4 rfl (by decide))
  have h8 := h7.snoc (Fill.Step.wait _ rfl rfl rfl)
  exact ⟨_, _, h8, rfl, rfl, rfl⟩
end

end Goosli
