import Verif.Model.Debug
/-!
# C112: debugging that is switched off leaves the disk alone
-/
set_option autoImplicit false
namespace Goosli

section
variable {α : Type} [FltText α]

theorem recreateFile_eq (cfg : DebugCfg) (d : Disk) :
    recreateFile cfg d = if d.canCreate cfg.debugFile then d.put cfg.debugFile (some []) else d := by
  have h : isExist (d.stat cfg.debugFile) = false := by
    unfold Disk.stat
    cases d.content cfg.debugFile <;> rfl
  unfold recreateFile
  rw [h]
  rfl

/-- **C112, partial.** With debugging switched off no call fails, no other file changes, and the debug file is left as it is or emptied; it is left as it
is if it cannot be created or no slicer calls `RecreateFile`. What is missing is the slicers that call it. -/
theorem C112_off_partial (cfg : DebugCfg) (h : cfg.debug = false) (steps : List (DebugStep α)) (d : Disk) :
    ∃ d', runDebug cfg steps d = .ok d' ∧ d'.canCreate = d.canCreate ∧ d'.canAppend = d.canAppend ∧
      (∀ n, n ≠ cfg.debugFile → d'.content n = d.content n) ∧
      (d'.content cfg.debugFile = d.content cfg.debugFile ∨ d'.content cfg.debugFile = some []) ∧
      (DebugStep.recreate ∉ steps ∨ d.canCreate cfg.debugFile = false → d' = d) := by
  induction steps generalizing d with
  | nil => exact ⟨d, rfl, rfl, rfl, fun _ _ => rfl, Or.inl rfl, fun _ => rfl⟩
  | cons s t ih =>
    cases s with
    | draw x =>
      obtain ⟨d', h1, h2, h3, h4, h5, h6⟩ := ih d
      have e : (DebugStep.draw x).run cfg d = .ok d := by simp [DebugStep.run, draw, h]
      refine ⟨d', by rw [runDebug, e]; exact h1, h2, h3, h4, h5, fun hn => h6 ?_⟩
      rcases hn with hn | hn
      · left; intro hm; exact hn (List.mem_cons_of_mem _ hm)
      · exact Or.inr hn
    | recreate =>
      obtain ⟨d', h1, h2, h3, h4, h5, h6⟩ := ih (recreateFile cfg d)
      have h1' : runDebug cfg (DebugStep.recreate :: t) d = .ok d' := h1
      rw [recreateFile_eq] at h2 h3 h4 h5 h6
      by_cases hc : d.canCreate cfg.debugFile = true
      · rw [if_pos hc] at h2 h3 h4 h5
        refine ⟨d', h1', h2, h3, fun n hn => (h4 n hn).trans (if_neg hn), Or.inr ?_, fun hn => ?_⟩
        · rcases h5 with h5 | h5
          · rw [h5]; simp [Disk.put]
          · exact h5
        · rcases hn with hn | hn
          · exact absurd (by simp) hn
          · rw [hc] at hn; exact absurd hn (by decide)
      · rw [if_neg hc] at h2 h3 h4 h5 h6
        exact ⟨d', h1', h2, h3, h4, h5, fun _ => h6 (Or.inr (by simpa using hc))⟩

/-- with debugging switched off, after a run that calls `RecreateFile` the debug file is empty, whatever was in it -/
theorem C112_emptied (cfg : DebugCfg) (h : cfg.debug = false) (steps : List (DebugStep α)) (d : Disk) (hc : d.canCreate cfg.debugFile = true)
    (hm : DebugStep.recreate ∈ steps) : ∃ d', runDebug cfg steps d = .ok d' ∧ d'.content cfg.debugFile = some [] := by
  induction steps generalizing d with
  | nil => simp at hm
  | cons s t ih =>
    cases s with
    | draw x =>
      have e : (DebugStep.draw x).run cfg d = .ok d := by simp [DebugStep.run, draw, h]
      obtain ⟨d', h1, h2⟩ := ih d hc (by simpa using hm)
      exact ⟨d', by rw [runDebug, e]; exact h1, h2⟩
    | recreate =>
      obtain ⟨d', h1, -, -, -, h5, -⟩ := C112_off_partial cfg h t (recreateFile cfg d)
      refine ⟨d', h1, ?_⟩
      rcases h5 with h5 | h5
      · rw [h5, recreateFile_eq, if_pos hc]; simp [Disk.put]
      · exact h5

/-- **C112, negation.** With the shipped configuration, in which debugging is switched off, a slicer that starts with `RecreateFile` destroys the contents
of a file. -/
theorem C112_off_violated (steps : List (DebugStep α)) : ∃ d d' : Disk, (debugConfig (some shippedDebugCfg)).debug = false ∧
    d.content "/home/l1va/debug.txt" = some "my notes".toList ∧
    runDebug (debugConfig (some shippedDebugCfg)) (DebugStep.recreate :: steps) d = .ok d' ∧ d'.content "/home/l1va/debug.txt" = some [] := by
  obtain ⟨d', h1, h2⟩ := C112_emptied (debugConfig (some shippedDebugCfg)) rfl (DebugStep.recreate :: steps)
    ⟨fun _ => some "my notes".toList, fun _ => true, fun _ => true⟩ rfl (by simp)
  exact ⟨_, d', rfl, rfl, h1, h2⟩

/-- without a configuration nothing happens where the empty name cannot be created, and there are such computers (all: no file has an empty name) -/
theorem C112_no_config (steps : List (DebugStep α)) (d : Disk) (hd : d.canCreate "" = false) : runDebug (debugConfig none) steps d = .ok d := by
  obtain ⟨d', h1, -, -, -, -, h6⟩ := C112_off_partial (debugConfig none) rfl steps d
  rw [h1, h6 (Or.inr hd)]

/-- the hypotheses of `C112_off_partial` hold for drawings only, which change nothing -/
example (ps : List (Point α)) (d : Disk) : runDebug ⟨false, "f"⟩ [.draw (.points ps .red), .draw (.path ⟨ps⟩ .blue)] d = .ok d := by
  obtain ⟨d', h1, -, -, -, -, h6⟩ := C112_off_partial ⟨false, "f"⟩ rfl [.draw (.points ps .red), .draw (.path ⟨ps⟩ .blue)] d
  rw [h1, h6 (Or.inl (by simp))]

end
end Goosli
