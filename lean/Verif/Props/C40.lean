import Verif.Proofs.Decimal
/-! # C40 Flow setting scales extrusion: the setting is ignored -/
set_option linter.unusedSectionVars false
namespace Goosli
open Flt Spec

variable {α : Type} [Flt α] [FltText α]

private theorem path_flow (p : Path α) (sett : GcodeSettings α) (f : α) (st : GState α) :
    pathToGCode p { sett with flow := f } st = pathToGCode p sett st := rfl

private theorem paths_flow (sett : GcodeSettings α) (f : α) (ps : List (Path α)) : ∀ st : GState α,
    pathsLoop { sett with flow := f } ps st = pathsLoop sett ps st := by
  induction ps with
  | nil => intro st; rfl
  | cons p ps ih => intro st; simp only [pathsLoop, path_flow, ih]

private theorem pathes_flow (sett : GcodeSettings α) (f : α) (ps : List (Path α)) (c) (st : GState α) :
    pathesToGCode ps c { sett with flow := f } st = pathesToGCode ps c sett st := by
  simp only [pathesToGCode, paths_flow]; rfl

private theorem layer_flow (sett : GcodeSettings α) (f : α) (l : Layer α) (st : GState α) :
    layerToGCode l { sett with flow := f } st = layerToGCode l sett st := by
  simp only [layerToGCode, pathes_flow]; rfl

private theorem layers_flow (sett : GcodeSettings α) (f : α) (ls : List (Layer α)) : ∀ st : GState α,
    layersToGCode { sett with flow := f } ls st = layersToGCode sett ls st := by
  induction ls with
  | nil => intro st; rfl
  | cons p ps ih => intro st; simp only [layersToGCode, layer_flow, ih]

private theorem cmd_flow (sett : GcodeSettings α) (f : α) (c : Command α) (st : GState α) :
    c.toGCode st { sett with flow := f } = c.toGCode st sett := by
  cases c <;> simp only [Command.toGCode, layers_flow]

/-- **C40 (negation).** Two jobs that differ only in the Flow setting produce the same text (or the same panic). -/
theorem C40_flow_ignored (sett : GcodeSettings α) (cs : List (Command α)) (f1 f2 : α) :
    (Gcode.mk { sett with flow := f1 } cs).text = (Gcode.mk { sett with flow := f2 } cs).text := by
  have : ∀ (f : α) (cs : List (Command α)) (st : GState α), cmdsToGCode { sett with flow := f } cs st = cmdsToGCode sett cs st := by
    intro f cs
    induction cs with
    | nil => intro st; rfl
    | cons c cs ih => intro st; simp only [cmdsToGCode, cmd_flow, ih]
  simp only [Gcode.text, Gcode.toOutput, this]

/-- **C40 violated.** It is not true that doubling the flow changes the text of a job that prints something. -/
theorem C40_flow_violated [FltText XR] :
    ¬ ∀ (sett : GcodeSettings XR) (cs : List (Command XR)) (f : ℝ) (t t' : String), 0 < f →
      (∃ j ∈ allJobs cs, 2 ≤ j.path.points.length) →
      (Gcode.mk { sett with flow := XR.fin f } cs).text = .ok t →
      (Gcode.mk { sett with flow := XR.fin (2 * f) } cs).text = .ok t' → t ≠ t' := by
  intro h
  let cs : List (Command XR) := [.layersMoving [⟨0, ⟨XR.fin 0, XR.fin 0, XR.fin 1⟩,
    [⟨[⟨XR.fin 0, XR.fin 0, XR.fin 0⟩, ⟨XR.fin 10, XR.fin 0, XR.fin 0⟩]⟩], [], [], []⟩]]
  let sett : GcodeSettings XR :=
    ⟨XR.fin 1, XR.fin 1, XR.fin 1, XR.fin 1, false, 30, 30, 30, false, 30, XR.fin 5⟩
  obtain ⟨ls, hls⟩ := toOutput_total (sett := { sett with flow := XR.fin 1 }) cs (by
    intro j hj
    simp [cs, allJobs, jobsFrom, allLayers, layerJobs, layerSections] at hj
    simp [hj])
  have ht : (Gcode.mk { sett with flow := XR.fin 1 } cs).text = .ok (renderAll ls) := by
    simp only [Gcode.text, hls, bind, Except.bind]; rfl
  have ht' := C40_flow_ignored sett cs (XR.fin (2 * 1)) (XR.fin 1)
  refine h sett cs 1 _ _ one_pos ?_ ht (ht'.trans ht) rfl
  exact ⟨⟨0, "OUTER_PATHES", ⟨[⟨XR.fin 0, XR.fin 0, XR.fin 0⟩, ⟨XR.fin 10, XR.fin 0, XR.fin 0⟩]⟩⟩,
    by simp [cs, allJobs, jobsFrom, allLayers, layerJobs, layerSections], by simp⟩

end Goosli
