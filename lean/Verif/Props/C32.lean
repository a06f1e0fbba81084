import Verif.Proofs.PrinterLines
import Verif.Spec.GcodeObs
import Verif.Spec.Toy
/-! # C32 Layer numbering in the G-code -/
set_option linter.unusedSectionVars false
namespace Goosli
open Flt Spec

variable {α : Type} [Flt α]

/-- layer numbers among lines -/
private def lns (m : List Int) : GLine α → List Int
  | .layer i => m ++ [i]
  | _ => m

private theorem lns_of_notLayer (ls : List (GLine α)) (h : ∀ l ∈ ls, ∀ i, l ≠ .layer i) (m : List Int) :
    runLines lns m ls = m := by
  induction ls generalizing m with
  | nil => rfl
  | cons a t ih =>
    rw [runLines_cons]
    have : lns m a = m := by
      cases a <;> first | rfl | exact absurd rfl (h _ List.mem_cons_self _)
    rw [this]; exact ih (fun l hl => h l (by simp [hl])) m

private theorem lns_rules (sett : GcodeSettings α) : Rules sett lns (fun _ => True) (fun _ => True)
    (fun _ st m => 0 ≤ st.layerIndex ∧ m = (List.range st.layerIndex.toNat).map Int.ofNat)
    (fun _ st m => 0 ≤ st.layerIndex ∧ m = (List.range (st.layerIndex.toNat + 1)).map Int.ofNat)
    (fun _ _ st m => 0 ≤ st.layerIndex ∧ m = (List.range (st.layerIndex.toNat + 1)).map Int.ofNat) := by
  refine ⟨?_, ?_, ?_, ?_, ?_, ?_, ?_⟩
  · rintro done st m ⟨h0, h⟩
    rw [switchFan_layerIndex]
    refine ⟨h0, ?_⟩
    rw [runLines_append, lns_of_notLayer]
    · simp only [runLines_cons, runLines_nil, lns, h, List.range_succ, List.map_append, List.map_cons, List.map_nil]
      congr 2
      exact (Int.toNat_of_nonneg h0).symm
    · intro l hl i e
      subst e
      unfold switchFanGCode at hl
      split at hl <;> split at hl <;> simp at hl
  · intro done st m b h; exact h
  · rintro done st m c ⟨h0, h⟩ hc
    rw [printSpeed_layerIndex]
    refine ⟨h0, ?_⟩
    rw [lns_of_notLayer, h]
    intro l hl i e
    subst e
    unfold printSpeedToGCode at hl
    dsimp only at hl
    split at hl <;> simp at hl
  · rintro c done st m p r k ⟨h0, h⟩ _ _ hp
    rw [(pathToGCode_frame hp).1]
    refine ⟨h0, ?_⟩
    rw [lns_of_notLayer, h]
    obtain ⟨f, la, _, _, h1, _⟩ := pathToGCode_ok hp
    intro l hl i e
    rw [h1] at hl
    subst e
    rcases List.mem_append.1 hl with hl | hl
    · unfold preLines retractionToGCode at hl
      split at hl <;> simp at hl
    · obtain ⟨q, _, e', h⟩ := mem_extLines hl
      cases h
  · intro c done st m h; exact h
  · rintro done st m ⟨h0, h⟩
    dsimp only
    rw [decreaseEOff_layerIndex]
    refine ⟨by omega, ?_⟩
    rw [lns_of_notLayer, h]
    · congr 2; omega
    · intro l hl i e
      subst e
      unfold decreaseEOff at hl
      split at hl <;> simp at hl
  · rintro done st m c r ⟨h0, h⟩ hc _ hr
    rw [cmd_frame hc hr]
    refine ⟨h0, ?_⟩
    rw [lns_of_notLayer, h]
    intro l hl i e
    subst e
    cases c <;> simp [Command.toGCode] at hr
    · subst hr; simp at hl
    · subst hr; simp at hl
    · subst hr; simp at hl
    · subst hr; simp at hl
    · exact absurd rfl (hc _)

private theorem layerNumbers_renderAll [FltText α] [CleanText α] (ls : List (GLine α)) (h : ∀ l ∈ ls, l.Plain) :
    layerNumbers (renderAll ls) = runLines lns [] ls := by
  have key : ∀ (ls : List (GLine α)), (∀ l ∈ ls, l.Plain) → ∀ m, runLines lns m ls = m ++
      (ls.map GLine.stmt).filterMap layerNo := by
    intro ls
    induction ls with
    | nil => intro _ m; simp
    | cons a t ih =>
      intro h m
      rw [runLines_cons, ih (fun l hl => h l (by simp [hl]))]
      cases a <;> simp only [lns, GLine.stmt, List.map_cons, List.filterMap_cons, layerNo]
      · rename_i i
        have hp : ("LAYER:".toList.isPrefixOf ("LAYER:".toList ++ (toString i).toList)) = true := by
          rw [List.isPrefixOf_iff_prefix]; exact List.prefix_append _ _
        have h2 : ("LAYER:".toList ++ (toString i).toList).drop 6 = (toString i).toList := by
          have : "LAYER:".toList.length = 6 := by decide
          rw [← this, List.drop_left]
        rw [if_pos hp, h2, readInt_int]; simp
      · rename_i c
        have := (h (.comment c) (by simp)).2
        rw [if_neg this]
  rw [layerNumbers, parseText_renderAll ls h, List.filterMap_append, key ls h]
  simp [layerNo]

/-- the number of layers counted by `LayerCount` is the number of layers of the program -/
theorem layerCount_eq (g : Gcode α) : g.layerCount = (allLayers g.cmds).length := by
  have : ∀ (cs : List (Command α)) n, cs.foldl (fun c cmd => c + cmd.layersCount) n = n + (allLayers cs).length := by
    intro cs
    induction cs with
    | nil => intro n; simp [allLayers]
    | cons c cs ih =>
      intro n
      simp only [List.foldl_cons, ih]
      cases c <;> simp [Command.layersCount, allLayers] <;> omega
  rw [Gcode.layerCount, this]; simp

/-- **C32.** In every text produced by `ToOutput` the layer comments are numbered `0, 1, ..., LayerCount()-1`, in this
order, each exactly once, whatever other commands are interleaved — for every arithmetic and every number format
without blanks. -/
theorem C32_layer_numbering [FltText α] [CleanText α] (g : Gcode α) (t : String) (h : g.text = .ok t) :
    layerNumbers t = (List.range g.layerCount).map Int.ofNat := by
  obtain ⟨ls, h1, h2⟩ := bind_ok h
  have := pure_ok h2
  rw [← this]
  show layerNumbers (renderAll ls) = _
  rw [layerNumbers_renderAll ls (toOutput_plain h1)]
  obtain ⟨st, ⟨hi, h3⟩, h4⟩ := (lns_rules g.settings).sound (m := []) (by simp [newState]) (fun _ _ => trivial) (fun _ _ => trivial) h1
  rw [h3, h4, layerCount_eq]
  rfl

section Example
attribute [local instance] Toy.flt Toy.txt

private def exSett : GcodeSettings Int :=
  ⟨1, 1, 1, 1, true, 50, 20, 30, true, 40, 5⟩
private def exProg : Gcode Int :=
  ⟨exSett, [.layersMoving [⟨0, ⟨0, 0, 1⟩, [⟨[⟨0, 0, 0⟩, ⟨9, 0, 0⟩]⟩], [], [], []⟩, ⟨1, ⟨0, 0, 1⟩, [], [], [], []⟩],
    .inclineX, .rotateZ 7, .layersMoving [⟨0, ⟨0, 0, 1⟩, [], [], [], [⟨[⟨1, 1, 1⟩]⟩]⟩]]⟩

/-- a program with three layers in two groups separated by bed moves does produce a text -/
example : ∃ t, exProg.text = .ok t ∧ exProg.layerCount = 3 := ⟨_, rfl, rfl⟩
end Example

end Goosli
