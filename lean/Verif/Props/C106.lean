import Verif.Props.C105
/-!
# C106: the fan runs on after the print
-/
set_option linter.unusedSectionVars false
set_option autoImplicit false
namespace Goosli
open Flt Spec
variable {α : Type} [Flt α] [FltText α]

/-- the fan after a line -/
private def fanAfter (b : Bool) : GLine α → Bool
  | .fanOff => false
  | .fanOn => true
  | _ => b

private theorem fanAfter_none (ls : List (GLine α)) (h : ∀ l ∈ ls, l ≠ .fanOff ∧ l ≠ .fanOn) (b : Bool) : runLines fanAfter b ls = b := by
  induction ls generalizing b with
  | nil => rfl
  | cons a t ih =>
    rw [runLines_cons]
    have : fanAfter b a = b := by
      have := h a (by simp)
      cases a <;> first | rfl | exact absurd rfl this.1 | exact absurd rfl this.2
    rw [this]; exact ih (fun l hl => h l (by simp [hl])) b

private theorem fanAfter_exec (ls : List (GLine α)) (h : ∀ l ∈ ls, l.Plain) (p : Printer) :
    (runLines execLine p ls).fan = runLines fanAfter p.fan ls := by
  induction ls generalizing p with
  | nil => rfl
  | cons a t ih =>
    rw [runLines_cons, runLines_cons, ih fun l hl => h l (by simp [hl])]
    congr 1
    have ha := h a (by simp)
    cases a <;> simp [fanAfter, exec_layer, exec_fanOff, exec_fanOn, exec_feed, exec_park, exec_tool, exec_setE, exec_setE0, exec_axisLit,
      exec_axisTo, exec_rotXZ, exec_travelZ, exec_travel, exec_retract, exec_extrude]
    rw [exec_comment _ _ ha]

private theorem fanAfter_rules (sett : GcodeSettings α) : Rules sett fanAfter (fun _ => True) (fun _ => True)
    (fun _ st m => m = st.fan ∧ 0 ≤ st.layerIndex ∧ (2 ≤ st.layerIndex → st.fan = true))
    (fun _ st m => m = st.fan ∧ 0 ≤ st.layerIndex ∧ (1 ≤ st.layerIndex → st.fan = true))
    (fun _ _ st m => m = st.fan ∧ 0 ≤ st.layerIndex ∧ (1 ≤ st.layerIndex → st.fan = true)) := by
  refine ⟨?_, ?_, ?_, ?_, ?_, ?_, ?_⟩
  · rintro done st m ⟨h1, h2, h3⟩
    unfold switchFanGCode
    by_cases h : st.layerIndex = 0 ∧ sett.fanOffLayer1 = true
    · rw [if_pos h]
      cases hf : st.fan <;> simp [fanAfter, h.1, h1, hf]
    · rw [if_neg h]
      cases hf : st.fan <;> simp [fanAfter, h2, h1, hf]
  · intro done st m b h; exact h
  · rintro done st m c ⟨h1, h2, h3⟩ hc
    rw [printSpeed_layerIndex]
    have e : (printSpeedToGCode st sett).2.fan = st.fan := by
      unfold printSpeedToGCode; dsimp only; split <;> rfl
    rw [fanAfter_none, e]
    · exact ⟨h1, h2, h3⟩
    intro l hl
    unfold printSpeedToGCode at hl
    dsimp only at hl
    split at hl <;> simp at hl
    · rcases hl with rfl | rfl <;> simp
    · subst hl; simp
  · rintro c done st m p r k ⟨h1, h2, h3⟩ _ _ hp
    have hfr := pathToGCode_frame hp
    rw [hfr.1, hfr.2.2.1, fanAfter_none]
    · exact ⟨h1, h2, h3⟩
    intro l hl
    have := motion_path hp l hl
    cases l <;> simp [isMotion] at this <;> simp
  · intro c done st m h; exact h
  · rintro done st m ⟨h1, h2, h3⟩
    dsimp only
    have e : (decreaseEOff st).2.fan = st.fan := by unfold decreaseEOff; split <;> rfl
    rw [decreaseEOff_layerIndex, fanAfter_none, e]
    · exact ⟨h1, by omega, fun h => h3 (by omega)⟩
    intro l hl
    unfold decreaseEOff at hl
    split at hl <;> simp at hl
    subst hl; simp
  · rintro done st m c r ⟨h1, h2, h3⟩ hc _ hr
    have hst : r.2.fan = st.fan := by
      cases c <;> simp [Command.toGCode] at hr
      · subst hr; rfl
      · subst hr; rfl
      · subst hr; rfl
      · subst hr; rfl
      · exact absurd rfl (hc _)
    rw [cmd_frame hc hr, hst, fanAfter_none]
    · exact ⟨h1, h2, h3⟩
    intro l hl
    cases c <;> simp [Command.toGCode] at hr
    · subst hr; simp at hl
      rcases hl with rfl | rfl | rfl | rfl | rfl | rfl | rfl <;> simp
    · subst hr; simp at hl
      rcases hl with rfl | rfl | rfl | rfl | rfl | rfl | rfl <;> simp
    · subst hr; simp at hl; subst hl; simp
    · subst hr; simp at hl
      rcases hl with rfl | rfl | rfl | rfl | rfl | rfl | rfl <;> simp
    · exact absurd rfl (hc _)

/-- **C106 is violated by every program with two layers.** With the templates that come with the program, for every program with at least two
layers, all settings, every arithmetic and every order of the maps: after the whole file has been executed, on a machine in any state, the
heaters are off but the fan is on. -/
theorem C106_fan_violated [CleanText α] (ord : MapOrder (List Char × List Char)) (gcd : Gcode α) (sett : Settings α) (info : PrintInfo)
    (t : String) (ht : gcd.text = .ok t) (hdate : '{' ∉ info.dateTime.toList) (hnl : '\n' ∉ info.dateTime.toList)
    (hlh : '{' ∉ (FltText.fmt3 sett.layerHeight).toList) (hwt : '{' ∉ (FltText.fmt3 sett.wallThickness).toList)
    (h2 : 2 ≤ (allLayers gcd.cmds).length) :
    ∃ file, commandsWithTemplates (some (template '{' '}' shippedHeader)) (some (template '{' '}' shippedFooter)) ord gcd sett info = .ok file ∧
      ∀ m : Rig, (m.run (parseText (String.ofList file))).ready 0 0 ∧ (m.run (parseText (String.ofList file))).p.fan = true := by
  obtain ⟨file, hf, h⟩ := C105_file ord gcd sett info t ht hdate hnl hlh hwt
  refine ⟨file, hf, fun m => ?_⟩
  obtain ⟨p, -, -, -, h0, -, -, h3, -, h4⟩ := h m
  refine ⟨h3, ?_⟩
  obtain ⟨ls, hls, h'⟩ := bind_ok ht
  have htext : renderAll ls = t := pure_ok h'
  have hplain := toOutput_plain hls
  rw [h4, ← htext, run_text p ls hplain, fanAfter_exec ls hplain, h0]
  obtain ⟨st, ⟨k1, -, k3⟩, k4⟩ := (fanAfter_rules gcd.settings).sound (cs := gcd.cmds) (m := false)
    ⟨rfl, le_refl _, fun h => absurd h (by show ¬ ((2 : Int) ≤ 0); norm_num)⟩ (fun _ _ => trivial) (fun _ _ => trivial) hls
  rw [k1]
  exact k3 (by rw [k4]; exact_mod_cast h2)

section Example
attribute [local instance] Toy.flt Toy.txt Toy.clean
private def exSett : Settings Int :=
  ⟨⟨1, 1, 1, 1, true, 50, 20, 30, true, 40, 5⟩, 1, 2, 3, 20, ⟨0, 0, 0⟩, "Lines", 30, ⟨0, 0, 1⟩, false, 0, 1, 1, 0⟩
private def exTwo : Gcode Int :=
  ⟨exSett.gs, [.layersMoving [⟨0, ⟨0, 0, 1⟩, [⟨[⟨0, 0, 0⟩, ⟨9, 0, 0⟩]⟩], [], [], []⟩, ⟨1, ⟨0, 0, 1⟩, [], [], [], []⟩]]⟩

/-- a program with two layers -/
example : (∃ t, exTwo.text = .ok t) ∧ 2 ≤ (allLayers exTwo.cmds).length ∧ '{' ∉ (FltText.fmt3 exSett.layerHeight).toList ∧
    '{' ∉ (FltText.fmt3 exSett.wallThickness).toList := by
  refine ⟨⟨_, rfl⟩, by decide, ?_, ?_⟩ <;> decide
end Example

end Goosli
