import Verif.Proofs.PrinterTrace
import Verif.Proofs.ToyText
/-! # C35 Fan protocol -/
set_option linter.unusedSectionVars false
namespace Goosli
open Flt Spec

variable {α : Type} [Flt α] [FltText α]

/-- the fan is as required for the layer that the comments announce -/
def fanRight (fanOff1 : Bool) (p : Printer) : Prop := p.fan = !(decide (p.layer = 0) && fanOff1)

private theorem fan_rules (sett : GcodeSettings α) :
    Rules sett (qexec fun p s => isPrintMove p s → fanRight sett.fanOffLayer1 p) (fun _ => True) (fun _ => True)
    (fun _ st m => m.2 ∧ m.1.fan = st.fan)
    (fun _ st m => m.2 ∧ m.1.fan = st.fan ∧ m.1.layer = st.layerIndex ∧ fanRight sett.fanOffLayer1 m.1)
    (fun _ _ st m => m.2 ∧ m.1.fan = st.fan ∧ m.1.layer = st.layerIndex ∧ fanRight sett.fanOffLayer1 m.1) := by
  refine ⟨?_, ?_, ?_, ?_, ?_, ?_, ?_⟩
  · rintro done st ⟨p, P⟩ ⟨hP, h⟩
    simp only at hP h
    unfold switchFanGCode
    by_cases h0 : st.layerIndex = 0 ∧ sett.fanOffLayer1 = true
    · rw [if_pos h0]
      cases hf : st.fan
      · simp only [Bool.false_eq_true, if_false, List.append_nil, runLines_cons, runLines_nil, qexec, exec_layer]
        refine ⟨⟨hP, fun hh => absurd hh (not_printMove _ _ (by simp))⟩, ?_, by trivial, ?_⟩
        · rw [h, hf]
        · simp [fanRight, h, hf, h0.1, h0.2]
      · simp only [if_true, List.cons_append, List.nil_append, runLines_cons, runLines_nil, qexec, exec_layer, exec_fanOff]
        refine ⟨⟨⟨hP, fun hh => absurd hh (not_printMove _ _ (by simp))⟩,
          fun hh => absurd hh (not_printMove _ _ (by simp))⟩, by trivial, by trivial, ?_⟩
        simp [fanRight, h0.1, h0.2]
    · rw [if_neg h0]
      cases hf : st.fan
      · simp only [Bool.not_false, if_true, List.cons_append, List.nil_append, runLines_cons, runLines_nil, qexec, exec_layer, exec_fanOn]
        refine ⟨⟨⟨hP, fun hh => absurd hh (not_printMove _ _ (by simp))⟩,
          fun hh => absurd hh (not_printMove _ _ (by simp))⟩, by trivial, by trivial, ?_⟩
        simp only [not_and, Bool.not_eq_true] at h0
        simp only [fanRight]
        by_cases h1 : st.layerIndex = 0
        · simp [h0 h1]
        · simp [h1]
      · simp only [Bool.not_true, Bool.false_eq_true, if_false, List.append_nil, runLines_cons, runLines_nil, qexec, exec_layer]
        refine ⟨⟨hP, fun hh => absurd hh (not_printMove _ _ (by simp))⟩, ?_, by trivial, ?_⟩
        · rw [h, hf]
        · simp only [not_and, Bool.not_eq_true] at h0
          simp only [fanRight, h, hf]
          by_cases h1 : st.layerIndex = 0
          · simp [h0 h1]
          · simp [h1]
  · intro done st m b h; exact h
  · rintro done st ⟨p, P⟩ c ⟨hP, h1, h2, h3⟩ hc
    simp only at hP h1 h2 h3
    have hpl := comment_plain (α := α) hc
    unfold printSpeedToGCode
    dsimp only
    split
    · simp only [List.cons_append, List.nil_append, runLines_cons, runLines_nil, qexec, exec_feed,
        exec_comment _ _ hpl]
      exact ⟨⟨⟨hP, fun hh => absurd hh (not_printMove _ _ (by simp))⟩,
        fun hh => absurd hh (not_printMove _ _ (by simp))⟩, h1, h2, h3⟩
    · simp only [List.append_nil, runLines_cons, runLines_nil, qexec, exec_comment _ _ hpl]
      exact ⟨⟨hP, fun hh => absurd hh (not_printMove _ _ (by simp))⟩, h1, h2, h3⟩
  · rintro c done st ⟨p, P⟩ pt r k ⟨hP, h1, h2, h3⟩ _ _ hp
    simp only at hP h1 h2 h3
    have hm := motion_path hp
    have hf := frame_lines r.1 p hm
    have hfr := pathToGCode_frame hp
    refine ⟨?_, ?_, ?_, ?_⟩
    · refine frame_steps _ _ p P hm hP ?_
      intro q hq l _ _
      rw [fanRight, hq.fan, hq.layer]; exact h3
    · rw [qexec_fst, hf.fan, h1, hfr.2.2.1]
    · rw [qexec_fst, hf.layer, h2, hfr.1]
    · rw [qexec_fst, fanRight, hf.fan, hf.layer]; exact h3
  · intro c done st m h; exact h
  · rintro done st ⟨p, P⟩ ⟨hP, h1, h2, h3⟩
    simp only at hP h1 h2 h3
    unfold decreaseEOff
    split
    · simp only [runLines_cons, runLines_nil, qexec, exec_setE0]
      exact ⟨⟨hP, fun hh => absurd hh (not_printMove _ _ (by simp))⟩, h1⟩
    · exact ⟨hP, h1⟩
  · rintro done st ⟨p, P⟩ c r ⟨hP, h1⟩ hc _ hr
    simp only at hP h1
    have key : ∀ (ls : List (GLine α)) (p : Printer) (P : Prop), P →
        (∀ l ∈ ls, (∀ x y z e, l ≠ .extrude x y z e) ∧ l ≠ .fanOff ∧ l ≠ .fanOn) →
        (runLines (qexec fun p s => isPrintMove p s → fanRight sett.fanOffLayer1 p) (p, P) ls).2 ∧
        (runLines (qexec fun p s => isPrintMove p s → fanRight sett.fanOffLayer1 p) (p, P) ls).1.fan = p.fan := by
      intro ls
      induction ls with
      | nil => intro p P hP _; exact ⟨hP, rfl⟩
      | cons a t ih =>
        intro p P hP h
        have ha := h a (by simp)
        rw [runLines_cons]
        have hfan : (execLine p a).fan = p.fan := by
          cases a with
          | comment c =>
            simp only [execLine, GLine.stmt, Printer.exec]
            split <;> rfl
          | fanOff => exact absurd rfl ha.2.1
          | fanOn => exact absurd rfl ha.2.2
          | _ => simp only [exec_layer, exec_feed, exec_park, exec_tool, exec_setE, exec_setE0, exec_axisLit, exec_axisTo,
              exec_rotXZ, exec_travelZ, exec_travel, exec_retract, exec_extrude]
        have := ih (execLine p a) (P ∧ (isPrintMove p a.stmt → fanRight sett.fanOffLayer1 p)) ⟨hP, fun hh => absurd hh (not_printMove _ _ ha.1)⟩
          (fun l hl => h l (by simp [hl]))
        exact ⟨this.1, this.2.trans hfan⟩
    have hls : ∀ l ∈ r.1, (∀ x y z e, l ≠ .extrude x y z e) ∧ l ≠ .fanOff ∧ l ≠ .fanOn := by
      intro l hl
      cases c <;> simp [Command.toGCode] at hr
      · subst hr; simp at hl
        rcases hl with rfl | rfl | rfl | rfl | rfl | rfl | rfl <;> simp
      · subst hr; simp at hl
        rcases hl with rfl | rfl | rfl | rfl | rfl | rfl | rfl <;> simp
      · subst hr; simp at hl; subst hl; simp
      · subst hr; simp at hl
        rcases hl with rfl | rfl | rfl | rfl | rfl | rfl | rfl <;> simp
      · exact absurd rfl (hc _)
    have hst : r.2.fan = st.fan := by
      cases c <;> simp [Command.toGCode] at hr
      · subst hr; rfl
      · subst hr; rfl
      · subst hr; rfl
      · subst hr; rfl
      · exact absurd rfl (hc _)
    have := key r.1 p P hP hls
    exact ⟨this.1, by rw [this.2, h1, hst]⟩

/-- **C35, part 1.** At every print move of the produced text, executed from power-on, the fan is on — except in
layer 0 when `FanOffLayer1` is set, where it is off. -/
theorem C35_fan_state [CleanText α] (g : Gcode α) (t : String) (h : g.text = .ok t) :
    ∀ x ∈ steps Printer.init (parseText t), isPrintMove x.1 x.2 →
      x.1.fan = !(decide (x.1.layer = 0) && g.settings.fanOffLayer1) := by
  obtain ⟨ls, h1, h2⟩ := bind_ok h
  have := pure_ok h2
  rw [← this]
  have hh := (fan_rules g.settings).sound (cs := g.cmds) (m := (Printer.init, True)) ⟨trivial, rfl⟩
    (fun _ _ => trivial) (fun _ _ => trivial) h1
  obtain ⟨st, ⟨h3, _⟩, _⟩ := hh
  rw [qexec_snd] at h3
  exact (steps_text (fun p s => isPrintMove p s → fanRight g.settings.fanOffLayer1 p) _ ls (toOutput_plain h1)
    (by intro q hq; exact absurd hq (by simp [isPrintMove]))).2 h3.2

/-- number of fan switches among lines -/
private def fanCount (n : Nat) : GLine α → Nat
  | .fanOff => n + 1
  | .fanOn => n + 1
  | _ => n

private theorem fanCount_none (ls : List (GLine α)) (h : ∀ l ∈ ls, l ≠ .fanOff ∧ l ≠ .fanOn) (m : Nat) :
    runLines fanCount m ls = m := by
  induction ls generalizing m with
  | nil => rfl
  | cons a t ih =>
    rw [runLines_cons]
    have : fanCount m a = m := by
      have := h a (by simp)
      cases a <;> first | rfl | exact absurd rfl this.1 | exact absurd rfl this.2
    rw [this]; exact ih (fun l hl => h l (by simp [hl])) m

private theorem fanCount_rules (sett : GcodeSettings α) : Rules sett fanCount (fun _ => True) (fun _ => True)
    (fun _ st m => 0 ≤ st.layerIndex ∧ (st.layerIndex = 0 → st.fan = false) ∧ m = if st.fan then 1 else 0)
    (fun _ st m => 0 ≤ st.layerIndex ∧ m = if st.fan then 1 else 0)
    (fun _ _ st m => 0 ≤ st.layerIndex ∧ m = if st.fan then 1 else 0) := by
  refine ⟨?_, ?_, ?_, ?_, ?_, ?_, ?_⟩
  · rintro done st m ⟨h0, h1, rfl⟩
    unfold switchFanGCode
    by_cases h : st.layerIndex = 0 ∧ sett.fanOffLayer1 = true
    · rw [if_pos h]
      simp [h1 h.1, fanCount, h.1]
    · rw [if_neg h]
      cases hf : st.fan <;> simp [fanCount, hf, h0]
  · intro done st m b h; exact h
  · rintro done st m c ⟨h0, h⟩ hc
    rw [printSpeed_layerIndex]
    refine ⟨h0, ?_⟩
    have e : (printSpeedToGCode st sett).2.fan = st.fan := by
      unfold printSpeedToGCode; dsimp only; split <;> rfl
    rw [fanCount_none, h, e]
    intro l hl
    unfold printSpeedToGCode at hl
    dsimp only at hl
    split at hl <;> simp at hl
    · rcases hl with rfl | rfl <;> simp
    · subst hl; simp
  · rintro c done st m p r k ⟨h0, h⟩ _ _ hp
    have hfr := pathToGCode_frame hp
    rw [hfr.1]
    refine ⟨h0, ?_⟩
    rw [fanCount_none, h, hfr.2.2.1]
    intro l hl
    have := motion_path hp l hl
    cases l <;> simp [isMotion] at this <;> simp
  · intro c done st m h; exact h
  · rintro done st m ⟨h0, h⟩
    dsimp only
    rw [decreaseEOff_layerIndex]
    refine ⟨by omega, by omega, ?_⟩
    have e : (decreaseEOff st).2.fan = st.fan := by unfold decreaseEOff; split <;> rfl
    rw [fanCount_none, h, e]
    intro l hl
    unfold decreaseEOff at hl
    split at hl <;> simp at hl
    subst hl; simp
  · rintro done st m c r ⟨h0, h1, h⟩ hc _ hr
    have hst : r.2.fan = st.fan := by
      cases c <;> simp [Command.toGCode] at hr
      · subst hr; rfl
      · subst hr; rfl
      · subst hr; rfl
      · subst hr; rfl
      · exact absurd rfl (hc _)
    rw [cmd_frame hc hr, hst]
    refine ⟨h0, h1, ?_⟩
    rw [fanCount_none, h]
    intro l hl
    cases c <;> simp [Command.toGCode] at hr
    · subst hr; simp at hl
      rcases hl with rfl | rfl | rfl | rfl | rfl | rfl | rfl <;> simp
    · subst hr; simp at hl
      rcases hl with rfl | rfl | rfl | rfl | rfl | rfl | rfl <;> simp
    · subst hr; simp at hl; subst hl; simp
    · subst hr; simp at hl
      rcases hl with rfl | rfl | rfl | rfl | rfl | rfl | rfl <;> simp
    · exact absurd rfl (hc _)

/-- **C35, part 2.** The text contains at most one fan statement. -/
theorem C35_fan_switched_once [CleanText α] (g : Gcode α) (t : String) (h : g.text = .ok t) :
    (parseText t).countP isFanStmt ≤ 1 := by
  obtain ⟨ls, h1, h2⟩ := bind_ok h
  have := pure_ok h2
  rw [← this]
  show (parseText (renderAll ls)).countP isFanStmt ≤ 1
  rw [parseText_renderAll ls (toOutput_plain h1), List.countP_append]
  have key : ∀ (ls : List (GLine α)) n, runLines fanCount n ls = n + (ls.map GLine.stmt).countP isFanStmt := by
    intro ls
    induction ls with
    | nil => intro n; simp
    | cons a t ih =>
      intro n
      rw [runLines_cons, ih, List.map_cons, List.countP_cons]
      cases a <;> simp [fanCount, isFanStmt, GLine.stmt, natW] <;> omega
  obtain ⟨st, ⟨_, _, h3⟩, _⟩ := (fanCount_rules g.settings).sound (cs := g.cmds) (m := 0)
    ⟨le_refl _, fun _ => rfl, rfl⟩ (fun _ _ => trivial) (fun _ _ => trivial) h1
  have := key ls 0
  rw [h3] at this
  have e : ([.words []] : List Stmt).countP isFanStmt = 0 := rfl
  rw [e]
  split at this <;> omega

section Example
attribute [local instance] Toy.flt Toy.txt Toy.clean

private def exProg : Gcode Int :=
  ⟨⟨1, 1, 1, 1, true, 50, 20, 30, true, 40, 5⟩,
   [.layersMoving [⟨0, ⟨0, 0, 1⟩, [⟨[⟨0, 0, 0⟩, ⟨9, 0, 0⟩]⟩], [], [], []⟩, ⟨1, ⟨0, 0, 1⟩, [], [], [], []⟩],
    .inclineX, .layersMoving [⟨0, ⟨0, 0, 1⟩, [], [], [], [⟨[⟨1, 1, 1⟩, ⟨2, 2, 2⟩]⟩]⟩]]⟩

/-- a program with print moves in layer 0 (fan off) and layer 2 (fan on) -/
example : ∃ t, exProg.text = .ok t ∧ exProg.settings.fanOffLayer1 = true ∧ (allJobs exProg.cmds).length = 2 :=
  ⟨_, rfl, rfl, rfl⟩
end Example

end Goosli
