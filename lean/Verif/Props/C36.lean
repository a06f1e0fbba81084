import Verif.Proofs.PrinterTrace
import Verif.Proofs.ToyText
import Verif.Model.XR
/-! # C36 Print moves run at the configured speed -/
set_option linter.unusedSectionVars false
namespace Goosli
open Flt Spec

variable {α : Type} [Flt α] [FltText α]

/-- the speed the settings ask for in a section of a layer -/
def configuredSpeed (sett : GcodeSettings α) (layer : Int) (sect : List Char) : Int :=
  if layer = 0 then sett.printSpeedLayer1
  else if sect = "FILL_PATHES".toList then sett.printSpeed else sett.printSpeedWall

/-- the statement to be shown of each step -/
def speedRight (sett : GcodeSettings α) (p : Printer) : Prop := p.feed = configuredSpeed sett p.layer p.sect

private theorem needed_eq (sett : GcodeSettings α) (st : GState α) (c : String)
    (hc : (c, st.isWall) ∈
      [("OUTER_PATHES", true), ("MIDDLE_PATHES", true), ("INNER_PATHES", true), ("FILL_PATHES", false)]) :
    neededSpeed st sett = configuredSpeed sett st.layerIndex c.toList := by
  unfold neededSpeed configuredSpeed
  split
  · rfl
  · simp at hc
    rcases hc with ⟨rfl, h⟩ | ⟨rfl, h⟩ | ⟨rfl, h⟩ | ⟨rfl, h⟩ <;> simp [h]

private theorem speed_rules (sett : GcodeSettings α) (hret : sett.retraction = false)
    (h1 : sett.printSpeedLayer1 ≠ 0) (h2 : sett.printSpeedWall ≠ 0) (h3 : sett.printSpeed ≠ 0) :
    Rules sett (qexec fun p s => isPrintMove p s → speedRight sett p) (fun _ => True)
    (fun c => (∃ ls, c = .layersMoving ls) ∨ ∃ a b, c = .rotateXZ a b)
    (fun _ st m => m.2 ∧ (st.feedrate = 0 ∨ m.1.feed = st.feedrate))
    (fun _ st m => m.2 ∧ (st.feedrate = 0 ∨ m.1.feed = st.feedrate) ∧ m.1.layer = st.layerIndex)
    (fun _ _ st m => m.2 ∧ m.1.feed = st.feedrate ∧ m.1.layer = st.layerIndex ∧ speedRight sett m.1) := by
  have hn : ∀ st : GState α, neededSpeed st sett ≠ 0 := by
    intro st; unfold neededSpeed; split
    · exact h1
    · split
      · exact h2
      · exact h3
  refine ⟨?_, ?_, ?_, ?_, ?_, ?_, ?_⟩
  · rintro done st ⟨p, P⟩ ⟨hP, h⟩
    simp only at hP h
    have np : ∀ (q : Printer) (l : GLine α), (∀ x y z e, l ≠ .extrude x y z e) →
      (isPrintMove q l.stmt → speedRight sett q) := fun q l hl hh => absurd hh (not_printMove _ _ hl)
    unfold switchFanGCode
    split <;> split <;>
      simp only [List.append_nil, List.cons_append, List.nil_append, runLines_cons, runLines_nil, qexec, exec_layer,
        exec_fanOff, exec_fanOn]
    · exact ⟨⟨⟨hP, np _ _ (by simp)⟩, np _ _ (by simp)⟩, h, trivial⟩
    · exact ⟨⟨hP, np _ _ (by simp)⟩, h, trivial⟩
    · exact ⟨⟨⟨hP, np _ _ (by simp)⟩, np _ _ (by simp)⟩, h, trivial⟩
    · exact ⟨⟨hP, np _ _ (by simp)⟩, h, trivial⟩
  · intro done st m b h; exact h
  · rintro done st ⟨p, P⟩ c ⟨hP, h, hl⟩ hc
    simp only at hP h hl
    have hpl := comment_plain (α := α) hc
    have hneed := needed_eq sett st c hc
    unfold printSpeedToGCode
    dsimp only
    split
    · simp only [List.cons_append, List.nil_append, runLines_cons, runLines_nil, qexec, exec_feed,
        exec_comment _ _ hpl]
      refine ⟨⟨⟨hP, fun hh => absurd hh (not_printMove _ _ (by simp))⟩,
        fun hh => absurd hh (not_printMove _ _ (by simp))⟩, trivial, hl, ?_⟩
      simp only [speedRight, hl, hneed]
    · rename_i hne
      simp only [ne_eq, not_not] at hne
      simp only [List.append_nil, runLines_cons, runLines_nil, qexec, exec_comment _ _ hpl]
      have hf : p.feed = st.feedrate := by
        rcases h with h | h
        · exact absurd (hne.trans h) (hn st)
        · exact h
      refine ⟨⟨hP, fun hh => absurd hh (not_printMove _ _ (by simp))⟩, hf, hl, ?_⟩
      simp only [speedRight, hl, hf, ← hne, hneed]
  · rintro c done st ⟨p, P⟩ pt r k ⟨hP, hfe, hl, hs⟩ _ _ hp
    simp only at hP hfe hl hs
    have hm := motion_path hp
    have hf := frame_lines r.1 p hm
    have hfr := pathToGCode_frame hp
    have e : ∀ q, Frame sett.retraction q p → speedRight sett q := by
      intro q hq
      rw [speedRight, hq.feed hret, hq.layer, hq.sect]; exact hs
    refine ⟨frame_steps _ _ p P hm hP (fun q hq l _ _ => e q hq), ?_, ?_, ?_⟩
    · rw [qexec_fst, hf.feed hret, hfe, hfr.2.2.2.1]
    · rw [qexec_fst, hf.layer, hl, hfr.1]
    · rw [qexec_fst]; exact e _ hf
  · intro c done st m h; exact ⟨h.1, Or.inr h.2.1, h.2.2.1⟩
  · rintro done st ⟨p, P⟩ ⟨hP, h, hl⟩
    simp only at hP h hl
    unfold decreaseEOff
    split
    · simp only [runLines_cons, runLines_nil, qexec, exec_setE0]
      exact ⟨⟨hP, fun hh => absurd hh (not_printMove _ _ (by simp))⟩, h⟩
    · exact ⟨hP, h⟩
  · rintro done st ⟨p, P⟩ c r ⟨hP, h⟩ hc hg hr
    simp only at hP h
    rcases hg with ⟨ls, rfl⟩ | ⟨a, b, rfl⟩
    · exact absurd rfl (hc _)
    · simp [Command.toGCode] at hr
      subst hr
      simp only [runLines_cons, runLines_nil, qexec, exec_rotXZ]
      exact ⟨⟨hP, fun hh => absurd hh (not_printMove _ _ (by simp))⟩, h⟩

/-- **C36 (the part that holds).** Without retraction, and with no bed command that drives an axis, every print move
of the text runs at the configured speed of its layer and section, whatever feed rate the printer starts with.
(Full claim: the same for every command list and with retraction; that is false, see the two theorems below.) -/
theorem C36_speed_partial [CleanText α] (g : Gcode α) (t : String) (h : g.text = .ok t) (p0 : Printer)
    (hret : g.settings.retraction = false)
    (h1 : g.settings.printSpeedLayer1 ≠ 0) (h2 : g.settings.printSpeedWall ≠ 0) (h3 : g.settings.printSpeed ≠ 0)
    (hc : ∀ c ∈ g.cmds, (∃ ls, c = .layersMoving ls) ∨ ∃ a b, c = .rotateXZ a b) :
    ∀ x ∈ steps p0 (parseText t), isPrintMove x.1 x.2 →
      x.1.feed = configuredSpeed g.settings x.1.layer x.1.sect := by
  obtain ⟨ls, hls, h'⟩ := bind_ok h
  have := pure_ok h'
  rw [← this]
  obtain ⟨st, ⟨h4, _⟩, _⟩ := (speed_rules g.settings hret h1 h2 h3).sound (cs := g.cmds) (m := (p0, True))
    ⟨trivial, Or.inl rfl⟩ (fun _ _ => trivial) hc hls
  rw [qexec_snd] at h4
  exact (steps_text (fun p s => isPrintMove p s → speedRight g.settings p) _ ls (toOutput_plain hls)
    (by intro q hq; exact absurd hq (by simp [isPrintMove]))).2 h4.2

section Violated
open XR

/-- the settings: one speed for everything -/
private def vSett (ret : Bool) (v w : Int) : GcodeSettings XR :=
  ⟨fin 1, fin 1, fin 1, fin 1, false, v, v, v, ret, w, fin 5⟩

private def emptyLayer : Layer XR := ⟨0, ⟨fin 0, fin 0, fin 1⟩, [], [], [], []⟩
private def oneLayer : Layer XR :=
  ⟨1, ⟨fin 0, fin 0, fin 1⟩, [⟨[⟨fin 0, fin 0, fin 0⟩, ⟨fin 10, fin 0, fin 0⟩]⟩], [], [], []⟩

/-- **C36 is violated by bed rotations.** Whatever speed `v` is configured for everything, there is a program (print,
rotate the bed, print) in which a print move runs at feed rate 300. -/
theorem C36_speed_violated_by_rotation [FltText XR] [CleanText XR] (v : Int) (hv : v ≠ 0) :
    ∃ (g : Gcode XR) (t : String), g.text = .ok t ∧ g.settings.retraction = false ∧
      g.settings.printSpeedLayer1 = v ∧ g.settings.printSpeedWall = v ∧ g.settings.printSpeed = v ∧
      ∃ x ∈ steps Printer.init (parseText t), isPrintMove x.1 x.2 ∧ x.1.feed = 300 := by
  have ho : ∃ l x y z e b, (Gcode.mk (vSett false v 0)
      [.layersMoving [emptyLayer], .rotateZ (fin 90), .layersMoving [oneLayer]]).toOutput
      = .ok (([.layer 0, .fanOn, .comment "OUTER_PATHES", .feed v, .comment "MIDDLE_PATHES", .comment "INNER_PATHES",
        .comment "FILL_PATHES", .park, .tool 1, .setE (fin 0) true, .axisTo (fin 90), .setE0 true, .tool 0,
        .setE (fin 0) false, .layer 1, .comment "OUTER_PATHES"] ++ l) ++ GLine.extrude x y z e :: b) ∧
      ∀ k ∈ l, isMotion false k := by
    have h4 : ¬ ((4000 : ℝ) < 0) := by norm_num
    simp only [vSett, Gcode.toOutput, cmdsToGCode, Command.toGCode, layersToGCode, layerToGCode, pathesToGCode,
      emptyLayer, oneLayer, pathsLoop, pathToGCode, goAt, goLast, bind, Except.bind, pure, Except.pure, newState,
      switchFanGCode, printSpeedToGCode, neededSpeed, decreaseEOff, adjPairs, retractionToGCode]
    simp [hv, extrudeStep, h4]
    refine ⟨[_, _, _], ⟨_, _, _, _, _, rfl⟩, by simp [isMotion]⟩
  obtain ⟨l, x, y, z, e, b, ho, hl⟩ := ho
  refine ⟨Gcode.mk (vSett false v 0) [.layersMoving [emptyLayer], .rotateZ (fin 90), .layersMoving [oneLayer]], _,
    by simp only [Gcode.text, ho, bind, Except.bind]; rfl, rfl, rfl, rfl, rfl, _,
    step_after _ _ _ _ (toOutput_plain ho), ?_⟩
  simp only [runLines_append]
  have hf := frame_lines l (runLines execLine Printer.init [.layer 0, .fanOn, .comment "OUTER_PATHES", .feed v,
    .comment "MIDDLE_PATHES", .comment "INNER_PATHES", .comment "FILL_PATHES", .park, .tool 1, .setE (fin 0) true,
    .axisTo (fin 90), .setE0 true, .tool 0, .setE (fin 0) false, .layer 1, .comment "OUTER_PATHES"]) hl
  rw [printMove_extrude, hf.tool, hf.feed rfl]
  have cp : ∀ c ∈ ["OUTER_PATHES", "MIDDLE_PATHES", "INNER_PATHES", "FILL_PATHES"],
      (GLine.comment c : GLine XR).Plain := by simp only [GLine.Plain]; decide
  simp [exec_layer, exec_fanOn, exec_feed, exec_park, exec_tool, exec_setE, exec_axisTo, exec_setE0,
    exec_comment _ _ (cp _ (by simp : "OUTER_PATHES" ∈ _)), exec_comment _ _ (cp _ (by simp : "MIDDLE_PATHES" ∈ _)),
    exec_comment _ _ (cp _ (by simp : "INNER_PATHES" ∈ _)), exec_comment _ _ (cp _ (by simp : "FILL_PATHES" ∈ _))]

/-- **C36 is violated by retraction.** With retraction the first path already prints at the retraction speed. -/
theorem C36_speed_violated_by_retraction [FltText XR] [CleanText XR] (v w : Int) (hv : v ≠ 0) :
    ∃ (g : Gcode XR) (t : String), g.text = .ok t ∧ g.settings.retractionSpeed = w ∧
      g.settings.printSpeedLayer1 = v ∧ g.settings.printSpeedWall = v ∧ g.settings.printSpeed = v ∧
      (∀ c ∈ g.cmds, ∃ ls, c = .layersMoving ls) ∧
      ∃ x ∈ steps Printer.init (parseText t), isPrintMove x.1 x.2 ∧ x.1.feed = w := by
  have ho : ∃ p1 p2 p3 p4 q x y z e b, (Gcode.mk (vSett true v w) [.layersMoving [oneLayer]]).toOutput
      = .ok ([.layer 0, .fanOn, .comment "OUTER_PATHES", .feed v, .travelZ p1, .retract w q, .travel p2 p3 p4,
        .travelZ (fin 0)] ++ GLine.extrude x y z e :: b) := by
    simp only [vSett, Gcode.toOutput, cmdsToGCode, Command.toGCode, layersToGCode, layerToGCode, pathesToGCode,
      oneLayer, pathsLoop, pathToGCode, goAt, goLast, bind, Except.bind, pure, Except.pure, newState,
      switchFanGCode, printSpeedToGCode, neededSpeed, adjPairs, retractionToGCode]
    simp [hv, extrudeStep]
  obtain ⟨p1, p2, p3, p4, q, x, y, z, e, b, ho⟩ := ho
  refine ⟨Gcode.mk (vSett true v w) [.layersMoving [oneLayer]], _,
    by simp only [Gcode.text, ho, bind, Except.bind]; rfl, rfl, rfl, rfl, rfl, by simp, _,
    step_after _ _ _ _ (toOutput_plain ho), ?_⟩
  have cp : (GLine.comment "OUTER_PATHES" : GLine XR).Plain := by simp only [GLine.Plain]; decide
  rw [printMove_extrude]
  simp [exec_layer, exec_fanOn, exec_feed, exec_retract, exec_travel, exec_travelZ, exec_comment _ _ cp, Printer.init]

end Violated

section Example
attribute [local instance] Toy.flt Toy.txt Toy.clean

private def exProg : Gcode Int :=
  ⟨⟨1, 1, 1, 1, true, 80, 20, 40, false, 1800, 5⟩,
   [.layersMoving [⟨0, ⟨0, 0, 1⟩, [⟨[⟨0, 0, 0⟩, ⟨10, 0, 0⟩]⟩], [], [], [⟨[⟨0, 0, 0⟩, ⟨5, 5, 0⟩]⟩]⟩,
      ⟨1, ⟨0, 0, 1⟩, [⟨[⟨0, 0, 1⟩, ⟨10, 0, 1⟩]⟩], [], [], [⟨[⟨0, 0, 1⟩, ⟨5, 5, 1⟩]⟩]⟩],
    .rotateXZ 10 20]⟩

/-- a program with walls and infill in two layers meets the hypotheses of the theorem, with three different speeds -/
example : ∃ t, exProg.text = .ok t ∧ exProg.settings.retraction = false ∧
    exProg.settings.printSpeedLayer1 ≠ 0 ∧ exProg.settings.printSpeedWall ≠ 0 ∧ exProg.settings.printSpeed ≠ 0 ∧
    (∀ c ∈ exProg.cmds, (∃ ls, c = .layersMoving ls) ∨ ∃ a b, c = .rotateXZ a b) ∧
    (allJobs exProg.cmds).length = 4 :=
  ⟨_, rfl, rfl, by decide, by decide, by decide, by simp [exProg], rfl⟩

end Example
end Goosli
