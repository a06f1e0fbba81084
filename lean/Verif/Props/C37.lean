import Verif.Proofs.PrinterTrace
import Verif.Proofs.Decimal
/-! # C37 Bed axes end where they were told -/
set_option linter.unusedSectionVars false
namespace Goosli
open Flt Spec

variable {α : Type} [Flt α] [FltText α]

/-- the angle of the last `RotateZ`, as printed (0 if there was none) -/
noncomputable def lastRotation : List (Command α) → ℝ
  | [] => 0
  | cs => cs.foldl (fun a c => match c with | .rotateZ x => readDec (FltText.fmt3 x).toList | _ => a) 0

/-- the tilt asked for last: 60 after `InclineX`, 0 after `InclineXBack` and at the start -/
noncomputable def lastTilt (cs : List (Command α)) : ℝ :=
  cs.foldl (fun a c => match c with | .inclineX => 60 | .inclineXBack => 0 | _ => a) 0

theorem run_extLines_e (sett : GcodeSettings α) (qs : List (Point α × Point α)) (e : α) (p : Printer) :
    (runLines execLine p (extLines sett qs e)).e = if qs = [] then p.e else val (extE sett qs e) := by
  induction qs generalizing e p with
  | nil => simp [extLines]
  | cons q qs ih =>
    simp only [extLines, runLines_cons, ih, extE, exec_extrude]
    by_cases h : qs = []
    · subst h; simp [extE]
    · simp [h]

private theorem axis_rules (sett : GcodeSettings α) (E : Prop) [PrintsConstants α] :
    Rules sett (execLine (α := α)) (fun j => E → (sett.retraction = false ∨ 2 ≤ j.path.points.length)) (fun _ => True)
    (fun _ st m => m.tool = 0 ∧ m.axis 1 = val st.t1 ∧ m.axis 2 = val st.t2 ∧ (E → m.e = val st.eOff))
    (fun _ st m => m.tool = 0 ∧ m.axis 1 = val st.t1 ∧ m.axis 2 = val st.t2 ∧ (E → m.e = val st.eOff))
    (fun _ _ st m => m.tool = 0 ∧ m.axis 1 = val st.t1 ∧ m.axis 2 = val st.t2 ∧ (E → m.e = val st.eOff)) := by
  have z0 : val (lit 0 0 : α) = 0 := PrintsConstants.zero
  have z60 : val (lit 60 0 : α) = 60 := PrintsConstants.sixty
  refine ⟨?_, ?_, ?_, ?_, ?_, ?_, ?_⟩
  · intro done st p h
    unfold switchFanGCode
    split <;> split <;> simp [exec_layer, exec_fanOff, exec_fanOn] <;> exact h
  · intro done st p b h; exact h
  · intro done st p c h hc
    have hpl := comment_plain (α := α) hc
    unfold printSpeedToGCode
    dsimp only
    split <;> simp [exec_feed, exec_comment _ _ hpl] <;> exact h
  · intro c done st p pt r k ⟨h1, h2, h3, h4⟩ _ hg hp
    have hm := motion_path hp
    have hf := frame_lines r.1 p hm
    have hfr := pathToGCode_frame hp
    refine ⟨hf.tool.trans h1, ?_, ?_, ?_⟩
    · rw [(hf.ax h1).1, h2, hfr.2.2.2.2.1]
    · rw [(hf.ax h1).2, h3, hfr.2.2.2.2.2]
    · intro he
      obtain ⟨f, la, hf1, hl1, e1, e2⟩ := pathToGCode_ok hp
      rw [e1, e2, runLines_append, run_extLines_e]
      split
      · rename_i hq
        have hlen : pt.points.length < 2 := by
          rcases hpp : pt.points with _ | ⟨a, _ | ⟨b, t⟩⟩
          · simp
          · simp
          · simp [hpp, adjPairs] at hq
        have hret : sett.retraction = false := by
          rcases hg he with h | h
          · exact h
          · simp only at h; omega
        simp [preLines, retractionToGCode, hret, exec_travelZ, exec_travel, hq, extE, h4 he]
      · rfl
  · intro c done st p h; exact h
  · intro done st p ⟨h1, h2, h3, h4⟩
    unfold decreaseEOff
    split
    · simp only [runLines_cons, runLines_nil, exec_setE0]
      exact ⟨h1, h2, h3, fun _ => z0.symm⟩
    · exact ⟨h1, h2, h3, h4⟩
  · intro done st p c r ⟨h1, h2, h3, h4⟩ hc _ hr
    cases c <;> simp [Command.toGCode] at hr
    · subst hr
      simp only [runLines_cons, runLines_nil, exec_park, exec_tool, exec_setE, exec_setE0, exec_axisLit]
      refine ⟨trivial, ?_, ?_, fun _ => trivial⟩
      · simpa [drive] using h2
      · simp [drive, h3, z0]
    · subst hr
      simp only [runLines_cons, runLines_nil, exec_park, exec_tool, exec_setE, exec_setE0, exec_axisLit]
      refine ⟨trivial, ?_, ?_, fun _ => trivial⟩
      · simpa [drive] using h2
      · simp [drive, h3, z60]
    · subst hr
      simp only [runLines_cons, runLines_nil, exec_rotXZ]
      exact ⟨h1, h2, h3, h4⟩
    · subst hr
      simp only [runLines_cons, runLines_nil, exec_park, exec_tool, exec_setE, exec_setE0, exec_axisTo]
      refine ⟨trivial, ?_, ?_, fun _ => trivial⟩
      · simp [drive, h2]
      · simpa [drive] using h3
    · exact absurd rfl (hc _)

/-- printing layers does not move the recorded axes -/
private theorem layers_axes (sett : GcodeSettings α) (ls : List (Layer α)) (st : GState α) (k : Nat)
    (hk : st.layerIndex = k) (r) (h : layersToGCode sett ls st = .ok r) : r.2.t1 = st.t1 ∧ r.2.t2 = st.t2 := by
  have R : Rules sett (fun (_ : Unit) (_ : GLine α) => ()) (fun _ => True) (fun c => ∃ ls, c = .layersMoving ls)
      (fun _ s _ => s.t1 = st.t1 ∧ s.t2 = st.t2) (fun _ s _ => s.t1 = st.t1 ∧ s.t2 = st.t2)
      (fun _ _ s _ => s.t1 = st.t1 ∧ s.t2 = st.t2) := by
    refine ⟨?_, ?_, ?_, ?_, ?_, ?_, ?_⟩
    · intro done s m h; unfold switchFanGCode; split <;> split <;> exact h
    · intro done s m b h; exact h
    · intro done s m c h hc; unfold printSpeedToGCode; dsimp only; split <;> exact h
    · intro c done s m p r k h _ _ hp
      have := pathToGCode_frame hp
      exact ⟨this.2.2.2.2.1.trans h.1, this.2.2.2.2.2.trans h.2⟩
    · intro c done s m h; exact h
    · intro done s m h; unfold decreaseEOff; split <;> exact h
    · rintro done s m c r h hc ⟨ls, rfl⟩ hr; exact absurd rfl (hc _)
  exact (R.layers ls [] st () r k ⟨rfl, rfl⟩ hk (fun _ _ => trivial) h).1

private theorem layers_index (sett : GcodeSettings α) (c : Command α) (st : GState α) (k : Nat)
    (hk : st.layerIndex = k) (r) (h : c.toGCode st sett = .ok r) : ∃ k' : Nat, r.2.layerIndex = k' := by
  have R : Rules sett (fun (_ : Unit) (_ : GLine α) => ()) (fun _ => True) (fun _ => True)
      (fun _ _ _ => True) (fun _ _ _ => True) (fun _ _ _ _ => True) := by
    refine ⟨?_, ?_, ?_, ?_, ?_, ?_, ?_⟩ <;> intros <;> trivial
  cases c with
  | layersMoving ls => exact ⟨_, (R.layers ls [] st () r k trivial hk (fun _ _ => trivial) h).2⟩
  | _ => simp [Command.toGCode] at h; subst h; exact ⟨k, hk⟩

private theorem cmds_axes (sett : GcodeSettings α) [PrintsConstants α] (cs : List (Command α)) :
    ∀ (st : GState α) (k : Nat) r, st.layerIndex = k → cmdsToGCode sett cs st = .ok r →
      val r.2.t1 = cs.foldl
        (fun a c => match c with | .rotateZ x => readDec (FltText.fmt3 x).toList | _ => a) (val st.t1) ∧
      val r.2.t2 = cs.foldl
        (fun a c => match c with | .inclineX => 60 | .inclineXBack => 0 | _ => a) (val st.t2) := by
  induction cs with
  | nil => intro st k r _ h; have := pure_ok h; subst this; exact ⟨rfl, rfl⟩
  | cons c cs ih =>
    intro st k r hk h
    obtain ⟨r1, h1, h⟩ := bind_ok h
    obtain ⟨r2, h2, h⟩ := bind_ok h
    have := pure_ok h; subst this
    obtain ⟨k', hk'⟩ := layers_index sett c st k hk r1 h1
    have := ih r1.2 k' r2 hk' h2
    simp only [List.foldl_cons]
    rw [this.1, this.2]
    cases c <;> simp [Command.toGCode] at h1
    · subst h1; simp [val, PrintsConstants.zero]
    · subst h1; simp [val, PrintsConstants.sixty]
    · subst h1; simp
    · subst h1; simp [val]
    · have := layers_axes sett _ st k hk r1 h1
      simp [this.1, this.2]

/-- **C37.** Run the whole text on a printer whose bed axes start at zero with the extruder selected: afterwards the
rotation axis is at the last rotation, the tilt axis at the last tilt, and the extruder is selected. -/
theorem C37_axes [CleanText α] [PrintsConstants α] (g : Gcode α) (t : String) (h : g.text = .ok t) (p0 : Printer)
    (hp : p0.tool = 0) (h1 : p0.axis 1 = 0) (h2 : p0.axis 2 = 0) :
    (p0.run (parseText t)).axis 1 = lastRotation g.cmds ∧ (p0.run (parseText t)).axis 2 = lastTilt g.cmds ∧
      (p0.run (parseText t)).tool = 0 := by
  obtain ⟨ls, hls, h'⟩ := bind_ok h
  have := pure_ok h'
  rw [← this, show ls.foldl (fun s l => s ++ l.render) "" = renderAll ls from rfl,
    run_text _ _ (toOutput_plain hls)]
  obtain ⟨r, hr, hls⟩ := bind_ok hls
  have := pure_ok hls; subst this
  have hz : (0:ℝ) = val (newState (α := α)).t1 := (PrintsConstants.zero (α := α)).symm
  have := ((axis_rules g.settings False).cmds g.cmds [] newState p0 r 0 ⟨hp, h1.trans hz, h2.trans hz, False.elim⟩ rfl
    (fun _ _ h => h.elim) (fun _ _ => trivial) hr).1
  have ha := cmds_axes g.settings g.cmds newState 0 r rfl hr
  refine ⟨?_, ?_, this.1⟩
  · rw [this.2.1, ha.1, ← hz, lastRotation.eq_def]
    cases g.cmds <;> rfl
  · rw [this.2.2.1, ha.2, show val (newState (α := α)).t2 = 0 from hz.symm]; rfl

private theorem cmdsToGCode_append (sett : GcodeSettings α) (a b : List (Command α)) : ∀ (st : GState α) r,
    cmdsToGCode sett (a ++ b) st = .ok r → ∃ r1 r2, cmdsToGCode sett a st = .ok r1 ∧
      cmdsToGCode sett b r1.2 = .ok r2 ∧ r = (r1.1 ++ r2.1, r2.2) := by
  induction a with
  | nil => intro st r h; exact ⟨([], st), r, rfl, h, rfl⟩
  | cons c a ih =>
    intro st r h
    obtain ⟨r1, h1, h⟩ := bind_ok h
    obtain ⟨r2, h2, h⟩ := bind_ok h
    have := pure_ok h; subst this
    obtain ⟨s1, s2, e1, e2, rfl⟩ := ih _ _ h2
    exact ⟨(r1.1 ++ s1.1, s1.2), s2, by simp [cmdsToGCode, h1, e1, bind, Except.bind, pure, Except.pure], e2,
      by simp⟩

/-- **C37 (extruder register).** A bed command (tilt, rotate) after any program `cs` leaves the E register of the
printer exactly as `cs` left it, although the register was used for another axis in between. -/
theorem C37_register_restored [CleanText α] [PrintsConstants α] (sett : GcodeSettings α) (cs : List (Command α))
    (c : Command α) (hc : ∀ ls, c ≠ .layersMoving ls) (t t' : String) (ht : (Gcode.mk sett cs).text = .ok t)
    (ht' : (Gcode.mk sett (cs ++ [c])).text = .ok t') (p0 : Printer)
    (hp : p0.tool = 0) (he : p0.e = 0) (h1 : p0.axis 1 = 0) (h2 : p0.axis 2 = 0)
    (hg : sett.retraction = false ∨ ∀ j ∈ allJobs cs, 2 ≤ j.path.points.length) :
    (p0.run (parseText t')).e = (p0.run (parseText t)).e := by
  obtain ⟨ls, hls, h'⟩ := bind_ok ht
  have := pure_ok h'
  rw [← this, show ls.foldl (fun s l => s ++ l.render) "" = renderAll ls from rfl,
    run_text _ _ (toOutput_plain hls)]
  obtain ⟨ls', hls', h'⟩ := bind_ok ht'
  have := pure_ok h'
  rw [← this, show ls'.foldl (fun s l => s ++ l.render) "" = renderAll ls' from rfl,
    run_text _ _ (toOutput_plain hls')]
  obtain ⟨r, hr, hls⟩ := bind_ok hls
  have := pure_ok hls; subst this
  obtain ⟨r', hr', hls'⟩ := bind_ok hls'
  have := pure_ok hls'; subst this
  obtain ⟨s1, s2, e1, e2, rfl⟩ := cmdsToGCode_append _ _ _ _ _ hr'
  rw [hr] at e1; cases e1
  have hz : (0:ℝ) = val (newState (α := α)).t1 := (PrintsConstants.zero (α := α)).symm
  have hI := ((axis_rules sett True).cmds cs [] newState p0 r 0 ⟨hp, h1.trans hz, h2.trans hz, fun _ => he.trans hz⟩ rfl
    (fun j hj _ => hg.imp id (fun h => h j hj)) (fun _ _ => trivial) hr).1
  rw [hI.2.2.2 trivial]
  obtain ⟨r1, h1, e2⟩ := bind_ok e2
  obtain ⟨r2, h2, e2⟩ := bind_ok e2
  have := pure_ok e2; subst this
  have := pure_ok h2; subst this
  have := (axis_rules sett True).cmd [] r.2 _ c r1 hI hc trivial h1
  simp only [runLines_append, runLines_nil]
  rw [this.2.2.2 trivial]
  cases c <;> simp [Command.toGCode] at h1 <;> first | (subst h1; rfl) | exact absurd rfl (hc _)

section Example
attribute [local instance] Toy.flt Toy.txt Toy.clean

private def exProg : Gcode Int :=
  ⟨⟨1, 1, 1, 1, true, 50, 20, 30, false, 40, 5⟩,
   [.rotateZ 90, .layersMoving [⟨0, ⟨0, 0, 1⟩, [⟨[⟨0, 0, 0⟩, ⟨9, 0, 0⟩]⟩], [], [], []⟩],
    .inclineX, .rotateZ 45, .inclineXBack, .inclineX]⟩

/-- the hypotheses hold for a program with several bed commands -/
example : ∃ t, exProg.text = .ok t ∧ Printer.init.tool = 0 ∧ Printer.init.axis 1 = 0 ∧ Printer.init.axis 2 = 0 ∧
    lastTilt exProg.cmds = 60 ∧ PrintsConstants Int :=
  ⟨_, rfl, rfl, rfl, rfl, rfl, Toy.constants⟩
end Example

end Goosli
