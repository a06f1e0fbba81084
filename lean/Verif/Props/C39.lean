import Verif.Proofs.PrinterTrace
import Verif.Proofs.Decimal
/-! # C39 Retraction pulls the configured distance: it pulls more -/
set_option linter.unusedSectionVars false
namespace Goosli
open Flt Spec

variable {α : Type} [Flt α] [FltText α]

/-- a retraction: a G1 with the extruder selected that names a feed rate and an E target and no position -/
def isRetraction (p : Printer) : Stmt → Prop
  | .words ((c, a) :: ws) => c = 'G' ∧ a = ['1'] ∧ p.tool = 0 ∧ (arg ws 'F').isSome ∧ (arg ws 'E').isSome
  | _ => False

/-- what a retraction does -/
private def pulls (sett : GcodeSettings α) (p : Printer) (s : Stmt) : Prop :=
  isRetraction p s → (p.exec s).axis 0 = p.axis 0 - (p.e - readDec (FltText.fmt3 (-sett.retractionDistance)).toList)

private theorem not_retraction (sett : GcodeSettings α) (p : Printer) (l : GLine α)
    (h : ∀ f e, l ≠ .retract f e) (h1 : ∀ k, l = .axisLit k → p.tool ≠ 0) (h2 : ∀ e, l = .axisTo e → p.tool ≠ 0) :
    pulls sett p l.stmt := by
  intro hr
  exfalso
  cases l <;> try (simp [GLine.stmt, isRetraction, numW, natW, intW, arg] at hr; done)
  · exact h1 _ rfl hr.2.2.1
  · exact h2 _ rfl hr.2.2.1
  · exact h _ _ rfl

private theorem retract_pulls (sett : GcodeSettings α) (p : Printer) (f : Int) (hp : p.tool = 0) :
    pulls sett p (GLine.retract f (-sett.retractionDistance)).stmt := by
  intro _
  have := exec_retract p f (-sett.retractionDistance)
  rw [execLine] at this
  rw [this]
  simp [drive, hp, val]; ring

private theorem retract_rules (sett : GcodeSettings α) :
    Rules sett (qexec (pulls sett)) (fun _ => True) (fun _ => True)
    (fun _ _ m => m.2 ∧ m.1.tool = 0) (fun _ _ m => m.2 ∧ m.1.tool = 0) (fun _ _ _ m => m.2 ∧ m.1.tool = 0) := by
  have np : ∀ (q : Printer) (l : GLine α), (∀ f e, l ≠ .retract f e) → (∀ k, l = .axisLit k → q.tool ≠ 0) →
      (∀ e, l = .axisTo e → q.tool ≠ 0) → pulls sett q l.stmt := not_retraction sett
  refine ⟨?_, ?_, ?_, ?_, ?_, ?_, ?_⟩
  · rintro done st ⟨p, P⟩ ⟨hP, h⟩
    simp only at hP h
    unfold switchFanGCode
    split <;> split <;>
      simp only [List.append_nil, List.cons_append, List.nil_append, runLines_cons, runLines_nil, qexec, exec_layer,
        exec_fanOff, exec_fanOn] <;>
      simp [hP, h] <;> (try constructor) <;> apply np <;> simp
  · intro done st m b h; exact h
  · rintro done st ⟨p, P⟩ c ⟨hP, h⟩ hc
    simp only at hP h
    have hpl := comment_plain (α := α) hc
    unfold printSpeedToGCode
    dsimp only
    split <;>
      simp only [List.append_nil, List.cons_append, List.nil_append, runLines_cons, runLines_nil, qexec, exec_feed,
        exec_comment _ _ hpl] <;>
      simp [hP, h] <;> (try constructor) <;> apply np <;> simp
  · rintro c done st ⟨p, P⟩ pt r k ⟨hP, h⟩ _ _ hp
    simp only at hP h
    have hm := motion_path hp
    have hf := frame_lines r.1 p hm
    refine ⟨frame_steps _ _ p P hm hP ?_, by rw [qexec_fst, hf.tool, h]⟩
    intro q hq l hl
    by_cases hr : ∃ f e, l = .retract f e
    · have : l = .retract sett.retractionSpeed (-sett.retractionDistance) := by
        obtain ⟨fi, la, _, _, h1, _⟩ := pathToGCode_ok hp
        obtain ⟨f, e, rfl⟩ := hr
        rw [h1] at hl
        rcases List.mem_append.1 hl with hl | hl
        · unfold preLines retractionToGCode at hl
          split at hl
          · simp at hl
          · simpa using hl
        · obtain ⟨_, _, _, h⟩ := mem_extLines hl
          cases h
      rw [this]
      exact retract_pulls sett q _ (hq.tool.trans h)
    · refine np q l (fun f e he => hr ⟨f, e, he⟩) ?_ ?_ <;> (rintro x rfl; exact (hm _ hl).elim)
  · intro c done st m h; exact h
  · rintro done st ⟨p, P⟩ ⟨hP, h⟩
    simp only at hP h
    unfold decreaseEOff
    split
    · simp only [runLines_cons, runLines_nil, qexec, exec_setE0]
      exact ⟨⟨hP, np _ _ (by simp) (by simp) (by simp)⟩, h⟩
    · exact ⟨hP, h⟩
  · rintro done st ⟨p, P⟩ c r ⟨hP, h⟩ hc _ hr
    simp only at hP h
    cases c <;> simp [Command.toGCode] at hr
    · subst hr
      simp only [runLines_cons, runLines_nil, qexec, exec_park, exec_tool, exec_setE, exec_setE0, exec_axisLit]
      refine ⟨⟨⟨⟨⟨⟨⟨⟨hP, ?_⟩, ?_⟩, ?_⟩, ?_⟩, ?_⟩, ?_⟩, ?_⟩, trivial⟩ <;> apply np <;> simp
    · subst hr
      simp only [runLines_cons, runLines_nil, qexec, exec_park, exec_tool, exec_setE, exec_setE0, exec_axisLit]
      refine ⟨⟨⟨⟨⟨⟨⟨⟨hP, ?_⟩, ?_⟩, ?_⟩, ?_⟩, ?_⟩, ?_⟩, ?_⟩, trivial⟩ <;> apply np <;> simp
    · subst hr
      simp only [runLines_cons, runLines_nil, qexec, exec_rotXZ]
      exact ⟨⟨hP, np _ _ (by simp) (by simp) (by simp)⟩, h⟩
    · subst hr
      simp only [runLines_cons, runLines_nil, qexec, exec_park, exec_tool, exec_setE, exec_setE0, exec_axisTo]
      refine ⟨⟨⟨⟨⟨⟨⟨⟨hP, ?_⟩, ?_⟩, ?_⟩, ?_⟩, ?_⟩, ?_⟩, ?_⟩, trivial⟩ <;> apply np <;> simp
    · exact absurd rfl (hc _)

/-- **C39 (what the code does).** In every job every retraction moves the filament from the current E coordinate to
minus the distance, i.e. it pulls back everything extruded since the last reset plus the distance. -/
theorem C39_retraction_amount [CleanText α] (g : Gcode α) (t : String) (h : g.text = .ok t) (p0 : Printer)
    (hp : p0.tool = 0) : ∀ x ∈ steps p0 (parseText t), isRetraction x.1 x.2 →
      (x.1.exec x.2).axis 0 =
        x.1.axis 0 - (x.1.e - readDec (FltText.fmt3 (-g.settings.retractionDistance)).toList) := by
  obtain ⟨ls, hls, h'⟩ := bind_ok h
  have := pure_ok h'
  rw [← this]
  obtain ⟨st, ⟨h4, _⟩, _⟩ := (retract_rules g.settings).sound (cs := g.cmds) (m := (p0, True))
    ⟨trivial, hp⟩ (fun _ _ => trivial) (fun _ _ => trivial) hls
  rw [qexec_snd] at h4
  exact (steps_text (pulls g.settings) _ ls (toOutput_plain hls)
    (by intro q hq; exact absurd hq (by simp [isRetraction]))).2 h4.2

section Violated
open XR

/-- two paths: the first of length `len` -/
private def vProg (d len : ℝ) : Gcode XR :=
  ⟨⟨fin 1, fin 1, fin 1, fin 1, false, 30, 30, 30, true, 1800, fin d⟩,
   [.layersMoving [⟨1, ⟨fin 0, fin 0, fin 1⟩, [⟨[⟨fin 0, fin 0, fin 0⟩, ⟨fin len, fin 0, fin 0⟩]⟩,
      ⟨[⟨fin 0, fin 0, fin 0⟩]⟩], [], [], []⟩]]⟩

/-- **C39 violated.** For every configured distance `d` and every bound `L` there is a job in which a retraction
pulls the filament back by more than `d + L`. -/
theorem C39_retraction_violated [FltText XR] [CleanText XR] [DecimalText] (d L : ℝ) (hL : 0 ≤ L) :
    ∃ (g : Gcode XR) (t : String), g.text = .ok t ∧ g.settings.retraction = true ∧
      g.settings.retractionDistance = fin d ∧
      ∃ x ∈ steps Printer.init (parseText t), isRetraction x.1 x.2 ∧ x.1.axis 0 - (x.1.exec x.2).axis 0 > d + L := by
  have ho : ∃ p1 p2 p3 p4 p5 p6 q x y z b, (vProg d (L + 1)).toOutput
      = .ok ([.layer 0, .fanOn, .comment "OUTER_PATHES", .feed 30, .travelZ p1, .retract 1800 q, .travel p2 p3 p4,
        .travelZ p5, .extrude x y z (lit 0 0 + extrusionDelta (vProg d (L + 1)).settings ⟨fin 0, fin 0, fin 0⟩
          ⟨fin (L + 1), fin 0, fin 0⟩), .travelZ p6] ++ GLine.retract 1800 (-fin d) :: b) := by
    simp only [vProg, Gcode.toOutput, cmdsToGCode, Command.toGCode, layersToGCode, layerToGCode, pathesToGCode,
      pathsLoop, pathToGCode, goAt, goLast, bind, Except.bind, pure, Except.pure, newState,
      switchFanGCode, printSpeedToGCode, neededSpeed, adjPairs, retractionToGCode]
    simp [extrudeStep]
  obtain ⟨p1, p2, p3, p4, p5, p6, q, x, y, z, b, ho⟩ := ho
  have he : (lit 0 0 + extrusionDelta (vProg d (L + 1)).settings ⟨fin 0, fin 0, fin 0⟩ ⟨fin (L + 1), fin 0, fin 0⟩)
      = fin (4 * (L + 1) / Real.pi) := by
    have h0 : (0:ℝ) ≤ L + 1 := by linarith
    simp [extrusionDelta, vProg, fin_sqrt (sq_nonneg _), Real.sqrt_sq h0, fin_div Real.pi_ne_zero]
  rw [he] at ho
  refine ⟨vProg d (L + 1), _, by simp only [Gcode.text, ho, bind, Except.bind]; rfl, rfl, rfl, _,
    step_after _ _ _ _ (toOutput_plain ho), ?_⟩
  have cp : (GLine.comment "OUTER_PATHES" : GLine XR).Plain := by simp only [GLine.Plain]; decide
  have hr := C39_retraction_amount (vProg d (L + 1)) _ (by simp only [Gcode.text, ho, bind, Except.bind]; rfl)
    Printer.init rfl _ (step_after _ _ _ _ (toOutput_plain ho))
  have hi : isRetraction (runLines execLine Printer.init ([.layer 0, .fanOn, .comment "OUTER_PATHES", .feed 30,
      .travelZ p1, .retract 1800 q, .travel p2 p3 p4, .travelZ p5, .extrude x y z (fin (4 * (L + 1) / Real.pi)),
      .travelZ p6])) (GLine.retract 1800 (-fin d)).stmt := by
    refine ⟨rfl, rfl, ?_, ?_, ?_⟩
    · simp [exec_layer, exec_fanOn, exec_feed, exec_retract, exec_travel, exec_travelZ, exec_extrude,
        exec_comment _ _ cp, Printer.init]
    · simp [arg, intW]
    · simp [arg, intW, numW]
  refine ⟨hi, ?_⟩
  rw [hr hi]
  have e1 : (runLines execLine Printer.init ([.layer 0, .fanOn, .comment "OUTER_PATHES", .feed 30,
      .travelZ p1, .retract 1800 q, .travel p2 p3 p4, .travelZ p5, .extrude x y z (fin (4 * (L + 1) / Real.pi)),
      .travelZ p6])).e = val (fin (4 * (L + 1) / Real.pi)) := by
    simp [exec_layer, exec_fanOn, exec_feed, exec_retract, exec_travel, exec_travelZ, exec_extrude,
        exec_comment _ _ cp]
  simp only [e1]
  have n1 := DecimalText.near (4 * (L + 1) / Real.pi)
  have n2 := DecimalText.near (-d)
  have e2 : (-(vProg d (L + 1)).settings.retractionDistance) = fin (-d) := rfl
  rw [e2]
  have hpi : L + 1 ≤ 4 * (L + 1) / Real.pi := by
    rw [le_div_iff₀ Real.pi_pos]
    nlinarith [Real.pi_le_four]
  rw [abs_le] at n1 n2
  simp only [val]
  linarith [n1.1, n2.2]

/-- a format with the required properties exists, so the statement above is not empty -/
example : ∃ f : FltText XR, @CleanText XR f ∧ @DecimalText f := ⟨XR.text, XR.text_clean, XR.text_decimal⟩

end Violated
end Goosli
