import Verif.Proofs.Extrusion
/-! # C34 Extruder coordinate never goes backwards -/
set_option linter.unusedSectionVars false
namespace Goosli
open Flt Spec

/-- a G0 or G1 statement -/
def isMove : Stmt → Prop
  | .words ((c, a) :: _) => c = 'G' ∧ (a = ['0'] ∨ a = ['1'])
  | _ => False

/-- what is claimed of each step -/
def stepOk (p : Printer) (s : Stmt) : Prop :=
  (isMove s → p.tool = 0 → p.e ≤ (p.exec s).e) ∧ ((layerNo s).isSome → p.e ≤ 4000)

section Quiet
variable {α : Type} [Flt α] [FltText α]

theorem stepOk_quiet (p : Printer) (l : GLine α) (hl : ∀ i, l ≠ .layer i) (hm : l.Plain)
    (he : (execLine p l).e = p.e ∨ ¬ isMove l.stmt ∨ p.tool ≠ 0) : stepOk p l.stmt := by
  refine ⟨fun h1 h2 => ?_, fun h => ?_⟩
  · rcases he with h | h | h
    · exact h.ge
    · exact absurd h1 h
    · exact absurd h2 h
  · cases l <;> simp [GLine.stmt, layerNo] at h
    · exact absurd rfl (hl _)
    · exact absurd h (by simpa [GLine.Plain] using hm.2)

end Quiet

variable [FltText XR]

private theorem ext_run [DecimalText] {sett : GcodeSettings XR} {w h d : ℝ} (F : FinSett sett w h d)
    (hw : 0 ≤ w) (hh : 0 ≤ h) (ps : List R3) : ∀ (e : ℝ) (p : Printer) (P : Prop), P → p.e = val (XR.fin e) →
    (runLines (qexec stepOk) (p, P) (extLines sett (adjPairs (ps.map R3.pt)) (XR.fin e))).2 ∧
    (runLines (qexec stepOk) (p, P) (extLines sett (adjPairs (ps.map R3.pt)) (XR.fin e))).1.e =
      val (XR.fin (e + feedPerMm w h d * R3.polyLen ps)) := by
  induction ps with
  | nil => intro e p P hP he; simp [adjPairs, extLines, R3.polyLen, hP, he]
  | cons a t ih =>
    intro e p P hP he
    cases t with
    | nil => simp [adjPairs, extLines, R3.polyLen, hP, he]
    | cons b t =>
      simp only [List.map_cons, adjPairs_cons, extLines, extrusionDelta_fin F, XR.fin_add, runLines_cons] at ih ⊢
      have hq : stepOk p (GLine.extrude (stringGcode b.pt a.pt).1 (stringGcode b.pt a.pt).2.1
          (stringGcode b.pt a.pt).2.2 (XR.fin (e + feedPerMm w h d * R3.dist a b))).stmt := by
        refine ⟨fun _ _ => ?_, fun h => ?_⟩
        · have := exec_extrude p (stringGcode b.pt a.pt).1 (stringGcode b.pt a.pt).2.1 (stringGcode b.pt a.pt).2.2
            (XR.fin (e + feedPerMm w h d * R3.dist a b))
          rw [execLine] at this
          rw [this, he]
          apply DecimalText.mono
          have := mul_nonneg (feedPerMm_nonneg (d := d) hw hh) (R3.dist_nonneg a b)
          linarith
        · simp [GLine.stmt, layerNo] at h
      have := ih (e + feedPerMm w h d * R3.dist a b) (execLine p (.extrude (stringGcode b.pt a.pt).1
        (stringGcode b.pt a.pt).2.1 (stringGcode b.pt a.pt).2.2 (XR.fin (e + feedPerMm w h d * R3.dist a b))))
        (P ∧ stepOk p _) ⟨hP, hq⟩ (by rw [exec_extrude])
      refine ⟨this.1, this.2.trans ?_⟩
      rw [R3.polyLen]; congr 2; ring

private theorem mono_rules [DecimalText] (sett : GcodeSettings XR) {w h d : ℝ} (F : FinSett sett w h d)
    (hw : 0 ≤ w) (hh : 0 ≤ h) (hret : sett.retraction = false) :
    Rules sett (qexec stepOk) (fun j => ∃ ps : List R3, j.path.points = ps.map R3.pt) (fun _ => True)
    (fun _ st m => m.2 ∧ m.1.tool = 0 ∧ ∃ e : ℝ, e ≤ 4000 ∧ st.eOff = XR.fin e ∧ m.1.e = val (XR.fin e))
    (fun _ st m => m.2 ∧ m.1.tool = 0 ∧ ∃ e : ℝ, st.eOff = XR.fin e ∧ m.1.e = val (XR.fin e))
    (fun _ _ st m => m.2 ∧ m.1.tool = 0 ∧ ∃ e : ℝ, st.eOff = XR.fin e ∧ m.1.e = val (XR.fin e)) := by
  refine ⟨?_, ?_, ?_, ?_, ?_, ?_, ?_⟩
  · rintro done st ⟨p, P⟩ ⟨hP, ht, e, he4, he, hpe⟩
    simp only at hP ht hpe
    have hl : stepOk p (GLine.layer st.layerIndex : GLine XR).stmt := by
      refine ⟨fun h _ => ?_, fun _ => ?_⟩
      · simp [isMove, GLine.stmt] at h
      · rw [hpe]
        have h1 := DecimalText.mono e 4000 he4
        have h2 := DecimalText.exact 4000000
        norm_num at h2
        simp only [val] at h2 ⊢
        linarith
    unfold switchFanGCode
    split <;> split <;>
      simp only [List.append_nil, List.cons_append, List.nil_append, runLines_cons, runLines_nil, qexec, exec_layer,
        exec_fanOff, exec_fanOn]
    · exact ⟨⟨⟨hP, hl⟩, stepOk_quiet _ _ (by simp) trivial (Or.inl (by rw [exec_fanOff]))⟩, ht, e, he, hpe⟩
    · exact ⟨⟨hP, hl⟩, ht, e, he, hpe⟩
    · exact ⟨⟨⟨hP, hl⟩, stepOk_quiet _ _ (by simp) trivial (Or.inl (by rw [exec_fanOn]))⟩, ht, e, he, hpe⟩
    · exact ⟨⟨hP, hl⟩, ht, e, he, hpe⟩
  · intro done st m b h; exact h
  · rintro done st ⟨p, P⟩ c ⟨hP, ht, e, he, hpe⟩ hc
    simp only at hP ht hpe
    have hpl := comment_plain (α := XR) hc
    have h1 : stepOk p (GLine.comment c : GLine XR).stmt := stepOk_quiet _ _ (by simp) hpl (Or.inl (by rw [exec_comment _ _ hpl]))
    unfold printSpeedToGCode
    dsimp only
    split <;>
      simp only [List.append_nil, List.cons_append, List.nil_append, runLines_cons, runLines_nil, qexec, exec_feed,
        exec_comment _ _ hpl]
    · exact ⟨⟨⟨hP, h1⟩, stepOk_quiet _ _ (by simp) trivial (Or.inl (by rw [exec_feed]))⟩, ht, e, he, hpe⟩
    · exact ⟨⟨hP, h1⟩, ht, e, he, hpe⟩
  · rintro c done st ⟨p, P⟩ pt r k ⟨hP, ht, e, he, hpe⟩ _ ⟨ps, hps⟩ hp
    simp only at hP ht hpe hps
    have hf := frame_lines r.1 p (motion_path hp)
    obtain ⟨fi, la, _, _, h1, h2⟩ := pathToGCode_ok hp
    refine ⟨?_, by rw [qexec_fst, hf.tool, ht], e + feedPerMm w h d * R3.polyLen ps, ?_, ?_⟩
    · rw [h1, hps, he, runLines_append]
      simp only [preLines, retractionToGCode, hret, Bool.not_false, if_true, List.append_nil, List.cons_append,
        List.nil_append, runLines_cons, runLines_nil, qexec, exec_travelZ, exec_travel]
      refine (ext_run F hw hh ps e _ _ ?_ (by exact hpe)).1
      refine ⟨⟨⟨hP, ?_⟩, ?_⟩, ?_⟩
      · exact stepOk_quiet _ _ (by simp) trivial (Or.inl (by rw [exec_travelZ]))
      · exact stepOk_quiet _ _ (by simp) trivial (Or.inl (by rw [exec_travel]))
      · exact stepOk_quiet _ _ (by simp) trivial (Or.inl (by rw [exec_travelZ]))
    · rw [h2, hps, he]; exact extE_fin F ps e
    · rw [h1, hps, he, runLines_append]
      simp only [preLines, retractionToGCode, hret, Bool.not_false, if_true, List.append_nil, List.cons_append,
        List.nil_append, runLines_cons, runLines_nil, qexec, exec_travelZ, exec_travel]
      refine (ext_run F hw hh ps e _ _ ?_ (by exact hpe)).2
      refine ⟨⟨⟨hP, ?_⟩, ?_⟩, ?_⟩
      · exact stepOk_quiet _ _ (by simp) trivial (Or.inl (by rw [exec_travelZ]))
      · exact stepOk_quiet _ _ (by simp) trivial (Or.inl (by rw [exec_travel]))
      · exact stepOk_quiet _ _ (by simp) trivial (Or.inl (by rw [exec_travelZ]))
  · intro c done st m h; exact h
  · rintro done st ⟨p, P⟩ ⟨hP, ht, e, he, hpe⟩
    simp only at hP ht hpe
    unfold decreaseEOff
    rw [he]
    split
    · simp only [runLines_cons, runLines_nil, qexec, exec_setE0]
      refine ⟨⟨hP, stepOk_quiet _ _ (by simp) trivial (Or.inr (Or.inl ?_))⟩, ht, 0, by norm_num, by simp,
        DecimalText.zero.symm⟩
      simp [isMove, GLine.stmt]
    · rename_i h4
      simp at h4
      exact ⟨hP, ht, e, h4, he, hpe⟩
  · rintro done st ⟨p, P⟩ c r ⟨hP, ht, e, he4, he, hpe⟩ hc _ hr
    simp only at hP ht hpe
    have nm : ∀ (q : Printer) x sp, stepOk q (GLine.setE x sp : GLine XR).stmt := fun q x sp =>
      stepOk_quiet _ _ (by simp) trivial (Or.inr (Or.inl (by simp [isMove, GLine.stmt])))
    have nm0 : ∀ (q : Printer) sp, stepOk q (GLine.setE0 sp : GLine XR).stmt := fun q sp =>
      stepOk_quiet _ _ (by simp) trivial (Or.inr (Or.inl (by simp [isMove, GLine.stmt])))
    have nt : ∀ (q : Printer) k, stepOk q (GLine.tool k : GLine XR).stmt := fun q k =>
      stepOk_quiet _ _ (by simp) trivial (Or.inl (by rw [exec_tool]))
    have np : ∀ (q : Printer), stepOk q (GLine.park : GLine XR).stmt := fun q =>
      stepOk_quiet _ _ (by simp) trivial (Or.inl (by rw [exec_park]))
    cases c <;> simp [Command.toGCode] at hr
    · subst hr
      simp only [runLines_cons, runLines_nil, qexec, exec_park, exec_tool, exec_setE, exec_setE0, exec_axisLit]
      refine ⟨⟨⟨⟨⟨⟨⟨⟨hP, np _⟩, nt _ _⟩, nm _ _ _⟩, stepOk_quiet _ _ (by simp) trivial (Or.inr (Or.inr (by simp)))⟩, nm0 _ _⟩,
        nt _ _⟩, nm _ _ _⟩, trivial, e, he4, he, by rw [he]⟩
    · subst hr
      simp only [runLines_cons, runLines_nil, qexec, exec_park, exec_tool, exec_setE, exec_setE0, exec_axisLit]
      refine ⟨⟨⟨⟨⟨⟨⟨⟨hP, np _⟩, nt _ _⟩, nm _ _ _⟩, stepOk_quiet _ _ (by simp) trivial (Or.inr (Or.inr (by simp)))⟩, nm0 _ _⟩,
        nt _ _⟩, nm _ _ _⟩, trivial, e, he4, he, by rw [he]⟩
    · subst hr
      simp only [runLines_cons, runLines_nil, qexec, exec_rotXZ]
      exact ⟨⟨hP, stepOk_quiet _ _ (by simp) trivial (Or.inl (by rw [exec_rotXZ]))⟩, ht, e, he4, he, hpe⟩
    · subst hr
      simp only [runLines_cons, runLines_nil, qexec, exec_park, exec_tool, exec_setE, exec_setE0, exec_axisTo]
      refine ⟨⟨⟨⟨⟨⟨⟨⟨hP, np _⟩, nt _ _⟩, nm _ _ _⟩, stepOk_quiet _ _ (by simp) trivial (Or.inr (Or.inr (by simp)))⟩, nm0 _ _⟩,
        nt _ _⟩, nm _ _ _⟩, trivial, e, he4, he, by rw [he]⟩
    · exact absurd rfl (hc _)

/-- **C34.** Without retraction, for finite paths and non-negative line width and layer height: every move executed
with the extruder selected leaves the E coordinate the same or larger, and at the start of every layer the E
coordinate is at most 4000 (it has been reset if the layer before left it higher). -/
theorem C34_extruder_monotone [CleanText XR] [DecimalText] (g : Gcode XR) (t : String) (h : g.text = .ok t)
    (p0 : Printer) (hp : p0.tool = 0) (he : p0.e = 0) (hret : g.settings.retraction = false)
    (w l d : ℝ) (hw : g.settings.lineWidth = XR.fin w) (hl : g.settings.layerHeight = XR.fin l)
    (hd : g.settings.barDiameter = XR.fin d) (hd0 : d ≠ 0) (hw0 : 0 ≤ w) (hl0 : 0 ≤ l)
    (hj : ∀ j ∈ allJobs g.cmds, ∃ ps : List R3, j.path.points = ps.map R3.pt) :
    ∀ x ∈ steps p0 (parseText t),
      (isMove x.2 → x.1.tool = 0 → x.1.e ≤ (x.1.exec x.2).e) ∧ ((layerNo x.2).isSome → x.1.e ≤ 4000) := by
  obtain ⟨ls, hls, h'⟩ := bind_ok h
  have := pure_ok h'
  rw [← this]
  obtain ⟨st, ⟨h4, _⟩, _⟩ := (mono_rules g.settings ⟨hw, hl, hd, hd0⟩ hw0 hl0 hret).sound (cs := g.cmds)
    (m := (p0, True)) ⟨trivial, hp, 0, by norm_num, by simp [newState], he.trans DecimalText.zero.symm⟩ hj
    (fun _ _ => trivial) hls
  rw [qexec_snd] at h4
  exact (steps_text stepOk _ ls (toOutput_plain hls)
    (by intro q; exact ⟨fun h => absurd h (by simp [isMove]), fun h => by simp [layerNo] at h⟩)).2 h4.2

section Example
attribute [local instance] XR.text XR.text_clean XR.text_decimal
open XR

private noncomputable def exPath : List R3 := [⟨0, 0, 0⟩, ⟨10, 0, 0⟩, ⟨10, 5, 0⟩]
private noncomputable def exProg : Gcode XR :=
  ⟨⟨fin (17/10), fin 1, fin (1/5), fin (2/5), true, 50, 20, 30, false, 40, fin 5⟩,
   [.layersMoving [⟨0, ⟨fin 0, fin 0, fin 1⟩, [⟨exPath.map R3.pt⟩], [], [], []⟩], .inclineX,
    .layersMoving [⟨0, ⟨fin 0, fin 0, fin 1⟩, [], [], [], [⟨exPath.map R3.pt⟩]⟩]]⟩

/-- the hypotheses hold for a program with two layers and a bed tilt -/
example : ∃ t, exProg.text = .ok t ∧ exProg.settings.retraction = false ∧
    exProg.settings.lineWidth = fin (2/5) ∧ exProg.settings.layerHeight = fin (1/5) ∧
    exProg.settings.barDiameter = fin (17/10) ∧ (allJobs exProg.cmds).length = 2 ∧
    ∀ j ∈ allJobs exProg.cmds, ∃ ps : List R3, j.path.points = ps.map R3.pt := by
  obtain ⟨ls, hls⟩ := toOutput_total (sett := exProg.settings) exProg.cmds (by
    intro j hj
    simp [exProg, allJobs, jobsFrom, allLayers, layerJobs, layerSections] at hj
    rcases hj with rfl | rfl <;> simp [exPath])
  refine ⟨renderAll ls, ?_, rfl, rfl, rfl, rfl, rfl, ?_⟩
  · show (Gcode.mk exProg.settings exProg.cmds).text = _
    simp only [Gcode.text, hls, bind, Except.bind]; rfl
  · intro j hj
    simp [exProg, allJobs, jobsFrom, allLayers, layerJobs, layerSections] at hj
    rcases hj with rfl | rfl <;> exact ⟨exPath, rfl⟩
end Example
end Goosli
