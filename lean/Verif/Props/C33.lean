import Verif.Proofs.Extrusion
/-! # C33 Filament fed equals path length times cross section -/
set_option linter.unusedSectionVars false
namespace Goosli
open Flt Spec

/-- an extruder reset: `G92 E0` executed with the extruder selected -/
def isReset (p : Printer) : Stmt → Bool
  | .words [(c, a), (c', a')] => p.tool = 0 ∧ c = 'G' ∧ a = ['9', '2'] ∧ c' = 'E' ∧ a' = ['0']
  | _ => false

/-- number of extruder resets in an execution -/
noncomputable def resetCount (p : Printer) (l : List Stmt) : Nat := ((steps p l).filter fun x => isReset x.1 x.2).length

section Count
variable {α : Type} [Flt α] [FltText α]

/-- printer and reset counter -/
noncomputable def cexec (m : Printer × Nat) (l : GLine α) : Printer × Nat :=
  (execLine m.1 l, m.2 + (if isReset m.1 l.stmt then 1 else 0))

theorem cexec_fst (ls : List (GLine α)) (m : Printer × Nat) :
    (runLines cexec m ls).1 = runLines execLine m.1 ls := by
  induction ls generalizing m with
  | nil => rfl
  | cons a t ih => simp [ih, cexec]

theorem cexec_snd (ls : List (GLine α)) (m : Printer × Nat) :
    (runLines cexec m ls).2 = m.2 + resetCount m.1 (ls.map GLine.stmt) := by
  induction ls generalizing m with
  | nil => simp [resetCount, steps]
  | cons a t ih =>
    rw [runLines_cons, ih]
    simp only [resetCount, List.map_cons, steps, cexec, List.filter_cons]
    split <;> simp [execLine]; omega

theorem resets_text [CleanText α] (p : Printer) (ls : List (GLine α)) (hp : ∀ l ∈ ls, l.Plain) :
    resetCount p (parseText (renderAll ls)) = resetCount p (ls.map GLine.stmt) := by
  rw [parseText_renderAll ls hp]
  have : ∀ (l : List Stmt) p, resetCount p (l ++ [.words []]) = resetCount p l := by
    intro l
    induction l with
    | nil => intro p; simp [resetCount, steps, isReset]
    | cons a t ih =>
      intro p
      have := ih (p.exec a)
      simp only [resetCount, List.cons_append, steps, List.filter_cons] at this ⊢
      split <;> simp [this]
  exact this _ _

end Count

variable [FltText XR]

private theorem ext_axis {sett : GcodeSettings XR} {w h d : ℝ} (F : FinSett sett w h d) (ps : List R3) :
    ∀ (e : ℝ) (p : Printer), p.e = val (XR.fin e) → p.tool = 0 →
    (runLines execLine p (extLines sett (adjPairs (ps.map R3.pt)) (XR.fin e))).axis 0 =
      p.axis 0 + (val (XR.fin (e + feedPerMm w h d * R3.polyLen ps)) - val (XR.fin e)) ∧
    (runLines execLine p (extLines sett (adjPairs (ps.map R3.pt)) (XR.fin e))).e =
      val (XR.fin (e + feedPerMm w h d * R3.polyLen ps)) := by
  induction ps with
  | nil => intro e p he _; simp [adjPairs, extLines, R3.polyLen, he]
  | cons a t ih =>
    intro e p he ht
    cases t with
    | nil => simp [adjPairs, extLines, R3.polyLen, he]
    | cons b t =>
      simp only [List.map_cons, adjPairs_cons, extLines, extrusionDelta_fin F, XR.fin_add, runLines_cons] at ih ⊢
      have := ih (e + feedPerMm w h d * R3.dist a b) (execLine p (.extrude (stringGcode b.pt a.pt).1
        (stringGcode b.pt a.pt).2.1 (stringGcode b.pt a.pt).2.2 (XR.fin (e + feedPerMm w h d * R3.dist a b))))
        (by rw [exec_extrude]) (by rw [exec_extrude]; exact ht)
      have e1 : e + feedPerMm w h d * R3.dist a b + feedPerMm w h d * R3.polyLen (b :: t) =
        e + feedPerMm w h d * R3.polyLen (a :: b :: t) := by rw [R3.polyLen]; ring
      rw [e1] at this
      refine ⟨this.1.trans ?_, this.2⟩
      rw [exec_extrude]
      simp only [drive, ht, if_true, he]; ring

/-- the relation between what was printed, what was fed and what is still in the register -/
private def fed (c a0 : ℝ) (done : List (Job XR)) (st : GState XR) (m : Printer × Nat) : Prop :=
  m.1.tool = 0 ∧ ∃ (e : ℝ) (ds : List (List R3)), st.eOff = XR.fin e ∧ m.1.e = val (XR.fin e) ∧
    done.map (fun j => j.path.points) = ds.map (fun l => l.map R3.pt) ∧
    |m.1.axis 0 - a0 - val (XR.fin e) - (c * (ds.map R3.polyLen).sum - e)| ≤ (m.2 : ℝ) / 2000

/-- lines that keep tool, register and filament keep the relation -/
private theorem fed_quiet {c a0 : ℝ} {done : List (Job XR)} {st st' : GState XR} {m : Printer × Nat}
    (ls : List (GLine XR)) (h : fed c a0 done st m) (he : st'.eOff = st.eOff)
    (h1 : (runLines execLine m.1 ls).tool = 0) (h2 : (runLines execLine m.1 ls).e = m.1.e)
    (h3 : (runLines execLine m.1 ls).axis 0 = m.1.axis 0) : fed c a0 done st' (runLines cexec m ls) := by
  obtain ⟨_, e, ds, h4, h5, h6, h7⟩ := h
  refine ⟨by rw [cexec_fst, h1], e, ds, he.trans h4, by rw [cexec_fst, h2, h5], h6, ?_⟩
  rw [cexec_fst, h3]
  refine h7.trans ?_
  have : m.2 ≤ (runLines cexec m ls).2 := by rw [cexec_snd]; omega
  have : (m.2 : ℝ) ≤ (runLines cexec m ls).2 := by exact_mod_cast this
  linarith

private theorem fed_rules [DecimalText] (sett : GcodeSettings XR) {w h d : ℝ} (F : FinSett sett w h d)
    (hret : sett.retraction = false) (a0 : ℝ) :
    Rules sett cexec (fun j => ∃ ps : List R3, j.path.points = ps.map R3.pt) (fun _ => True)
    (fed (feedPerMm w h d) a0) (fed (feedPerMm w h d) a0) (fun _ => fed (feedPerMm w h d) a0) := by
  refine ⟨?_, ?_, ?_, ?_, ?_, ?_, ?_⟩
  · intro done st m h
    refine fed_quiet _ h ?_ ?_ ?_ ?_ <;> unfold switchFanGCode <;> split <;> split <;>
      simp [exec_layer, exec_fanOff, exec_fanOn, h.1]
  · intro done st m b h; exact h
  · intro done st m c h hc
    have hpl := comment_plain (α := XR) hc
    refine fed_quiet _ h ?_ ?_ ?_ ?_ <;> unfold printSpeedToGCode <;> dsimp only <;> split <;>
      simp [exec_feed, exec_comment _ _ hpl, h.1]
  · rintro c done st m pt r k hh _ ⟨ps, hps⟩ hp
    simp only at hps
    have hf := frame_lines r.1 m.1 (motion_path hp)
    have hle : (m.2 : ℝ) ≤ (runLines cexec m r.1).2 := by
      have : m.2 ≤ (runLines cexec m r.1).2 := by rw [cexec_snd]; omega
      exact_mod_cast this
    obtain ⟨ht, e, ds, he, hpe, hds, hax⟩ := hh
    obtain ⟨fi, la, _, _, h1, h2⟩ := pathToGCode_ok hp
    have key := ext_axis F ps e (runLines execLine m.1 (preLines sett st fi))
      (by simp [preLines, retractionToGCode, hret, exec_travelZ, exec_travel, hpe])
      (by simp [preLines, retractionToGCode, hret, exec_travelZ, exec_travel, ht])
    have hpa : (runLines execLine m.1 (preLines sett st fi)).axis 0 = m.1.axis 0 := by
      simp [preLines, retractionToGCode, hret, exec_travelZ, exec_travel]
    refine ⟨by rw [cexec_fst, hf.tool, ht], e + feedPerMm w h d * R3.polyLen ps, ds ++ [ps], ?_, ?_, ?_, ?_⟩
    · rw [h2, hps, he]; exact extE_fin F ps e
    · rw [cexec_fst, h1, hps, he, runLines_append]; exact key.2
    · simp [hds, hps]
    · have ha : (runLines cexec m r.1).1.axis 0 =
          m.1.axis 0 + (val (XR.fin (e + feedPerMm w h d * R3.polyLen ps)) - val (XR.fin e)) := by
        rw [cexec_fst, h1, hps, he, runLines_append, key.1, hpa]
      rw [ha]
      refine le_trans (le_of_eq ?_) (hax.trans (by linarith))
      congr 1
      simp only [List.map_append, List.map_cons, List.map_nil, List.sum_append, List.sum_cons, List.sum_nil]
      ring
  · intro c done st m h; exact h
  · intro done st m hh
    unfold decreaseEOff
    split
    · obtain ⟨ht, e, ds, he, hpe, hds, hax⟩ := hh
      have hr : isReset m.1 (GLine.setE0 false : GLine XR).stmt = true := by simp [isReset, GLine.stmt, ht]
      simp only [runLines_cons, runLines_nil, cexec, exec_setE0, hr, if_true]
      refine ⟨ht, 0, ds, by simp, DecimalText.zero.symm, hds, ?_⟩
      have hn := DecimalText.near e
      rw [DecimalText.zero]
      simp only [val] at hax ⊢
      rw [abs_le] at hax hn ⊢
      push_cast
      constructor <;> linarith [hax.1, hax.2, hn.1, hn.2]
    · exact hh
  · intro done st m c r hh hc _ hr
    have hh' := hh
    obtain ⟨ht, e, ds, he, hpe, hds, hax⟩ := hh'
    cases c <;> simp [Command.toGCode] at hr
    · subst hr
      refine fed_quiet _ hh rfl ?_ ?_ ?_ <;>
        simp [exec_park, exec_tool, exec_setE, exec_setE0, exec_axisLit, drive, hpe, he]
    · subst hr
      refine fed_quiet _ hh rfl ?_ ?_ ?_ <;>
        simp [exec_park, exec_tool, exec_setE, exec_setE0, exec_axisLit, drive, hpe, he]
    · subst hr
      refine fed_quiet _ hh rfl ?_ ?_ ?_ <;> simp [exec_rotXZ, ht]
    · subst hr
      refine fed_quiet _ hh rfl ?_ ?_ ?_ <;>
        simp [exec_park, exec_tool, exec_setE, exec_setE0, exec_axisTo, drive, hpe, he]
    · exact absurd rfl (hc _)

/-- **C33.** Let `ws` be the polylines printed by the job, in order. Without retraction, the filament fed by executing
the text differs from (area of line / area of bar) x (total length of `ws`) by at most half a thousandth per extruder
reset plus one, whatever bed commands are interleaved. -/
theorem C33_filament [CleanText XR] [DecimalText] (g : Gcode XR) (t : String) (h : g.text = .ok t)
    (p0 : Printer) (hp : p0.tool = 0) (he : p0.e = 0) (hret : g.settings.retraction = false)
    (w l d : ℝ) (hw : g.settings.lineWidth = XR.fin w) (hl : g.settings.layerHeight = XR.fin l)
    (hd : g.settings.barDiameter = XR.fin d) (hd0 : d ≠ 0) (ws : List (List R3))
    (hj : (allJobs g.cmds).map (fun j => j.path.points) = ws.map (fun l => l.map R3.pt)) :
    |((p0.run (parseText t)).axis 0 - p0.axis 0) - 4 * w * l / (d ^ 2 * Real.pi) * (ws.map R3.polyLen).sum| ≤
      ((resetCount p0 (parseText t) : ℝ) + 1) * (1 / 2000) := by
  obtain ⟨ls, hls, h'⟩ := bind_ok h
  have := pure_ok h'
  rw [← this, show ls.foldl (fun s l => s ++ l.render) "" = renderAll ls from rfl,
    run_text _ _ (toOutput_plain hls), resets_text _ _ (toOutput_plain hls)]
  have hg : ∀ j ∈ allJobs g.cmds, ∃ ps : List R3, j.path.points = ps.map R3.pt := by
    intro j hjm
    have : j.path.points ∈ (allJobs g.cmds).map (fun j => j.path.points) := List.mem_map_of_mem hjm
    rw [hj] at this
    obtain ⟨ps, _, hps⟩ := List.mem_map.1 this
    exact ⟨ps, hps.symm⟩
  obtain ⟨st, hf, _⟩ := (fed_rules g.settings ⟨hw, hl, hd, hd0⟩ hret (p0.axis 0)).sound (cs := g.cmds)
    (m := (p0, 0)) ⟨hp, 0, [], by simp [newState], he.trans DecimalText.zero.symm, by simp,
      by simp [DecimalText.zero]⟩ hg (fun _ _ => trivial) hls
  obtain ⟨_, e, ds, _, _, hds, hax⟩ := hf
  have hws : ds = ws := by
    rw [hj] at hds
    have inj : Function.Injective fun l : List R3 => l.map R3.pt :=
      List.map_injective_iff.2 (fun a b => R3.pt_inj)
    exact (List.map_injective_iff.2 inj hds).symm
  subst hws
  rw [cexec_fst, cexec_snd] at hax
  have hn := DecimalText.near e
  simp only [val, zero_add] at hax
  rw [feedPerMm] at hax
  rw [abs_le] at hax hn ⊢
  constructor <;> linarith [hax.1, hax.2, hn.1, hn.2]

section Example
attribute [local instance] XR.text XR.text_clean XR.text_decimal
open XR

private noncomputable def exPath : List R3 := [⟨0, 0, 0⟩, ⟨10, 0, 0⟩, ⟨10, 5, 0⟩]
private noncomputable def exProg : Gcode XR :=
  ⟨⟨fin (17/10), fin 1, fin (1/5), fin (2/5), true, 50, 20, 30, false, 40, fin 5⟩,
   [.layersMoving [⟨0, ⟨fin 0, fin 0, fin 1⟩, [⟨exPath.map R3.pt⟩], [], [], []⟩], .inclineX,
    .layersMoving [⟨0, ⟨fin 0, fin 0, fin 1⟩, [], [], [], [⟨exPath.map R3.pt⟩]⟩]]⟩

/-- the hypotheses hold for a program with two layers, a bed tilt and 30 mm of lines -/
example : ∃ t, exProg.text = .ok t ∧ exProg.settings.retraction = false ∧
    exProg.settings.lineWidth = fin (2/5) ∧ exProg.settings.layerHeight = fin (1/5) ∧
    exProg.settings.barDiameter = fin (17/10) ∧
    (allJobs exProg.cmds).map (fun j => j.path.points) = [exPath, exPath].map (fun l => l.map R3.pt) ∧
    ([exPath, exPath].map R3.polyLen).sum = 30 := by
  obtain ⟨ls, hls⟩ := toOutput_total (sett := exProg.settings) exProg.cmds (by
    intro j hj
    simp [exProg, allJobs, jobsFrom, allLayers, layerJobs, layerSections] at hj
    rcases hj with rfl | rfl <;> simp [exPath])
  refine ⟨renderAll ls, ?_, rfl, rfl, rfl, rfl, rfl, ?_⟩
  · show (Gcode.mk exProg.settings exProg.cmds).text = _
    simp only [Gcode.text, hls, bind, Except.bind]; rfl
  · have h1 : R3.dist ⟨0, 0, 0⟩ ⟨10, 0, 0⟩ = 10 := by
      simp only [R3.dist, R3.norm, R3.normSq, R3.dot, R3.sub_x, R3.sub_y, R3.sub_z]
      rw [show ((10:ℝ) - 0) * (10 - 0) + (0 - 0) * (0 - 0) + (0 - 0) * (0 - 0) = 10 ^ 2 by norm_num]
      exact Real.sqrt_sq (by norm_num)
    have h2 : R3.dist ⟨10, 0, 0⟩ ⟨10, 5, 0⟩ = 5 := by
      simp only [R3.dist, R3.norm, R3.normSq, R3.dot, R3.sub_x, R3.sub_y, R3.sub_z]
      rw [show ((10:ℝ) - 10) * (10 - 10) + (5 - 0) * (5 - 0) + (0 - 0) * (0 - 0) = 5 ^ 2 by norm_num]
      exact Real.sqrt_sq (by norm_num)
    simp [exPath, R3.polyLen, h1, h2]; norm_num
end Example
end Goosli
