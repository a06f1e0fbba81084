import Verif.Proofs.Extrusion
/-! # C38 The nozzle follows the path -/
set_option linter.unusedSectionVars false
namespace Goosli
open Flt Spec

/-- nozzle position -/
def Spec.Printer.pos (p : Printer) : R3 := ⟨p.x, p.y, p.z⟩

open Classical in
/-- start and end of every print move of an execution, in order -/
noncomputable def printedSegments (p : Printer) (l : List Stmt) : List (R3 × R3) :=
  (steps p l).filterMap fun x => if isPrintMove x.1 x.2 then some (x.1.pos, (x.1.exec x.2).pos) else none

/-- the point whose coordinates are those of `a` as printed -/
noncomputable def printed [FltText XR] (a : R3) : R3 :=
  ⟨readDec (FltText.fmt3 (XR.fin a.x)).toList, readDec (FltText.fmt3 (XR.fin a.y)).toList,
   readDec (FltText.fmt3 (XR.fin a.z)).toList⟩

/-- each coordinate changes by nothing or by at least 0.001 -/
def coarse (a b : R3) : Prop :=
  (b.x = a.x ∨ 1 / 1000 ≤ |b.x - a.x|) ∧ (b.y = a.y ∨ 1 / 1000 ≤ |b.y - a.y|) ∧ (b.z = a.z ∨ 1 / 1000 ≤ |b.z - a.z|)

variable [FltText XR]

open Classical in
/-- printer and the segments printed so far -/
private noncomputable def sexec (m : Printer × List (R3 × R3)) (l : GLine XR) : Printer × List (R3 × R3) :=
  (execLine m.1 l, m.2 ++ (if isPrintMove m.1 l.stmt then [(m.1.pos, (execLine m.1 l).pos)] else []))

private theorem sexec_fst (ls : List (GLine XR)) (m : Printer × List (R3 × R3)) :
    (runLines sexec m ls).1 = runLines execLine m.1 ls := by
  induction ls generalizing m with
  | nil => rfl
  | cons a t ih => simp [ih, sexec]

private theorem sexec_snd (ls : List (GLine XR)) (m : Printer × List (R3 × R3)) :
    (runLines sexec m ls).2 = m.2 ++ printedSegments m.1 (ls.map GLine.stmt) := by
  induction ls generalizing m with
  | nil => simp [printedSegments, steps]
  | cons a t ih =>
    rw [runLines_cons, ih]
    simp only [printedSegments, List.map_cons, steps, sexec, List.filterMap_cons]
    split <;> simp [execLine]

private theorem segs_text [CleanText XR] (p : Printer) (ls : List (GLine XR)) (hp : ∀ l ∈ ls, l.Plain) :
    printedSegments p (parseText (renderAll ls)) = printedSegments p (ls.map GLine.stmt) := by
  rw [parseText_renderAll ls hp]
  have : ∀ (l : List Stmt) p, printedSegments p (l ++ [.words []]) = printedSegments p l := by
    intro l
    induction l with
    | nil => intro p; simp [printedSegments, steps, isPrintMove]
    | cons a t ih =>
      intro p
      have := ih (p.exec a)
      simp only [printedSegments, List.cons_append, steps, List.filterMap_cons] at this ⊢
      split <;> simp [this]
  exact this _ _

/-- lines that are no print moves print nothing -/
private theorem sexec_quiet (ls : List (GLine XR)) (m : Printer × List (R3 × R3))
    (h : ∀ l ∈ ls, ∀ x y z e, l ≠ .extrude x y z e) : (runLines sexec m ls).2 = m.2 := by
  induction ls generalizing m with
  | nil => rfl
  | cons a t ih =>
    rw [runLines_cons, ih _ (fun l hl => h l (by simp [hl]))]
    simp [sexec, not_printMove _ _ (h a (by simp))]

private theorem ch_val (a b v : ℝ) (hv : v = val (XR.fin a)) (h : b = a ∨ 1 / 1000 ≤ |b - a|) :
    (Option.map val (if (lit 1 3 : XR) ≤? Flt.abs (XR.fin b - XR.fin a) then some (XR.fin b) else none)).getD v =
      val (XR.fin b) := by
  by_cases hc : (1 / 1000 : ℝ) ≤ |b - a|
  · have : ((lit 1 3 : XR) ≤? Flt.abs (XR.fin b - XR.fin a)) = true := by
      simp; norm_num at hc ⊢; exact hc
    rw [if_pos this]; rfl
  · have : ¬ (((lit 1 3 : XR) ≤? Flt.abs (XR.fin b - XR.fin a)) = true) := by
      simp; norm_num at hc ⊢; exact hc
    rw [if_neg this]
    have : b = a := by tauto
    simp [this, hv]

private theorem ext_segs (sett : GcodeSettings XR) (ps : List R3) :
    ∀ (e : XR) (p : Printer) (acc) (a : R3), ps.head? = some a → p.pos = printed a → p.tool = 0 →
    (∀ q ∈ adjPairs ps, coarse q.1 q.2) →
    (runLines sexec (p, acc) (extLines sett (adjPairs (ps.map R3.pt)) e)).2 =
      acc ++ (adjPairs ps).map (fun q => (printed q.1, printed q.2)) := by
  induction ps with
  | nil => intro e p acc a h; simp at h
  | cons a t ih =>
    intro e p acc a' ha hp ht hc
    simp at ha; subst ha
    cases t with
    | nil => simp [adjPairs, extLines]
    | cons b t =>
      simp only [List.map_cons, adjPairs_cons, extLines, runLines_cons] at ih ⊢
      have hcab : coarse a b := hc (a, b) (by simp [adjPairs_cons])
      have hpos : ∀ e', (execLine p (.extrude (stringGcode b.pt a.pt).1 (stringGcode b.pt a.pt).2.1
          (stringGcode b.pt a.pt).2.2 e')).pos = printed b := by
        intro e'
        rw [exec_extrude]
        simp only [Printer.pos, printed, R3.mk.injEq] at hp ⊢
        exact ⟨ch_val _ _ _ hp.1 hcab.1, ch_val _ _ _ hp.2.1 hcab.2.1, ch_val _ _ _ hp.2.2 hcab.2.2⟩
      have hm : ∀ e', isPrintMove p (GLine.extrude (stringGcode b.pt a.pt).1 (stringGcode b.pt a.pt).2.1
          (stringGcode b.pt a.pt).2.2 e').stmt := fun e' => (printMove_extrude _ _ _ _ _).2 ht
      simp only [sexec, hm, if_true]
      rw [ih _ _ _ b rfl (hpos _) (by rw [exec_extrude]; exact ht)
        (fun q hq => hc q (by rw [adjPairs_cons]; simp [hq]))]
      rw [hpos, hp]
      simp

/-- segments printed for the paths done so far -/
private def follows (done : List (Job XR)) (m : Printer × List (R3 × R3)) : Prop :=
  m.1.tool = 0 ∧ ∃ ds : List (List R3), done.map (fun j => j.path.points) = ds.map (fun l => l.map R3.pt) ∧
    m.2 = ds.flatMap fun l => (adjPairs l).map fun q => (printed q.1, printed q.2)

private theorem follow_rules (sett : GcodeSettings XR) :
    Rules sett sexec
    (fun j => ∃ ps : List R3, j.path.points = ps.map R3.pt ∧ ∀ q ∈ adjPairs ps, coarse q.1 q.2) (fun _ => True)
    (fun done _ m => follows done m) (fun done _ m => follows done m) (fun _ done _ m => follows done m) := by
  have quiet : ∀ done (m : Printer × List (R3 × R3)) (ls : List (GLine XR)), follows done m →
      (runLines execLine m.1 ls).tool = 0 → (∀ l ∈ ls, ∀ x y z e, l ≠ .extrude x y z e) →
      follows done (runLines sexec m ls) := by
    intro done m ls ⟨_, ds, h1, h2⟩ ht hl
    exact ⟨by rw [sexec_fst, ht], ds, h1, by rw [sexec_quiet _ _ hl, h2]⟩
  refine ⟨?_, ?_, ?_, ?_, ?_, ?_, ?_⟩
  · intro done st m h
    refine quiet _ _ _ h ?_ ?_ <;> unfold switchFanGCode <;> split <;> split <;>
      simp [exec_layer, exec_fanOff, exec_fanOn, h.1]
  · intro done st m b h; exact h
  · intro done st m c h hc
    have hpl := comment_plain (α := XR) hc
    refine quiet _ _ _ h ?_ ?_ <;> unfold printSpeedToGCode <;> dsimp only <;> split <;>
      simp [exec_feed, exec_comment _ _ hpl, h.1]
  · rintro c done st m pt r k ⟨ht, ds, h1, h2⟩ _ ⟨ps, hps, hco⟩ hp
    simp only at hps
    have hf := frame_lines r.1 m.1 (motion_path hp)
    obtain ⟨fi, la, hfi, _, e1, _⟩ := pathToGCode_ok hp
    refine ⟨by rw [sexec_fst, hf.tool, ht], ds ++ [ps], by simp [h1, hps], ?_⟩
    rw [hps] at hfi
    obtain ⟨a, ha, rfl⟩ : ∃ a, ps.head? = some a ∧ a.pt = fi := by
      cases ps with
      | nil => simp at hfi
      | cons a t => exact ⟨a, rfl, by simpa using hfi⟩
    rw [e1, hps, runLines_append]
    have hpre : (runLines sexec m (preLines sett st a.pt)).2 = m.2 := by
      refine sexec_quiet _ _ ?_
      unfold preLines retractionToGCode
      split <;> simp
    have hpos : (runLines sexec m (preLines sett st a.pt)).1.pos = printed a := by
      rw [sexec_fst]
      unfold preLines retractionToGCode
      split <;> simp [exec_travelZ, exec_travel, exec_retract, Printer.pos, printed, R3.pt, val]
    have htl : (runLines sexec m (preLines sett st a.pt)).1.tool = 0 := by
      rw [sexec_fst]
      unfold preLines retractionToGCode
      split <;> simp [exec_travelZ, exec_travel, exec_retract, ht]
    have := ext_segs sett ps st.eOff _ (runLines sexec m (preLines sett st a.pt)).2 a ha hpos htl hco
    rw [this, hpre, h2]
    simp
  · intro c done st m h; exact h
  · intro done st m h
    refine quiet _ _ _ h ?_ ?_ <;> unfold decreaseEOff <;> split <;> simp [exec_setE0, h.1]
  · intro done st m c r h hc _ hr
    cases c <;> simp [Command.toGCode] at hr <;> first | exact absurd rfl (hc _) | skip
    all_goals
      subst hr
      refine quiet _ _ _ h ?_ ?_ <;>
        simp [exec_park, exec_tool, exec_setE, exec_setE0, exec_axisTo, exec_axisLit, exec_rotXZ, h.1]

/-- **C38 (the part that holds).** If in every path each coordinate changes by nothing or by at least 0.001 per
segment, then the segments along which the nozzle extrudes are, in order, exactly the segments of the paths as
printed with three decimals. (Full claim: the same for every path; false, see `C38_nozzle_violated`.) -/
theorem C38_nozzle_partial [CleanText XR] (g : Gcode XR) (t : String) (h : g.text = .ok t)
    (p0 : Printer) (hp : p0.tool = 0) (ws : List (List R3))
    (hj : (allJobs g.cmds).map (fun j => j.path.points) = ws.map (fun l => l.map R3.pt))
    (hc : ∀ l ∈ ws, ∀ q ∈ adjPairs l, coarse q.1 q.2) :
    printedSegments p0 (parseText t) = (ws.flatMap adjPairs).map fun q => (printed q.1, printed q.2) := by
  obtain ⟨ls, hls, h'⟩ := bind_ok h
  have := pure_ok h'
  rw [← this, show ls.foldl (fun s l => s ++ l.render) "" = renderAll ls from rfl, segs_text _ _ (toOutput_plain hls)]
  have hg : ∀ j ∈ allJobs g.cmds, ∃ ps : List R3, j.path.points = ps.map R3.pt ∧ ∀ q ∈ adjPairs ps, coarse q.1 q.2 := by
    intro j hjm
    have : j.path.points ∈ (allJobs g.cmds).map (fun j => j.path.points) := List.mem_map_of_mem hjm
    rw [hj] at this
    obtain ⟨ps, hm, hps⟩ := List.mem_map.1 this
    exact ⟨ps, hps.symm, hc ps hm⟩
  obtain ⟨st, ⟨_, ds, hds, h2⟩, _⟩ := (follow_rules g.settings).sound (cs := g.cmds) (m := (p0, []))
    ⟨hp, [], rfl, rfl⟩ hg (fun _ _ => trivial) hls
  have hws : ds = ws := by
    rw [hj] at hds
    have inj : Function.Injective fun l : List R3 => l.map R3.pt :=
      List.map_injective_iff.2 (fun a b => R3.pt_inj)
    exact (List.map_injective_iff.2 inj hds).symm
  subst hws
  rw [sexec_snd] at h2
  simp only [List.nil_append] at h2
  rw [h2, List.map_flatMap]

/-- the printed point is within 0.0005 of the point in each coordinate -/
theorem C38_printed_near [DecimalText] (a : R3) :
    |(printed a).x - a.x| ≤ 1 / 2000 ∧ |(printed a).y - a.y| ≤ 1 / 2000 ∧ |(printed a).z - a.z| ≤ 1 / 2000 :=
  ⟨DecimalText.near _, DecimalText.near _, DecimalText.near _⟩

/-! ## the violation -/

private theorem drift_rules [DecimalText] (sett : GcodeSettings XR) :
    Rules sett (execLine (α := XR))
    (fun j => ∃ ps : List R3, j.path.points = ps.map R3.pt ∧ (∀ a ∈ ps.head?, a.x = 0) ∧
      ∀ q ∈ adjPairs ps, |q.2.x - q.1.x| < 1 / 1000) (fun c => ∃ ls, c = .layersMoving ls)
    (fun done _ m => done ≠ [] → m.x = 0) (fun done _ m => done ≠ [] → m.x = 0)
    (fun _ done _ m => done ≠ [] → m.x = 0) := by
  refine ⟨?_, ?_, ?_, ?_, ?_, ?_, ?_⟩
  · intro done st m h
    unfold switchFanGCode; split <;> split <;> simp [exec_layer, exec_fanOff, exec_fanOn] <;> exact h
  · intro done st m b h; exact h
  · intro done st m c h hc
    have hpl := comment_plain (α := XR) hc
    unfold printSpeedToGCode; dsimp only; split <;> simp [exec_feed, exec_comment _ _ hpl] <;> exact h
  · rintro c done st m pt r k h _ ⟨ps, hps, h0, hco⟩ hp _
    simp only at hps
    obtain ⟨fi, la, hfi, _, e1, _⟩ := pathToGCode_ok hp
    rw [hps] at hfi
    obtain ⟨a, ha, rfl⟩ : ∃ a, ps.head? = some a ∧ a.pt = fi := by
      cases ps with
      | nil => simp at hfi
      | cons a t => exact ⟨a, rfl, by simpa using hfi⟩
    rw [e1, hps, runLines_append]
    have hx : (runLines execLine m (preLines sett st a.pt)).x = 0 := by
      have ax : a.x = 0 := h0 a (by simp [ha])
      unfold preLines retractionToGCode
      split <;> simp [exec_travelZ, exec_travel, exec_retract, R3.pt, ax, DecimalText.zero]
    have key : ∀ (ps : List R3) (e : XR) (p : Printer), p.x = 0 → (∀ q ∈ adjPairs ps, |q.2.x - q.1.x| < 1 / 1000) →
        (runLines execLine p (extLines sett (adjPairs (ps.map R3.pt)) e)).x = 0 := by
      intro ps
      induction ps with
      | nil => intro e p h _; simpa [adjPairs, extLines] using h
      | cons a t ih =>
        intro e p h hq
        cases t with
        | nil => simpa [adjPairs, extLines] using h
        | cons b t =>
          simp only [List.map_cons, adjPairs_cons, extLines, runLines_cons] at ih ⊢
          refine ih _ _ ?_ (fun q hq' => hq q (by rw [adjPairs_cons]; simp [hq']))
          rw [exec_extrude]
          have h1 := hq (a, b) (by rw [adjPairs_cons]; simp)
          have h3 : ¬ ((10 ^ 3 : ℝ)⁻¹ ≤ |b.x - a.x|) := by norm_num at h1 ⊢; exact h1
          simp [stringGcode, R3.pt, h, h3]
    exact key ps _ _ hx hco
  · intro c done st m h; exact h
  · intro done st m h
    unfold decreaseEOff; split <;> simp [exec_setE0] <;> exact h
  · rintro done st m c r h hc ⟨ls, rfl⟩ hr
    exact absurd rfl (hc _)

/-- **C38 violated.** For every bound there is a job printing one path (n segments of length 0.0009 along x) after
whose execution the nozzle is farther than the bound from the last point of the path. -/
theorem C38_nozzle_violated [CleanText XR] [DecimalText] (B : ℝ) :
    ∃ (g : Gcode XR) (t : String) (ps : List R3) (last : R3), g.text = .ok t ∧
      (allJobs g.cmds).map (fun j => j.path.points) = [ps.map R3.pt] ∧ ps.getLast? = some last ∧
      |(Printer.init.run (parseText t)).x - last.x| > B := by
  obtain ⟨n, hn⟩ := exists_nat_gt (B / (9 / 10000))
  let ps : List R3 := (List.range (n + 1)).map fun (i : ℕ) => ⟨(i : ℝ) * (9 / 10000), 0, 0⟩
  let cs : List (Command XR) :=
    [.layersMoving [⟨0, ⟨XR.fin 0, XR.fin 0, XR.fin 1⟩, [⟨ps.map R3.pt⟩], [], [], []⟩]]
  let sett : GcodeSettings XR :=
    ⟨XR.fin 1, XR.fin 1, XR.fin 1, XR.fin 1, false, 30, 30, 30, false, 30, XR.fin 5⟩
  have hjobs : allJobs cs = [⟨0, "OUTER_PATHES", ⟨ps.map R3.pt⟩⟩] := by
    simp [cs, allJobs, jobsFrom, allLayers, layerJobs, layerSections]
  obtain ⟨ls, hls⟩ := toOutput_total (sett := sett) cs (by
    intro j hj; rw [hjobs] at hj; simp at hj; simp [hj, ps])
  refine ⟨⟨sett, cs⟩, renderAll ls, ps, ⟨n * (9 / 10000), 0, 0⟩, ?_, ?_, ?_, ?_⟩
  · simp only [Gcode.text, hls, bind, Except.bind]; rfl
  · simp [hjobs]
  · simp [ps, List.range_succ]
  · rw [run_text _ _ (toOutput_plain hls)]
    have hg : ∀ j ∈ allJobs cs, ∃ ps : List R3, j.path.points = ps.map R3.pt ∧ (∀ a ∈ ps.head?, a.x = 0) ∧
        ∀ q ∈ adjPairs ps, |q.2.x - q.1.x| < 1 / 1000 := by
      intro j hj
      rw [hjobs] at hj; simp only [List.mem_singleton] at hj; subst hj
      refine ⟨ps, rfl, ?_, ?_⟩
      · intro a ha
        simp [ps, List.range_succ_eq_map] at ha
        simp [← ha]
      · intro q hq
        simp only [ps, adjPairs_map] at hq
        obtain ⟨⟨i, j⟩, hij, rfl⟩ := List.mem_map.1 hq
        have : j = i + 1 := by
          have : ∀ (k m : Nat), (i, j) ∈ adjPairs (List.range' k m) → j = i + 1 := by
            intro k m
            induction m generalizing k with
            | zero => simp [adjPairs]
            | succ m ih =>
              cases m with
              | zero => simp [adjPairs, List.range'_succ]
              | succ m =>
                rw [List.range'_succ, List.range'_succ, adjPairs_cons, ← List.range'_succ]
                intro h
                rcases List.mem_cons.1 h with h | h
                · simp at h; omega
                · exact ih _ h
          rw [List.range_eq_range'] at hij
          exact this _ _ hij
        subst this
        push_cast
        rw [show ((i : ℝ) + 1) * (9 / 10000) - i * (9 / 10000) = 9 / 10000 by ring, abs_of_pos (by norm_num)]
        norm_num
    obtain ⟨st, h, _⟩ := (drift_rules sett).sound (cs := cs) (m := Printer.init)
      (fun h => absurd rfl h) hg (by intro c hc; simp [cs] at hc; exact ⟨_, hc⟩) hls
    rw [h (by rw [hjobs]; simp)]
    rw [gt_iff_lt, lt_abs]
    right
    rw [div_lt_iff₀ (by norm_num)] at hn
    simpa using hn

section Example
attribute [local instance] XR.text XR.text_clean XR.text_decimal
open XR

private noncomputable def exPath : List R3 := [⟨0, 0, 0⟩, ⟨10, 0, 0⟩, ⟨10, 5, 0⟩]
private noncomputable def exProg : Gcode XR :=
  ⟨⟨fin (17/10), fin 1, fin (1/5), fin (2/5), true, 50, 20, 30, true, 40, fin 5⟩,
   [.layersMoving [⟨0, ⟨fin 0, fin 0, fin 1⟩, [⟨exPath.map R3.pt⟩], [], [], []⟩], .inclineX,
    .layersMoving [⟨0, ⟨fin 0, fin 0, fin 1⟩, [], [], [], [⟨exPath.map R3.pt⟩]⟩]]⟩

/-- the hypotheses of the positive part hold for a program with two paths, a tilt and retraction -/
example : ∃ t, exProg.text = .ok t ∧
    (allJobs exProg.cmds).map (fun j => j.path.points) = [exPath, exPath].map (fun l => l.map R3.pt) ∧
    ∀ l ∈ [exPath, exPath], ∀ q ∈ adjPairs l, coarse q.1 q.2 := by
  obtain ⟨ls, hls⟩ := toOutput_total (sett := exProg.settings) exProg.cmds (by
    intro j hj
    simp [exProg, allJobs, jobsFrom, allLayers, layerJobs, layerSections] at hj
    rcases hj with rfl | rfl <;> simp [exPath])
  refine ⟨renderAll ls, ?_, rfl, ?_⟩
  · show (Gcode.mk exProg.settings exProg.cmds).text = _
    simp only [Gcode.text, hls, bind, Except.bind]; rfl
  · intro l hl q hq
    have : l = exPath := by simpa using hl
    subst this
    simp [exPath, adjPairs] at hq
    rcases hq with rfl | rfl <;> (simp only [coarse]; norm_num)
end Example
end Goosli
