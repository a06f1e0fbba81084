import Verif.Props.C38
import Verif.Props.C99
/-!
# C100: the moves in the file are the moves of the job
-/
set_option linter.unusedSectionVars false
set_option autoImplicit false
namespace Goosli
open Flt Spec

/-- a print move as an observer of the printer sees it: the last layer comment, the last section comment, where the nozzle was and
where it goes -/
structure PrintedMove where
  layer : Int
  sect : List Char
  start : R3
  stop : R3

open Classical in
/-- the print moves of an execution, in order -/
noncomputable def printedMoves (p : Printer) (l : List Stmt) : List PrintedMove :=
  (steps p l).filterMap fun x => if isPrintMove x.1 x.2 then some ⟨x.1.layer, x.1.sect, x.1.pos, (x.1.exec x.2).pos⟩ else none

section Lawless
variable {α : Type} [Flt α] [FltText α]

/-- where the nozzle is after the move from `a` to `b`, if it was at `n`: a coordinate that changes by less than 0.001 is not written and
stays as it is -/
noncomputable def nozzleAfter (n : R3) (a b : Point α) : R3 :=
  ⟨if lit 1 3 ≤? Flt.abs (b.x - a.x) then readDec (FltText.fmt3 b.x).toList else n.x,
   if lit 1 3 ≤? Flt.abs (b.y - a.y) then readDec (FltText.fmt3 b.y).toList else n.y,
   if lit 1 3 ≤? Flt.abs (b.z - a.z) then readDec (FltText.fmt3 b.z).toList else n.z⟩

/-- the nozzle moves for a polyline, if the nozzle starts at `n` -/
noncomputable def nozzleMoves : R3 → List (Point α) → List (R3 × R3)
  | n, a :: b :: t => (n, nozzleAfter n a b) :: nozzleMoves (nozzleAfter n a b) (b :: t)
  | _, _ => []

/-- where a path is started: the first point with three decimals -/
noncomputable def nozzleStart (a : Point α) : R3 :=
  ⟨readDec (FltText.fmt3 (a.x + lit 0 0)).toList, readDec (FltText.fmt3 (a.y + lit 0 0)).toList,
   readDec (FltText.fmt3 (a.z + lit 0 0)).toList⟩

/-- the print moves for one path of the job -/
noncomputable def jobMoves (j : Spec.Job α) : List PrintedMove :=
  match j.path.points with
  | [] => []
  | a :: t => (nozzleMoves (nozzleStart a) (a :: t)).map fun q => ⟨j.layer, j.sect.toList, q.1, q.2⟩

/-! ## the moves of the lines -/

open Classical in
/-- printer and the moves so far -/
private noncomputable def mexec (m : Printer × List PrintedMove) (l : GLine α) : Printer × List PrintedMove :=
  (execLine m.1 l, m.2 ++ (if isPrintMove m.1 l.stmt then [⟨m.1.layer, m.1.sect, m.1.pos, (execLine m.1 l).pos⟩] else []))

private theorem mexec_fst (ls : List (GLine α)) (m : Printer × List PrintedMove) :
    (runLines mexec m ls).1 = runLines execLine m.1 ls := by
  induction ls generalizing m with
  | nil => rfl
  | cons a t ih => simp [ih, mexec]

private theorem mexec_snd (ls : List (GLine α)) (m : Printer × List PrintedMove) :
    (runLines mexec m ls).2 = m.2 ++ printedMoves m.1 (ls.map GLine.stmt) := by
  induction ls generalizing m with
  | nil => simp [printedMoves, steps]
  | cons a t ih =>
    rw [runLines_cons, ih]
    simp only [printedMoves, List.map_cons, steps, mexec, List.filterMap_cons]
    split <;> simp [execLine]

theorem moves_text [CleanText α] (p : Printer) (ls : List (GLine α)) (hp : ∀ l ∈ ls, l.Plain) :
    printedMoves p (parseText (renderAll ls)) = printedMoves p (ls.map GLine.stmt) := by
  rw [parseText_renderAll ls hp]
  have : ∀ (l : List Stmt) p, printedMoves p (l ++ [.words []]) = printedMoves p l := by
    intro l
    induction l with
    | nil => intro p; simp [printedMoves, steps, isPrintMove]
    | cons a t ih =>
      intro p
      have := ih (p.exec a)
      simp only [printedMoves, List.cons_append, steps, List.filterMap_cons] at this ⊢
      split <;> simp [this]
  exact this _ _

private theorem mexec_quiet (ls : List (GLine α)) (m : Printer × List PrintedMove)
    (h : ∀ l ∈ ls, ∀ x y z e, l ≠ .extrude x y z e) : (runLines mexec m ls).2 = m.2 := by
  induction ls generalizing m with
  | nil => rfl
  | cons a t ih =>
    rw [runLines_cons, ih _ (fun l hl => h l (by simp [hl]))]
    simp [mexec, not_printMove _ _ (h a (by simp))]

private theorem ext_moves (sett : GcodeSettings α) (ps : List (Point α)) :
    ∀ (e : α) (p : Printer) (acc : List PrintedMove), p.tool = 0 →
    (runLines mexec (p, acc) (extLines sett (adjPairs ps) e)).2 =
      acc ++ (nozzleMoves p.pos ps).map fun q => ⟨p.layer, p.sect, q.1, q.2⟩ := by
  induction ps with
  | nil => intro e p acc _; simp [adjPairs, extLines, nozzleMoves]
  | cons a t ih =>
    intro e p acc ht
    cases t with
    | nil => simp [adjPairs, extLines, nozzleMoves]
    | cons b t =>
      simp only [adjPairs_cons, extLines, runLines_cons] at ih ⊢
      have hpos : ∀ e', (execLine p (.extrude (stringGcode b a).1 (stringGcode b a).2.1 (stringGcode b a).2.2 e')).pos =
          nozzleAfter p.pos a b := by
        intro e'
        rw [exec_extrude]
        simp only [Printer.pos, nozzleAfter, stringGcode, R3.mk.injEq]
        refine ⟨?_, ?_, ?_⟩ <;> split <;> rfl
      have hm : ∀ e', isPrintMove p (GLine.extrude (stringGcode b a).1 (stringGcode b a).2.1 (stringGcode b a).2.2 e').stmt :=
        fun e' => (printMove_extrude _ _ _ _ _).2 ht
      simp only [mexec, hm, if_true]
      rw [ih _ _ _ (by rw [exec_extrude]; exact ht), hpos]
      rw [nozzleMoves]
      have h1 : ∀ e', (execLine p (.extrude (stringGcode b a).1 (stringGcode b a).2.1 (stringGcode b a).2.2 e')).layer = p.layer :=
        fun e' => by rw [exec_extrude]
      have h2 : ∀ e', (execLine p (.extrude (stringGcode b a).1 (stringGcode b a).2.1 (stringGcode b a).2.2 e')).sect = p.sect :=
        fun e' => by rw [exec_extrude]
      rw [h1, h2]
      simp

private def movesDone (done : List (Spec.Job α)) (m : Printer × List PrintedMove) : Prop := m.1.tool = 0 ∧ m.2 = done.flatMap jobMoves

private theorem quiet_done (done : List (Spec.Job α)) (m : Printer × List PrintedMove) (ls : List (GLine α)) (h : movesDone done m)
    (ht : (runLines execLine m.1 ls).tool = 0) (hl : ∀ l ∈ ls, ∀ x y z e, l ≠ .extrude x y z e) :
    movesDone done (runLines mexec m ls) := ⟨by rw [mexec_fst, ht], by rw [mexec_quiet _ _ hl, h.2]⟩

private theorem move_rules (sett : GcodeSettings α) :
    Rules sett mexec (fun _ => True) (fun _ => True) (fun done _ m => movesDone done m)
      (fun done st m => movesDone done m ∧ m.1.layer = st.layerIndex)
      (fun c done st m => movesDone done m ∧ m.1.layer = st.layerIndex ∧ m.1.sect = c.toList) := by
  refine ⟨?_, ?_, ?_, ?_, ?_, ?_, ?_⟩
  · intro done st m h
    refine ⟨quiet_done _ _ _ h ?_ ?_, ?_⟩
    · unfold switchFanGCode; split <;> split <;> simp [exec_layer, exec_fanOff, exec_fanOn, h.1]
    · unfold switchFanGCode; split <;> split <;> simp
    · rw [mexec_fst]; unfold switchFanGCode; split <;> split <;> simp [exec_layer, exec_fanOff, exec_fanOn]
  · intro done st m b h; exact h
  · intro done st m c h hc
    have hpl := comment_plain (α := α) hc
    refine ⟨quiet_done _ _ _ h.1 ?_ ?_, ?_, ?_⟩
    · unfold printSpeedToGCode; dsimp only; split <;> simp [exec_feed, exec_comment _ _ hpl, h.1.1]
    · unfold printSpeedToGCode; dsimp only; split <;> simp
    · rw [mexec_fst]; unfold printSpeedToGCode; dsimp only; split <;> simp [exec_feed, exec_comment _ _ hpl, h.2]
    · rw [mexec_fst]; unfold printSpeedToGCode; dsimp only; split <;> simp [exec_feed, exec_comment _ _ hpl]
  · rintro c done st m pt r k ⟨⟨ht, h1⟩, h2, h3⟩ hk _ hp
    have hf := frame_lines r.1 m.1 (motion_path hp)
    have hfr := pathToGCode_frame hp
    obtain ⟨fi, la, hfi, _, e1, _⟩ := pathToGCode_ok hp
    refine ⟨⟨by rw [mexec_fst, hf.tool, ht], ?_⟩, by rw [mexec_fst, hf.layer, h2, hfr.1], by rw [mexec_fst, hf.sect, h3]⟩
    rw [e1, runLines_append]
    have hpre : (runLines mexec m (preLines sett st fi)).2 = m.2 := by
      refine mexec_quiet _ _ ?_
      unfold preLines retractionToGCode
      split <;> simp
    have hpos : (runLines mexec m (preLines sett st fi)).1.pos = nozzleStart fi := by
      rw [mexec_fst]
      unfold preLines retractionToGCode
      split <;> simp [exec_travelZ, exec_travel, exec_retract, Printer.pos, nozzleStart, val]
    have htl : (runLines mexec m (preLines sett st fi)).1.tool = 0 ∧
        (runLines mexec m (preLines sett st fi)).1.layer = m.1.layer ∧ (runLines mexec m (preLines sett st fi)).1.sect = m.1.sect := by
      rw [mexec_fst]
      unfold preLines retractionToGCode
      split <;> simp [exec_travelZ, exec_travel, exec_retract, ht]
    have := ext_moves sett pt.points st.eOff (runLines mexec m (preLines sett st fi)).1
      (runLines mexec m (preLines sett st fi)).2 htl.1
    rw [this, hpre, h1, hpos, htl.2.1, htl.2.2, h2, h3, hk]
    rw [List.flatMap_append, List.flatMap_singleton]
    congr 1
    unfold jobMoves
    cases hpp : pt.points with
    | nil => rw [hpp] at hfi; simp at hfi
    | cons a t =>
      rw [hpp] at hfi
      have : a = fi := by simpa using hfi
      rw [this]
  · intro c done st m h; exact ⟨h.1, h.2.1⟩
  · intro done st m h
    refine quiet_done _ _ _ h.1 ?_ ?_ <;> unfold decreaseEOff <;> split <;> simp [exec_setE0, h.1.1]
  · intro done st m c r h hc _ hr
    cases c <;> simp [Command.toGCode] at hr <;> first | exact absurd rfl (hc _) | skip
    all_goals
      subst hr
      refine quiet_done _ _ _ h ?_ ?_ <;>
        simp [exec_park, exec_tool, exec_setE, exec_setE0, exec_axisTo, exec_axisLit, exec_rotXZ, h.1]

/-- **C100.** For every arithmetic and every program: the print moves in the text are, in order, those of its paths, each seen under the
number of its layer and the name of its section. A path starts at its first point with three decimals; a coordinate that changes by less
than 0.001 is left as it is. No other command prints anything. -/
theorem C100_moves [CleanText α] (g : Gcode α) (t : String) (h : g.text = .ok t) (p0 : Printer) (hp : p0.tool = 0) :
    printedMoves p0 (parseText t) = (allJobs g.cmds).flatMap jobMoves := by
  obtain ⟨ls, hls, h'⟩ := bind_ok h
  have := pure_ok h'
  rw [← this, show ls.foldl (fun s l => s ++ l.render) "" = renderAll ls from rfl, moves_text _ _ (toOutput_plain hls)]
  obtain ⟨st, ⟨_, h2⟩, _⟩ := (move_rules g.settings).sound (cs := g.cmds) (m := (p0, []))
    ⟨hp, rfl⟩ (fun _ _ => trivial) (fun _ _ => trivial) hls
  rw [mexec_snd] at h2
  simpa using h2

end Lawless

/-! ## in float64 -/

/-- a number rounded to thousandths, ties to even -/
noncomputable def thousandth (x : ℝ) : ℝ := roundEven (1000 * x) / 1000

/-- a point rounded to thousandths -/
noncomputable def R3.thousandth (w : R3) : R3 := ⟨Goosli.thousandth w.x, Goosli.thousandth w.y, Goosli.thousandth w.z⟩

theorem thousandth_near (x : ℝ) : |thousandth x - x| ≤ 1 / 2000 := by
  have h := fmtFixed3_near x
  rwa [readDec_fmtFixed3] at h

theorem B64.abs_of {x : ℝ} (h : IsF x) : Flt.abs (B64.of x) = B64.of |x| := by
  show B64.rnd (Flt.abs (B64.of x).1) = _
  rw [B64.of_val h]
  exact B64.rnd_fin |x| |>.trans (B64.of_rd _)

theorem val_of64 {x : ℝ} (h : IsF x) : readDec (FltText.fmt3 (B64.of x)).toList = thousandth x := by
  rw [fmt3_of h, readDec_fmtFixed3]; rfl

/-- the test of `StringGcode` in `float64` -/
theorem written_f64 {x y : ℝ} (hx : IsF x) (hy : IsF y) (bx : |x| ≤ 2 ^ 20) (by' : |y| ≤ 2 ^ 20) (n : ℝ) (hn : n = thousandth x)
    (h : y = x ∨ 1 / 1000 ≤ |y - x|) :
    (if (lit 1 3 : B64) ≤? Flt.abs (B64.of y - B64.of x) then readDec (FltText.fmt3 (B64.of y)).toList else n) = thousandth y := by
  have hF : IsF (rd (y - x)) := ⟨rep_rd _, le_max ((diff_range by' bx).trans (by norm_num))⟩
  have hlit : (lit 1 3 : B64) = B64.of (rd (1 / 1000)) := by
    rw [B64.lit_of, B64.of_rd]; norm_num
  have hlF : IsF (rd (1 / 1000)) := isF_rd (by rw [abs_of_pos] <;> norm_num)
  have hFa : IsF |rd (y - x)| := by
    rcases abs_choice (rd (y - x)) with e | e
    · rw [e]; exact hF
    · rw [e]; exact hF.neg
  rw [B64.sub_of hy hx, B64.abs_of hF, hlit, B64.le_of hlF hFa]
  rcases h with rfl | h
  · rw [val_of64 hy, hn, ite_self]
  · have : rd (1 / 1000) ≤ |rd (y - x)| := by
      rcases le_total 0 (y - x) with h0 | h0
      · rw [abs_of_nonneg h0] at h
        rw [abs_of_nonneg (rd_nonneg h0)]
        exact rd_mono h
      · rw [abs_of_nonpos h0] at h
        rw [abs_of_nonpos (rd_nonpos h0), ← rd_neg]
        exact rd_mono h
    rw [if_pos (by simpa using this), val_of64 hy]

theorem nozzle_f64 (ps : List R3) (hb : BedLine ps) (hc : ∀ q ∈ adjPairs ps, coarse q.1 q.2) :
    ∀ a ∈ ps.head?, nozzleMoves a.thousandth (ps.map R3.f64) = (adjPairs ps).map fun q => (q.1.thousandth, q.2.thousandth) := by
  induction ps with
  | nil => intro a ha; simp at ha
  | cons a t ih =>
    intro a' ha
    have : a = a' := by simpa using ha
    subst this
    cases t with
    | nil => simp [nozzleMoves, adjPairs]
    | cons b t =>
      obtain ⟨⟨fx, fy, fz⟩, rx, ry, rz⟩ := hb a (by simp)
      obtain ⟨⟨gx, gy, gz⟩, sx, sy, sz⟩ := hb b (by simp)
      obtain ⟨cx, cy, cz⟩ := hc (a, b) (by simp [adjPairs_cons])
      have hn : nozzleAfter a.thousandth a.f64 b.f64 = b.thousandth := by
        show R3.mk (if (lit 1 3 : B64) ≤? Flt.abs (B64.of b.x - B64.of a.x) then readDec (FltText.fmt3 (B64.of b.x)).toList else _)
          (if (lit 1 3 : B64) ≤? Flt.abs (B64.of b.y - B64.of a.y) then readDec (FltText.fmt3 (B64.of b.y)).toList else _)
          (if (lit 1 3 : B64) ≤? Flt.abs (B64.of b.z - B64.of a.z) then readDec (FltText.fmt3 (B64.of b.z)).toList else _) = _
        rw [written_f64 fx gx rx sx a.thousandth.x rfl cx, written_f64 fy gy ry sy a.thousandth.y rfl cy,
          written_f64 fz gz rz sz a.thousandth.z rfl cz]
        rfl
      rw [List.map_cons, List.map_cons, nozzleMoves, hn, adjPairs_cons, List.map_cons]
      congr 1
      exact ih (fun w hw => hb w (List.mem_cons_of_mem _ hw)) (fun q hq => hc q (by rw [adjPairs_cons]; simp [hq])) b rfl

/-- **C100 (float64).** A path of `float64` points with coordinates of at most 2^20 mm, each of whose coordinates changes by nothing or by at least 0.001
per segment, is printed segment by segment at its points rounded to thousandths, whatever the other paths of the job are like. -/
theorem C100_path (j : Spec.Job B64) (ps : List R3) (hj : j.path.points = ps.map R3.f64) (hb : BedLine ps)
    (hc : ∀ q ∈ adjPairs ps, coarse q.1 q.2) :
    jobMoves j = (adjPairs ps).map fun q => ⟨j.layer, j.sect.toList, q.1.thousandth, q.2.thousandth⟩ := by
  unfold jobMoves
  rw [hj]
  cases ps with
  | nil => rfl
  | cons a t =>
    have h0 : ∀ {x : ℝ}, IsF x → B64.of x + lit 0 0 = B64.of x := by
      intro x hx
      rw [B64.lit0, B64.add_of hx isF_zero, add_zero, B64.of_rd]
    have hs : nozzleStart a.f64 = a.thousandth := by
      obtain ⟨fx, fy, fz⟩ := (hb a (by simp)).1
      show R3.mk (readDec (FltText.fmt3 (B64.of a.x + lit 0 0)).toList) (readDec (FltText.fmt3 (B64.of a.y + lit 0 0)).toList)
        (readDec (FltText.fmt3 (B64.of a.z + lit 0 0)).toList) = _
      rw [h0 fx, h0 fy, h0 fz, val_of64 fx, val_of64 fy, val_of64 fz]
      rfl
    rw [List.map_cons]
    dsimp only
    rw [hs, ← List.map_cons, nozzle_f64 _ hb hc a rfl, List.map_map]
    rfl

/-- **C100 (float64, whole program).** If all paths of the program are of this kind, the print moves in the text are the segments of the
paths, in order, rounded to thousandths. -/
theorem C100_float64 (g : Gcode B64) (t : String) (h : g.text = .ok t) (p0 : Printer) (hp : p0.tool = 0) (w : Spec.Job B64 → List R3)
    (hw : ∀ j ∈ allJobs g.cmds, j.path.points = (w j).map R3.f64 ∧ BedLine (w j) ∧ ∀ q ∈ adjPairs (w j), coarse q.1 q.2) :
    printedMoves p0 (parseText t) = (allJobs g.cmds).flatMap fun j =>
      (adjPairs (w j)).map fun q => ⟨j.layer, j.sect.toList, q.1.thousandth, q.2.thousandth⟩ := by
  rw [C100_moves g t h p0 hp]
  have : ∀ l : List (Spec.Job B64), (∀ j ∈ l, j ∈ allJobs g.cmds) → l.flatMap jobMoves = l.flatMap fun j =>
      (adjPairs (w j)).map fun q => ⟨j.layer, j.sect.toList, q.1.thousandth, q.2.thousandth⟩ := by
    intro l hl
    induction l with
    | nil => rfl
    | cons a r ih =>
      obtain ⟨h1, h2, h3⟩ := hw a (hl a (by simp))
      rw [List.flatMap_cons, List.flatMap_cons, ih (fun j hj => hl j (List.mem_cons_of_mem _ hj)), C100_path a _ h1 h2 h3]
  exact this _ fun _ hj => hj

section Example
private noncomputable def exOut : List R3 := [⟨0, 0, 1⟩, ⟨10, 0, 1⟩, ⟨10, 5, 1⟩, ⟨0, 0, 1⟩]
private noncomputable def exProg : Gcode B64 :=
  ⟨⟨B64.of 2, B64.of 1, B64.of 1, B64.of 1, true, 50, 20, 30, true, 40, B64.of 5⟩,
   [.layersMoving [⟨0, ⟨B64.of 0, B64.of 0, B64.of 1⟩, [⟨exOut.map R3.f64⟩], [], [], []⟩] , .inclineX,
    .layersMoving [⟨0, ⟨B64.of 0, B64.of 0, B64.of 1⟩, [], [], [], [⟨exOut.map R3.f64⟩]⟩]]⟩

private theorem int_F (n : ℤ) (hn : |n| ≤ 2 ^ 10 := by norm_num) : IsF (n : ℝ) := isF_int (hn.trans (by norm_num))

/-- a program with two layers, a bed tilt and retraction: its six print moves -/
example : ∃ t, exProg.text = .ok t ∧ (∀ j ∈ allJobs exProg.cmds, j.path.points = exOut.map R3.f64 ∧ BedLine exOut ∧
    ∀ q ∈ adjPairs exOut, coarse q.1 q.2) ∧ ∀ p0 : Printer, p0.tool = 0 → (printedMoves p0 (parseText t)).length = 6 := by
  obtain ⟨ls, hls⟩ := toOutput_total (sett := exProg.settings) exProg.cmds (by
    intro j hj
    simp [exProg, allJobs, jobsFrom, allLayers, layerJobs, layerSections] at hj
    rcases hj with rfl | rfl <;> simp [exOut])
  have htext : exProg.text = .ok (renderAll ls) := by
    show (Gcode.mk exProg.settings exProg.cmds).text = _
    simp only [Gcode.text, hls, bind, Except.bind]; rfl
  have i0 := isF_zero
  have i1 : IsF (1 : ℝ) := by exact_mod_cast int_F 1
  have i5 : IsF (5 : ℝ) := by exact_mod_cast int_F 5
  have i10 : IsF (10 : ℝ) := by exact_mod_cast int_F 10
  have hall : ∀ j ∈ allJobs exProg.cmds, j.path.points = exOut.map R3.f64 ∧ BedLine exOut ∧
      ∀ q ∈ adjPairs exOut, coarse q.1 q.2 := by
    intro j hj
    simp [exProg, allJobs, jobsFrom, allLayers, layerJobs, layerSections] at hj
    refine ⟨by rcases hj with rfl | rfl <;> rfl, ?_, ?_⟩
    · intro w hw
      simp only [exOut, List.mem_cons, List.not_mem_nil, or_false] at hw
      rcases hw with rfl | rfl | rfl | rfl
      · exact ⟨⟨i0, i0, i1⟩, by simp [R3.onBed]; norm_num⟩
      · exact ⟨⟨i10, i0, i1⟩, by simp [R3.onBed]; norm_num⟩
      · exact ⟨⟨i10, i5, i1⟩, by simp [R3.onBed]; norm_num⟩
      · exact ⟨⟨i0, i0, i1⟩, by simp [R3.onBed]; norm_num⟩
    · intro q hq
      simp only [exOut, adjPairs, List.tail_cons, List.zip_cons_cons, List.zip_nil_right, List.mem_cons, List.not_mem_nil, or_false] at hq
      rcases hq with rfl | rfl | rfl <;> norm_num [coarse]
  refine ⟨_, htext, hall, fun p0 hp => ?_⟩
  rw [C100_float64 exProg _ htext p0 hp (fun _ => exOut) hall]
  simp [exProg, allJobs, jobsFrom, allLayers, layerJobs, layerSections, exOut, adjPairs]
end Example
end Goosli
