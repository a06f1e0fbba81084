import Verif.Proofs.GcodeText
import Verif.Proofs.GcodeHoare
/-!
# Effect of every written line on the printer
-/
namespace Goosli
open Spec

variable {α : Type} [FltText α]

/-- the number a printer reads from the text of `x` -/
noncomputable def val (x : α) : ℝ := readDec (FltText.fmt3 x).toList

/-- execute the statement of a line -/
noncomputable def execLine (p : Printer) (l : GLine α) : Printer := p.exec l.stmt

theorem drive_zero (ax : Nat → ℝ) (k : Nat) : drive ax k 0 = ax := by
  funext i; simp [drive]

theorem arg_numW_same (c : Char) (x : α) (ws) : arg (numW c x :: ws) c = some (val x) := by
  simp [arg, numW, val]
theorem arg_numW_ne {c d : Char} (h : c ≠ d) (x : α) (ws) : arg (numW c x :: ws) d = arg ws d := by
  simp [arg, numW, h]
theorem arg_cons_same (c : Char) (t) (ws) : arg ((c, t) :: ws) c = some (readDec t) := by
  simp [arg]
theorem arg_cons_ne {c d : Char} (h : c ≠ d) (t) (ws) : arg ((c, t) :: ws) d = arg ws d := by
  simp [arg, h]
theorem arg_nil (c : Char) : arg [] c = none := rfl

theorem readDec_zero : readDec ['0'] = 0 := by
  have h := readDec_nat 0
  have e : (toString 0).toList = ['0'] := by decide
  rw [e] at h; simpa using h
theorem readDec_200 : readDec ['2', '0', '0'] = 200 := by
  have h := readDec_nat 200
  have e : (toString 200).toList = ['2', '0', '0'] := by decide
  rw [e] at h; simpa using h
theorem readDec_300 : readDec ['3', '0', '0'] = 300 := by
  have h := readDec_nat 300
  have e : (toString 300).toList = ['3', '0', '0'] := by decide
  rw [e] at h; simpa using h

theorem exec_G0 (p : Printer) (ws) : p.exec (.words (('G', ['0']) :: ws)) = p.move ws := by
  simp [Printer.exec]
theorem exec_G1 (p : Printer) (ws) : p.exec (.words (('G', ['1']) :: ws)) = p.move ws := by
  simp [Printer.exec]
theorem exec_G92 (p : Printer) (ws) :
    p.exec (.words (('G', ['9', '2']) :: ws)) = { p with e := (arg ws 'E').getD p.e } := by
  simp [Printer.exec]

theorem exec_layer (p : Printer) (i : Int) : execLine p (.layer i : GLine α) = { p with layer := i } := by
  have h : ("LAYER:".toList.isPrefixOf ("LAYER:".toList ++ (toString i).toList)) = true := by
    rw [List.isPrefixOf_iff_prefix]; exact List.prefix_append _ _
  have h2 : ("LAYER:".toList ++ (toString i).toList).drop 6 = (toString i).toList := by
    have : "LAYER:".toList.length = 6 := by decide
    rw [← this, List.drop_left]
  simp only [execLine, GLine.stmt, Printer.exec, h, if_true, h2, readInt_int]

theorem exec_comment (p : Printer) (c : String) (h : (GLine.comment c : GLine α).Plain) :
    execLine p (.comment c : GLine α) = { p with sect := c.toList } := by
  simp only [execLine, GLine.stmt, Printer.exec]
  rw [if_neg (by simpa using h.2)]

theorem exec_fanOff (p : Printer) : execLine p (.fanOff : GLine α) = { p with fan := false } := by
  simp [execLine, GLine.stmt, Printer.exec]
theorem exec_fanOn (p : Printer) : execLine p (.fanOn : GLine α) = { p with fan := true } := by
  simp [execLine, GLine.stmt, Printer.exec]

theorem exec_feed (p : Printer) (f : Int) : execLine p (.feed f : GLine α) = { p with feed := f } := by
  simp only [execLine, GLine.stmt, exec_G0, Printer.move, intW, arg_cons_same, arg_nil, readDec_int,
    arg_cons_ne (show 'F' ≠ 'X' by decide), arg_cons_ne (show 'F' ≠ 'Y' by decide),
    arg_cons_ne (show 'F' ≠ 'Z' by decide), arg_cons_ne (show 'F' ≠ 'E' by decide), Option.getD, sub_self, drive_zero]

theorem exec_park (p : Printer) :
    execLine p (.park : GLine α) = { p with x := 0, y := 0, z := 200 } := by
  simp [execLine, GLine.stmt, exec_G0, Printer.move, arg, readDec_zero, readDec_200, drive_zero]

theorem exec_tool (p : Printer) (k : Nat) : execLine p (.tool k : GLine α) = { p with tool := k } := by
  simp only [execLine, GLine.stmt, natW, Printer.exec, nat_toString_toList, Nat.ofDigitChars_ten_toDigits]
  simp

theorem exec_setE (p : Printer) (e : α) (sp) : execLine p (.setE e sp) = { p with e := val e } := by
  simp only [execLine, GLine.stmt, exec_G92, arg_numW_same, Option.getD]

theorem exec_setE0 (p : Printer) (sp) : execLine p (.setE0 sp : GLine α) = { p with e := 0 } := by
  simp only [execLine, GLine.stmt, exec_G92, arg_cons_same, Option.getD, readDec_zero]

theorem exec_axisLit (p : Printer) (k : Nat) : execLine p (.axisLit k : GLine α) =
    { p with feed := 300, e := k, axis := drive p.axis p.tool (k - p.e) } := by
  simp [execLine, GLine.stmt, exec_G1, Printer.move, arg, natW, readDec_300]
  simp only [← nat_toString_toList, readDec_nat, and_self]

theorem exec_axisTo (p : Printer) (e : α) : execLine p (.axisTo e : GLine α) =
    { p with feed := 300, e := val e, axis := drive p.axis p.tool (val e - p.e) } := by
  simp [execLine, GLine.stmt, exec_G1, Printer.move, arg, numW, readDec_300, val]

theorem exec_rotXZ (p : Printer) (a b : α) : execLine p (.rotXZ a b) = p := by
  simp [execLine, GLine.stmt, Printer.exec]

theorem exec_travelZ (p : Printer) (z : α) : execLine p (.travelZ z) = { p with z := val z } := by
  simp [execLine, GLine.stmt, exec_G0, Printer.move, arg, numW, val, drive_zero]

theorem exec_travel (p : Printer) (x y z : α) :
    execLine p (.travel x y z) = { p with x := val x, y := val y, z := val z } := by
  simp [execLine, GLine.stmt, exec_G0, Printer.move, arg, numW, val, drive_zero]

theorem exec_retract (p : Printer) (f : Int) (e : α) : execLine p (.retract f e) =
    { p with feed := f, e := val e, axis := drive p.axis p.tool (val e - p.e) } := by
  simp [execLine, GLine.stmt, exec_G1, Printer.move, arg, numW, intW, val]
  have := readDec_int f
  simpa using this

theorem exec_extrude (p : Printer) (x y z : Option α) (e : α) : execLine p (.extrude x y z e) =
    { p with x := (x.map val).getD p.x, y := (y.map val).getD p.y, z := (z.map val).getD p.z, e := val e,
             axis := drive p.axis p.tool (val e - p.e) } := by
  cases x <;> cases y <;> cases z <;>
    simp [execLine, GLine.stmt, exec_G1, Printer.move, arg, numW, val]

/-- Executing the text = executing the lines. -/
theorem run_text [CleanText α] (p : Printer) (ls : List (GLine α)) (h : ∀ l ∈ ls, l.Plain) :
    p.run (parseText (renderAll ls)) = runLines execLine p ls := by
  rw [parseText_renderAll ls h, Printer.run, List.foldl_append, List.foldl_map]
  rfl

omit [FltText α] in
/-- The lines emitted by a program are plain. -/
theorem toOutput_plain [Flt α] {sett : GcodeSettings α} {cs : List (Command α)} {ls}
    (hr : (Gcode.mk sett cs).toOutput = .ok ls) : ∀ l ∈ ls, l.Plain := by
  refine all_lines hr ?_ ?_ ?_ ?_ ?_ ?_ ?_ ?_ ?_ ?_ ?_ ?_ ?_ ?_ ?_ ?_ <;> intros <;> try trivial
  rename_i c hc
  revert c
  simp only [GLine.Plain]
  decide

end Goosli
