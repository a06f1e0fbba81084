import Mathlib.Data.Real.Basic
/-!
# Specification: what a printer does with G-code text

Independent of the model: works on the text of the file.  One text line is one statement; words are separated by
blanks; a `;` starts a comment.  The machine has one E register shared by all tools (as Marlin/Repetier do), absolute
positioning and absolute extrusion, modal feed rate, a fan, and one motor per tool (`T0` filament, `T1` bed rotation,
`T2` bed tilt).  The comments `;LAYER:k` and `;SECTION` are recorded so that moves can be attributed to them.
-/
namespace Goosli.Spec

/-- split a character list at a separator -/
def splitAtChar (sep : Char) : List Char → List (List Char)
  | [] => [[]]
  | c :: cs =>
    if c = sep then [] :: splitAtChar sep cs
    else match splitAtChar sep cs with
      | [] => [[c]]
      | w :: ws => (c :: w) :: ws

/-- value of a decimal number without sign, e.g. `12.345` -/
noncomputable def readUnsigned (cs : List Char) : ℝ :=
  let a := cs.takeWhile (· ≠ '.')
  let f := (cs.dropWhile (· ≠ '.')).drop 1
  (Nat.ofDigitChars 10 a 0 : ℝ) + (Nat.ofDigitChars 10 f 0 : ℝ) / 10 ^ f.length

/-- value of a decimal number with optional minus sign -/
noncomputable def readDec : List Char → ℝ
  | '-' :: cs => -readUnsigned cs
  | cs => readUnsigned cs

/-- value of an integer with optional minus sign -/
def readInt : List Char → Int
  | '-' :: cs => -(Nat.ofDigitChars 10 cs 0 : Int)
  | cs => (Nat.ofDigitChars 10 cs 0 : Int)

/-- a G-code statement -/
inductive Stmt where
  /-- the text after `;` of a pure comment line -/
  | comment (cs : List Char)
  /-- words: letter and argument text -/
  | words (ws : List (Char × List Char))

/-- parse the words of a line -/
def wordsOf (line : List Char) : List (Char × List Char) :=
  (splitAtChar ' ' (line.takeWhile (· ≠ ';'))).filterMap fun w =>
    match w with
    | [] => none
    | c :: t => some (c, t)

/-- parse one line (without its newline) -/
def parseLine : List Char → Stmt
  | ';' :: cs => .comment cs
  | cs => .words (wordsOf cs)

/-- the statements of a text -/
def parseText (text : String) : List Stmt := (splitAtChar '\n' text.toList).map parseLine

/-- machine state -/
structure Printer where
  x : ℝ
  y : ℝ
  z : ℝ
  /-- E register -/
  e : ℝ
  tool : Nat
  feed : ℝ
  fan : Bool
  /-- how far the motor of each tool has been driven in total -/
  axis : Nat → ℝ
  /-- last `;LAYER:k` seen -/
  layer : Int
  /-- last other comment seen -/
  sect : List Char

/-- state at power on / after the start script: everything at zero -/
noncomputable def Printer.init : Printer :=
  { x := 0, y := 0, z := 0, e := 0, tool := 0, feed := 0, fan := false, axis := fun _ => 0, layer := -1, sect := [] }

/-- argument of a word, if present -/
noncomputable def arg (ws : List (Char × List Char)) (c : Char) : Option ℝ :=
  (ws.find? (fun w => w.1 = c)).map fun w => readDec w.2

/-- drive the motor of tool `k` by `d` -/
noncomputable def drive (axis : Nat → ℝ) (k : Nat) (d : ℝ) : Nat → ℝ := fun i => if i = k then axis i + d else axis i

/-- G0/G1 -/
noncomputable def Printer.move (p : Printer) (ws : List (Char × List Char)) : Printer :=
  let e' := (arg ws 'E').getD p.e
  { p with
    x := (arg ws 'X').getD p.x
    y := (arg ws 'Y').getD p.y
    z := (arg ws 'Z').getD p.z
    feed := (arg ws 'F').getD p.feed
    e := e'
    axis := drive p.axis p.tool (e' - p.e) }

/-- execute one statement -/
noncomputable def Printer.exec (p : Printer) : Stmt → Printer
  | .comment cs =>
    if "LAYER:".toList.isPrefixOf cs then { p with layer := readInt (cs.drop 6) } else { p with sect := cs }
  | .words [] => p
  | .words ((c, a) :: ws) =>
    if c = 'G' ∧ (a = ['0'] ∨ a = ['1']) then p.move ws
    else if c = 'G' ∧ a = ['9', '2'] then { p with e := (arg ws 'E').getD p.e }
    else if c = 'T' then { p with tool := Nat.ofDigitChars 10 a 0 }
    else if c = 'M' ∧ a = ['1', '0', '6'] then { p with fan := true }
    else if c = 'M' ∧ a = ['1', '0', '7'] then { p with fan := false }
    else p

/-- execute statements -/
noncomputable def Printer.run (p : Printer) (l : List Stmt) : Printer := l.foldl Printer.exec p

/-- the states before and after every statement -/
noncomputable def Printer.trace (p : Printer) : List Stmt → List (Printer × Printer)
  | [] => []
  | s :: l => (p, p.exec s) :: (p.exec s).trace l

/-- all machine states visited -/
noncomputable def Printer.states (p : Printer) : List Stmt → List Printer
  | [] => [p]
  | s :: l => p :: (p.exec s).states l

end Goosli.Spec
