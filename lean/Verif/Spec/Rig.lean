import Verif.Spec.GcodeObs
import Verif.Spec.R3
/-!
# Specification: a whole machine reading a whole file

`Printer` (Spec/Printer.lean) knows what a program between a header and a footer uses.  `Rig` is that printer with what headers and
footers use: relative positioning (`G91`, `G90`), relative extrusion (`M83`, `M82`), homing (`G28`) and the two heaters (`M140`, `M190`,
`M104`, `M109`).  As in Marlin and Repetier, `G91` makes the extruder relative as well.  Lengths are millimetres (`G21`). A plus sign before a
number adds nothing to it (`readDec`).
-/
namespace Goosli.Spec

/-- machine state -/
structure Rig where
  p : Printer
  /-- relative positioning -/
  rel : Bool
  /-- relative extrusion -/
  relE : Bool
  /-- temperature set for the bed -/
  bed : ℝ
  /-- temperature set for the nozzle -/
  hot : ℝ
  /-- where homing leads -/
  home : R3

/-- new value of a coordinate: absolute or relative -/
noncomputable def newCoord (rel : Bool) (v : ℝ) : Option ℝ → ℝ
  | none => v
  | some a => if rel then v + a else a

/-- G0/G1 -/
noncomputable def Rig.move (m : Rig) (ws : List (Char × List Char)) : Rig :=
  let e' := newCoord (m.rel || m.relE) m.p.e (arg ws 'E')
  { m with p := { m.p with
      x := newCoord m.rel m.p.x (arg ws 'X')
      y := newCoord m.rel m.p.y (arg ws 'Y')
      z := newCoord m.rel m.p.z (arg ws 'Z')
      feed := (arg ws 'F').getD m.p.feed
      e := e'
      axis := drive m.p.axis m.p.tool (e' - m.p.e) } }

/-- is the axis named -/
def named (ws : List (Char × List Char)) (c : Char) : Bool := ws.any fun w => w.1 = c

/-- G28: the named axes, or all if none is named -/
noncomputable def Rig.homed (m : Rig) (ws : List (Char × List Char)) : Rig :=
  let all := !(named ws 'X' || named ws 'Y' || named ws 'Z')
  { m with p := { m.p with
      x := if all || named ws 'X' then m.home.x else m.p.x
      y := if all || named ws 'Y' then m.home.y else m.p.y
      z := if all || named ws 'Z' then m.home.z else m.p.z } }

/-- execute one statement -/
noncomputable def Rig.exec (m : Rig) : Stmt → Rig
  | .comment cs => { m with p := m.p.exec (.comment cs) }
  | .words [] => m
  | .words ((c, a) :: ws) =>
    if c = 'G' ∧ (a = ['0'] ∨ a = ['1']) then m.move ws
    else if c = 'G' ∧ a = ['9', '0'] then { m with rel := false }
    else if c = 'G' ∧ a = ['9', '1'] then { m with rel := true }
    else if c = 'G' ∧ a = ['2', '8'] then m.homed ws
    else if c = 'M' ∧ a = ['8', '2'] then { m with relE := false }
    else if c = 'M' ∧ a = ['8', '3'] then { m with relE := true }
    else if c = 'M' ∧ (a = ['1', '4', '0'] ∨ a = ['1', '9', '0']) then { m with bed := (arg ws 'S').getD m.bed }
    else if c = 'M' ∧ (a = ['1', '0', '4'] ∨ a = ['1', '0', '9']) then { m with hot := (arg ws 'S').getD m.hot }
    else { m with p := m.p.exec (.words ((c, a) :: ws)) }

/-- execute statements -/
noncomputable def Rig.run (m : Rig) (l : List Stmt) : Rig := l.foldl Rig.exec m

/-- all steps of an execution -/
noncomputable def rigSteps (m : Rig) : List Stmt → List (Rig × Stmt)
  | [] => []
  | s :: l => (m, s) :: rigSteps (m.exec s) l

/-- the statement feeds filament forward -/
def Rig.feeds (m : Rig) (s : Stmt) : Prop := m.p.axis 0 < (m.exec s).p.axis 0

/-- the nozzle is somewhere else after the statement -/
def Rig.travels (m : Rig) (s : Stmt) : Prop :=
  ¬ ((m.exec s).p.x = m.p.x ∧ (m.exec s).p.y = m.p.y ∧ (m.exec s).p.z = m.p.z)

end Goosli.Spec
