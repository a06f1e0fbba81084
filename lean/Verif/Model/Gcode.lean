import Verif.Model.Path
/-!
# gcode/gcode.go, gcode/cmds.go and the text helpers of point.go

Every `b.WriteString` call that ends a line is one `GLine` constructor; `GLine.render` is the exact text written.
-/
namespace Goosli
open Flt

variable {α : Type} [Flt α]

/-- gcode/gcode.go:8-20 -/
structure GcodeSettings (α : Type) where
  barDiameter : α
  flow : α
  layerHeight : α
  lineWidth : α
  fanOffLayer1 : Bool
  printSpeed : Int
  printSpeedLayer1 : Int
  printSpeedWall : Int
  retraction : Bool
  retractionSpeed : Int
  retractionDistance : α

/-- gcode/cmds.go:11-20 -/
structure GState (α : Type) where
  fan : Bool
  layerIndex : Int
  eOff : α
  feedrate : Int
  isWall : Bool
  pos : Point α
  t1 : α
  t2 : α

/-- gcode/cmds.go:22-33 -/
def newState : GState α :=
  { fan := false, layerIndex := 0, eOff := lit 0 0, feedrate := 0, isWall := false, pos := originPoint
    t1 := lit 0 0, t2 := lit 0 0 }

/-- One written line. -/
inductive GLine (α : Type) where
  /-- `";LAYER:" + Itoa(i)` (cmds.go:118) -/
  | layer (i : Int)
  /-- `";" + comment` (cmds.go:188) -/
  | comment (c : String)
  /-- `"M107"` (cmds.go:149) -/
  | fanOff
  /-- `"M106"` (cmds.go:154) -/
  | fanOn
  /-- `"G0 F" + Itoa(f)` (cmds.go:173) -/
  | feed (f : Int)
  /-- `"G0 X0 Y0 Z200 "` (cmds.go:44, 62, 97) -/
  | park
  /-- `"T<k> "` (cmds.go:45, 49, 63, 67, 98, 102) -/
  | tool (k : Nat)
  /-- `"G92 E" + StrF(e)`, followed by a blank if `sp` (cmds.go:46, 50, 64, 68, 99, 103) -/
  | setE (e : α) (sp : Bool)
  /-- `"G92 E0"`, followed by a blank if `sp` (cmds.go:48, 66, 101, 140) -/
  | setE0 (sp : Bool)
  /-- `"G1 F300 E<k> "` with the literal `k` (cmds.go:47, 65) -/
  | axisLit (k : Nat)
  /-- `"G1 F300 E" + StrF(e) + " "` (cmds.go:100) -/
  | axisTo (e : α)
  /-- `"G62 X" + StrF(a) + " Z" + StrF(b)` (cmds.go:83) -/
  | rotXZ (a b : α)
  /-- `"G0 " + StringDeltaZ` with the already shifted `z` (cmds.go:195, 198) -/
  | travelZ (z : α)
  /-- `"G0 " + StringDelta` with the already shifted coordinates (cmds.go:197) -/
  | travel (x y z : α)
  /-- `"G1 F" + Itoa(f) + " E" + StrF(e)` (cmds.go:184) -/
  | retract (f : Int) (e : α)
  /-- `"G1 " + StringGcode + " E" + StrF(e)`; a coordinate is present iff it is written (cmds.go:205) -/
  | extrude (x y z : Option α) (e : α)

/-- The text of a line, including the final newline (gcode/cmds.go, primitives/point.go:16-24). -/
def GLine.render [FltText α] : GLine α → String
  | .layer i => ";LAYER:" ++ toString i ++ "\n"
  | .comment c => ";" ++ c ++ "\n"
  | .fanOff => "M107\n"
  | .fanOn => "M106\n"
  | .feed f => "G0 F" ++ toString f ++ "\n"
  | .park => "G0 X0 Y0 Z200 \n"
  | .tool k => "T" ++ toString k ++ " \n"
  | .setE e sp => "G92 E" ++ FltText.fmt3 e ++ (if sp then " \n" else "\n")
  | .setE0 sp => "G92 E0" ++ (if sp then " \n" else "\n")
  | .axisLit k => "G1 F300 E" ++ toString k ++ " \n"
  | .axisTo e => "G1 F300 E" ++ FltText.fmt3 e ++ " \n"
  | .rotXZ a b => "G62 X" ++ FltText.fmt3 a ++ " Z" ++ FltText.fmt3 b ++ "\n"
  | .travelZ z => "G0 " ++ ("Z" ++ FltText.fmt3 z) ++ "\n"
  | .travel x y z =>
    "G0 " ++ ("X" ++ FltText.fmt3 x ++ " Y" ++ FltText.fmt3 y ++ " Z" ++ FltText.fmt3 z) ++ "\n"
  | .retract f e => "G1 F" ++ toString f ++ " E" ++ FltText.fmt3 e ++ "\n"
  | .extrude x y z e =>
    let sx := match x with | some v => "X" ++ FltText.fmt3 v ++ " " | none => ""
    let sy := match y with | some v => sx ++ "Y" ++ FltText.fmt3 v ++ " " | none => sx
    let sz := match z with | some v => sy ++ "Z" ++ FltText.fmt3 v | none => sy
    "G1 " ++ sz ++ " E" ++ FltText.fmt3 e ++ "\n"

/-- primitives/point.go:29-43 (`a.StringGcode(b)`): which coordinates of `a` are written -/
def stringGcode (a b : Point α) : Option α × Option α × Option α :=
  let ch (u v : α) : Option α := if lit 1 3 ≤? Flt.abs (u - v) then some u else none
  (ch a.x b.x, ch a.y b.y, ch a.z b.z)

/-- gcode/cmds.go:138-144 -/
def decreaseEOff (st : GState α) : List (GLine α) × GState α :=
  if lit 4000 0 <? st.eOff then ([.setE0 false], { st with eOff := lit 0 0 }) else ([], st)

/-- gcode/cmds.go:146-159 -/
def switchFanGCode (st : GState α) (sett : GcodeSettings α) : List (GLine α) × GState α :=
  if st.layerIndex = 0 ∧ sett.fanOffLayer1 then
    if st.fan then ([.fanOff], { st with fan := false }) else ([], st)
  else
    if !st.fan then ([.fanOn], { st with fan := true }) else ([], st)

/-- gcode/cmds.go:162-171 -/
def neededSpeed (st : GState α) (sett : GcodeSettings α) : Int :=
  if st.layerIndex = 0 then sett.printSpeedLayer1
  else if st.isWall then sett.printSpeedWall else sett.printSpeed

/-- gcode/cmds.go:161-177 -/
def printSpeedToGCode (st : GState α) (sett : GcodeSettings α) : List (GLine α) × GState α :=
  let needed := neededSpeed st sett
  if needed ≠ st.feedrate then ([.feed needed], { st with feedrate := needed }) else ([], st)

/-- gcode/cmds.go:179-185 -/
def retractionToGCode (sett : GcodeSettings α) : List (GLine α) :=
  if !sett.retraction then [] else [.retract sett.retractionSpeed (-sett.retractionDistance)]

/-- gcode/cmds.go:203-204: the advance of `E` for one segment -/
def extrusionDelta (sett : GcodeSettings α) (p1 p2 : Point α) : α :=
  let lDist := sqrt (pow2 (p2.x - p1.x) + pow2 (p2.y - p1.y) + pow2 (p2.z - p1.z))
  (lit 4 0 * sett.lineWidth * sett.layerHeight * lDist) / (pow2 sett.barDiameter * pi)

/-- gcode/cmds.go:200-206, one iteration: state is the current `eOff` -/
def extrudeStep (sett : GcodeSettings α) (acc : List (GLine α) × α) (q : Point α × Point α) :
    List (GLine α) × α :=
  let e := acc.2 + extrusionDelta sett q.1 q.2
  let s := stringGcode q.2 q.1
  (acc.1 ++ [.extrude s.1 s.2.1 s.2.2 e], e)

/-- gcode/cmds.go:194-207, one path; an empty path panics at `p.Points[0]` -/
def pathToGCode (p : Path α) (sett : GcodeSettings α) (st : GState α) : Go (List (GLine α) × GState α) := do
  let first ← goAt p.points 0
  let last ← goLast p.points
  let z : α := lit 0 0
  let pre := [GLine.travelZ (st.pos.z + lit 5 1)] ++ retractionToGCode sett ++
    [.travel (first.x + z) (first.y + z) (first.z + lit 5 1), .travelZ (first.z + z)]
  let r := (adjPairs p.points).foldl (extrudeStep sett) (pre, st.eOff)
  return (r.1, { st with eOff := r.2, pos := last })

/-- the `for _, p := range pths` of gcode/cmds.go:193-208 -/
def pathsLoop (sett : GcodeSettings α) : List (Path α) → GState α → Go (List (GLine α) × GState α)
  | [], st => return ([], st)
  | p :: ps, st => do
    let r ← pathToGCode p sett st
    let r' ← pathsLoop sett ps r.2
    return (r.1 ++ r'.1, r'.2)

/-- gcode/cmds.go:187-210 -/
def pathesToGCode (pths : List (Path α)) (comment : String) (sett : GcodeSettings α) (st : GState α) :
    Go (List (GLine α) × GState α) := do
  let sp := printSpeedToGCode st sett
  let r ← pathsLoop sett pths sp.2
  return ([.comment comment] ++ sp.1 ++ r.1, r.2)

/-- gcode/cmds.go:117-130, one layer -/
def layerToGCode (l : Layer α) (sett : GcodeSettings α) (st : GState α) : Go (List (GLine α) × GState α) := do
  let fan := switchFanGCode st sett
  let o ← pathesToGCode l.paths "OUTER_PATHES" sett { fan.2 with isWall := true }
  let m ← pathesToGCode l.middlePs "MIDDLE_PATHES" sett o.2
  let n ← pathesToGCode l.innerPs "INNER_PATHES" sett m.2
  let f ← pathesToGCode l.fill "FILL_PATHES" sett { n.2 with isWall := false }
  let d := decreaseEOff f.2
  return ([.layer st.layerIndex] ++ fan.1 ++ o.1 ++ m.1 ++ n.1 ++ f.1 ++ d.1,
    { d.2 with layerIndex := d.2.layerIndex + 1 })

/-- gcode/cmds.go:116-132 -/
def layersToGCode (sett : GcodeSettings α) : List (Layer α) → GState α → Go (List (GLine α) × GState α)
  | [], st => return ([], st)
  | l :: ls, st => do
    let r ← layerToGCode l sett st
    let r' ← layersToGCode sett ls r.2
    return (r.1 ++ r'.1, r'.2)

/-- the implementations of `Command` (gcode/cmds.go:40, 58, 77-80, 91-93, 112-114) -/
inductive Command (α : Type) where
  | inclineXBack
  | inclineX
  | rotateXZ (angleX angleZ : α)
  | rotateZ (angle : α)
  | layersMoving (layers : List (Layer α))

/-- gcode/cmds.go:43-53, 61-72, 82-86, 95-107, 116-132 -/
def Command.toGCode (c : Command α) (st : GState α) (sett : GcodeSettings α) : Go (List (GLine α) × GState α) :=
  match c with
  | .inclineXBack =>
    .ok ([.park, .tool 2, .setE st.t2 false, .axisLit 0, .setE0 true, .tool 0, .setE st.eOff false],
      { st with t2 := lit 0 0 })
  | .inclineX =>
    .ok ([.park, .tool 2, .setE st.t2 true, .axisLit 60, .setE0 true, .tool 0, .setE st.eOff false],
      { st with t2 := lit 60 0 })
  | .rotateXZ a b => .ok ([.rotXZ a b], st)
  | .rotateZ a =>
    .ok ([.park, .tool 1, .setE st.t1 true, .axisTo a, .setE0 true, .tool 0, .setE st.eOff false],
      { st with t1 := a })
  | .layersMoving ls => layersToGCode sett ls st

/-- gcode/cmds.go:54-56, 73-75, 87-89, 108-110, 134-136 -/
def Command.layersCount : Command α → Nat
  | .layersMoving ls => ls.length
  | _ => 0

/-- gcode/gcode.go:21-24 -/
structure Gcode (α : Type) where
  settings : GcodeSettings α
  cmds : List (Command α)

/-- the loop of gcode/gcode.go:42-44 -/
def cmdsToGCode (sett : GcodeSettings α) : List (Command α) → GState α → Go (List (GLine α) × GState α)
  | [], st => return ([], st)
  | c :: cs, st => do
    let r ← c.toGCode st sett
    let r' ← cmdsToGCode sett cs r.2
    return (r.1 ++ r'.1, r'.2)

namespace Gcode

/-- gcode/gcode.go:26-30 -/
def new (sett : GcodeSettings α) : Gcode α := ⟨sett, []⟩
/-- gcode/gcode.go:32-34 -/
def add (g : Gcode α) (c : Command α) : Gcode α := { g with cmds := g.cmds ++ [c] }
/-- gcode/gcode.go:36-38 -/
def addLayers (g : Gcode α) (ls : List (Layer α)) : Gcode α := g.add (.layersMoving ls)
/-- gcode/gcode.go:40-45 -/
def toOutput (g : Gcode α) : Go (List (GLine α)) := do return (← cmdsToGCode g.settings g.cmds newState).1
/-- gcode/gcode.go:47-53 -/
def layerCount (g : Gcode α) : Nat := g.cmds.foldl (fun c cmd => c + cmd.layersCount) 0
/-- the bytes written to the buffer by gcode/gcode.go:40-45 -/
def text [FltText α] (g : Gcode α) : Go String := do
  return (← g.toOutput).foldl (fun s l => s ++ l.render) ""

end Gcode
end Goosli
