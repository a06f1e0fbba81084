import Verif.Model.Num
import Verif.Model.Prim
/-!
# Model of the package debug: the file with drawings for debugging

The slicers other than `3axes` call `RecreateFile` first and then draw; which shapes they draw is not modelled, the theorems are about every list of
steps. The parsing of data/config.yaml (yaml.v2) is left out: a configuration is given, or its file is missing. The file system is reduced to
the contents of files and to which files may be created and opened for writing; closing a file and partial writes are left out.
-/
set_option autoImplicit false
namespace Goosli
open Flt

/-- debug/config.go:9-12 -/
structure DebugCfg where
  debug : Bool
  debugFile : String
  deriving DecidableEq, Repr

/-- debug/config.go:14-27: without the file, drawing is off and the name is empty -/
def debugConfig (yaml : Option DebugCfg) : DebugCfg :=
  match yaml with
  | none => ⟨false, ""⟩
  | some c => c

/-- data/config.yaml, as shipped -/
def shippedDebugCfg : DebugCfg := ⟨false, "/home/l1va/debug.txt"⟩

/-- the files of a computer: contents (`none`: there is no such file), and the files that can be created (or emptied) and opened for appending -/
structure Disk where
  content : String → Option (List Char)
  canCreate : String → Bool
  canAppend : String → Bool

/-- the disk after the contents of one file have changed -/
def Disk.put (d : Disk) (name : String) (c : Option (List Char)) : Disk :=
  { d with content := fun n => if n = name then c else d.content n }

/-- the errors of `os.Stat` that matter to debug/debug.go:22-25 -/
inductive StatErr where
  | notExist
  | exist
  deriving DecidableEq, Repr

/-- `os.Stat`, debug/debug.go:22: no error if there is such a file -/
def Disk.stat (d : Disk) (name : String) : Option StatErr :=
  match d.content name with
  | some _ => none
  | none => some .notExist

/-- `os.IsExist`, debug/debug.go:25: is it the error that a file exists already (no error is not) -/
def isExist : Option StatErr → Bool
  | some .exist => true
  | _ => false

/-- RecreateFile, debug/debug.go:20-37: errors are only printed -/
def recreateFile (cfg : DebugCfg) (d : Disk) : Disk :=
  let d := if isExist (d.stat cfg.debugFile) then d.put cfg.debugFile none else d
  if d.canCreate cfg.debugFile then d.put cfg.debugFile (some []) else d

/-- the colours, debug/debug.go:10-17 -/
inductive DebugColor where
  | red | blue | green | black
  deriving DecidableEq, Repr

/-- debug/debug.go:13-16 -/
def DebugColor.name : DebugColor → String
  | .red => "Red"
  | .blue => "Blue"
  | .green => "Green"
  | .black => "Black"

/-- the functions that draw, debug/debug.go:39-116 -/
inductive Drawing (α : Type) where
  /-- AddPointsToFile -/
  | points (ps : List (Point α)) (c : DebugColor)
  /-- AddLine -/
  | line (l : Line α) (c : DebugColor)
  /-- AddTriangle -/
  | triangle (t : Triangle α) (c : DebugColor)
  /-- AddTriangleByPoints -/
  | corners (p1 p2 p3 : Point α) (c : DebugColor)
  /-- AddLayer -/
  | layer (paths : List (Path α)) (c : DebugColor)
  /-- AddPath -/
  | path (p : Path α) (c : DebugColor)

section
variable {α : Type} [FltText α]

/-- pointToString, debug/debug.go:118-120 -/
def pointText (a : Point α) : String := FltText.fmt3 a.x ++ " " ++ FltText.fmt3 a.y ++ " " ++ FltText.fmt3 a.z ++ " "

/-- a line, debug/debug.go:43-45, 55-57, 93-95, 108-110 -/
def lineText (c : DebugColor) (a b : Point α) : String := "line " ++ c.name ++ " " ++ pointText a ++ (pointText b ++ "\n")

/-- a triangle, debug/debug.go:66-69, 77-80 -/
def triangleText (c : DebugColor) (p1 p2 p3 : Point α) : String :=
  "triangle " ++ c.name ++ " " ++ pointText p1 ++ pointText p2 ++ (pointText p3 ++ "\n")

/-- the lines between consecutive points, debug/debug.go:42-46, 92-96, 107-111 -/
def runText (c : DebugColor) : List (Point α) → List Char
  | a :: b :: t => (lineText c a b).toList ++ runText c (b :: t)
  | _ => []

/-- the buffer that is written, debug/debug.go:41-46, 54-57, 65-69, 76-80, 90-97, 106-111 -/
def Drawing.text : Drawing α → List Char
  | .points ps c => runText c ps
  | .line l c => (lineText c l.p1 l.p2).toList
  | .triangle t c => (triangleText c t.p1 t.p2 t.p3).toList
  | .corners p1 p2 p3 c => (triangleText c p1 p2 p3).toList
  | .layer paths c => paths.flatMap fun p => runText c p.points
  | .path p c => runText c p.points

/-- AddToFile, primitives/utils.go:35-46: the file is not created, and it panics if it cannot be opened -/
def addToFile (text : List Char) (name : String) (d : Disk) : Go Disk :=
  match d.content name with
  | some old => if d.canAppend name then .ok (d.put name (some (old ++ text))) else .error .panic
  | none => .error .panic

/-- one of the functions that draw, debug/debug.go:39-116 -/
def draw (cfg : DebugCfg) (x : Drawing α) (d : Disk) : Go Disk :=
  if cfg.debug then addToFile x.text cfg.debugFile d else .ok d

/-- what a slicer asks of the package: `RecreateFile` or a drawing -/
inductive DebugStep (α : Type) where
  | recreate
  | draw (x : Drawing α)

/-- one call, debug/debug.go:20-116 -/
def DebugStep.run (cfg : DebugCfg) (s : DebugStep α) (d : Disk) : Go Disk :=
  match s with
  | .recreate => .ok (recreateFile cfg d)
  | .draw x => Goosli.draw cfg x d

/-- the calls of a run, one after the other; a panic ends the program -/
def runDebug (cfg : DebugCfg) : List (DebugStep α) → Disk → Go Disk
  | [], d => .ok d
  | s :: t, d => do runDebug cfg t (← s.run cfg d)

end
end Goosli
