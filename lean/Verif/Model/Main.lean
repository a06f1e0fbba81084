import Verif.Model.Vip
import Verif.Model.Template
/-!
# Model of the five programs in cmd/

A program is a function of its flags, of what the files it opens contain (`none`: the file cannot be opened) and of which files it
may create. Its `Outcome` lists the files it wrote completely, in the order of writing, and how it ended: normally, or with the
panic or `log.Fatal` of the error. The parsing of the command line (kingpin) and messages are left out; `int` flags are unbounded
integers here.
-/
namespace Goosli
open Flt

/-- what a run of a program leaves: the files written, oldest first, and its end -/
structure Outcome (κ : Type) where
  files : List (String × κ)
  status : Go Unit

/-- cmd/goosli/goosli.go:128-132, cmd/goosli_cutter/goosli_cutter.go:36-44, cmd/goosli_simplifier/goosli_simplifier.go:30-33: files are
written one after the other, a file that cannot be written ends the program with `log.Fatal` -/
def writeFiles {κ : Type} (canWrite : String → Bool) : List (String × κ) → Outcome κ
  | [] => ⟨[], .ok ()⟩
  | f :: fs =>
    if canWrite f.1 then
      let o := writeFiles canWrite fs
      ⟨f :: o.files, o.status⟩
    else ⟨[], .error .fatal⟩

/-- the program computes the files to write and writes them; a failure of the computation leaves nothing written -/
def finish {κ : Type} (canWrite : String → Bool) (fs : Go (List (String × κ))) : Outcome κ :=
  match fs with
  | .error e => ⟨[], .error e⟩
  | .ok fs => writeFiles canWrite fs

variable {α : Type} [Flt α]

/-- cmd/goosli/goosli.go:104-107 and the same lines of the other programs: `log.Fatal` if the file cannot be read as STL -/
def loadMesh [FltBits α] [FltText α] (file : Option Bytes) : Go (Mesh α) := do
  match file with
  | none => .error .fatal
  | some b =>
    match ← loadSTL b with
    | (some m, none) => return m
    | _ => .error .fatal

/-! ## cmd/goosli_cutter -/

/-- cmd/goosli_cutter/goosli_cutter.go:11-20 -/
structure CutterFlags (α : Type) where
  stl : String
  out1 : String
  out2 : String
  point : Point α
  normal : Vec α

/-- cmd/goosli_cutter/goosli_cutter.go:22-45 -/
def runCutter [FltBits α] [FltText α] (S : Sorter) (read : String → Option Bytes) (canWrite : String → Bool) (fl : CutterFlags α) : Outcome Bytes :=
  finish canWrite do
    let mesh : Mesh α ← loadMesh (read fl.stl)
    let (up, down) ← cutMesh S (some mesh) ⟨fl.point, fl.normal⟩
    return [(fl.out1, saveSTL up), (fl.out2, saveSTL down)]

/-! ## cmd/goosli_simplifier -/

/-- cmd/goosli_simplifier/goosli_simplifier.go:10-14 -/
structure SimplifierFlags where
  stl : String
  out : String
  triangles : Int

/-- cmd/goosli_simplifier/goosli_simplifier.go:16-35; `simplify` is fogleman/simplify -/
def runSimplifier [FltBits α] [FltText α] (simplify : List (STri α) → α → List (STri α)) (read : String → Option Bytes) (canWrite : String → Bool)
    (fl : SimplifierFlags) : Outcome Bytes :=
  finish canWrite do
    let mesh : Mesh α ← loadMesh (read fl.stl)
    match simplifyMesh simplify (some mesh) fl.triangles with
    | none => .error .fatal
    | some m => return [(fl.out, saveSTL m)]

/-! ## cmd/goosli_colorizer -/

/-- cmd/goosli_colorizer/goosli_colorizer.go:13-21 -/
structure ColorizerFlags (α : Type) where
  stl : String
  out : String
  angle : α
  normal : Vec α

/-- `binary.Write` of a `[]bool` (cmd/goosli_colorizer/goosli_colorizer.go:42): one byte each, 1 for true -/
def boolBytes (l : List Bool) : Bytes := l.map fun b => if b then 1 else 0

/-- cmd/goosli_colorizer/goosli_colorizer.go:23-48 -/
def runColorizer [FltBits α] [FltText α] (read : String → Option Bytes) (canWrite : String → Bool) (fl : ColorizerFlags α) : Outcome Bytes :=
  finish canWrite do
    let mesh : Mesh α ← loadMesh (read fl.stl)
    return [(fl.out, boolBytes (colorizeTriangles mesh fl.angle fl.normal))]

/-! ## cmd/goosli_analyzer -/

/-- cmd/goosli_analyzer/goosli_analyzer.go:13-24 -/
structure AnalyzerFlags (α : Type) where
  stl : String
  out : String
  angle : α
  origin : Vec α
  rotationCenter : Point α

/-- cmd/goosli_analyzer/goosli_analyzer.go:38-40: one plane per line -/
def planesText [FltText α] (ps : List (AnalyzedPlane α)) : Bytes := ps.flatMap fun p => p.text ++ [10]

/-- `mesh.Shift(v)` on a mesh that is not nil, cmd/goosli/goosli.go:109, cmd/goosli_analyzer/goosli_analyzer.go:34 -/
def shiftLoaded (m : Mesh α) (v : Vec α) : Mesh α := (Mesh.shift (some m) v).getD m

/-- cmd/goosli_analyzer/goosli_analyzer.go:26-49 -/
def runAnalyzer [FltBits α] [FltText α] (S : Sorter) (read : String → Option Bytes) (canWrite : String → Bool) (fl : AnalyzerFlags α) :
    Outcome Bytes :=
  finish canWrite do
    let mesh : Mesh α ← loadMesh (read fl.stl)
    let planes ← analyze S (shiftLoaded mesh fl.origin) fl.angle
    return [(fl.out, planesText planes)]

/-! ## cmd/goosli -/

/-- cmd/goosli/goosli.go:16-58 -/
structure GoosliFlags (α : Type) where
  stl : String
  out : String
  origin : Vec α
  rotationCenter : Point α
  epsilon : α
  layerHeight : α
  wallThickness : α
  fillDensity : Int
  topLayers : Int
  bottomLayers : Int
  bedTemperature : Int
  extruderTemperature : Int
  printSpeed : Int
  printSpeedLayer1 : Int
  printSpeedWall : Int
  fanOffLayer1 : Bool
  lineWidth : α
  fillingType : String
  retraction : Bool
  retractionSpeed : Int
  retractionDistance : α
  planesFile : String
  slicingType : String
  angle : α
  normal : Vec α
  supportsOn : Bool
  supportOffset : α
  barDiameter : α
  flow : α
  skirtLineCount : Int

/-- cmd/goosli/goosli.go:62-76 -/
def GoosliFlags.gcodeSettings (fl : GoosliFlags α) : GcodeSettings α where
  barDiameter := fl.barDiameter
  flow := fl.flow
  layerHeight := fl.layerHeight
  lineWidth := fl.lineWidth
  fanOffLayer1 := fl.fanOffLayer1
  printSpeed := fl.printSpeed * 60
  printSpeedLayer1 := fl.printSpeedLayer1 * 60
  printSpeedWall := fl.printSpeedWall * 60
  retraction := fl.retraction
  retractionSpeed := fl.retractionSpeed
  retractionDistance := fl.retractionDistance

/-- cmd/goosli/goosli.go:77-98, the fields used by the slicers -/
def GoosliFlags.settings (fl : GoosliFlags α) : Settings α where
  gs := fl.gcodeSettings
  epsilon := fl.epsilon
  layerHeight := fl.layerHeight
  wallThickness := fl.wallThickness
  fillDensity := fl.fillDensity
  rotationCenter := fl.rotationCenter
  fillingType := fl.fillingType
  colorizedAngle := fl.angle
  unitVector := fl.normal
  supportsOn := fl.supportsOn
  supportOffset := fl.supportOffset
  topLayers := fl.topLayers
  bottomLayers := fl.bottomLayers
  skirtLineCount := fl.skirtLineCount

/-- cmd/goosli/goosli.go:77-98, the fields used by the templates; `now` is `time.Now().Format(time.RFC822)` -/
def GoosliFlags.info (fl : GoosliFlags α) (now : String) : PrintInfo := ⟨now, fl.bedTemperature, fl.extruderTemperature, 0⟩

/-- cmd/goosli/goosli.go:115-125: the choice of the slicer. `fuel` bounds the loops of the slicers that may not end. -/
def sliceAs [FltText α] (S : Sorter) (A : Arrival α) (simplify : List (STri α) → α → List (STri α)) (fuel : Nat)
    (planes : Option Bytes) (type : String) (mesh : Mesh α) (sett : Settings α) : Go (Gcode α) :=
  if type = "3axes" then sliceByVectorToGcode S A mesh axisZ sett
  else if type = "5axes_by_profile" then sliceByProfile S A fuel mesh sett
  else if type = "5axes" then slice5Axes S A simplify fuel mesh sett
  else if type = "vip" then vipSlice S A fuel planes mesh sett
  else .error .fatal

/-- what a run of `goosli` depends on besides its flags and the files -/
structure Machine (α : Type) where
  /-- `sort.Slice` -/
  sorter : Sorter
  /-- the order in which the layers come from the workers -/
  arrival : Arrival α
  /-- the order in which the loops over maps meet their entries -/
  maps : MapOrder (List Char × List Char)
  /-- fogleman/simplify -/
  simplify : List (STri α) → α → List (STri α)

/-- cmd/goosli/goosli.go:100-133. `read` gives the binary files, `template` the two template files; both may be missing. -/
def runGoosli [FltBits α] [FltText α] (M : Machine α) (fuel : Nat) (read : String → Option Bytes) (template : String → Option (List Char))
    (canWrite : String → Bool) (now : String) (fl : GoosliFlags α) : Outcome (List Char) :=
  finish canWrite do
    let mesh : Mesh α ← loadMesh (read fl.stl)
    let g ← sliceAs M.sorter M.arrival M.simplify fuel (read fl.planesFile) fl.slicingType (shiftLoaded mesh fl.origin) fl.settings
    let text ← commandsWithTemplates (template "data/header_template.txt") (template "data/footer_template.txt") M.maps g fl.settings
      (fl.info now)
    return [(fl.out, text)]

end Goosli
