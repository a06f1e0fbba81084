import Verif.Model.FiveAxes
import Verif.Model.Stl
/-!
# Model of slicers/vip

Debug drawing and messages are left out, as in `FiveAxes.lean`. Meshes are not nil (main passes the loaded mesh).
-/
namespace Goosli
open Flt

variable {α : Type} [Flt α]

/-! ## offset_path.go -/

/-- slicers/vip/offset_path.go:18-22: one side of the contour moved sideways; `norm` is already reversed -/
def offsetSide (nozzle : α) (norm : Vec α) (q : Point α × Point α) : Line α :=
  let v := ((norm.cross (Goosli.toVector q.1 q.2)).normalize).mulScalar nozzle
  ⟨q.1.shift v, q.2.shift v⟩

/-- the loop of slicers/vip/offset_path.go:32-42: neighbouring lines are cut at their intersection; `l` is the line in hand, already
cut at its start -/
def trimLines (l : Line α) : List (Line α) → List (Line α)
  | [] => [l]
  | m :: t => match l.intersectLine2 m with
    | some i => ⟨l.p1, i⟩ :: trimLines ⟨i, m.p2⟩ t
    | none => l :: trimLines ⟨l.p2, m.p2⟩ t

/-- slicers/vip/offset_path.go:26-46. In a closed path the first line is appended, cut with the others, and then put in the place of
the first one. -/
def trimmedLines (closed : Bool) (lines : List (Line α)) : List (Line α) :=
  match lines with
  | [] => []
  | l :: t =>
    if closed then
      let ls := trimLines l (t ++ [l])
      match ls.getLast? with
      | some last => last :: ls.dropLast.tail
      | none => []
    else trimLines l t

/-- slicers/vip/offset_path.go:47-56: lines that point backwards after cutting are dropped -/
def keptLines (trimmed lines : List (Line α)) : List (Line α) :=
  ((trimmed.zip lines).filter fun q => q.1.toVector.codirectedWith q.2.toVector).map (·.1)

/-- slicers/vip/offset_path.go:8-89. Lines 58-75 change copies of the lines only and have no effect on the result. -/
def makeOffset (pth : Path α) (nozzle : α) (norm : Vec α) : Option (Path α) :=
  if pth.points.length < 2 then none
  else
    let lines := (adjPairs pth.points).map (offsetSide nozzle norm.reverse)
    match keptLines (trimmedLines pth.isClosed lines) lines with
    | a :: b :: t => some (Path.mk (a.p1 :: (a :: b :: t).map (·.p2))).minimizeLines
    | _ => none

/-! ## utils.go -/

/-- the loop of slicers/vip/utils.go:50-67: at most `n` offsets, each made from the previous one -/
def offsetLoop (nozzle : α) (norm : Vec α) : Nat → Path α → List (Path α)
  | 0, _ => []
  | n + 1, p => match makeOffset p nozzle norm with
    | none => []
    | some q => q :: offsetLoop nozzle norm n q

/-- slicers/vip/utils.go:50-67; the first offset is made whatever the count is -/
def offsetPaths (pth : Path α) (count : Int) (nozzle : α) (norm : Vec α) : List (Path α) :=
  offsetLoop nozzle norm (max count 1).toNat pth

/-- slicers/vip/utils.go:16-25: the walls of one contour -/
def wallsOf (norm : Vec α) (count : Int) (nozzle : α) (pt : Path α) : List (Path α) :=
  if pt.points.length < 2 then [] else offsetPaths pt count nozzle norm

/-- slicers/vip/utils.go:15-27, one layer -/
def addWalls (count : Int) (nozzle : α) (l : Layer α) : Layer α :=
  let offs := l.paths.map (wallsOf l.norm count nozzle)
  { l with
    middlePs := l.middlePs ++ offs.flatMap (·.dropLast)
    innerPs := l.innerPs ++ offs.filterMap (·.getLast?) }

/-- slicers/vip/utils.go:12-30 -/
def prepareLayers (S : Sorter) (layers : List (Layer α)) (sett : Settings α) (planes fullPlanes : List (Plane α)) :
    Go (List (Layer α)) :=
  let count := toInt (sett.wallThickness / sett.gs.lineWidth) - 1
  let layers := if 0 < count then layers.map (addWalls count sett.gs.lineWidth) else layers
  fillLayers S layers planes fullPlanes sett

/-- slicers/vip/utils.go:32-49 -/
def skirtPathes (first : Layer α) (count : Int) (lineWidth : α) : Layer α :=
  if count = 0 then first
  else { first with paths := first.paths.flatMap fun pt =>
    if pt.points.length < 2 then [] else (offsetPaths pt count lineWidth first.norm.reverse).reverse ++ [pt] }

/-! ## analyze.go -/

/-- slicers/vip/analyze.go:13-17 -/
structure AnalyzedPlane (α : Type) where
  plane : Plane α
  tilted : Bool
  rotz : α

/-- the bytes of a text that consists of ASCII characters -/
def asciiBytes (s : String) : Bytes := s.toList.map fun c => UInt8.ofNat c.toNat

/-- slicers/vip/analyze.go:19-21 with primitives/point.go:16-18; the number formats are ASCII -/
def AnalyzedPlane.text [FltText α] (p : AnalyzedPlane α) : Bytes :=
  asciiBytes ("X" ++ FltText.fmt3 p.plane.p.x ++ " Y" ++ FltText.fmt3 p.plane.p.y ++ " Z" ++ FltText.fmt3 p.plane.p.z ++
    " T" ++ (if p.tilted then "true" else "false") ++ " R" ++ FltText.fmt3 p.rotz)

/-- `strconv.ParseBool` with the error ignored (slicers/vip/analyze.go:27): only these spellings give true -/
def parseBool (b : Bytes) : Bool :=
  b ∈ [asciiBytes "1", asciiBytes "t", asciiBytes "T", asciiBytes "TRUE", asciiBytes "true", asciiBytes "True"]

/-- slicers/vip/analyze.go:31-35: the normal of a plane in the file -/
def fileNormal (tilted : Bool) (rotz : α) : Vec α :=
  ((if tilted then axisZ.rotateAbout axisX (-tiltX) else axisZ) : Vec α).rotateAbout axisZ rotz

/-- slicers/vip/analyze.go:23-44. The words are not empty, so `[1:]` cannot fail. -/
def parsePlane [FltText α] (line : Bytes) : Go (AnalyzedPlane α) := do
  let words := fields line
  let tilted := parseBool ((← goAt words 3).drop 1)
  let rotz : α := FltText.parse32 ((← goAt words 4).drop 1)
  let x : α := FltText.parse32 ((← goAt words 0).drop 1)
  let y : α := FltText.parse32 ((← goAt words 1).drop 1)
  let z : α := FltText.parse32 ((← goAt words 2).drop 1)
  return ⟨⟨⟨x, y, z⟩, fileNormal tilted rotz⟩, tilted, rotz⟩

/-- slicers/vip/utils.go:69-86; a file that cannot be opened, and the rest of a file after a line that is too long, are reported and
otherwise ignored -/
def readPlanes [FltText α] (file : Option Bytes) : Go (List (AnalyzedPlane α)) :=
  match file with
  | none => return []
  | some b => (scanLines [] b).1.mapM parsePlane

/-- slicers/vip/analyze.go:61-71: the lowest failing triangle. The flags are those of the current mesh, the triangles those of the
original one. -/
def lowestFail (mesh : Mesh α) (v : Vec α) : Nat → List Bool → Option (Triangle α) → Go (Option (Triangle α))
  | _, [], t => return t
  | i, fail :: rest, t => do
    if fail then
      let t2 ← goAt mesh.triangles i
      if (t2.p1.z <? lit 1 2) && (t2.p2.z <? lit 1 2) && (t2.p3.z <? lit 1 2) then lowestFail mesh v (i + 1) rest t
      else
        let better := match t with
          | none => true
          | some t => t2.minZ v <? t.minZ v
        lowestFail mesh v (i + 1) rest (if better then some t2 else t)
    else lowestFail mesh v (i + 1) rest t

/-- slicers/vip/analyze.go:75-87: the lowest vertex of a triangle in direction `v` -/
def lowestVertex (t : Triangle α) (v : Vec α) : Point α :=
  let pr1 := t.p1.toVector.dot v
  let pr2 := t.p2.toVector.dot v
  let pr3 := t.p3.toVector.dot v
  let (p, m) := if pr2 <? pr1 then (t.p2, pr2) else (t.p1, pr1)
  if pr3 <? m then t.p3 else p

/-- slicers/vip/analyze.go:89-98: the next plane -/
def nextPlane (cur : AnalyzedPlane α) (t : Triangle α) : AnalyzedPlane α :=
  let p := lowestVertex t cur.plane.n
  if cur.tilted then ⟨⟨p, axisZ⟩, false, lit 0 0⟩
  else
    let a := t.n.projectOnPlane planeXY
    let angle := a.angle axisX - lit 90 0
    let b := a.rotate (rotationAroundZ (lit 90 0))
    ⟨⟨p, a.rotateAbout b (lit 90 0 - tiltX)⟩, true, angle⟩

/-- the loop of slicers/vip/analyze.go:54-112; `ans` are the planes found so far, `cur` the last of them -/
def analyzeLoop (S : Sorter) (mesh : Mesh α) (angle : α) : Nat → List (AnalyzedPlane α) → AnalyzedPlane α → Mesh α →
    Go (List (AnalyzedPlane α))
  | 0, _, _, _ => .error .diverges
  | k + 1, ans, cur, curMesh => do
    if 5 < ans.length ∨ curMesh.triangles.length = 0 then return ans
    match ← lowestFail mesh cur.plane.n 0 (colorizeTriangles curMesh angle cur.plane.n) none with
    | none => return ans
    | some t => do
      let next := nextPlane cur t
      let up := (← cutMesh S (some curMesh) next.plane).1
      analyzeLoop S mesh angle k (ans ++ [next]) next up

/-- slicers/vip/analyze.go:47-113. Seven rounds are enough, see `C51`. -/
def analyze (S : Sorter) (mesh : Mesh α) (angle : α) : Go (List (AnalyzedPlane α)) :=
  analyzeLoop S mesh angle 7 [] ⟨planeXY, false, lit 0 0⟩ mesh

/-! ## slice_by_planes.go -/

/-- slicers/vip/slice_by_planes.go:24-32: cut from the last plane to the first; the parts in order, the lowest first -/
def cutParts (S : Sorter) (mesh : Mesh α) : List (AnalyzedPlane α) → Go (List (Mesh α))
  | [] => return [mesh]
  | p :: ps => do
    -- the planes behind `p` are used before it
    match ← cutParts S mesh ps with
    | [] => return []
    | low :: rest => do
      let (up, down) ← cutMesh S (some low) p.plane
      return down :: up :: rest

/-- slicers/vip/slice_by_planes.go:12-15, 64-70: tilt and turn of the bed for each part -/
def calcBedPlanes (cutPlanes : List (AnalyzedPlane α)) : List (Bool × α) := (false, lit 0 0) :: cutPlanes.map fun p => (p.tilted, p.rotz)

/-- slicers/vip/slice_by_planes.go:36-49: part number `i` is turned and tilted with the bed -/
def turnPart (center : Point α) (i : Nat) (bed : Bool × α) (m : Mesh α) : Mesh α :=
  let m := if i ≠ 0 then m.rotate (rotationAroundZ bed.2) center else m
  if bed.1 then m.rotate (rotationAroundX (-tiltX)) center else m

/-- slicers/vip/slice_by_planes.go:36-49: the commands that turn and tilt the bed before part number `i` -/
def bedCommands (i : Nat) (bed : Bool × α) (rotated : Bool) (g : Gcode α) : Gcode α :=
  let g := if i ≠ 0 then g.add (.rotateZ bed.2) else g
  if bed.1 then g.add .inclineX else if rotated then g.add .inclineXBack else g

/-- slicers/vip/slice_by_planes.go:54-56 -/
def skirtFirst (sett : Settings α) : List (Layer α) → List (Layer α)
  | [] => []
  | l :: t => skirtPathes l sett.skirtLineCount sett.gs.lineWidth :: t

/-- slicers/vip/slice_by_planes.go:36-59, the parts from number `i` on -/
def partsLoop (S : Sorter) (A : Arrival α) (sett : Settings α) (fp : List (Plane α) × List (Plane α)) :
    Nat → List ((Bool × α) × Mesh α) → Bool → Gcode α → Go (Gcode α)
  | _, [], _, g => return g
  | i, (bed, m) :: rest, rotated, g => do
    let g := bedCommands i bed rotated g
    let layers ← sliceByVector S A (some (turnPart sett.rotationCenter i bed m)) axisZ sett
    let filled ← prepareLayers S layers sett fp.1 fp.2
    partsLoop S A sett fp (i + 1) rest bed.1 (g.addLayers (if i = 0 then skirtFirst sett filled else filled))

/-- slicers/vip/slice_by_planes.go:17-62 -/
def sliceByPlanes (S : Sorter) (A : Arrival α) (mesh : Mesh α) (sett : Settings α) (cutPlanes : List (AnalyzedPlane α)) :
    Go (Gcode α) := do
  let fp := calcFillPlanes mesh sett
  let parts ← cutParts S mesh cutPlanes
  partsLoop S A sett fp 0 ((calcBedPlanes cutPlanes).zip parts) false (Gcode.new sett.gs)

/-! ## slice_bridge.go, slice_rotation.go, slice_default.go, slice_main.go -/

/-- slicers/vip/slice_bridge.go:126-141 -/
def outsidePathes : List (Path α) → Go (List (Path α))
  | [] => return []
  | pth :: rest => do
    let c ← findCentroid pth
    let r ← outsidePathes rest
    return if looksLikeHole pth c then r else pth :: r

/-- slicers/vip/slice_bridge.go:117-125 -/
def twoOutsidePathes (l : Layer α) : Go (Path α × Path α) := do
  let all ← outsidePathes l.paths
  return (← goAt all 0, ← goAt all 1)

/-- slicers/vip/slice_bridge.go:88-100, 102-113: the overhang of one leg; the two legs have the centroids `c1` and `c2` -/
def legFails (plane : Plane α) (p prev : Path α) (c1 c2 : Point α) : Go (Option (Plane α)) := do
  let ip ← plane.intersectPathCodirectedWith p (c1.vectorTo c2)
  let pip ← plane.intersectPathCodirectedWith prev (c1.vectorTo c2)
  match ip, pip with
  | some a, some b =>
    if failAngle <? axisZ.angle (b.vectorTo a) then
      return some ⟨b, tiltedNormal (axisX.angle (c1.vectorTo c2) + lit 90 0)⟩
    else return none
  | _, _ => return none

/-- slicers/vip/slice_bridge.go:74-116 -/
def failExistBridge (prevLayer curLayer : Layer α) : Go (Option (Plane α)) := do
  let (prevP1, prevP2) ← twoOutsidePathes prevLayer
  let (p1, p2) ← twoOutsidePathes curLayer
  let prevCp1 ← findCentroid prevP1
  let cp1 ← findCentroid p1
  let cp2 ← findCentroid p2
  let swap := prevCp1.distanceTo cp2 <? prevCp1.distanceTo cp1
  let (p1, p2) := if swap then (p2, p1) else (p1, p2)
  let (cp1, cp2) := if swap then (cp2, cp1) else (cp1, cp2)
  let plane : Plane α := ⟨cp1, (cp1.vectorTo cp2).cross axisZ⟩
  match ← legFails plane p1 prevP1 cp1 cp2 with
  | some pl => return some pl
  | none => legFails plane p2 prevP2 cp2 cp1

/-- the scan of slicers/vip/slice_bridge.go:19-33: the number of the first layer that overhangs and the plane to cut with, or the
number of layers -/
def bridgeLevel (i : Nat) : List (Layer α × Layer α) → Go (Nat × Option (Plane α))
  | [] => return (i, none)
  | (a, b) :: t => do
    match ← failExistBridge a b with
    | some pl => return (i, some pl)
    | none => bridgeLevel (i + 1) t

/-- slicers/vip/slice_bridge.go:19-33 -/
def bridgeScan (layers : List (Layer α)) : Go (Nat × Option (Plane α)) :=
  match layers with
  | [] => return (0, none)
  | _ :: _ => bridgeLevel 1 (adjPairs layers)

/-- slicers/vip/slice_bridge.go:12-72. If no layer overhangs, `layers[i]` is out of range. -/
def sliceBridge (S : Sorter) (A : Arrival α) (mesh : Mesh α) (sett : Settings α) (layers : List (Layer α)) : Go (Gcode α) := do
  let fp := calcFillPlanes mesh sett
  let (i, newPlane) ← bridgeScan layers
  let g := (Gcode.new sett.gs).addLayers (← prepareLayers S (layers.take i) sett fp.1 fp.2)
  let anyPath ← goAt (← goAt layers i).paths 0
  let anyPoint ← goAt anyPath.points 0
  match newPlane with
  | none => .error .panic
  | some pl => do
    let up := (← cutMesh S (some mesh) ⟨anyPoint, axisZ⟩).1
    let (up, down) ← cutMesh S (some up) pl
    let leg ← sliceByVector S A (some down) axisZ sett
    let g := g.addLayers (← prepareLayers S leg sett fp.1 fp.2)
    let angleZ := directionZ pl.n
    let up := turnMesh angleZ tiltX up
    let g := (g.add (.rotateZ angleZ)).add .inclineX
    let turn (p : Plane α) := (p.rotate (rotationAroundZ angleZ)).rotate (rotationAroundX tiltX)
    let rest ← sliceByVector S A (some up) axisZ sett
    let g := g.addLayers (← prepareLayers S rest sett (fp.1.map turn) (fp.2.map turn))
    return (g.add .inclineXBack).add (.rotateZ (lit 0 0))

/-- slicers/vip/slice_rotation.go:59-94 -/
def failRotation (prevLayer curLayer : Layer α) : Go Bool := do
  let prev ← goAt prevLayer.paths 0
  let anyP ← goAt prev.points 0
  let cp ← findCentroid prev
  let plane : Plane α := ⟨anyP, (cp.vectorTo anyP).cross axisZ⟩
  let cur ← goAt curLayer.paths 0
  match ← plane.intersectPathCodirectedWith cur (cp.vectorTo anyP) with
  | none => return false
  | some q =>
    if failAngle <? axisZ.angle (anyP.vectorTo q) then return !(cp.distanceTo q <? cp.distanceTo anyP)
    else return false

/-- the scan of slicers/vip/slice_rotation.go:21-31 -/
def rotationLevel (i : Nat) : List (Layer α × Layer α) → Go Nat
  | [] => return i
  | (a, b) :: t => do
    if ← failRotation a b then return i else rotationLevel (i + 1) t

/-- slicers/vip/slice_rotation.go:21-31 -/
def rotationScan (layers : List (Layer α)) : Go Nat :=
  match layers with
  | [] => return 0
  | _ :: _ => rotationLevel 1 (adjPairs layers)

/-- slicers/vip/slice_rotation.go:12-57. If no layer overhangs, `layers[i]` is out of range. -/
def sliceRotation (S : Sorter) (A : Arrival α) (mesh : Mesh α) (sett : Settings α) (layers : List (Layer α)) : Go (Gcode α) := do
  let fp := calcFillPlanes mesh sett
  let i ← rotationScan layers
  let g := (Gcode.new sett.gs).addLayers (← prepareLayers S (layers.take i) sett fp.1 fp.2)
  let anyPath ← goAt (← goAt layers i).paths 0
  let anyPoint ← goAt anyPath.points 0
  let up := (← cutMesh S (some mesh) ⟨anyPoint, axisZ⟩).1
  let up := up.rotate (rotationAroundX tiltX) originPoint
  let turn (p : Plane α) := p.rotate (rotationAroundX tiltX)
  let rest ← sliceByVector S A (some up) (axisZ.rotate (rotationAroundX tiltX)) sett
  let g := (g.add .inclineX).addLayers (← prepareLayers S rest sett (fp.1.map turn) (fp.2.map turn))
  return g.add .inclineXBack

/-- what the loop of slicers/vip/slice_default.go:37-92 carries -/
structure DefaultSt (α : Type) where
  mesh : Mesh α
  layers : List (Layer α)
  rotated : Bool
  angleZ : α
  planes : List (Plane α)
  fullPlanes : List (Plane α)
  gcd : Gcode α

/-- slicers/vip/slice_default.go:47-90: cut, print the lower part, turn the bed, slice again -/
def defaultTurn (S : Sorter) (A : Arrival α) (sett : Settings α) (st : DefaultSt α) (pl : Plane α) : Go (DefaultSt α) := do
  let (mesh, down) ← cutMesh S (some st.mesh) pl
  let add ← sliceByVector S A (some down) axisZ sett
  let g := st.gcd.addLayers (← prepareLayers S add sett st.planes st.fullPlanes)
  let st' : DefaultSt α :=
    if st.rotated then
      let turn (p : Plane α) := (p.rotate (rotationAroundX (-tiltX))).rotate (rotationAroundZ (-st.angleZ))
      { st with
        mesh := turnMeshBack st.angleZ tiltX mesh
        gcd := (g.add .inclineXBack).add (.rotateZ (lit 0 0))
        rotated := false, planes := st.planes.map turn, fullPlanes := st.fullPlanes.map turn }
    else
      let angleZ := directionZ pl.n
      let turn (p : Plane α) := (p.rotate (rotationAroundZ angleZ)).rotate (rotationAroundX tiltX)
      { st with
        mesh := turnMesh angleZ tiltX mesh
        gcd := (g.add (.rotateZ angleZ)).add .inclineX
        rotated := true, angleZ := angleZ, planes := st.planes.map turn, fullPlanes := st.fullPlanes.map turn }
  let layers ← sliceByVector S A (some st'.mesh) axisZ sett
  return { st' with layers := layers }

/-- slicers/vip/slice_default.go:37-92 -/
def defaultLoop (S : Sorter) (A : Arrival α) (sett : Settings α) : Nat → DefaultSt α → Go (Gcode α)
  | 0, _ => .error .diverges
  | k + 1, st => do
    match ← firstFail 1 (adjPairs st.layers) with
    | none =>
      if 2 ≤ st.layers.length then return st.gcd.addLayers (← prepareLayers S st.layers sett st.planes st.fullPlanes)
      else return st.gcd
    | some (_, pl) => do
      let st ← defaultTurn S A sett st pl
      defaultLoop S A sett k st

/-- slicers/vip/slice_default.go:12-95; `fuel` bounds the number of bed turns -/
def sliceDefault2 (S : Sorter) (A : Arrival α) (fuel : Nat) (mesh : Mesh α) (sett : Settings α) (layers : List (Layer α)) : Go (Gcode α) :=
  let fp := calcFillPlanes mesh sett
  defaultLoop S A sett fuel ⟨mesh, layers, false, lit 0 0, fp.1, fp.2, Gcode.new sett.gs⟩

/-- slicers/vip/slice_main.go:45-58 -/
def isRotation (pth : Path α) : Go Bool := do
  let cp ← findCentroid pth
  let d := cp.distanceTo (← goAt pth.points 0)
  if pth.points.length < 14 then return false
  else return pth.points.tail.all fun p =>
    !((cp.distanceTo p <? d - lit 5 1) || (d + lit 5 1 <? cp.distanceTo p))

/-- slicers/vip/slice_main.go:21-43; `planes` is the content of the planes file -/
def vipSlice [FltText α] (S : Sorter) (A : Arrival α) (fuel : Nat) (planes : Option Bytes) (mesh : Mesh α) (sett : Settings α) :
    Go (Gcode α) := do
  let ps ← readPlanes planes
  if !ps.isEmpty then sliceByPlanes S A mesh sett ps
  else
    let layers ← sliceByVector S A (some mesh) axisZ sett
    let op ← outsidePathes (← goAt layers 0).paths
    if op.length = 2 then sliceBridge S A mesh sett layers
    else
      let p0 ← goAt op 0
      if op.length = 1 ∧ (← isRotation p0) = true then
        let top ← outsidePathes (← goLast layers).paths
        let q0 ← goAt top 0
        if top.length = 1 ∧ (← isRotation q0) = true then sliceRotation S A mesh sett layers
        else sliceDefault2 S A fuel mesh sett layers
      else sliceDefault2 S A fuel mesh sett layers

end Goosli
