import Verif.Model.Fill
/-!
# Model of slicers/slice_5axes.go and slicers/slice_by_profile.go

The debug drawing (package `debug`) and the progress messages are left out: they return nothing the slicer reads.
-/
namespace Goosli
open Flt

variable {α : Type} [Flt α]

/-- slicers/slice_5axes.go:13, vip/slice_main.go has the same tilt and threshold (13-16): distance of the probed directions -/
def angleDist : Int := 10
/-- slicers/slice_5axes.go:14 -/
def angleFull : Int := 360
/-- slicers/slice_5axes.go:15 -/
def angleCount : Nat := 36
/-- slicers/slice_5axes.go:16, vip/slice_main.go:15 -/
def tiltX : α := lit 60 0
/-- slicers/slice_5axes.go:17, vip/slice_main.go:16 -/
def failAngle : α := lit 40 0

/-- slicers/slice_5axes.go:141-147, 210-216, vip/slice_bridge.go:131-137: the test by which a path is taken for a hole; `c` is its
centroid -/
def looksLikeHole (pth : Path α) (c : Point α) : Bool :=
  match pth.points with
  | p1 :: p2 :: _ => ((p1.vectorTo p2).cross axisZ).codirectedWith (c.vectorTo p1)
  | _ => false

/-- slicers/slice_5axes.go:207-222 -/
def findPrevPath (p : Point α) : List (Path α) → Go (Option (Path α))
  | [] => return none
  | pth :: rest => do
    let c ← findCentroid pth
    if looksLikeHole pth c then findPrevPath p rest
    else if p.inside pth then return some pth
    else findPrevPath p rest

/-- the loop of slicers/slice_5axes.go:227-230: numbers too far below the last one are moved one turn up. `last` is the last
number; the loop fails when it runs past the end of the slice. -/
def raiseRing (last big : α) : List α → Go (List α)
  | [] => .error .index
  | [a] => if big / lit 2 0 <? last - a then .error .index else .ok [a]
  | a :: b :: t => if big / lit 2 0 <? last - a then do
      let r ← raiseRing last big (b :: t)
      return (a + big) :: r
    else .ok (a :: b :: t)

/-- slicers/slice_5axes.go:224-236. Go's `%` truncates. -/
def middleOnTheRing (arr : List α) (biggest : Int) : Go Int := do
  let last ← goLast arr
  let arr ← raiseRing last (ofInt biggest) arr
  let sum := arr.foldl (· + ·) (lit 0 0)
  if biggest = 0 then .error .divZero
  else return (toInt (sum / ofInt arr.length)).tmod biggest

/-- the loop of slicers/slice_5axes.go:168-180: the probed directions (degrees) in which the contour overhangs the one below; `k`
directions are left, `j` is the number of the next one and `x` its unit vector -/
def failingAngles (cur : Path α) (prev : Path α) (c : Point α) : Nat → Int → Vec α → Go (List α)
  | 0, _, _ => return []
  | k + 1, j, x => do
    let pl : Plane α := ⟨c, x.cross axisZ⟩
    let hit ← match ← pl.intersectPathCodirectedWith cur x with
      | none => pure false
      | some curPi => do
        match ← pl.intersectPathCodirectedWith prev x with
        | none => pure false
        | some prevPi => pure (failAngle <? axisZ.angle (prevPi.vectorTo curPi))
    let rest ← failingAngles cur prev c k (j + 1) (x.rotate (rotationAroundZ (ofInt angleDist)))
    return if hit then ofInt (j * angleDist) :: rest else rest

/-- slicers/slice_5axes.go:162, 193, vip/slice_bridge.go:97, 110: the tilted normal -/
def tiltedNormal (angleZ : α) : Vec α := (axisZ.rotate (rotationAroundX tiltX)).rotate (rotationAroundZ angleZ)

/-- slicers/slice_by_profile.go:41-42, slice_5axes.go:118-121, vip/slice_bridge.go:52-53, vip/slice_default.go:74-75: the mesh is turned
about the z axis and then tilted about the x axis, both through the origin -/
def turnMesh (angleZ angleX : α) (m : Mesh α) : Mesh α :=
  (m.rotate (rotationAroundZ angleZ) originPoint).rotate (rotationAroundX angleX) originPoint

/-- slicers/slice_5axes.go:109-112, vip/slice_default.go:57-58: the turn back -/
def turnMeshBack (angleZ angleX : α) (m : Mesh α) : Mesh α :=
  (m.rotate (rotationAroundX (-angleX)) originPoint).rotate (rotationAroundZ (-angleZ)) originPoint

/-- slicers/slice_by_profile.go:37, slice_5axes.go:116, vip/slice_bridge.go:51, vip/slice_default.go:72: the turn about the z axis for
the direction `v` -/
def directionZ (v : Vec α) : α := (v.projectOnPlane planeXY).angle axisX + lit 90 0

/-- slicers/slice_5axes.go:150-198, one path of the current layer that is not a hole; `c` is its centroid -/
def pathFails (prevLayer : Layer α) (pth : Path α) (c : Point α) : Go (Option (Plane α)) := do
  match ← findPrevPath c prevLayer.paths with
  | none =>
    match prevLayer.paths with
    | [] => return none
    | prev :: _ => do
      let pc ← findCentroid prev
      let v := (pc.vectorTo c).projectOnPlane planeXY
      let pl : Plane α := ⟨pc, v.cross axisZ⟩
      match ← pl.intersectPathCodirectedWith prev v with
      | none => return none
      | some i => return some ⟨i, tiltedNormal ((pc.vectorTo i).angle axisX + lit 90 0)⟩
  | some prev => do
    let fails ← failingAngles pth prev c angleCount 0 axisX
    if fails.isEmpty then return none
    let angleZ : α := ofInt (← middleOnTheRing fails angleFull)
    let v := axisX.rotate (rotationAroundZ angleZ)
    let pl : Plane α := ⟨c, v.cross axisZ⟩
    match ← pl.intersectPathCodirectedWith prev v with
    | none => return none
    | some i => return some ⟨i, tiltedNormal (angleZ + lit 90 0)⟩

/-- slicers/slice_5axes.go:136-201 -/
def calculateFails (prevLayer : Layer α) : List (Path α) → Go (Option (Plane α))
  | [] => return none
  | pth :: rest => do
    let c ← findCentroid pth
    if looksLikeHole pth c then calculateFails prevLayer rest
    else match ← pathFails prevLayer pth c with
      | some pl => return some pl
      | none => calculateFails prevLayer rest

/-- the scan of slicers/slice_5axes.go:45-53 and vip/slice_default.go:37-42 for the first layer that overhangs the one below it:
its number and the plane to cut with; `i` is the number of the second layer of the first pair -/
def firstFail (i : Nat) : List (Layer α × Layer α) → Go (Option (Nat × Plane α))
  | [] => return none
  | (a, b) :: t => do
    match ← calculateFails a b.paths with
    | some pl => return some (i, pl)
    | none => firstFail (i + 1) t

/-- slicers/slice_by_profile.go:58-72 (and vip/slice_default.go:185-199) -/
def calculateCenter (layer : Layer α) : Go (Point α) := do
  let cs ← layer.paths.mapM findCentroid
  let s := cs.foldl (fun s c => (s.1 + c.x, s.2.1 + c.y, s.2.2 + c.z)) ((lit 0 0 : α), (lit 0 0 : α), (lit 0 0 : α))
  if cs.isEmpty then return originPoint
  else
    let n : α := ofInt cs.length
    return ⟨s.1 / n, s.2.1 / n, s.2.2 / n⟩

/-- slicers/slice_by_profile.go:50-56 -/
def calculateCenters (layers : List (Layer α)) : Go (List (Point α)) := layers.mapM calculateCenter

/-- slicers/slice_by_profile.go:28-36: what is left and what is printed next; the last part is not cut -/
def profileCut (S : Sorter) (up : Mesh α) (b : Point α) (last : Bool) : Go (Mesh α × Mesh α) :=
  if last then return (up, up) else cutMesh S (some up) ⟨b, axisZ⟩

/-- the loop of slicers/slice_by_profile.go:26-47 over the pairs of neighbouring points of the simplified profile -/
def profileLoop (S : Sorter) (A : Arrival α) (sett : Settings α) : List (Point α × Point α) → Mesh α → Gcode α → Go (Gcode α)
  | [], _, g => return g
  | (a, b) :: t, up, g => do
    let v := a.vectorTo b
    let (up, down) ← profileCut S up b t.isEmpty
    let angleZ := directionZ v
    let angleX := v.angle axisZ
    let layers ← sliceByVector S A (some (turnMesh angleZ angleX down)) axisZ sett
    profileLoop S A sett t up ((g.add (.rotateXZ angleX angleZ)).addLayers layers)

/-- slicers/slice_by_profile.go:12-49 (non-nil mesh). `fuel` bounds the recursion of `SimplifyLine`. -/
def sliceByProfile (S : Sorter) (A : Arrival α) (fuel : Nat) (mesh : Mesh α) (sett : Settings α) : Go (Gcode α) := do
  let layers ← sliceByVector S A (some mesh) axisZ sett
  let centers ← calculateCenters layers
  let simplified ← simplifyLine fuel centers sett.epsilon
  profileLoop S A sett (adjPairs simplified) mesh (Gcode.new sett.gs)

/-- what the loop of slicers/slice_5axes.go:45-131 carries -/
structure FiveSt (α : Type) where
  simp : Mesh α
  mesh : Mesh α
  layers : List (Layer α)
  toAdd : List (Layer α)
  rotated : Bool
  angleZ : α
  gcd : Gcode α

/-- `l[:i]` with Go's bounds check. (Go compares `i` with the capacity, not the length; for `len(l) < i <= cap(l)` it would show
stale elements where this model fails.) -/
def goTake {β : Type} (l : List β) (i : Nat) : Go (List β) := if i ≤ l.length then .ok (l.take i) else .error .slice

/-- slicers/slice_5axes.go:58-129: the program so far ends at layer `i`, the rest is cut with `pl` and the bed is turned -/
def fiveTurn (S : Sorter) (A : Arrival α) (sett : Settings α) (st : FiveSt α) (i : Nat) (pl : Plane α) : Go (FiveSt α) := do
  let g := st.gcd.addLayers (← goTake st.toAdd i)
  let curP ← calculateCenter (← goAt st.layers i)
  let simp := (← cutMesh S (some st.simp) ⟨curP, axisZ⟩).1
  let mesh := (← cutMesh S (some st.mesh) ⟨curP, axisZ⟩).1
  let simp := (← cutMesh S (some simp) pl).1
  let (mesh, down) ← cutMesh S (some mesh) pl
  let g := g.addLayers (← sliceByVector S A (some down) axisZ sett)
  let st' : FiveSt α :=
    if st.rotated then
      { st with
        simp := turnMeshBack st.angleZ tiltX simp, mesh := turnMeshBack st.angleZ tiltX mesh, rotated := false, gcd := g.add (.rotateXZ (lit 0 0) (lit 0 0)) }
    else
      let angleZ := directionZ pl.n
      { st with simp := turnMesh angleZ tiltX simp, mesh := turnMesh angleZ tiltX mesh, rotated := true, angleZ := angleZ, gcd := g.add (.rotateXZ tiltX angleZ) }
  let layers ← sliceByVector S A (some st'.simp) axisZ sett
  let toAdd ← sliceByVector S A (some st'.mesh) axisZ sett
  return { st' with layers := layers, toAdd := toAdd }

/-- slicers/slice_5axes.go:45-131 -/
def fiveLoop (S : Sorter) (A : Arrival α) (sett : Settings α) : Nat → FiveSt α → Go (Gcode α)
  | 0, _ => .error .diverges
  | k + 1, st => do
    match ← firstFail 1 (adjPairs st.layers) with
    | none => return if 2 ≤ st.layers.length then st.gcd.addLayers st.toAdd else st.gcd
    | some (i, pl) => do
      let st ← fiveTurn S A sett st i pl
      fiveLoop S A sett k st

/-- slicers/slice_5axes.go:21-134 (non-nil mesh). `simplify` is fogleman/simplify, `fuel` bounds the number of bed turns. -/
def slice5Axes (S : Sorter) (A : Arrival α) (simplify : List (STri α) → α → List (STri α)) (fuel : Nat) (mesh : Mesh α)
    (sett : Settings α) : Go (Gcode α) := do
  match simplifyMesh simplify (some mesh) 2500 with
  | none => .error .fatal
  | some simp => do
    let layers ← sliceByVector S A (some simp) axisZ sett
    let toAdd ← sliceByVector S A (some mesh) axisZ sett
    fiveLoop S A sett fuel ⟨simp, mesh, layers, toAdd, false, lit 0 0, Gcode.new sett.gs⟩

end Goosli
