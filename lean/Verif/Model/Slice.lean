import Verif.Model.Helpers
import Verif.Model.Gcode
/-!
# Model of slicers/settings.go and slicers/slice_by_vector.go
-/
namespace Goosli
open Flt

variable {α : Type} [Flt α]

/-- slicers/settings.go:10-30, the fields the slicers read. `LayerHeight` exists both here and in `GcodeSettings`. -/
structure Settings (α : Type) where
  gs : GcodeSettings α
  epsilon : α
  layerHeight : α
  wallThickness : α
  fillDensity : Int
  rotationCenter : Point α
  fillingType : String
  colorizedAngle : α
  unitVector : Vec α
  supportsOn : Bool
  supportOffset : α
  topLayers : Int
  bottomLayers : Int
  skirtLineCount : Int

/-- slicers/slice_by_vector.go:141-145 -/
structure Job (α : Type) where
  order : Nat
  plane : Plane α
  triangles : List (Triangle α)

/-- the segments a worker collects for a job, slicers/slice_by_vector.go:151-156 -/
def jobPaths (j : Job α) : List (Path α) :=
  j.triangles.filterMap fun t => (j.plane.intersectTriangle t).map fun l => ⟨[l.p1, l.p2]⟩

/-- one iteration of the worker loop, slicers/slice_by_vector.go:150-158: the layer sent to `out`. The slice `paths` is
reused between jobs, but `JoinPaths3` copies its elements to a new slice and the point slices are new for every job. -/
def runJob (S : Sorter) (j : Job α) : Go (Layer α) := do
  return { order := j.order, norm := j.plane.n, paths := ← joinPaths3AndMinimize S (jobPaths j) }

/-- slicers/slice_by_vector.go:97-110 at height `z`: the new active list and the triangles still to come -/
def sweepStep (Z : Vec α) (z : α) (active rest : List (Triangle α)) : List (Triangle α) × List (Triangle α) :=
  (active.filter (fun t => z ≤? t.maxZ Z) ++ rest.takeWhile (fun t => t.minZ Z ≤? z), rest.dropWhile (fun t => t.minZ Z ≤? z))

/-- slicers/slice_by_vector.go:94-116: the jobs sent to `in`, for `k` more layers starting with number `i` -/
def sweep (Z sh : Vec α) : Nat → Nat → Point α → List (Triangle α) → List (Triangle α) → List (Job α)
  | 0, _, _, _, _ => []
  | k + 1, i, curP, active, rest =>
    let r := sweepStep Z (curP.toVector.dot Z) active rest
    ⟨i, ⟨curP, Z⟩, r.1⟩ :: sweep Z sh k (i + 1) (curP.shift sh) r.1 r.2

/-- the two support triangles under an edge and their projections, slicers/slice_by_vector.go:75-86 -/
def supportPair (temp : List (Triangle α)) (sup col : Line α) : List (Triangle α) :=
  let tr1 := newTriangle sup.p1 col.p1 col.p2
  let tr2 := newTriangle sup.p1 sup.p2 col.p2
  (if (intersectTriangles tr1 temp).isNone then [tr1] else []) ++
    (if (intersectTriangles tr2 temp).isNone then [tr2] else [])

/-- slicers/slice_by_vector.go:54-87. `temp` is sorted there; only whether it has an intersecting element matters. -/
def supportTriangles (S : Sorter) (mesh : Mesh α) (Z : Vec α) (minz : α) (sett : Settings α) : Go (List (Triangle α)) := do
  let temp := S.run (fun a b : Triangle α => b.minZ Z <? a.minZ Z) mesh.triangles
  let plane : Plane α := ⟨(Z.mulScalar minz).toPoint, Z⟩
  let col := filterTrianglesByColor mesh sett.colorizedAngle sett.unitVector
  let col := if sett.supportOffset =? lit 0 0 then col
    else col.map fun t => t.shift (sett.unitVector.mulScalar (-sett.supportOffset))
  let colLines := makeUndoubledLines col
  let supLines ← makeSupportLines colLines plane
  return (supLines.zip colLines).flatMap fun q => supportPair temp q.1 q.2

/-- the order in which the layers arrive on channel `out`: any permutation (which ones are possible is the subject of
`Verif.Model.Conc`) -/
structure Arrival (α : Type) where
  run : List (Layer α) → List (Layer α)
  perm : ∀ l, (run l).Perm l

/-- slicers/slice_by_vector.go:43-44: number of planes -/
def layerCountOf (mesh : Mesh α) (Z : Vec α) (thickness : α) : Int :=
  let mm := mesh.minMaxZ Z
  toInt (ceil ((mm.2 - mm.1) / thickness))

/-- slicers/slice_by_vector.go:46: the shift from one plane to the next -/
def layerShift (mesh : Mesh α) (Z : Vec α) (thickness : α) : Vec α :=
  let mm := mesh.minMaxZ Z
  (Z.mulScalar (mm.2 - mm.1)).mulScalar (lit 1 0 / ofInt (layerCountOf mesh Z thickness))

/-- slicers/slice_by_vector.go:92: a point of the first plane -/
def firstPoint (mesh : Mesh α) (Z : Vec α) (thickness : α) : Point α :=
  ((Z.mulScalar (mesh.minMaxZ Z).1).toPoint).shift ((layerShift mesh Z thickness).mulScalar (lit 5 1))

/-- slicers/slice_by_vector.go:53: the support triangles, if switched on -/
def supportsOf (S : Sorter) (mesh : Mesh α) (Z : Vec α) (sett : Settings α) : Go (List (Triangle α)) :=
  if sett.supportsOn then supportTriangles S mesh Z (mesh.minMaxZ Z).1 sett else pure []

/-- slicers/slice_by_vector.go:38-41 -/
def sortByMinZ (S : Sorter) (Z : Vec α) (ts : List (Triangle α)) : List (Triangle α) :=
  S.run (fun a b : Triangle α => a.minZ Z <? b.minZ Z) ts

/-- slicers/slice_by_vector.go:36-117 (`Z` normalised, mesh not empty): the jobs sent to the workers.  `make(chan job, n)`
panics for a negative `n` (line 48; the limit of the address space is not modelled). -/
def sliceJobs (S : Sorter) (mesh : Mesh α) (Z : Vec α) (sett : Settings α) : Go (List (Job α)) :=
  if layerCountOf mesh Z sett.layerHeight < 0 then .error .makeSize
  else do
    let sup ← supportsOf S mesh Z sett
    return sweep Z (layerShift mesh Z sett.layerHeight) (layerCountOf mesh Z sett.layerHeight).toNat 0
      (firstPoint mesh Z sett.layerHeight) [] (sup ++ sortByMinZ S Z mesh.triangles)

/-- slicers/slice_by_vector.go:131-136 -/
def trimEmpty (layers : List (Layer α)) : Go (List (Layer α)) := do
  let first ← goAt layers 0
  let layers ← if first.paths.isEmpty then goTail layers else pure layers
  let last ← goLast layers
  if last.paths.isEmpty then goInit layers else pure layers

/-- slicers/slice_by_vector.go:25-139 -/
def sliceByVector (S : Sorter) (A : Arrival α) (mesh : Option (Mesh α)) (Z : Vec α) (sett : Settings α) :
    Go (List (Layer α)) := do
  match mesh with
  | none => return []
  | some m =>
    if m.triangles.isEmpty then return []
    let jobs ← sliceJobs S m Z.normalize sett
    let results ← jobs.mapM (runJob S)
    let layers := S.run (fun a b : Layer α => decide (a.order < b.order)) (A.run results)
    trimEmpty layers

end Goosli
