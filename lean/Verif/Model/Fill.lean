import Verif.Model.Slice
/-!
# Model of slicers/fill_layer.go and of SliceByVectorToGcode (slicers/slice_by_vector.go:12-22)

Not modelled: the `TODO`s and the commented-out code.  `Layer.InnerPs` is only ever extended by `append`, so the test
`inner == nil` is "the list is empty".
-/
namespace Goosli
open Flt

variable {α : Type} [Flt α]

/-- slicers/fill_layer.go:21-25: `k` more planes; the point is shifted before it is used -/
def fillPlanesFrom (axis : Vec α) (step : α) : Nat → Point α → List (Plane α)
  | 0, _ => []
  | k + 1, curP =>
    let p := curP.shift (axis.mulScalar step)
    ⟨p, axis⟩ :: fillPlanesFrom axis step k p

/-- slicers/fill_layer.go:11-15: the bound `maxx` (`minx` is its negative) -/
def fillRadius (mesh : Mesh α) : α :=
  let ma := mesh.minMaxZ axisX
  let mb := mesh.minMaxZ axisY
  fmax (sqrt (ma.1 * ma.1 + mb.1 * mb.1)) (sqrt (ma.2 * ma.2 + mb.2 * mb.2))

/-- slicers/fill_layer.go:17 -/
def fillStart (r step : α) : α := floor (-r / step) * step

/-- slicers/fill_layer.go:18 -/
def fillCount (r step : α) : Int := toInt (ceil ((r - fillStart r step) / step))

/-- slicers/fill_layer.go:10-28 -/
def calcFillPlanesCommon (mesh : Mesh α) (axis : Vec α) (step : α) : List (Plane α) :=
  let r := fillRadius mesh
  fillPlanesFrom axis step (fillCount r step).toNat (axis.mulScalar (fillStart r step)).toPoint

/-- slicers/fill_layer.go:32, 40, 53: `(100 / float64(d)) * LineWidth` -/
def fillStep (d : Int) (lineWidth : α) : α := lit 100 0 / ofInt d * lineWidth

/-- slicers/fill_layer.go:31-36 -/
def calcFillPlanesLines (mesh : Mesh α) (sett : Settings α) : List (Plane α) :=
  calcFillPlanesCommon mesh axisX (fillStep sett.fillDensity sett.gs.lineWidth)

/-- slicers/fill_layer.go:39-49 (Go integer division truncates towards zero) -/
def calcFillPlanesSquares (mesh : Mesh α) (sett : Settings α) : List (Plane α) :=
  let step := fillStep (sett.fillDensity.tdiv 2) sett.gs.lineWidth
  calcFillPlanesCommon mesh (V (lit 7071067812 10) (lit 7071067812 10) (lit 0 0)) step ++
    calcFillPlanesCommon mesh (V (lit (-7071067812) 10) (lit 7071067812 10) (lit 0 0)) step

/-- slicers/fill_layer.go:52-60 -/
def calcFillPlanesTriangles (mesh : Mesh α) (sett : Settings α) : List (Plane α) :=
  let step := fillStep (sett.fillDensity.tdiv 3) sett.gs.lineWidth
  calcFillPlanesCommon mesh (V (lit 1 0) (lit 0 0) (lit 0 0)) step ++
    calcFillPlanesCommon mesh (V (lit 5 1) (lit 8660254038 10) (lit 0 0)) step ++
    calcFillPlanesCommon mesh (V (lit (-5) 1) (lit 8660254038 10) (lit 0 0)) step

/-- slicers/fill_layer.go:63-67 -/
def calcFillFullPlane (mesh : Mesh α) (sett : Settings α) : List (Plane α) :=
  calcFillPlanesCommon mesh axisX sett.gs.lineWidth

/-- slicers/fill_layer.go:69-84 (non-nil mesh; a nil mesh is dereferenced and panics) -/
def calcFillPlanes (mesh : Mesh α) (sett : Settings α) : List (Plane α) × List (Plane α) :=
  let planes :=
    if sett.fillingType = "Lines" then calcFillPlanesLines mesh sett
    else if sett.fillingType = "Squares" then calcFillPlanesSquares mesh sett
    else if sett.fillingType = "Triangles" then calcFillPlanesTriangles mesh sett
    else calcFillPlanesLines mesh sett
  (planes, calcFillFullPlane mesh sett)

/-- slicers/fill_layer.go:252-254 -/
def nearAngle (val near : α) : Bool := (val <? near + lit 3 0) && (near - lit 3 0 <? val)

/-- slicers/fill_layer.go:213-221: all crossings of the plane with the segments of the paths, in order -/
def planeCrossings (paths : List (Path α)) (p : Plane α) : List (Point α) :=
  paths.flatMap fun pth => (adjPairs pth.points).filterMap fun q => p.intersectSegment q.1 q.2

/-- slicers/fill_layer.go:225-226: is the list sorted by X? -/
def sortsByX (p : Plane α) : Bool :=
  let ang := (p.n.projectOnPlane planeXY).angle axisY
  nearAngle ang (lit 0 0) || nearAngle ang (lit 180 0)

/-- slicers/fill_layer.go:225-234 (and 185-194) -/
def sortCrossings (S : Sorter) (p : Plane α) (pts : List (Point α)) : List (Point α) :=
  if sortsByX p then S.run (fun a b : Point α => a.x <? b.x) pts
  else S.run (fun a b : Point α => a.y <? b.y) pts

/-- slicers/fill_layer.go:238-240 (and 197-199): `for i := 1; i < len(pts); i += 2` -/
def pairUp : List (Point α) → List (Path α)
  | a :: b :: t => ⟨[a, b]⟩ :: pairUp t
  | _ => []

/-- slicers/fill_layer.go:211-250; nil is the empty list (the callers treat both alike) -/
def intersectByPlane (S : Sorter) (paths : List (Path α)) (p : Plane α) : List (Path α) :=
  let pts := planeCrossings paths p
  if pts.length < 2 then []
  else
    let pts := sortCrossings S p pts
    if 4 < pts.length then pairUp pts
    else match pts with
      | [a, b] => [⟨[a, b]⟩]
      | [a, _, c] => [⟨[a, c]⟩]
      | [a, b, c, d] => [⟨[a, b]⟩, ⟨[c, d]⟩]
      | _ => []

/-- loop variables of slicers/fill_layer.go:131-133 -/
structure NearAcc (α : Type) where
  d : α
  sj : Nat
  rev : Bool

/-- slicers/fill_layer.go:136-151, from index `j`; the elements come with their `used` flag -/
def nearestFrom (p : Point α) : Nat → List (Path α × Bool) → NearAcc α → Go (NearAcc α)
  | _, [], acc => return acc
  | j, (q, used) :: rest, acc =>
    if used then nearestFrom p (j + 1) rest acc
    else do
      let f ← goAt q.points 0
      let acc := if f.distanceTo p <? acc.d then ⟨f.distanceTo p, j, false⟩ else acc
      let l ← goLast q.points
      let acc := if l.distanceTo p <? acc.d then ⟨l.distanceTo p, j, true⟩ else acc
      nearestFrom p (j + 1) rest acc

/-- slicers/fill_layer.go:130-158: `k` more rounds; `last` is `res[len(res)-1]`, the result is what is appended to `res` -/
def sortFillLoop (fill : List (Path α)) : Nat → Path α → List Bool → Go (List (Path α))
  | 0, _, _ => return []
  | k + 1, last, used => do
    let p ← goLast last.points
    let r ← nearestFrom p 1 (fill.zip used).tail ⟨maxF32, 0, false⟩
    let q ← goAt fill r.sj
    let next := if r.rev then q.reverse else q
    let rest ← sortFillLoop fill k next (used.set r.sj true)
    return next :: rest

/-- slicers/fill_layer.go:123-160 -/
def sortFillPathes (fill : List (Path α)) : Go (List (Path α)) :=
  match fill with
  | a :: b :: t => do
    let rest ← sortFillLoop (a :: b :: t) (t.length + 1) a (true :: List.replicate (t.length + 1) false)
    return a :: rest
  | _ => return fill

/-- slicers/fill_layer.go:91-94: the contours the fill is computed from -/
def fillContours (l : Layer α) : List (Path α) := if l.innerPs.isEmpty then l.paths else l.innerPs

/-- slicers/fill_layer.go:90: is layer `i` of `n` filled completely? -/
def solidLayer (sett : Settings α) (n i : Nat) : Bool :=
  decide ((i : Int) < sett.bottomLayers) || decide ((n : Int) - sett.topLayers ≤ (i : Int))

/-- slicers/fill_layer.go:90-117, one layer -/
def fillLayer (S : Sorter) (planes fullPlane : List (Plane α)) (sett : Settings α) (n i : Nat) (l : Layer α) : Go (Layer α) := do
  let ps := if solidLayer sett n i then fullPlane else planes
  let fill ← sortFillPathes (l.fill ++ ps.flatMap fun p => intersectByPlane S (fillContours l) p)
  return { l with fill := fill }

/-- slicers/fill_layer.go:86-121 (the layers are changed in place; the slice is returned) -/
def fillLayers (S : Sorter) (layers : List (Layer α)) (planes fullPlane : List (Plane α)) (sett : Settings α) :
    Go (List (Layer α)) :=
  layers.zipIdx.mapM fun q => fillLayer S planes fullPlane sett layers.length q.2 q.1

/-- slicers/slice_by_vector.go:12-22 (non-nil mesh) -/
def sliceByVectorToGcode (S : Sorter) (A : Arrival α) (mesh : Mesh α) (Z : Vec α) (sett : Settings α) : Go (Gcode α) := do
  let layers ← sliceByVector S A (some mesh) Z sett
  let ps := calcFillPlanes mesh sett
  let layers ← fillLayers S layers ps.1 ps.2 sett
  return (Gcode.new sett.gs).addLayers layers

end Goosli
