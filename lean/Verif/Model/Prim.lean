import Verif.Model.Num
/-!
# primitives: Vector, Point, Line, Plane, Triangle, Mesh, RotationMatrix
-/
namespace Goosli
open Flt

/-- primitives/vector.go:14-16 -/
structure Vec (α : Type) where
  x : α
  y : α
  z : α
  deriving DecidableEq, Repr

/-- primitives/point.go:12-14 -/
structure Point (α : Type) where
  x : α
  y : α
  z : α
  deriving DecidableEq, Repr

/-- primitives/line.go:7-9 -/
structure Line (α : Type) where
  p1 : Point α
  p2 : Point α
  deriving DecidableEq, Repr

/-- primitives/plane.go:13-16 -/
structure Plane (α : Type) where
  p : Point α
  n : Vec α
  deriving DecidableEq, Repr

/-- primitives/triangle.go:7-10 -/
structure Triangle (α : Type) where
  n : Vec α
  p1 : Point α
  p2 : Point α
  p3 : Point α
  deriving DecidableEq, Repr

/-- primitives/rotation_matrix.go:5-9 -/
structure RotationMatrix (α : Type) where
  x : Vec α
  y : Vec α
  z : Vec α

/-- primitives/mesh.go:7-13 (a nil `*Mesh` is modelled where it can occur by `Option`) -/
structure Mesh (α : Type) where
  triangles : List (Triangle α)
  deriving DecidableEq, Repr

/-- primitives/path.go:5-7 -/
structure Path (α : Type) where
  points : List (Point α)
  deriving DecidableEq, Repr

variable {α : Type} [Flt α]

/-! ## utils.go -/

/-- primitives/utils.go:85 `almostZeroNumber = 1e-6` -/
def almostZeroNumber : α := lit 1 6

/-- primitives/utils.go:87-89 -/
def almostZero (f : α) : Bool := (-(almostZeroNumber : α) <? f) && (f <? almostZeroNumber)

/-- primitives/utils.go:75-81 `Round` -/
def round (a : α) : Int :=
  if a <? lit 0 0 then toInt (ceil (a - lit 5 1)) else toInt (floor (a + lit 5 1))

/-- primitives/utils.go:83 `powersOfTen` (indices 0..16; an index out of that range panics in Go, the code only
uses 8) -/
def powersOfTen (n : Nat) : α := lit (10 ^ n) 0

/-- primitives/utils.go:70-73 `RoundPlaces` (for `places ≤ 16`) -/
def roundPlaces (a : α) (places : Nat) : α :=
  ofInt (round (a * powersOfTen places)) / powersOfTen places

/-- primitives/utils.go:95-97 -/
def toRadians (degree : α) : α := pi * degree / lit 180 0

/-! ## vector.go -/

/-- primitives/vector.go:24-26 -/
def V (x y z : α) : Vec α := ⟨x, y, z⟩
/-- primitives/vector.go:8-12 -/
def axisX : Vec α := V (lit 1 0) (lit 0 0) (lit 0 0)
/-- primitives/vector.go:8-12 -/
def axisY : Vec α := V (lit 0 0) (lit 1 0) (lit 0 0)
/-- primitives/vector.go:8-12 -/
def axisZ : Vec α := V (lit 0 0) (lit 0 0) (lit 1 0)

namespace Vec

/-- primitives/vector.go:28-33 -/
def cross (a b : Vec α) : Vec α :=
  V (a.y * b.z - a.z * b.y) (a.z * b.x - a.x * b.z) (a.x * b.y - a.y * b.x)
/-- primitives/vector.go:35-37 -/
def add (a b : Vec α) : Vec α := V (a.x + b.x) (a.y + b.y) (a.z + b.z)
/-- primitives/vector.go:39-41 -/
def sub (a b : Vec α) : Vec α := V (a.x - b.x) (a.y - b.y) (a.z - b.z)
/-- primitives/vector.go:43-45 -/
def dot (a b : Vec α) : α := a.x * b.x + a.y * b.y + a.z * b.z
/-- primitives/vector.go:47-49 -/
def mulScalar (a : Vec α) (b : α) : Vec α := ⟨a.x * b, a.y * b, a.z * b⟩
/-- primitives/vector.go:51-53 -/
def rotate (a : Vec α) (rm : RotationMatrix α) : Vec α := V (a.dot rm.x) (a.dot rm.y) (a.dot rm.z)
/-- primitives/vector.go:55-57 -/
def toPoint (a : Vec α) : Point α := ⟨a.x, a.y, a.z⟩
/-- primitives/vector.go:59-61 -/
def codirectedWith (a b : Vec α) : Bool := lit 0 0 ≤? a.dot b
/-- primitives/vector.go:67-69 -/
def lengthSquare (a : Vec α) : α := a.x * a.x + a.y * a.y + a.z * a.z
/-- primitives/vector.go:63-65 -/
def length (a : Vec α) : α := sqrt a.lengthSquare
/-- primitives/vector.go:71-77 -/
def normalize (a : Vec α) : Vec α :=
  let n := a.length
  if n =? lit 0 0 then a else V (a.x / n) (a.y / n) (a.z / n)
/-- primitives/vector.go:79-81 -/
def reverse (a : Vec α) : Vec α := V (-a.x) (-a.y) (-a.z)
/-- primitives/vector.go:83-89 -/
def angle (a b : Vec α) : α :=
  let v := a.dot b / a.length / b.length
  if (v <? lit (-1) 0) || (lit 1 0 <? v) then lit 0 0
  else acos v * lit 180 0 / pi
/-- primitives/vector.go:91-97 -/
def projectOn (a b : Vec α) : Vec α :=
  let bl := b.lengthSquare
  if bl =? lit 0 0 then b else b.mulScalar (b.dot a / bl)
/-- primitives/vector.go:99-101 -/
def projectOnPlane (a : Vec α) (p : Plane α) : Vec α := a.add (a.projectOn p.n).reverse
/-- primitives/vector.go:104-111 -/
def rotateAbout (a b : Vec α) (angle : α) : Vec α :=
  let theta := toRadians angle
  let prj := a.projectOn b
  let perp := a.sub prj
  let w := b.cross perp
  (prj.add (perp.mulScalar (cos theta))).add ((w.normalize.mulScalar perp.length).mulScalar (sin theta))

end Vec

/-- primitives/vector.go:17-19 -/
def toVector (p1 p2 : Point α) : Vec α := V (p2.x - p1.x) (p2.y - p1.y) (p2.z - p1.z)

/-! ## point.go -/

/-- primitives/point.go:8-10 -/
def originPoint : Point α := ⟨lit 0 0, lit 0 0, lit 0 0⟩

namespace Point

/-- primitives/point.go:45-48 -/
def equal (a b : Point α) : Bool := almostZero (a.x - b.x) && almostZero (a.y - b.y) && almostZero (a.z - b.z)
/-- primitives/point.go:50-52 -/
def vectorTo (a b : Point α) : Vec α := V (b.x - a.x) (b.y - a.y) (b.z - a.z)
/-- primitives/point.go:54-56 -/
def shift (a : Point α) (b : Vec α) : Point α := ⟨a.x + b.x, a.y + b.y, a.z + b.z⟩
/-- primitives/point.go:58-60 -/
def distanceTo (a b : Point α) : α := sqrt (pow2 (a.x - b.x) + pow2 (a.y - b.y) + pow2 (a.z - b.z))
/-- primitives/point.go:62-67 -/
def roundPlaces (a : Point α) (n : Nat) : Point α :=
  ⟨Goosli.roundPlaces a.x n, Goosli.roundPlaces a.y n, Goosli.roundPlaces a.z n⟩
/-- primitives/point.go:25-27 -/
def mapKey (a : Point α) : Point α := a.roundPlaces 8
/-- primitives/point.go:69-71 -/
def toVector (a : Point α) : Vec α := V a.x a.y a.z
/-- primitives/point.go:77-81 -/
def projectOnLine (a b c : Point α) : Point α :=
  let ba := b.vectorTo a
  let bcUnit := (b.vectorTo c).normalize
  b.shift (bcUnit.mulScalar (ba.dot bcUnit))
/-- primitives/point.go:73-75 -/
def distanceToLine (a b c : Point α) : α := (a.projectOnLine b c).distanceTo a
/-- primitives/point.go:104-114: 0 collinear, 1 clockwise, 2 counterclockwise -/
def orientation (r p q : Point α) : Nat :=
  let val := (q.y - p.y) * (r.x - q.x) - (q.x - p.x) * (r.y - q.y)
  if almostZero val then 0 else if lit 0 0 <? val then 1 else 2
/-- Go `==` on `Point` values (struct comparison, componentwise float `==`). -/
def goEq (a b : Point α) : Bool := (a.x =? b.x) && (a.y =? b.y) && (a.z =? b.z)

end Point

/-! ## line.go -/
namespace Line

/-- primitives/line.go:11-13 -/
def toVector (l : Line α) : Vec α := V (l.p2.x - l.p1.x) (l.p2.y - l.p1.y) (l.p2.z - l.p1.z)
/-- primitives/line.go:15-17 -/
def reverse (l : Line α) : Line α := ⟨l.p2, l.p1⟩
/-- primitives/line.go:19-24 -/
def len (l : Line α) : α :=
  sqrt (pow2 (l.p2.x - l.p1.x) + pow2 (l.p2.y - l.p1.y) + pow2 (l.p2.z - l.p1.z))
/-- primitives/line.go:26-35 -/
def isCollinearPointOnSegment (l : Line α) (p : Point α) : Bool :=
  ((p.x ≤? fmax l.p1.x l.p2.x) && (fmin l.p1.x l.p2.x ≤? p.x)) &&
  ((p.y ≤? fmax l.p1.y l.p2.y) && (fmin l.p1.y l.p2.y ≤? p.y)) &&
  ((p.z ≤? fmax l.p1.z l.p2.z) && (fmin l.p1.z l.p2.z ≤? p.z))
/-- primitives/line.go:104-109 -/
def isCollinear (l1 l2 : Line α) : Bool := almostZero (l1.toVector.cross l2.toVector).length
/-- Go `==` on `Line` values. -/
def goEq (a b : Line α) : Bool := a.p1.goEq b.p1 && a.p2.goEq b.p2

/-- Where the pointer returned by `IntersectLine` points to: a fresh allocation, a field of the argument `l1`
(shared between calls with the same argument), or a field of the receiver copy (fresh for every call).  Needed
because `Triangle.IntersectTriangle` compares these pointers (primitives/triangle.go:121-129). -/
inductive Prov where
  | fresh
  | argP1
  | argP2
  deriving DecidableEq, Repr

/-- the parameter `m` of primitives/line.go:59-70, with its three NaN fallbacks -/
def intersectParam (l l1 : Line α) : α :=
  let a := l.toVector
  let b := l1.toVector
  let m := (l1.p1.y - l.p1.y - (a.y / a.x) * (l1.p1.x - l.p1.x)) / (b.x * a.y / a.x - b.y)
  let m := if isNaN m then (l1.p1.x - l.p1.x - (a.x / a.y) * (l1.p1.y - l.p1.y)) / (a.x * b.y / a.y - b.x) else m
  let m := if isNaN m then (l1.p1.x - l.p1.x - (a.x / a.z) * (l1.p1.z - l.p1.z)) / (a.x * b.z / a.z - b.x) else m
  if isNaN m then (l1.p1.y - l.p1.y - (a.y / a.z) * (l1.p1.z - l.p1.z)) / (a.y * b.z / a.z - b.y) else m

/-- primitives/line.go:46-102 (the `println`s are not modelled); the tag says which memory the pointer refers to -/
def intersectLineP (l l1 : Line α) : Option (Point α × Prov) :=
  let o1 := l1.p1.orientation l.p1 l.p2
  let o2 := l1.p2.orientation l.p1 l.p2
  let o3 := l.p1.orientation l1.p1 l1.p2
  let o4 := l.p2.orientation l1.p1 l1.p2
  if o1 ≠ o2 ∧ o3 ≠ o4 then
    let b := l1.toVector
    let m := intersectParam l l1
    some (⟨l1.p1.x + b.x * m, l1.p1.y + b.y * m, l1.p1.z + b.z * m⟩, .fresh)
  else if o1 = 0 ∧ l.isCollinearPointOnSegment l1.p1 then some (l1.p1, .argP1)
  else if o2 = 0 ∧ l.isCollinearPointOnSegment l1.p2 then some (l1.p2, .argP2)
  else if o3 = 0 ∧ l1.isCollinearPointOnSegment l.p1 then some (l.p1, .fresh)
  else if o4 = 0 ∧ l1.isCollinearPointOnSegment l.p2 then some (l.p2, .fresh)
  else none

/-- primitives/line.go:46-102, value only -/
def intersectLine (l l1 : Line α) : Option (Point α) := (intersectLineP l l1).map (·.1)

/-- primitives/line.go:37-44 -/
def isIntersectingSegment (l l1 : Line α) : Bool := (l.intersectLine l1).isSome

/-- primitives/line.go:112-142 -/
def intersectLine2 (l1 l2 : Line α) : Option (Point α) :=
  let f := l2.toVector
  let g := (Line.mk l1.p1 l2.p2).toVector
  let e := l1.toVector
  let a := f.cross g
  let b := f.cross e
  if almostZero a.length || almostZero b.length then none
  else
    let c : α := if !(a.codirectedWith b) then lit (-1) 0 else lit 1 0
    let inters := l1.p1.shift (e.mulScalar (c * a.length / b.length))
    if isNaN inters.x || isNaN inters.y || isNaN inters.z ||
        (lit 2 0 <? inters.distanceTo l1.p2) || (lit 2 0 <? inters.distanceTo l2.p1) then none
    else
      let d1 := inters.distanceToLine l1.p1 l1.p2
      let d2 := inters.distanceToLine l2.p1 l2.p2
      if almostZero d1 && almostZero d2 then some inters else none

end Line

/-! ## triangle.go -/

/-- primitives/triangle.go:33-35 -/
def normal (v1 v2 : Vec α) : Vec α := v1.cross v2

/-- primitives/triangle.go:12-16, 22-31 (`NewTriangle`, `Fill`, `recalculate`) -/
def newTriangle (p1 p2 p3 : Point α) : Triangle α :=
  { p1 := p1, p2 := p2, p3 := p3, n := normal (p1.vectorTo p2) (p1.vectorTo p3) }

namespace Triangle

/-- primitives/triangle.go:18-20 -/
def shift (t : Triangle α) (v : Vec α) : Triangle α := newTriangle (t.p1.shift v) (t.p2.shift v) (t.p3.shift v)
/-- primitives/triangle.go:37-42 -/
def minZ (t : Triangle α) (z : Vec α) : α :=
  fmin (t.p1.toVector.dot z) (fmin (t.p2.toVector.dot z) (t.p3.toVector.dot z))
/-- primitives/triangle.go:44-49 -/
def maxZ (t : Triangle α) (z : Vec α) : α :=
  fmax (t.p1.toVector.dot z) (fmax (t.p2.toVector.dot z) (t.p3.toVector.dot z))
/-- primitives/triangle.go:51-56 -/
def minMaxZ (t : Triangle α) (z : Vec α) : α × α :=
  let pr1 := t.p1.toVector.dot z
  let pr2 := t.p2.toVector.dot z
  let pr3 := t.p3.toVector.dot z
  (fmin pr1 (fmin pr2 pr3), fmax pr1 (fmax pr2 pr3))

end Triangle

/-! ## plane.go -/

/-- primitives/plane.go:7-11 -/
def planeXY : Plane α := ⟨originPoint, axisZ⟩

namespace Plane

/-- primitives/plane.go:22-24 -/
def rotate (p : Plane α) (rm : RotationMatrix α) : Plane α :=
  ⟨(p.p.toVector.rotate rm).toPoint, p.n.rotate rm⟩

/-- primitives/plane.go:36-43 (non-nil triangle) -/
def intersect (p : Plane α) (t : Triangle α) : Bool :=
  let mm := t.minMaxZ p.n
  let pp := p.p.toVector.dot p.n
  (mm.1 ≤? pp) && (pp ≤? mm.2)

/-- primitives/plane.go:76-89 -/
def intersectSegment (p : Plane α) (p1 p2 : Point α) : Option (Point α) :=
  let pr1 := p1.toVector.dot p.n
  let pr2 := p2.toVector.dot p.n
  if pr1 =? pr2 then none
  else
    let z := p.p.toVector.dot p.n
    let t := (z - pr1) / (pr2 - pr1)
    if (t <? lit 0 0) || (lit 1 0 <? t) then none
    else some (p1.shift ((p1.vectorTo p2).mulScalar t))

/-- the condition of primitives/plane.go:55, 57 and 59: both crossings exist and differ -/
def distinctPair (a b : Option (Point α)) : Option (Point α × Point α) :=
  match a, b with
  | some a, some b => if !(a.equal b) then some (a, b) else none
  | _, _ => none

/-- primitives/plane.go:50-63: the choice of two distinct crossing points among the three edges -/
def chordEnds (p : Plane α) (t : Triangle α) : Option (Point α × Point α) :=
  let v1 := p.intersectSegment t.p1 t.p2
  let v2 := p.intersectSegment t.p2 t.p3
  let v3 := p.intersectSegment t.p3 t.p1
  (distinctPair v1 v2).orElse fun _ => (distinctPair v1 v3).orElse fun _ => distinctPair v2 v3

/-- primitives/plane.go:45-74 (non-nil triangle) -/
def intersectTriangle (p : Plane α) (t : Triangle α) : Option (Line α) :=
  match p.chordEnds t with
  | none => none
  | some (a, b) =>
    let p1 := a.roundPlaces 8
    let p2 := b.roundPlaces 8
    if p1.equal p2 then none
    else
      let n := (p1.vectorTo p2).cross p.n
      if n.dot t.n <? lit 0 0 then some ⟨p1, p2⟩ else some ⟨p2, p1⟩

/-- primitives/plane.go:102-104 -/
def pointInFront (p : Plane α) (v : Point α) : Bool := lit 0 0 ≤? (p.p.vectorTo v).dot p.n

/-- primitives/plane.go:106-122; `log.Fatal` when the factor is NaN -/
def proectionPointToPlane (p : Plane α) (m : Point α) : Go (Point α) :=
  let n := p.n
  let q := p.p
  let l := (n.x * (q.x - m.x) + n.y * (q.y - m.y) + n.z * (q.z - m.z)) / (n.x * n.x + n.y * n.y + n.z * n.z)
  if isNaN l then .error .fatal
  else .ok ⟨l * n.x + m.x, l * n.y + m.y, l * n.z + m.z⟩

/-- primitives/plane.go:124-129 -/
def pointBelongs (p : Plane α) (m : Point α) : Bool :=
  almostZero (p.n.x * (m.x - p.p.x) + p.n.y * (m.y - p.p.y) + p.n.z * (m.z - p.p.z))

end Plane

namespace Triangle

/-- primitives/triangle.go:136-155 -/
def pointBelongs (t : Triangle α) (p : Point α) : Bool :=
  if (Plane.mk t.p1 t.n).pointBelongs p then
    let a := t.p1
    let b := t.p2
    let c := t.p3
    let w1 := (a.x - p.x) * (b.y - a.y) - (b.x - a.x) * (a.y - p.y)
    let w2 := (b.x - p.x) * (c.y - b.y) - (c.x - b.x) * (b.y - p.y)
    let w3 := (c.x - p.x) * (a.y - c.y) - (a.x - c.x) * (c.y - p.y)
    let o : α := lit 0 0
    ((o ≤? w1) && (o ≤? w2) && (o ≤? w3)) || ((w1 ≤? o) && (w2 ≤? o) && (w3 ≤? o))
  else false

/-- Go pointer equality of two results of `IntersectLine` called with the same argument `l1`. -/
def samePtr (a b : Line.Prov) : Bool :=
  match a, b with
  | .argP1, .argP1 => true
  | .argP2, .argP2 => true
  | _, _ => false

/-- primitives/triangle.go:58-134 -/
def intersectTriangle (t t2 : Triangle α) : Option (Line α) :=
  match (Plane.mk t.p1 t.n).intersectTriangle t2 with
  | none => none
  | some line =>
    let b1 := t.pointBelongs line.p1
    let b2 := t.pointBelongs line.p2
    if b1 && b2 then some line
    else
      let q1 := (Line.mk t.p1 t.p2).intersectLineP line
      let q2 := (Line.mk t.p1 t.p3).intersectLineP line
      let q3 := (Line.mk t.p2 t.p3).intersectLineP line
      -- "line crosses one side" (lines 79-105): first side with a crossing, from the end that is inside
      let oneSide (q : Option (Point α × Line.Prov)) : Option (Line α) :=
        match q with
        | none => none
        | some (q, _) => if b1 then some ⟨line.p1, q⟩ else if b2 then some ⟨q, line.p2⟩ else none
      match (oneSide q1).orElse (fun _ => (oneSide q2).orElse fun _ => oneSide q3) with
      | some l => some l
      | none =>
        match q1, q2, q3 with
        | none, some (b, _), some (c, _) => some ⟨b, c⟩
        | some (a, _), none, some (c, _) => some ⟨a, c⟩
        | some (a, _), some (b, _), none => some ⟨a, b⟩
        | some (a, pa), some (b, pb), some (c, pc) =>
          if samePtr pa pb then some ⟨a, c⟩
          else if samePtr pa pc then some ⟨a, b⟩
          else if samePtr pb pc then some ⟨a, b⟩
          else none
        | _, _, _ => none

end Triangle

/-! ## rotation_matrix.go -/

/-- primitives/rotation_matrix.go:11-19 -/
def rotationAroundX (angle : α) : RotationMatrix α :=
  let al := toRadians angle
  { x := V (lit 1 0) (lit 0 0) (lit 0 0)
    y := V (lit 0 0) (cos al) (sin al)
    z := V (lit 0 0) (-(sin al)) (cos al) }

/-- primitives/rotation_matrix.go:21-29 -/
def rotationAroundZ (angle : α) : RotationMatrix α :=
  let al := toRadians angle
  { x := V (cos al) (sin al) (lit 0 0)
    y := V (-(sin al)) (cos al) (lit 0 0)
    z := V (lit 0 0) (lit 0 0) (lit 1 0) }

/-! ## mesh.go -/
namespace Mesh

/-- primitives/mesh.go:15-26 -/
def rotate (m : Mesh α) (rm : RotationMatrix α) (around : Point α) : Mesh α :=
  let cv := around.toVector
  let r (p : Point α) : Point α := (((around.vectorTo p).rotate rm).add cv).toPoint
  ⟨m.triangles.map fun t => newTriangle (r t.p1) (r t.p2) (r t.p3)⟩

/-- primitives/mesh.go:28-35 (in-place update returned as a value; nil receiver: no effect) -/
def shift (m : Option (Mesh α)) (v : Vec α) : Option (Mesh α) :=
  m.map fun m => ⟨m.triangles.map fun t => t.shift v⟩

/-- primitives/mesh.go:50-64 -/
def minMaxZ (m : Mesh α) (z : Vec α) : α × α :=
  if m.triangles.isEmpty then (lit 0 0, lit 0 0)
  else
    m.triangles.foldl (fun acc t =>
      let mm := t.minMaxZ z
      (fmin acc.1 mm.1, fmax acc.2 mm.2)) (maxF64, -maxF64)

end Mesh

end Goosli
