import Verif.Model.Path
/-!
# Model of the package helpers
-/
namespace Goosli
open Flt

variable {α : Type} [Flt α]

/-! ## colorize_triangles.go -/

/-- helpers/colorize_triangles.go:8-18 -/
def colorizeTriangles (m : Mesh α) (angle : α) (v : Vec α) : List Bool :=
  m.triangles.map fun t => t.n.angle v.reverse <? lit 90 0 - angle

/-- helpers/colorize_triangles.go:20-30; `arr[i]` is in range because `arr` has one entry per triangle -/
def filterTrianglesByColor (m : Mesh α) (angle : α) (v : Vec α) : List (Triangle α) :=
  (m.triangles.zip (colorizeTriangles m angle v)).filterMap fun q => if q.2 then some q.1 else none

/-! ## simplify_line.go -/

/-- the loop of helpers/simplify_line.go:13-19 from index `i` over the points after it; `a`, `b` are the ends -/
def farthest (a b : Point α) : Nat → List (Point α) → Nat × α → Nat × α
  | _, [], acc => acc
  | i, p :: t, (index, dmax) =>
    let d := p.distanceToLine a b
    farthest a b (i + 1) t (if dmax <? d then (i, d) else (index, dmax))

/-- `index` and `dmax` after the loop, helpers/simplify_line.go:10-19 (for fewer than three points it does not run) -/
def farthestOf (ps : List (Point α)) : Nat × α :=
  match ps.head?, ps.getLast? with
  | some a, some b => farthest a b 1 (ps.tail.dropLast) (0, lit 0 0)
  | _, _ => (0, lit 0 0)

/-- helpers/simplify_line.go:8-30. The argument `fuel` bounds the depth of the recursion; running out of it is the error
`diverges` (Go: stack exhaustion). `ps[0]` and `ps[end-1]` panic on an empty slice; `ps[:1]` of an empty slice does. -/
def simplifyLine : Nat → List (Point α) → α → Go (List (Point α))
  | 0, _, _ => .error .diverges
  | fuel + 1, ps, epsilon =>
    let r := farthestOf ps
    if epsilon <? r.2 then do
      if ps.length < r.1 + 1 then throw .slice
      let res1 ← simplifyLine fuel (ps.take (r.1 + 1)) epsilon
      let res2 ← simplifyLine fuel (ps.drop r.1) epsilon
      return (← goInit res1) ++ res2
    else do
      return [← goAt ps 0, ← goLast ps]

/-! ## simplify_mesh.go -/

/-- vertices of a `simplify.Triangle` -/
abbrev STri (α : Type) := Point α × Point α × Point α

/-- helpers/simplify_mesh.go:26-37 -/
def toFoglemanMesh (m : Mesh α) : List (STri α) := m.triangles.map fun t => (t.p1, t.p2, t.p3)

/-- helpers/simplify_mesh.go:38-49 -/
def toGoosliMesh (ts : List (STri α)) : Mesh α := ⟨ts.map fun t => newTriangle t.1 t.2.1 t.2.2⟩

/-- helpers/simplify_mesh.go:9-24. `simplify` stands for `(*simplify.Mesh).Simplify(factor)` of fogleman/simplify, which
is not modelled. `none` is the error "mesh is nil". -/
def simplifyMesh (simplify : List (STri α) → α → List (STri α)) (mesh : Option (Mesh α)) (resSize : Int) : Option (Mesh α) :=
  match mesh with
  | none => none
  | some m =>
    let actualSize : Int := m.triangles.length
    if actualSize ≤ resSize then some m
    else
      let factor : α := ofInt resSize / ofInt actualSize
      some (toGoosliMesh (simplify (toFoglemanMesh m) factor))

/-! ## cut_mesh.go -/

/-- helpers/cut_mesh.go:102-123 -/
def splitOnThree (p1 : Point α) (line : Line α) (t : Triangle α) : Triangle α × Triangle α × Triangle α :=
  let (t1, t2, t3) :=
    if t.p2.equal p1 then (t.p2, t.p3, t.p1)
    else if t.p3.equal p1 then (t.p3, t.p1, t.p2)
    else (t.p1, t.p2, t.p3)
  let (lp1, lp2) :=
    if almostZero ((t1.vectorTo t2).cross (t1.vectorTo line.p2)).length then (line.p2, line.p1) else (line.p1, line.p2)
  (newTriangle t1 lp1 lp2, newTriangle lp1 t2 t3, newTriangle t3 lp2 lp1)

/-- what one triangle contributes to the variables of helpers/cut_mesh.go:15-18 -/
structure CutAcc (α : Type) where
  up : List (Triangle α)
  down : List (Triangle α)
  inters : List (Path α)

/-- body of the loop helpers/cut_mesh.go:20-71 -/
def cutTriangle (p : Plane α) (t : Triangle α) : CutAcc α :=
  let inFront := [t.p1, t.p2, t.p3].filter p.pointInFront
  let outFront := [t.p1, t.p2, t.p3].filter (fun q => !p.pointInFront q)
  match inFront, outFront with
  | [_, _], [o] =>
    match p.intersectTriangle t with
    | none => ⟨[], [], []⟩
    | some line =>
      let ts := splitOnThree o line t
      ⟨[ts.2.1, ts.2.2], [ts.1], [⟨[line.p1, line.p2]⟩]⟩
  | [i], _ =>
    match p.intersectTriangle t with
    | none => ⟨[], [], []⟩
    | some line =>
      let ts := splitOnThree i line t
      ⟨[ts.1], [ts.2.1, ts.2.2], [⟨[line.p1, line.p2]⟩]⟩
  | [], _ => ⟨[], [t], []⟩
  | _, _ => ⟨[t], [], []⟩

/-- the cap triangles of one contour: fan from its first point, helpers/cut_mesh.go:82-92 -/
def capTriangles (p : Plane α) (pth : Path α) : List (Triangle α × Triangle α) :=
  match pth.points with
  | [] => []
  | p0 :: rest => (adjPairs rest).map fun q =>
      let t := newTriangle p0 q.1 q.2
      let t2 := newTriangle q.2 q.1 p0
      if t.n.codirectedWith p.n then (t2, t) else (t, t2)

/-- helpers/cut_mesh.go:10-98; the error is always nil and omitted -/
def cutMesh (S : Sorter) (mesh : Option (Mesh α)) (p : Plane α) : Go (Mesh α × Mesh α) := do
  match mesh with
  | none => return (⟨[]⟩, ⟨[]⟩)
  | some m =>
    let cs := m.triangles.map (cutTriangle p)
    let joined ← joinPaths3AndMinimize S (cs.flatMap (·.inters))
    let caps := joined.flatMap (capTriangles p)
    return (⟨cs.flatMap (·.up) ++ caps.map (·.1)⟩, ⟨cs.flatMap (·.down) ++ caps.map (·.2)⟩)

/-! ## supports_by_vector.go -/

/-- the edges of the triangles, helpers/supports_by_vector.go:9-14 -/
def triangleLines (ts : List (Triangle α)) : List (Line α) :=
  ts.flatMap fun t => [⟨t.p1, t.p2⟩, ⟨t.p1, t.p3⟩, ⟨t.p3, t.p2⟩]

/-- `l1 == l2 || l1 == l2.Reverse()` with Go's struct equality -/
def sameEdge (l1 l2 : Line α) : Bool := l1.goEq l2 || l1.goEq l2.reverse

/-- the loop helpers/supports_by_vector.go:18-32; `pre` is `lines[:i]` -/
def undoubled (pre : List (Line α)) : List (Line α) → List (Line α)
  | [] => []
  | l :: t => (if (pre ++ t).any (sameEdge l) then [] else [l]) ++ undoubled (pre ++ [l]) t

/-- helpers/supports_by_vector.go:7-35 -/
def makeUndoubledLines (ts : List (Triangle α)) : List (Line α) := undoubled [] (triangleLines ts)

/-- helpers/supports_by_vector.go:38-54; `none` for nil -/
def intersectTriangles (t : Triangle α) (ts : List (Triangle α)) : Option (List (Line α)) :=
  let lines := ts.filterMap fun bt =>
    if bt.pointBelongs t.p1 || bt.pointBelongs t.p2 || bt.pointBelongs t.p3 then none else bt.intersectTriangle t
  if lines.isEmpty then none else some lines

/-- helpers/supports_by_vector.go:57-67 -/
def makeSupportLines (ls : List (Line α)) (a : Plane α) : Go (List (Line α)) :=
  ls.mapM fun l => do return ⟨← a.proectionPointToPlane l.p1, ← a.proectionPointToPlane l.p2⟩

/-- helpers/supports_by_vector.go:69-85: the last line replaces the first one equal to `temp_l`, or `temp_l` is appended -/
def compareAndDelete (ls : List (Line α)) (l : Line α) : List (Line α) :=
  match ls.findIdx? (sameEdge l) with
  | some j =>
    match ls.getLast? with
    | some e => (ls.set j e).dropLast
    | none => ls
  | none => ls ++ [l]

/-- helpers/supports_by_vector.go:87-97 -/
def deleteInternalLines (ts : List (Triangle α)) : List (Line α) := (triangleLines ts).foldl compareAndDelete []

end Goosli
