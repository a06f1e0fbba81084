import Verif.Model.Prim
/-!
# primitives/path.go, primitives/layer.go, and the parts of point.go / plane.go that use paths
-/
namespace Goosli
open Flt

variable {α : Type} [Flt α]

/-- primitives/layer.go:3-10 -/
structure Layer (α : Type) where
  order : Int
  norm : Vec α
  paths : List (Path α)
  middlePs : List (Path α) := []
  innerPs : List (Path α) := []
  fill : List (Path α) := []
  deriving DecidableEq, Repr

/-- The pairs `(l[i-1], l[i])` for `i = 1 .. len(l)-1`, in order: the shape of every `for i := 1; ...` loop here. -/
def adjPairs {β : Type} (l : List β) : List (β × β) := l.zip l.tail

/-- primitives/path.go:107-110 -/
structure SortP (α : Type) where
  p : Point α
  ind : Nat
  deriving DecidableEq, Repr

namespace Path

/-- primitives/path.go:9-15 -/
def reverse (p : Path α) : Path α := ⟨p.points.reverse⟩

/-- primitives/path.go:17-27 -/
def equal (p p2 : Path α) : Bool :=
  if p.points.length ≠ p2.points.length then false
  else (p.points.zip p2.points).all fun q => q.1.equal q.2

/-- one summand of primitives/path.go:33 and 36 (from `prev` to `cur`) -/
def windingTerm (prev cur : Point α) : α := (cur.x - prev.x) * (cur.y + prev.y)

/-- primitives/path.go:29-46; the wrap-around summand indexes `Points[0]`, so an empty path panics -/
def isWindingCW (p : Path α) : Go Bool := do
  let s := (adjPairs p.points).foldl (fun s q => s + windingTerm q.1 q.2) (lit 0 0)
  let first ← goAt p.points 0
  let last ← goLast p.points
  let s := s + windingTerm last first
  return lit 0 0 <? s

/-- primitives/path.go:48-54 -/
def isClosed (p : Path α) : Bool :=
  match p.points.head?, p.points.getLast? with
  | some a, some b => if p.points.length ≤ 1 then true else a.equal b
  | _, _ => true

/-- primitives/path.go:56-58 -/
def isHole (p : Path α) : Go Bool := do return !(← p.isWindingCW)

/-- primitives/path.go:60-62 -/
def isSolid (p : Path α) : Go Bool := do return !(← p.isHole)

/-- primitives/path.go:64-75 (`Points[0]` is only read when `IsClosed` is false, i.e. with at least 2 points) -/
def close (p : Path α) : Path α :=
  if p.isClosed then ⟨p.points⟩
  else match p.points with
    | [] => ⟨[]⟩
    | a :: t => ⟨a :: t ++ [a]⟩

end Path

/-- primitives/point.go:83-101, the crossing-number test -/
def Point.inside (a : Point α) (path : Path α) : Bool :=
  match path.points with
  | p0 :: p1 :: _ :: _ :: _ =>
    let n := p0.vectorTo p1
    let pl : Plane α := ⟨a, n⟩
    let v := (a.vectorTo p0).projectOnPlane pl
    let c := (adjPairs path.points).countP fun q =>
      match pl.intersectSegment q.1 q.2 with
      | some i => (a.vectorTo i).codirectedWith v
      | none => false
    c % 2 ≠ 0
  | _ => false

/-- primitives/path.go:77-96 -/
def Path.isInside (p p1 : Path α) : Bool :=
  if (adjPairs p.points).any fun s => (adjPairs p1.points).any fun t =>
      (Line.mk s.1 s.2).isIntersectingSegment (Line.mk t.1 t.2) then false
  else p.points.any fun q => q.inside p1

/-! ## JoinPaths3 -/

/-- primitives/path.go:208-231 -/
def tryJoin (p1 p2 : Path α) : Go (Option (Path α)) := do
  let l1 ← goLast p1.points
  let f2 ← goAt p2.points 0
  if l1.equal f2 then
    return some ⟨p1.points ++ (← goTail p2.points)⟩
  else
    let l2 ← goLast p2.points
    let f1 ← goAt p1.points 0
    if l2.equal f1 then
      return some ⟨p2.points ++ (← goTail p1.points)⟩
    else return none

/-- primitives/path.go:128-132, the comparator handed to `sort.Slice` -/
def joinLess (b c : SortP α) : Bool :=
  (b.p.x <? c.p.x) || (almostZero (b.p.x - c.p.x) && (b.p.y <? c.p.y)) ||
    (almostZero (b.p.x - c.p.x) && almostZero (b.p.y - c.p.y) && (b.p.z <? c.p.z))

/-- primitives/path.go:114-127: the two end points of every path with its index (starting at `i`) -/
def sortPs (i : Nat) : List (Path α) → Go (List (SortP α))
  | [] => return []
  | p :: ps => do
    let f ← goAt p.points 0
    let l ← goLast p.points
    let rest ← sortPs (i + 1) ps
    return ⟨f, i⟩ :: ⟨l, i⟩ :: rest

/-- primitives/path.go:138-141 / 143-146: follow `w` to the root.  Fuel stands for the unbounded `for`; it is
initialised with `len(w)` and exhausting it is the error `diverges`. -/
def findRoot (w : List Nat) : Nat → Nat → Go Nat
  | 0, _ => .error .diverges
  | fuel + 1, j => do
    let k ← goAt w j
    if k = j then return j else findRoot w fuel k

/-- loop state of `JoinPaths3`: the (mutated) path slice and the parent slice `w` -/
structure JState (α : Type) where
  p : List (Path α)
  w : List Nat

/-- primitives/path.go:135-156, one iteration -/
def joinStep (st : JState α) (b c : SortP α) : Go (JState α) := do
  if b.p.equal c.p then
    let j1 ← findRoot st.w st.w.length b.ind
    let p1 ← goAt st.p j1
    let j2 ← findRoot st.w st.w.length c.ind
    if j1 = j2 then return st
    else
      let p2 ← goAt st.p j2
      match ← tryJoin p1 p2 with
      | some r => return ⟨st.p.set j1 r, st.w.set j2 j1⟩
      | none => return st
  else return st

/-- primitives/path.go:134-157 -/
def joinLoop : List (SortP α) → JState α → Go (JState α)
  | b :: c :: rest, st => do joinLoop (c :: rest) (← joinStep st b c)
  | _, st => return st

/-- primitives/path.go:158-164: paths that are still their own root -/
def joinCollect (st : JState α) : List (Path α) :=
  (st.p.zip st.w).zipIdx.filterMap fun q => if q.1.2 = q.2 then some q.1.1 else none

/-- primitives/path.go:113-165 -/
def joinPaths3 (S : Sorter) (p : List (Path α)) : Go (List (Path α)) := do
  let a ← sortPs 0 p
  let st ← joinLoop (S.run joinLess a) ⟨p, List.range p.length⟩
  return joinCollect st

/-! ## MinimizeLines -/

/-- `res.Points[len(res.Points)-1] = pt` (on a non-empty slice) -/
def setLast {β : Type} (l : List β) (x : β) : List β := l.dropLast ++ [x]

/-- primitives/path.go:182-192; `res` is `res.Points`, `l1` the current line -/
def minimizeLoop : List (Point α) → List (Point α) → Line α → List (Point α) × Line α
  | [], res, l1 => (res, l1)
  | pt :: rest, res, l1 =>
    let l2 : Line α := ⟨l1.p2, pt⟩
    if l1.isCollinear l2 then minimizeLoop rest (setLast res pt) ⟨l1.p1, pt⟩
    else minimizeLoop rest (res ++ [pt]) l2

/-- primitives/path.go:193-204; here `res` always has at least two points, so no index panics -/
def minimizeClose (res : List (Point α)) (l1 : Line α) : List (Point α) :=
  match res with
  | r0 :: r1 :: t =>
    if (Path.mk res).isClosed then
      let l2 : Line α := ⟨r0, r1⟩
      if l1.isCollinear l2 then
        if l2.len <? l1.len then
          -- res[len-1] = res[1]; res = res[1:]
          setLast (r1 :: t) r1
        else
          -- res[0] = res[len-2]; res = res[:len-1]
          match res.dropLast.getLast? with
          | some x => (x :: r1 :: t).dropLast
          | none => res
      else res
    else res
  | _ => res

/-- primitives/path.go:175-206 -/
def Path.minimizeLines (p : Path α) : Path α :=
  match p.points with
  | p0 :: p1 :: p2 :: rest =>
    let r := minimizeLoop (p2 :: rest) [p0, p1] ⟨p0, p1⟩
    ⟨minimizeClose r.1 r.2⟩
  | _ => p

/-- primitives/path.go:167-173 -/
def joinPaths3AndMinimize (S : Sorter) (p : List (Path α)) : Go (List (Path α)) := do
  return (← joinPaths3 S p).map Path.minimizeLines

/-! ## FindCentroid -/

/-- accumulators of primitives/path.go:322-348 -/
structure CentroidAcc (α : Type) where
  a : α
  cx : α
  cy : α
  a2 : α
  cx2 : α
  cz : α
  a3 : α
  cy2 : α
  cz2 : α

/-- primitives/path.go:322-330 -/
def CentroidAcc.zero : CentroidAcc α :=
  ⟨lit 0 0, lit 0 0, lit 0 0, lit 0 0, lit 0 0, lit 0 0, lit 0 0, lit 0 0, lit 0 0⟩

/-- primitives/path.go:331-348, loop body -/
def CentroidAcc.step (c : CentroidAcc α) (q : Point α × Point α) : CentroidAcc α :=
  let p := q.1
  let p' := q.2
  let d := p.x * p'.y - p'.x * p.y
  let d2 := p.x * p'.z - p'.x * p.z
  let d3 := p.y * p'.z - p'.y * p.z
  { a := c.a + d, cx := c.cx + (p.x + p'.x) * d, cy := c.cy + (p.y + p'.y) * d
    a2 := c.a2 + d2, cx2 := c.cx2 + (p.x + p'.x) * d2, cz := c.cz + (p.z + p'.z) * d2
    a3 := c.a3 + d3, cy2 := c.cy2 + (p.y + p'.y) * d3, cz2 := c.cz2 + (p.z + p'.z) * d3 }

/-- primitives/path.go:349-394, from the sums and the first point (which exists whenever it is read; see
`findCentroid`) -/
def CentroidAcc.finish (c : CentroidAcc α) (first : Point α) : Point α :=
  let o : α := lit 0 0
  let a := c.a * lit 5 1
  let x := if !almostZero a then c.cx / lit 6 0 / a else o
  let y := if !almostZero a then c.cy / lit 6 0 / a else o
  let a2 := c.a2 * lit 5 1
  let x1 := if !almostZero a2 then c.cx2 / lit 6 0 / a2 else o
  let z := if !almostZero a2 then c.cz / lit 6 0 / a2 else o
  let a3 := c.a3 * lit 5 1
  let y1 := if !almostZero a3 then c.cy2 / lit 6 0 / a3 else o
  let z1 := if !almostZero a3 then c.cz2 / lit 6 0 / a3 else o
  -- 371-375
  let b12 := almostZero a && almostZero a2
  let x := if b12 then first.x else x
  let y := if b12 then y1 else y
  let z := if b12 then z1 else z
  -- 376-379
  let b13 := almostZero a && almostZero a3
  let y := if b13 then first.y else y
  let x := if b13 then x1 else x
  -- 380-382
  let z := if almostZero a2 && almostZero a3 then first.z else z
  -- 384-392
  let x := if almostZero a && !almostZero a2 then x1 else x
  let y := if almostZero a && !almostZero a3 then y1 else y
  let z := if almostZero a2 && !almostZero a3 then z1 else z
  ⟨x, y, z⟩

/-- primitives/path.go:321-395; an empty path reaches `path.Points[0]` (its sums are 0) and panics -/
def findCentroid (path : Path α) : Go (Point α) := do
  let first ← goAt path.points 0
  return ((adjPairs path.points).foldl CentroidAcc.step CentroidAcc.zero).finish first

/-- primitives/plane.go:91-100; on an empty path `FindCentroid` panics -/
def Plane.intersectPathCodirectedWith (p : Plane α) (path : Path α) (v : Vec α) : Go (Option (Point α)) := do
  let cp ← findCentroid path
  return (adjPairs path.points).findSome? fun q =>
    match p.intersectSegment q.1 q.2 with
    | some i => if (cp.vectorTo i).codirectedWith v then some i else none
    | none => none

end Goosli
