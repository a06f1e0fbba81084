import Verif.Model.Path
/-!
# primitives/path.go: JoinPaths2, and its only user, primitives/plane.go: IntersectMesh
-/
namespace Goosli
open Flt

variable {α : Type} [Flt α]

/-- The order in which a Go `range` over a map yields the entries: any permutation, possibly a different one for each
loop (numbered `n`). -/
structure MapOrder (β : Type) where
  run : Nat → List β → List β
  perm : ∀ n l, (run n l).Perm l

/-- Go's `==` on `Point`, the key equality of `map[Point]Path` (false on NaN) -/
def Point.keyEq (a b : Point α) : Bool := (a.x =? b.x) && (a.y =? b.y) && (a.z =? b.z)

/-- `map[Point]Path`, entries in insertion order.  primitives/path.go:240-256 inserts only when the key is absent and
deletes only when it is present, so keys are distinct and "the first matching entry" is "the entry". -/
abbrev Lookup (α : Type) := List (Point α × Path α)

/-- primitives/path.go:242-255: the iterations of the inner loop for one index `i`, until `i++`.  `cur` is `paths[i]`,
`yes` the flag of the outer loop.  Fuel stands for the unbounded `for`; running out is the error `diverges`. -/
def absorb : Nat → Path α → Lookup α → Bool → Go (Lookup α × Bool)
  | 0, _, _, _ => .error .diverges
  | fuel + 1, cur, lk, yes => do
    let f ← goAt cur.points 0
    match lk.find? fun e => f.mapKey.keyEq e.1 with
    | some e =>
      let t ← goTail cur.points
      absorb fuel ⟨e.2.points ++ t⟩ (lk.eraseP fun e => f.mapKey.keyEq e.1) true
    | none =>
      let l ← goLast cur.points
      match lk.find? fun e => l.mapKey.keyEq e.1 with
      | some _ => absorb fuel cur.reverse lk yes
      | none => return (lk ++ [(l.mapKey, cur)], yes)

/-- primitives/path.go:241-256 -/
def joinRound : List (Path α) → Lookup α → Bool → Go (Lookup α × Bool)
  | [], lk, yes => return (lk, yes)
  | c :: cs, lk, yes => do
    let r ← absorb (2 * lk.length + 1) c lk yes
    joinRound cs r.1 r.2

/-- primitives/path.go:236-260 with `toslice` (path.go:98-105) -/
def joinPaths2Loop (ord : MapOrder (Path α)) : Nat → Nat → List (Path α) → Go (List (Path α))
  | 0, _, _ => .error .diverges
  | fuel + 1, n, paths => do
    let r ← joinRound paths [] false
    let out := ord.run n (r.1.map Prod.snd)
    if r.2 then joinPaths2Loop ord fuel (n + 1) out else return out

/-- primitives/path.go:233-261 -/
def joinPaths2 (ord : MapOrder (Path α)) (p : List (Path α)) : Go (List (Path α)) :=
  joinPaths2Loop ord (p.length + 1) 0 p

/-- primitives/plane.go:26-34 -/
def Plane.intersectMesh (ord : MapOrder (Path α)) (p : Plane α) (ts : List (Triangle α)) : Go (Layer α) := do
  let paths := ts.filterMap fun t => (p.intersectTriangle t).map fun l => (⟨[l.p1, l.p2]⟩ : Path α)
  return { order := 0, norm := p.n, paths := ← joinPaths2 ord paths }

end Goosli
