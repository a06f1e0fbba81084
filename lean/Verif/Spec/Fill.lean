import Verif.Model.Prim
/-!
# Specification: nearest-neighbour tours over a set of fill lines
-/
namespace Goosli
open Flt

variable {α : Type} [Flt α]

/-- first and last point of a path -/
def pathEnds (q : Path α) : List (Point α) := q.points.head?.toList ++ q.points.getLast?.toList

/-- all distances between end points of the given paths -/
def endDistances (fill : List (Path α)) : List α :=
  (fill.flatMap pathEnds).flatMap fun x => (fill.flatMap pathEnds).map fun y => x.distanceTo y

/-- `out` visits the paths of the second argument, each exactly once and in one of its two directions, always going from the
current point to a nearest end of the remaining paths -/
inductive NearestTour : Point α → List (Path α) → List (Path α) → Prop
  | done (p : Point α) : NearestTour p [] []
  | next {p s e : Point α} {l₁ l₂ rest : List (Path α)} {q o : Path α}
      (dir : o.points = q.points ∨ o.points = q.points.reverse)
      (starts : o.points.head? = some s) (ends : o.points.getLast? = some e)
      (nearest : ∀ q' ∈ l₁ ++ q :: l₂, ∀ x ∈ pathEnds q', (x.distanceTo p <? s.distanceTo p) = false)
      (tail : NearestTour e (l₁ ++ l₂) rest) : NearestTour p (l₁ ++ q :: l₂) (o :: rest)

end Goosli
