import Verif.Model.Join2
/-!
# Specification: chains of paths
-/
namespace Goosli
variable {α : Type} [Flt α]

/-- the path obtained by walking through `ps` one after the other; the first point of every path but the first is
left out, because it is (up to tolerance) the last point of the one before -/
def concatPath : List (Path α) → Path α
  | [] => ⟨[]⟩
  | p :: ps => ⟨p.points ++ ps.flatMap fun q => q.points.tail⟩

/-- `b` starts where `a` ends, up to the tolerance of `Point.Equal` -/
def meets (a b : Path α) : Prop :=
  ∃ x y, a.points.getLast? = some x ∧ b.points.head? = some y ∧ x.equal y = true

/-- number of segments of a path -/
def segCount (p : Path α) : Nat := p.points.length - 1

/-- `x` is what one gets by walking through the oriented paths `g` in order, joining neighbours whose meeting points
have the same `MapKey` (a joint keeps one of its two points), or by walking the same way backwards -/
inductive Joined : List (Path α) → Path α → Prop
  | one (p) : Joined [p] p
  | join {g1 g2 a b u v} : Joined g1 a → Joined g2 b → a.points.getLast? = some u → b.points.head? = some v →
      v.mapKey.keyEq u.mapKey = true → Joined (g1 ++ g2) ⟨a.points ++ b.points.tail⟩
  | rev {g a} : Joined g a → Joined (g.reverse.map Path.reverse) a.reverse

/-- `b` is `a`, possibly walked backwards -/
def orientedAs (a b : Path α) : Prop := b = a ∨ b = ⟨a.points.reverse⟩

/-- the `MapKey`s (coordinates rounded to 8 decimals) of the two ends of a path -/
def endKeys (p : Path α) : List (Point α) :=
  (p.points.head?.toList ++ p.points.getLast?.toList).map Point.mapKey

end Goosli
