import Verif.Spec.RatToy
import Verif.Spec.Sorters
import Verif.Model.Slice
/-!
# Small models with rational coordinates, for examples
-/
set_option autoImplicit false
namespace Goosli.RatToy
attribute [local instance] flt

/-- the walls of an upright prism over a polygon; without bottom and lid, which horizontal planes do not meet -/
def tube (lo hi : Rat) (ring : List (Rat × Rat)) : List (Triangle Rat) :=
  (ring.zip (ring.tail ++ ring.take 1)).flatMap fun q =>
    let a : Point Rat := ⟨q.1.1, q.1.2, lo⟩
    let b : Point Rat := ⟨q.2.1, q.2.2, lo⟩
    let c : Point Rat := ⟨q.2.1, q.2.2, hi⟩
    let d : Point Rat := ⟨q.1.1, q.1.2, hi⟩
    [newTriangle a b c, newTriangle a c d]

/-- the walls of a frustum: as `tube`, with another ring at the top -/
def frustum (lo hi : Rat) (bot top : List (Rat × Rat)) : List (Triangle Rat) :=
  ((bot.zip (bot.tail ++ bot.take 1)).zip (top.zip (top.tail ++ top.take 1))).flatMap fun q =>
    let a : Point Rat := ⟨q.1.1.1, q.1.1.2, lo⟩
    let b : Point Rat := ⟨q.1.2.1, q.1.2.2, lo⟩
    let c : Point Rat := ⟨q.2.2.1, q.2.2.2, hi⟩
    let d : Point Rat := ⟨q.2.1.1, q.2.1.2, hi⟩
    [newTriangle a b c, newTriangle a c d]

/-- a triangle in the plane, counterclockwise -/
def corner (x y s : Rat) : List (Rat × Rat) := [(x, y), (x + s, y), (x, y + s)]

/-- sixteen points, nearly on a circle of radius 10 -/
def circle : List (Rat × Rat) := [(10, 0), (9, 4), (7, 7), (4, 9), (0, 10), (-4, 9), (-7, 7), (-9, 4), (-10, 0), (-9, -4), (-7, -7), (-4, -9),
  (0, -10), (4, -9), (7, -7), (9, -4)]

/-- settings with layer height 1 -/
def plain : Settings Rat :=
  ⟨⟨1, 1, 1, 1, true, 50, 20, 30, true, 40, 5⟩, 1, 1, 1, 20, ⟨0, 0, 0⟩, "Lines", 30, ⟨0, 0, 1⟩, false, 0, 1, 1, 0⟩

/-- without infill -/
def hollow : Settings Rat := { plain with fillDensity := 0, topLayers := 0, bottomLayers := 0 }

/-- results arrive in the order of the jobs -/
def inOrder : Arrival Rat := ⟨id, fun _ => List.Perm.refl _⟩

end Goosli.RatToy
