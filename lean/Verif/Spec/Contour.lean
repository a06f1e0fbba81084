import Verif.Spec.Section
/-!
# Specification: contours cut by a plane, and the even-odd rule
-/
namespace Goosli
open Classical

/-- all sides of all contours -/
def contourEdges (cs : List (List R3)) : List (R3 × R3) := cs.flatMap fun c => c.zip c.tail

/-- the side is not parallel to the plane and its ends are not strictly on the same side of it -/
def cutsEdge (P N : R3) (e : R3 × R3) : Prop :=
  R3.height P N e.1 ≠ R3.height P N e.2 ∧ R3.height P N e.1 * R3.height P N e.2 ≤ 0

/-- the point where the line through the side meets the plane -/
noncomputable def cutPoint (P N : R3) (e : R3 × R3) : R3 :=
  e.1 + (R3.height P N e.1 / (R3.height P N e.1 - R3.height P N e.2)) • (e.2 - e.1)

/-- the crossings of the plane with the contours, one for every side that is cut -/
noncomputable def cutPoints (P N : R3) (cs : List (List R3)) : List R3 :=
  ((contourEdges cs).filter fun e => decide (cutsEdge P N e)).map (cutPoint P N)

/-- `w`, a point of the plane, is inside by the even-odd rule: walking from `w` along the plane in the direction of decreasing
`key` one meets an odd number of crossings -/
def evenOddInside (P N : R3) (cs : List (List R3)) (key : R3 → ℝ) (w : R3) : Prop :=
  ((cutPoints P N cs).countP fun c => decide (key c < key w)) % 2 = 1

/-- the contour ends where it starts -/
def closedContour (c : List R3) : Prop := ∃ a t, c = a :: t ∧ (a :: t).getLast? = some a

end Goosli
