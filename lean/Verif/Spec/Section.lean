import Verif.Spec.R3
/-!
# Specification: planes, segments and triangle sections in real space
-/
namespace Goosli
namespace R3

/-- signed height of `w` over the plane through `P` with normal `N` (scaled by `|N|`) -/
noncomputable def height (P N w : R3) : ℝ := (w - P).dot N

/-- `w` is on the plane through `P` with normal `N` -/
def onPlane (P N w : R3) : Prop := height P N w = 0

/-- `w` is on the closed segment from `a` to `b` -/
def onSegment (a b w : R3) : Prop := ∃ t : ℝ, 0 ≤ t ∧ t ≤ 1 ∧ w = a + t • (b - a)

/-- `w` is on the boundary of the triangle -/
def onBoundary (a b c w : R3) : Prop := onSegment a b w ∨ onSegment b c w ∨ onSegment c a w

end R3
end Goosli
