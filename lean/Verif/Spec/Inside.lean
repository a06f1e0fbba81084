import Verif.Spec.R3
/-!
# Specification: inside and outside of a closed contour, seen from above
-/
set_option autoImplicit false
namespace Goosli

/-- the cross product of the horizontal parts -/
noncomputable def R3.cross2 (a b : R3) : ℝ := a.x * b.y - a.y * b.x

/-- the sides of a contour given by its points -/
def sides (ws : List R3) : List (R3 × R3) := ws.zip ws.tail

/-- seen from above, the ray from `a` in the direction `d` meets the side `q` -/
def RayHits (a d : R3) (q : R3 × R3) : Prop :=
  ∃ s t : ℝ, 0 ≤ s ∧ 0 ≤ t ∧ t ≤ 1 ∧ q.1.x + t * (q.2.x - q.1.x) = a.x + s * d.x ∧ q.1.y + t * (q.2.y - q.1.y) = a.y + s * d.y

/-- seen from above, no corner is on the line through `a` in the direction `d` -/
def Generic (a d : R3) (ws : List R3) : Prop := ∀ w ∈ ws, d.cross2 (w - a) ≠ 0

/-- seen from above, `a` is on the contour -/
def OnContour (a : R3) (ws : List R3) : Prop :=
  ∃ q ∈ sides ws, ∃ t : ℝ, 0 ≤ t ∧ t ≤ 1 ∧ q.1.x + t * (q.2.x - q.1.x) = a.x ∧ q.1.y + t * (q.2.y - q.1.y) = a.y

open Classical in
/-- the ray meets an odd number of sides -/
noncomputable def OddHits (a d : R3) (ws : List R3) : Prop := (sides ws).countP (fun q => decide (RayHits a d q)) % 2 = 1

/-- `a` is inside the contour: a ray that avoids the corners meets an odd number of sides (`C77_ray`: which ray does not matter) -/
def Within (a : R3) (ws : List R3) : Prop := ∃ d, Generic a d ws ∧ OddHits a d ws

end Goosli
