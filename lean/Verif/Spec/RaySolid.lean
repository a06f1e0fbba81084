import Verif.Spec.Solid
import Verif.Spec.Inside
/-!
# Specification: inside and outside of a model
-/
set_option autoImplicit false
namespace Goosli

/-- `x` is a point of the triangle -/
def OnTri (t : RTri) (x : R3) : Prop := ∃ u v w : ℝ, 0 ≤ u ∧ 0 ≤ v ∧ 0 ≤ w ∧ u + v + w = 1 ∧ x = u • t.a + v • t.b + w • t.c

/-- the ray from `x` in the direction `d` meets the triangle -/
def RayMeets (x d : R3) (t : RTri) : Prop := ∃ s : ℝ, 0 ≤ s ∧ OnTri t (x + s • d)

open Classical in
/-- the ray meets an odd number of triangles -/
noncomputable def OddTris (x d : R3) (ts : List RTri) : Prop := ts.countP (fun t => decide (RayMeets x d t)) % 2 = 1

open Classical in
/-- seen from above, `x` is inside an odd number of the contours: inside a part and not in a hole of it -/
noncomputable def InsideOdd (x : R3) (cs : List (List R3)) : Prop := cs.countP (fun c => decide (Within x c)) % 2 = 1

end Goosli
