import Verif.Proofs.Space
import Verif.Spec.Solid
/-!
# Meshes with real vertices
-/
set_option linter.unusedSectionVars false
namespace Goosli
open Flt

theorem newTriangle_tri (a b c : R3) : newTriangle a.pt b.pt c.pt = (RTri.mk a b c).tri := newTriangle_pt a b c

theorem toRadians_fin (x : ℝ) : toRadians (XR.fin x) = XR.fin (rad x) := by
  unfold toRadians rad
  have : (Flt.lit 180 0 : XR) = XR.fin 180 := by simp
  rw [this]
  simp only [XR.pi_def, XR.fin_mul]
  rw [XR.fin_div (by norm_num)]

theorem R3.sub_add_cancel' (a b : R3) : b + (a - b) = a := by apply R3.ext <;> simp

end Goosli
