import Verif.Proofs.PrinterTrace
import Verif.Proofs.Decimal
import Verif.Spec.R3
/-!
# Extrusion amounts in exact arithmetic
-/
set_option linter.unusedSectionVars false
namespace Goosli
open Flt Spec

/-- settings with finite, physically meaningful numbers -/
structure FinSett (sett : GcodeSettings XR) (w h d : ℝ) : Prop where
  width : sett.lineWidth = XR.fin w
  height : sett.layerHeight = XR.fin h
  bar : sett.barDiameter = XR.fin d
  ne : d ≠ 0

/-- filament length per millimetre of path: area of the line over area of the bar -/
noncomputable def feedPerMm (w h d : ℝ) : ℝ := 4 * w * h / (d ^ 2 * Real.pi)

theorem extrusionDelta_fin {sett : GcodeSettings XR} {w h d : ℝ} (F : FinSett sett w h d) (a b : R3) :
    extrusionDelta sett a.pt b.pt = XR.fin (feedPerMm w h d * R3.dist a b) := by
  have hd : d ^ 2 * Real.pi ≠ 0 := mul_ne_zero (pow_ne_zero _ F.ne) Real.pi_ne_zero
  have hn : 0 ≤ (b.x - a.x) ^ 2 + (b.y - a.y) ^ 2 + (b.z - a.z) ^ 2 := by positivity
  have e : R3.dist a b = Real.sqrt ((b.x - a.x) ^ 2 + (b.y - a.y) ^ 2 + (b.z - a.z) ^ 2) := by
    unfold R3.dist R3.norm R3.normSq R3.dot
    congr 1; simp; ring
  simp only [extrusionDelta, R3.pt, F.width, F.height, F.bar, XR.fin_sub, XR.fin_pow2, XR.fin_add, XR.fin_sqrt hn,
    XR.lit_def, XR.fin_mul, XR.pi_def, XR.fin_div hd, e, feedPerMm]
  congr 1; push_cast; ring

theorem feedPerMm_nonneg {w h d : ℝ} (hw : 0 ≤ w) (hh : 0 ≤ h) : 0 ≤ feedPerMm w h d := by
  unfold feedPerMm; have := Real.pi_pos; positivity

theorem adjPairs_map {β γ : Type} (f : β → γ) (l : List β) :
    adjPairs (l.map f) = (adjPairs l).map fun q => (f q.1, f q.2) := by
  unfold adjPairs
  rw [← List.map_tail, List.zip_map]; rfl

theorem adjPairs_cons {β : Type} (a b : β) (l : List β) : adjPairs (a :: b :: l) = (a, b) :: adjPairs (b :: l) := rfl
theorem adjPairs_one {β : Type} (a : β) : adjPairs [a] = [] := rfl
theorem adjPairs_nil {β : Type} : adjPairs ([] : List β) = [] := rfl

theorem extE_fin {sett : GcodeSettings XR} {w h d : ℝ} (F : FinSett sett w h d) (ps : List R3) (e : ℝ) :
    extE sett (adjPairs (ps.map R3.pt)) (XR.fin e) = XR.fin (e + feedPerMm w h d * R3.polyLen ps) := by
  induction ps generalizing e with
  | nil => simp [adjPairs, extE, R3.polyLen]
  | cons a t ih =>
    cases t with
    | nil => simp [adjPairs, extE, R3.polyLen]
    | cons b t =>
      simp only [List.map_cons, adjPairs_cons, extE, extrusionDelta_fin F, XR.fin_add] at ih ⊢
      rw [ih, R3.polyLen]
      congr 1; ring

end Goosli
