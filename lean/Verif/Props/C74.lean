import Verif.Props.C73
import Verif.Props.C72
import Verif.Model.Main
/-!
# C74: which slicer is used
-/
set_option linter.unusedSectionVars false
set_option autoImplicit false
namespace Goosli
open Flt
variable {α : Type} [Flt α] [FltText α]

/-- **C74.** The flag `--slicing_type` selects the slicer; with `3axes` the model is cut along the z axis and all its layers are printed in
one group; every other word than the four ends the program. -/
theorem C74_type (S : Sorter) (A : Arrival α) (f : List (STri α) → α → List (STri α)) (fuel : Nat) (planes : Option Bytes) (type : String)
    (mesh : Mesh α) (sett : Settings α) :
    (type = "3axes" → ∀ g, sliceAs S A f fuel planes type mesh sett = .ok g ↔ ∃ layers out, sliceByVector S A (some mesh) axisZ sett = .ok layers ∧
      fillLayers S layers (calcFillPlanes mesh sett).1 (calcFillPlanes mesh sett).2 sett = .ok out ∧ g = ⟨sett.gs, [.layersMoving out]⟩) ∧
    (type = "5axes_by_profile" → sliceAs S A f fuel planes type mesh sett = sliceByProfile S A fuel mesh sett) ∧
    (type = "5axes" → sliceAs S A f fuel planes type mesh sett = slice5Axes S A f fuel mesh sett) ∧
    (type = "vip" → sliceAs S A f fuel planes type mesh sett = vipSlice S A fuel planes mesh sett) ∧
    (type ∉ ["3axes", "5axes_by_profile", "5axes", "vip"] → sliceAs S A f fuel planes type mesh sett = .error .fatal) := by
  refine ⟨?_, ?_, ?_, ?_, ?_⟩
  · rintro rfl g
    constructor
    · intro h
      have h : sliceByVectorToGcode S A mesh axisZ sett = .ok g := h
      unfold sliceByVectorToGcode at h
      obtain ⟨layers, h1, h⟩ := bind_ok h
      obtain ⟨out, h2, h⟩ := bind_ok h
      exact ⟨layers, out, h1, h2, (pure_ok h).symm⟩
    · rintro ⟨layers, out, h1, h2, rfl⟩
      show sliceByVectorToGcode S A mesh axisZ sett = _
      unfold sliceByVectorToGcode
      simp only [h1, h2, go_ok_bind]
      rfl
  · rintro rfl; rfl
  · rintro rfl; rfl
  · rintro rfl; rfl
  · intro h
    simp only [List.mem_cons, List.not_mem_nil, or_false, not_or] at h
    unfold sliceAs
    rw [if_neg h.1, if_neg h.2.1, if_neg h.2.2.1, if_neg h.2.2.2]

/-- **C74.** A planes file with planes decides alone. Without planes the outside contours of the first and the last layer decide: two in
the first layer make a bridge; one in the first and one in the last, both round, make a body of rotation; everything else is sliced by
`SliceDefault2`. -/
theorem C74_vip (S : Sorter) (A : Arrival α) (fuel : Nat) (planes : Option Bytes) (mesh : Mesh α) (sett : Settings α)
    (ps : List (AnalyzedPlane α)) (hp : readPlanes planes = .ok ps) :
    (ps ≠ [] → vipSlice S A fuel planes mesh sett = sliceByPlanes S A mesh sett ps) ∧
    (ps = [] → ∀ (first last : Layer α) (op : List (Path α)) (layers : List (Layer α)),
      sliceByVector S A (some mesh) axisZ sett = .ok layers → layers.head? = some first → layers.getLast? = some last →
      outsidePathes first.paths = .ok op →
      (op.length = 2 → vipSlice S A fuel planes mesh sett = sliceBridge S A mesh sett layers) ∧
      (∀ p top q tops round, op = [p] → isRotation p = .ok true → outsidePathes last.paths = .ok top → top = q :: tops →
        isRotation q = .ok round →
        (tops = [] ∧ round = true → vipSlice S A fuel planes mesh sett = sliceRotation S A mesh sett layers) ∧
        (¬ (tops = [] ∧ round = true) → vipSlice S A fuel planes mesh sett = sliceDefault2 S A fuel mesh sett layers)) ∧
      (∀ p ops round, op = p :: ops → op.length ≠ 2 → isRotation p = .ok round → ¬ (ops = [] ∧ round = true) →
        vipSlice S A fuel planes mesh sett = sliceDefault2 S A fuel mesh sett layers)) := by
  constructor
  · intro hne
    unfold vipSlice
    rw [hp]
    cases ps with
    | nil => exact absurd rfl hne
    | cons a t => rfl
  · rintro rfl first last op layers h3 h1 h2 h4
    have hlast : goLast layers = .ok last := by unfold goLast; rw [h2]
    have hfirst : goAt layers 0 = .ok first := by
      unfold goAt
      rw [← List.head?_eq_getElem?, h1]
    have key : ∀ (q : Path α) (tops : List (Path α)) (r : Bool), ((q :: tops).length = 1 ∧ r = true) ↔ (tops = [] ∧ r = true) := by
      intro q tops r
      cases tops <;> simp
    refine ⟨?_, ?_, ?_⟩
    · intro hlen
      unfold vipSlice
      simp only [hp, go_ok_bind, List.isEmpty_nil, Bool.not_true, Bool.false_eq_true, if_false, h3, hfirst, h4]
      rw [if_pos hlen]
    · rintro p top q tops round rfl hr h5 rfl hr'
      unfold vipSlice
      simp only [hp, go_ok_bind, List.isEmpty_nil, Bool.not_true, Bool.false_eq_true, if_false, h3, hfirst, h4]
      rw [if_neg (show ¬ [p].length = 2 by simp)]
      simp only [goAt, List.getElem?_cons_zero, go_ok_bind, hr]
      rw [if_pos (show [p].length = 1 ∧ True by simp)]
      simp only [hlast, go_ok_bind, h5, goAt, List.getElem?_cons_zero, hr']
      exact ⟨fun h => if_pos ((key q tops round).2 h), fun h => if_neg fun h' => h ((key q tops round).1 h')⟩
    · rintro p ops round rfl hlen hr hnot
      unfold vipSlice
      simp only [hp, go_ok_bind, List.isEmpty_nil, Bool.not_true, Bool.false_eq_true, if_false, h3, hfirst, h4]
      rw [if_neg hlen]
      simp only [goAt, List.getElem?_cons_zero, go_ok_bind, hr]
      exact if_neg fun h => hnot ((key p ops round).1 h)

omit [FltText α] in
/-- an empty contour has no centroid -/
theorem C74_round_empty : isRotation (⟨[]⟩ : Path α) = .error .index := rfl

/-- a contour is round if it has at least 14 corners (the first one counted twice), and the distance of no corner from the centroid `c`
differs by more than half a millimetre from that of the first corner -/
def Round (c : R3) (ws : List R3) : Prop :=
  14 ≤ ws.length ∧ ∀ w0, ws.head? = some w0 → ∀ w ∈ ws, |R3.dist c w - R3.dist c w0| ≤ 1 / 2

/-- **C74, what counts as round**, in exact arithmetic. -/
theorem C74_round (ws : List R3) (c : R3) (hne : ws ≠ []) (hc : findCentroid ⟨ws.map R3.pt⟩ = .ok c.pt) :
    ∃ b, isRotation ⟨ws.map R3.pt⟩ = .ok b ∧ (b = true ↔ Round c ws) := by
  obtain ⟨w0, t, rfl⟩ := List.exists_cons_of_ne_nil hne
  have l5 : (lit 5 1 : XR) = XR.fin (1 / 2) := by simp; norm_num
  have hall : ((t.map R3.pt).all fun p => !((c.pt.distanceTo p <? c.pt.distanceTo w0.pt - lit 5 1) ||
      (c.pt.distanceTo w0.pt + lit 5 1 <? c.pt.distanceTo p))) = true ↔ ∀ w ∈ t, |R3.dist c w - R3.dist c w0| ≤ 1 / 2 := by
    rw [List.all_eq_true]
    simp only [List.mem_map, forall_exists_index, and_imp, forall_apply_eq_imp_iff₂, distanceTo_pt, l5, XR.fin_sub, XR.fin_add, XR.fin_lt,
      Bool.not_eq_true', Bool.or_eq_false_iff, decide_eq_false_iff_not, not_lt, abs_le]
    constructor
    · intro h w hw; have := h w hw; constructor <;> linarith [this.1, this.2]
    · intro h w hw; have := h w hw; constructor <;> linarith [this.1, this.2]
  rw [List.map_cons] at hc
  unfold isRotation
  simp only [List.map_cons]
  simp only [hc, go_ok_bind, goAt, List.getElem?_cons_zero, List.length_cons, List.length_map, List.tail_cons]
  by_cases hl : t.length + 1 < 14
  · rw [if_pos hl]
    refine ⟨false, rfl, ?_⟩
    constructor
    · intro h; cases h
    · rintro ⟨h, _⟩; simp only [List.length_cons] at h; omega
  · rw [if_neg hl]
    refine ⟨_, rfl, ?_⟩
    rw [hall]
    constructor
    · intro h
      refine ⟨by simp only [List.length_cons]; omega, ?_⟩
      intro w hw x hx
      injection hw with hw
      subst hw
      rcases List.mem_cons.1 hx with rfl | hx
      · simp
      · exact h x hx
    · rintro ⟨_, h⟩ w hw
      exact h w0 rfl w (by simp [hw])

section
open RatToy
attribute [local instance] RatToy.flt RatToy.txt
/-- the hypotheses of `C74_vip` hold for a funnel: one outside contour in the first and the last layer, neither round -/
example : (sliceByVector Sorter.insertion inOrder (some funnel) axisZ plain >>= fun ls => ls.mapM fun l => do
    let ps ← outsidePathes l.paths
    ps.mapM isRotation) = .ok [[false], [false]] := by decide +kernel
/-- and a sixteen cornered polygon is round -/
example : isRotation (⟨(circle ++ circle.take 1).map fun q => ⟨q.1, q.2, 3⟩⟩ : Path Rat) = .ok true := by decide +kernel
end

end Goosli
