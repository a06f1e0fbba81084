import Verif.Props.C74
/-!
# C75: settings without effect

Which of the settings can change the program depends on the slicer: two of the four slicers print contours only.
-/
set_option linter.unusedSectionVars false
set_option autoImplicit false
namespace Goosli
open Flt
variable {α : Type} [Flt α] [FltText α]

/-- the settings that decide where the layers are and what contours they have -/
structure SameCut (s s' : Settings α) : Prop where
  layerHeight : s.layerHeight = s'.layerHeight
  colorizedAngle : s.colorizedAngle = s'.colorizedAngle
  unitVector : s.unitVector = s'.unitVector
  supportsOn : s.supportsOn = s'.supportsOn
  supportOffset : s.supportOffset = s'.supportOffset

/-- the settings the written program header and commands use: feeds, widths, extrusion (`GcodeSettings`), and the tolerance of the
profile -/
structure SameContours (s s' : Settings α) : Prop extends SameCut s s' where
  gs : s.gs = s'.gs
  epsilon : s.epsilon = s'.epsilon

/-- the settings of the infill, in addition -/
structure SameFill (s s' : Settings α) : Prop extends SameCut s s' where
  gs : s.gs = s'.gs
  fillDensity : s.fillDensity = s'.fillDensity
  fillingType : s.fillingType = s'.fillingType
  topLayers : s.topLayers = s'.topLayers
  bottomLayers : s.bottomLayers = s'.bottomLayers

omit [FltText α] in
/-- **C75.** The layers depend on five settings only. -/
theorem C75_layers (S : Sorter) (A : Arrival α) (mesh : Option (Mesh α)) (Z : Vec α) (s s' : Settings α) (h : SameCut s s') :
    sliceByVector S A mesh Z s = sliceByVector S A mesh Z s' := by
  have h1 : ∀ m Z, sliceJobs S m Z s = sliceJobs S m Z s' := by
    intro m Z
    simp only [sliceJobs, supportsOf, supportTriangles, h.layerHeight, h.colorizedAngle, h.unitVector, h.supportsOn, h.supportOffset]
  unfold sliceByVector
  simp only [h1]

omit [FltText α] in
/-- **C75.** With the supports off only the layer height is left. -/
theorem C75_layers_no_supports (S : Sorter) (A : Arrival α) (mesh : Option (Mesh α)) (Z : Vec α) (s s' : Settings α)
    (h : s.layerHeight = s'.layerHeight) (hs : s.supportsOn = false) (hs' : s'.supportsOn = false) :
    sliceByVector S A mesh Z s = sliceByVector S A mesh Z s' := by
  have h1 : ∀ m Z, sliceJobs S m Z s = sliceJobs S m Z s' := by
    intro m Z
    simp only [sliceJobs, supportsOf, h, hs, hs', Bool.false_eq_true, if_false]
  unfold sliceByVector
  simp only [h1]

omit [FltText α] in
private theorem profileLoop_same (S : Sorter) (A : Arrival α) (s s' : Settings α) (h : SameContours s s') :
    ∀ (ps : List (Point α × Point α)) (up : Mesh α) (g : Gcode α), profileLoop S A s ps up g = profileLoop S A s' ps up g := by
  intro ps
  induction ps with
  | nil => intro up g; rfl
  | cons q t ih =>
    intro up g
    obtain ⟨a, b⟩ := q
    simp only [profileLoop, ih, C75_layers S A _ _ s s' h.toSameCut]

omit [FltText α] in
private theorem fiveLoop_same (S : Sorter) (A : Arrival α) (s s' : Settings α) (h : SameContours s s') :
    ∀ (k : Nat) (st : FiveSt α), fiveLoop S A s k st = fiveLoop S A s' k st := by
  intro k
  induction k with
  | zero => intro st; rfl
  | succ k ih =>
    intro st
    simp only [fiveLoop, fiveTurn, ih, C75_layers S A _ _ s s' h.toSameCut]

/-- **C75, contours only.** The programs of the slicing types `5axes` and `5axes_by_profile` do not depend on the wall thickness, the
density and pattern of the infill, the numbers of solid top and bottom layers, the skirt, nor the rotation centre. -/
theorem C75_contours_only (S : Sorter) (A : Arrival α) (f : List (STri α) → α → List (STri α)) (fuel : Nat) (planes planes' : Option Bytes)
    (type : String) (mesh : Mesh α) (s s' : Settings α) (h : SameContours s s') (ht : type = "5axes" ∨ type = "5axes_by_profile") :
    sliceAs S A f fuel planes type mesh s = sliceAs S A f fuel planes' type mesh s' := by
  rcases ht with rfl | rfl
  · rw [(C74_type S A f fuel planes "5axes" mesh s).2.2.1 rfl, (C74_type S A f fuel planes' "5axes" mesh s').2.2.1 rfl]
    unfold slice5Axes
    simp only [fiveLoop_same S A s s' h, C75_layers S A _ _ s s' h.toSameCut, h.gs]
  · rw [(C74_type S A f fuel planes "5axes_by_profile" mesh s).2.1 rfl, (C74_type S A f fuel planes' "5axes_by_profile" mesh s').2.1 rfl]
    unfold sliceByProfile
    simp only [profileLoop_same S A s s' h, C75_layers S A _ _ s s' h.toSameCut, h.gs, h.epsilon]

/-- **C75, no walls.** The program of the slicing type `3axes` does not depend on the wall thickness, the skirt, the tolerance of the
profile, the rotation centre nor the planes file. -/
theorem C75_no_walls (S : Sorter) (A : Arrival α) (f : List (STri α) → α → List (STri α)) (fuel fuel' : Nat) (planes planes' : Option Bytes)
    (mesh : Mesh α) (s s' : Settings α) (h : SameFill s s') :
    sliceAs S A f fuel planes "3axes" mesh s = sliceAs S A f fuel' planes' "3axes" mesh s' := by
  show sliceByVectorToGcode S A mesh axisZ s = sliceByVectorToGcode S A mesh axisZ s'
  have h2 : calcFillPlanes mesh s = calcFillPlanes mesh s' := by
    simp only [calcFillPlanes, calcFillPlanesLines, calcFillPlanesSquares, calcFillPlanesTriangles, calcFillFullPlane, h.gs, h.fillDensity,
      h.fillingType]
  have h3 : ∀ layers p q, fillLayers S layers p q s = fillLayers S layers p q s' := by
    intro layers p q
    have h4 : ∀ n i, solidLayer s n i = solidLayer s' n i := by
      intro n i
      unfold solidLayer
      rw [h.topLayers, h.bottomLayers]
    unfold fillLayers fillLayer
    simp only [h4]
  unfold sliceByVectorToGcode
  simp only [C75_layers S A _ _ s s' h.toSameCut, h2, h3, h.gs]

section
open RatToy
attribute [local instance] RatToy.flt RatToy.txt
set_option maxRecDepth 10000
/-- settings that differ in everything that has no effect on the contours -/
def furnished : Settings Rat := { plain with wallThickness := 2, fillDensity := 70, fillingType := "Squares", topLayers := 3, skirtLineCount := 2 }
example : SameContours plain furnished ∧ plain.wallThickness ≠ furnished.wallThickness ∧ plain.fillDensity ≠ furnished.fillDensity :=
  ⟨⟨⟨rfl, rfl, rfl, rfl, rfl⟩, rfl, rfl⟩, by decide, by decide⟩
/-- the numbers of fill lines of the layers of a program -/
def fillCounts (g : Gcode Rat) : List (List Nat) := g.cmds.map fun
  | .layersMoving ls => ls.map fun l => l.fill.length
  | _ => []
/-- they do have an effect where infill is printed: a solid top, a loose one, no infill -/
example : ([plain, { plain with topLayers := 0 }, hollow].map fun s => (sliceAs Sorter.insertion inOrder (fun ts _ => ts) 5 none "3axes" funnel s).toOption.map fillCounts) =
    [some [[9, 15]], some [[9, 3]], some [[0, 0]]] := by
  decide +kernel
end
end Goosli
