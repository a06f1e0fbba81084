import Verif.Model.Main
import Verif.Props.C01
import Verif.Props.C61
/-!
# C65: the file is a function of the input

Two runs of `goosli` on the same files with the same flags at the same time write the same bytes, however the goroutines interleave,
however many there are, and whatever the order of the maps is.
-/
set_option autoImplicit false
namespace Goosli
open Flt Spec
variable {α : Type} [Flt α]

theorem sliceByVector_arrival (S : Sorter) (A B : Arrival α) (m : Option (Mesh α)) (Z : Vec α) (sett : Settings α) :
    sliceByVector S A m Z sett = sliceByVector S B m Z sett := by
  match m with
  | none => rfl
  | some m =>
    by_cases hm : m.triangles = []
    · unfold sliceByVector
      simp [hm]
    · rw [C01_slice S A m Z sett hm, C01_slice S B m Z sett hm]

theorem sliceByVectorToGcode_arrival (S : Sorter) (A B : Arrival α) (m : Mesh α) (Z : Vec α) (sett : Settings α) :
    sliceByVectorToGcode S A m Z sett = sliceByVectorToGcode S B m Z sett := by
  unfold sliceByVectorToGcode
  rw [sliceByVector_arrival S A B]

theorem profileLoop_arrival (S : Sorter) (A B : Arrival α) (sett : Settings α) : ∀ (qs : List (Point α × Point α)) (m : Mesh α)
    (g : Gcode α), profileLoop S A sett qs m g = profileLoop S B sett qs m g := by
  intro qs
  induction qs with
  | nil => intro m g; rfl
  | cons q t ih =>
    intro m g
    unfold profileLoop
    simp only [sliceByVector_arrival S A B, ih]

theorem sliceByProfile_arrival (S : Sorter) (A B : Arrival α) (fuel : Nat) (m : Mesh α) (sett : Settings α) :
    sliceByProfile S A fuel m sett = sliceByProfile S B fuel m sett := by
  unfold sliceByProfile
  simp only [sliceByVector_arrival S A B, profileLoop_arrival S A B]

theorem fiveTurn_arrival (S : Sorter) (A B : Arrival α) (sett : Settings α) (st : FiveSt α) (i : Nat) (pl : Plane α) :
    fiveTurn S A sett st i pl = fiveTurn S B sett st i pl := by
  unfold fiveTurn
  simp only [sliceByVector_arrival S A B]

theorem fiveLoop_arrival (S : Sorter) (A B : Arrival α) (sett : Settings α) : ∀ (k : Nat) (st : FiveSt α),
    fiveLoop S A sett k st = fiveLoop S B sett k st := by
  intro k
  induction k with
  | zero => intro st; rfl
  | succ k ih =>
    intro st
    unfold fiveLoop
    simp only [fiveTurn_arrival S A B, ih]

theorem slice5Axes_arrival (S : Sorter) (A B : Arrival α) (f : List (STri α) → α → List (STri α)) (fuel : Nat) (m : Mesh α)
    (sett : Settings α) : slice5Axes S A f fuel m sett = slice5Axes S B f fuel m sett := by
  unfold slice5Axes
  simp only [sliceByVector_arrival S A B, fiveLoop_arrival S A B]

theorem partsLoop_arrival (S : Sorter) (A B : Arrival α) (sett : Settings α) (fp : List (Plane α) × List (Plane α)) :
    ∀ (ps : List ((Bool × α) × Mesh α)) (i : Nat) (r : Bool) (g : Gcode α),
      partsLoop S A sett fp i ps r g = partsLoop S B sett fp i ps r g := by
  intro ps
  induction ps with
  | nil => intro i r g; rfl
  | cons p t ih =>
    intro i r g
    unfold partsLoop
    simp only [sliceByVector_arrival S A B, ih]

theorem defaultTurn_arrival (S : Sorter) (A B : Arrival α) (sett : Settings α) (st : DefaultSt α) (pl : Plane α) :
    defaultTurn S A sett st pl = defaultTurn S B sett st pl := by
  unfold defaultTurn
  simp only [sliceByVector_arrival S A B]

theorem defaultLoop_arrival (S : Sorter) (A B : Arrival α) (sett : Settings α) : ∀ (k : Nat) (st : DefaultSt α),
    defaultLoop S A sett k st = defaultLoop S B sett k st := by
  intro k
  induction k with
  | zero => intro st; rfl
  | succ k ih =>
    intro st
    unfold defaultLoop
    simp only [defaultTurn_arrival S A B, ih]

theorem vipSlice_arrival [FltText α] (S : Sorter) (A B : Arrival α) (fuel : Nat) (planes : Option Bytes) (m : Mesh α)
    (sett : Settings α) : vipSlice S A fuel planes m sett = vipSlice S B fuel planes m sett := by
  unfold vipSlice sliceByPlanes sliceBridge sliceRotation sliceDefault2
  simp only [sliceByVector_arrival S A B, partsLoop_arrival S A B, defaultLoop_arrival S A B]

/-- C65, the slicers: for every slicing type the program does not depend on the order in which the workers deliver the layers -/
theorem C65_slicers [FltText α] (S : Sorter) (A B : Arrival α) (f : List (STri α) → α → List (STri α)) (fuel : Nat)
    (planes : Option Bytes) (type : String) (m : Mesh α) (sett : Settings α) :
    sliceAs S A f fuel planes type m sett = sliceAs S B f fuel planes type m sett := by
  unfold sliceAs
  rw [sliceByVectorToGcode_arrival S A B, sliceByProfile_arrival S A B, slice5Axes_arrival S A B, vipSlice_arrival S A B]

/-- the two template files consist of text and placeholders without nested braces -/
def FlatTemplates (template' : String → Option (List Char)) : Prop :=
  ∀ f ∈ ["data/header_template.txt", "data/footer_template.txt"], ∀ s, template' f = some s →
    ∃ ps : List (Piece Char), (∀ p ∈ ps, p.ok '{' '}') ∧ s = template '{' '}' ps

theorem prepare_order {l r : Char} (hlr : l ≠ r) (file : Option (List Char)) (m : List (List Char × List Char))
    (hf : ∀ s, file = some s → ∃ ps : List (Piece Char), (∀ p ∈ ps, p.ok l r) ∧ s = template l r ps)
    (o1 o2 : List (List Char × List Char)) (h1 : o1.Perm (braced l r m)) (h2 : o2.Perm (braced l r m))
    (hk : (m.map (·.1)).Nodup) (hm : ∀ e ∈ m, r ∉ e.1 ∧ l ∉ e.2) : prepareDataFile file o1 = prepareDataFile file o2 := by
  match file with
  | none => rfl
  | some s =>
    obtain ⟨ps, hp, rfl⟩ := hf s rfl
    rw [C41_fill hlr m o1 h1 hk hm ps hp, C41_fill hlr m o2 h2 hk hm ps hp]

/-- C65: same files, same flags, same time; any two schedules of the workers and any two orders of the maps: same outcome. The
templates have no nested braces, and no brace comes out of the printed date and numbers. -/
theorem C65_reproducible [FltBits α] [FltText α] (S : Sorter) (f : List (STri α) → α → List (STri α)) (A B : Arrival α)
    (o1 o2 : MapOrder (List Char × List Char)) (fuel : Nat) (read : String → Option Bytes) (templates : String → Option (List Char))
    (canWrite : String → Bool) (now : String) (fl : GoosliFlags α) (ht : FlatTemplates templates) (hdate : '{' ∉ now.toList)
    (hlh : '{' ∉ (FltText.fmt3 fl.layerHeight).toList) (hwt : '{' ∉ (FltText.fmt3 fl.wallThickness).toList) :
    runGoosli ⟨S, A, o1, f⟩ fuel read templates canWrite now fl = runGoosli ⟨S, B, o2, f⟩ fuel read templates canWrite now fl := by
  have key : ∀ g : Gcode α, commandsWithTemplates (templates "data/header_template.txt") (templates "data/footer_template.txt") o1 g
      fl.settings (fl.info now) = commandsWithTemplates (templates "data/header_template.txt") (templates "data/footer_template.txt") o2 g
      fl.settings (fl.info now) := by
    intro g
    unfold commandsWithTemplates
    dsimp only
    generalize hinfo : ({ fl.info now with layerCount := g.layerCount } : PrintInfo) = info
    have hd : info.dateTime = now := by rw [← hinfo]; rfl
    have hk : ((settingsTable fl.settings info).map (·.1)).Nodup := by
      simp only [settingsTable, List.map_cons, List.map_nil]
      decide
    have hm : ∀ e ∈ settingsTable fl.settings info, '}' ∉ e.1 ∧ '{' ∉ e.2 := by
      intro e he
      simp only [settingsTable, List.mem_cons, List.not_mem_nil, or_false] at he
      rcases he with rfl | rfl | rfl | rfl | rfl | rfl | rfl | rfl
      · exact ⟨by show '}' ∉ "datetime".toList; decide, by rw [hd]; exact hdate⟩
      · exact ⟨by show '}' ∉ "layer_height".toList; decide, hlh⟩
      · exact ⟨by show '}' ∉ "wall_thickness".toList; decide, hwt⟩
      all_goals exact ⟨by dsimp only; decide, int_no_brace _⟩
    have hb := toMap_braced fl.settings info
    rw [prepare_order (by decide) _ (settingsTable fl.settings info) (ht _ (by simp)) (o1.run 0 _) (o2.run 0 _)
        (by rw [← hb]; exact o1.perm 0 _) (by rw [← hb]; exact o2.perm 0 _) hk hm,
      prepare_order (by decide) _ (settingsTable fl.settings info) (ht _ (by simp)) (o1.run 1 _) (o2.run 1 _)
        (by rw [← hb]; exact o1.perm 1 _) (by rw [← hb]; exact o2.perm 1 _) hk hm]
  unfold runGoosli
  simp only [C65_slicers S A B, key]

/-! The templates that come with the program satisfy the hypothesis. -/
example : FlatTemplates fun f => if f = "data/header_template.txt" then some (template '{' '}' shippedHeader)
    else if f = "data/footer_template.txt" then some (template '{' '}' shippedFooter) else none := by
  intro f hf s hs
  dsimp only at hs
  simp only [List.mem_cons, List.not_mem_nil, or_false] at hf
  rcases hf with rfl | rfl
  · rw [if_pos rfl] at hs
    injection hs with hs
    exact ⟨_, shippedHeader_ok, hs.symm⟩
  · rw [if_neg (show "data/footer_template.txt" ≠ "data/header_template.txt" by decide), if_pos rfl] at hs
    injection hs with hs
    exact ⟨_, shippedFooter_ok, hs.symm⟩

section
attribute [local instance] Toy.flt

private def tall : Mesh Int := ⟨[newTriangle ⟨0, 0, 0⟩ ⟨9, 0, 9⟩ ⟨0, 9, 9⟩]⟩
private def tallSett : Settings Int := ⟨⟨1, 1, 1, 1, true, 50, 20, 30, true, 40, 5⟩, 1, 2, 3, 20, ⟨0, 0, 0⟩, "Lines", 30, ⟨0, 0, 1⟩,
  false, 0, 1, 1, 0⟩

/-- two different arrival orders, and a mesh with more than one layer: without the sorting the two results would differ -/
example : ∃ (A B : Arrival Int) (jobs : List (Job Int)), sliceJobs Sorter.insertion tall axisZ tallSett = .ok jobs ∧ 2 ≤ jobs.length ∧
    A.run [⟨0, axisZ, [], [], [], []⟩, ⟨1, axisZ, [], [], [], []⟩] ≠ B.run [⟨0, axisZ, [], [], [], []⟩, ⟨1, axisZ, [], [], [], []⟩] := by
  refine ⟨⟨id, fun _ => List.Perm.refl _⟩, ⟨List.reverse, fun l => List.reverse_perm l⟩, _, rfl, by decide, ?_⟩
  intro h
  have := congrArg (fun l => l.map Layer.order) h
  revert this
  decide
end

end Goosli
