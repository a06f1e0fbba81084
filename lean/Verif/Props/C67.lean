import Verif.Props.C66
import Verif.Props.C52
/-!
# C67: the analyzer and the slicer agree on the planes file
-/
set_option linter.unusedSectionVars false
set_option autoImplicit false
namespace Goosli
open Flt
variable {α : Type} [Flt α] [FltBits α] [FltText α] [PrintableText α]

theorem planeText_length (p : AnalyzedPlane α) (h : ∀ x : α, (FltText.fmt3 x).length ≤ 10000) : p.text.length < 65536 := by
  have h1 := h p.plane.p.x
  have h2 := h p.plane.p.y
  have h3 := h p.plane.p.z
  have h4 := h p.rotz
  have h5 : (if p.tilted then "true" else "false" : String).length ≤ 5 := by split <;> decide
  simp only [AnalyzedPlane.text, asciiBytes, List.length_map, String.length_toList, String.length_append]
  have e : "X".length = 1 ∧ " Y".length = 2 ∧ " Z".length = 2 ∧ " T".length = 2 ∧ " R".length = 2 := by decide
  omega

/-- C67, the file: on every STL file, with all flags, the analyzer either writes a file from which the slicer reads exactly the planes
of the analysis, at most six, with rounded coordinates; or it stops in the analysis with an index out of range and writes nothing. -/
theorem C67_planes_file (S : Sorter) (read : String → Option Bytes) (canWrite : String → Bool) (fl : AnalyzerFlags α) (m : Mesh α)
    (h : Loads (read fl.stl) m) (hw : canWrite fl.out = true) (hl : ∀ x : α, (FltText.fmt3 x).length ≤ 10000) :
    (∃ (ps : List (AnalyzedPlane α)) (b : Bytes), analyze S (shiftLoaded m fl.origin) fl.angle = .ok ps ∧ ps.length ≤ 6 ∧
      runAnalyzer S read canWrite fl = ⟨[(fl.out, b)], .ok ()⟩ ∧ readPlanes (some b) = .ok (ps.map AnalyzedPlane.reread)) ∨
    runAnalyzer S read canWrite fl = ⟨[], .error .index⟩ := by
  rcases C51_planes S (shiftLoaded m fl.origin) fl.angle with ⟨ps, h1, h2, _⟩ | h1
  · left
    refine ⟨ps, planesText ps, h1, h2, ?_, ?_⟩
    · unfold runAnalyzer
      simp only [loadMesh_loads h, go_ok_bind, h1]
      show writeFiles canWrite _ = _
      rw [writeFiles_all]
      intro g hg
      simp only [List.mem_cons, List.not_mem_nil, or_false] at hg
      rw [hg]; exact hw
    · have e : planesText ps = docText (ps.map AnalyzedPlane.text) := by simp [planesText, docText, List.flatMap_map]
      rw [e]
      exact C52_file ps fun p _ => planeText_length p hl
  · right
    unfold runAnalyzer
    simp only [loadMesh_loads h, go_ok_bind, h1]
    rfl

theorem vip_with_planes (S : Sorter) (A : Arrival α) (f : List (STri α) → α → List (STri α)) (fuel : Nat) (mesh : Mesh α)
    (sett : Settings α) (ps : List (AnalyzedPlane α)) (hne : ps ≠ []) (b : Bytes) (hb : readPlanes (some b) = .ok ps) :
    sliceAs S A f fuel (some b) "vip" mesh sett = sliceByPlanes S A mesh sett ps := by
  have e : (!ps.isEmpty) = true := by
    cases ps with
    | nil => exact absurd rfl hne
    | cons a t => rfl
  unfold sliceAs
  rw [if_neg (by decide), if_neg (by decide), if_neg (by decide), if_pos rfl]
  unfold vipSlice
  simp only [hb, go_ok_bind, e, if_true]

/-- the files after a run -/
def Outcome.over (o : Outcome Bytes) (read : String → Option Bytes) : String → Option Bytes :=
  o.files.foldl (fun r f => fun path => if path = f.1 then some f.2 else r path) read

/-- C67, the two programs one after the other. The analyzer has run on an STL file and its analysis found the planes `ps`, at least
one. Then `goosli` is run with slicing type "vip" on what is now on the disk, with the same STL file, the same origin and the
analyzer's file as planes file. The model is sliced by the planes of the analysis, with rounded coordinates. -/
theorem C67_pipeline (M : Machine α) (fuel : Nat) (read : String → Option Bytes) (templates : String → Option (List Char))
    (canWrite : String → Bool) (now : String) (fl : AnalyzerFlags α) (gl : GoosliFlags α) (m : Mesh α) (ps : List (AnalyzedPlane α))
    (h : Loads (read fl.stl) m) (hps : analyze M.sorter (shiftLoaded m fl.origin) fl.angle = .ok ps) (hne : ps ≠ [])
    (hw : canWrite fl.out = true) (hl : ∀ x : α, (FltText.fmt3 x).length ≤ 10000)
    (h1 : gl.stl = fl.stl) (h2 : gl.origin = fl.origin) (h3 : gl.planesFile = fl.out) (h4 : gl.slicingType = "vip")
    (h5 : fl.out ≠ fl.stl) :
    runGoosli M fuel ((runAnalyzer M.sorter read canWrite fl).over read) templates canWrite now gl = finish canWrite (do
      let g ← sliceByPlanes M.sorter M.arrival (shiftLoaded m gl.origin) gl.settings (ps.map AnalyzedPlane.reread)
      let text ← commandsWithTemplates (templates "data/header_template.txt") (templates "data/footer_template.txt") M.maps g
        gl.settings (gl.info now)
      return [(gl.out, text)]) := by
  rcases C67_planes_file M.sorter read canWrite fl m h hw hl with ⟨ps', b, hps', _, hrun, hread⟩ | hrun
  · rw [hps] at hps'
    injection hps' with hps'
    subst hps'
    rw [hrun]
    have e1 : (Outcome.mk [(fl.out, b)] (.ok ())).over read gl.stl = read fl.stl := by
      simp [Outcome.over, h1, Ne.symm h5]
    have e2 : (Outcome.mk [(fl.out, b)] (.ok ())).over read gl.planesFile = some b := by
      simp [Outcome.over, h3]
    unfold runGoosli
    rw [e1, e2, loadMesh_loads h, h4]
    simp only [go_ok_bind]
    rw [vip_with_planes _ _ _ _ _ _ _ (by simpa using hne) b hread]
  · exfalso
    unfold runAnalyzer at hrun
    simp only [loadMesh_loads h, go_ok_bind, hps] at hrun
    have : (writeFiles canWrite [(fl.out, planesText ps)]) = ⟨[], .error .index⟩ := hrun
    rw [writeFiles_all] at this
    · injection this with h _; exact absurd h (by simp)
    · intro g hg
      simp only [List.mem_cons, List.not_mem_nil, or_false] at hg
      rw [hg]; exact hw

/-- C67: the three flags for the rotation centre have no effect on the analysis -/
theorem C67_center_ignored (S : Sorter) (read : String → Option Bytes) (canWrite : String → Bool) (fl : AnalyzerFlags α) (c : Point α) :
    runAnalyzer S read canWrite { fl with rotationCenter := c } = runAnalyzer S read canWrite fl := rfl

section
attribute [local instance] Toy.flt
/-- 32-bit two's complement integers as the narrow format -/
local instance bits67 : FltBits Int := ⟨fun i => BitVec.ofInt 32 i, fun b => b.toInt⟩
/-- a text that shows the sign only -/
local instance text67 : FltText Int := ⟨fun i => if 0 ≤ i then "1.000" else "-1.000", fun _ => 1⟩
local instance print67 : PrintableText Int where
  printable x := by
    show ∀ c ∈ (if 0 ≤ x then "1.000" else "-1.000" : String).toList, _
    split <;> decide

private def overhangs : Mesh Int := ⟨[newTriangle ⟨0, 0, 5⟩ ⟨3, 0, 9⟩ ⟨0, 7, 8⟩, newTriangle ⟨0, 0, -4⟩ ⟨5, -3, 0⟩ ⟨2, 7, 8⟩]⟩

/-- all hypotheses of the pipeline theorem together, with an analysis that finds six planes -/
example : ∃ (S : Sorter) (read : String → Option Bytes) (fl : AnalyzerFlags Int) (m : Mesh Int) (ps : List (AnalyzedPlane Int)),
    Loads (read fl.stl) m ∧ analyze S (shiftLoaded m fl.origin) fl.angle = .ok ps ∧ ps.length = 6 ∧
    (∀ x : Int, (FltText.fmt3 x).length ≤ 10000) ∧ fl.out ≠ fl.stl := by
  obtain ⟨ps, hps⟩ : ∃ ps, analyze Sorter.insertion (shiftLoaded overhangs.via32 ⟨0, 0, 0⟩) 0 = .ok ps := ⟨_, rfl⟩
  have h6 : (analyze Sorter.insertion (shiftLoaded overhangs.via32 ⟨0, 0, 0⟩) 0).map (·.length) = .ok 6 := by rfl
  rw [hps] at h6
  refine ⟨Sorter.insertion, fun _ => some (saveSTL overhangs), ⟨"in.stl", "planes.txt", 0, ⟨0, 0, 0⟩, ⟨0, 0, 0⟩⟩, overhangs.via32, ps,
    ⟨_, rfl, C03_round_trip overhangs (by decide)⟩, hps, ?_, ?_, by decide⟩
  · injection h6
  · intro x
    show (if 0 ≤ x then "1.000" else "-1.000" : String).length ≤ _
    split <;> decide
end

end Goosli
