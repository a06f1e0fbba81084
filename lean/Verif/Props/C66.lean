import Verif.Model.Main
import Verif.Props.C03
import Verif.Props.C04
import Verif.Props.C28
import Verif.Props.C51
import Verif.Props.C57
/-!
# C66: the command line tools

What the cutter, the simplifier and the colorizer leave on the disk, for every content of the input file and all flags.
-/
set_option linter.unusedSectionVars false
set_option autoImplicit false
namespace Goosli
open Flt
variable {α : Type} [Flt α] [FltBits α] [FltText α]

/-- the file exists and `LoadSTL` returns the mesh without an error -/
def Loads (file : Option Bytes) (m : Mesh α) : Prop := ∃ b, file = some b ∧ loadSTL b = .ok (some m, none)

theorem loadMesh_loads {file : Option Bytes} {m : Mesh α} (h : Loads file m) : loadMesh file = .ok m := by
  obtain ⟨b, rfl, h⟩ := h
  unfold loadMesh
  simp only [h, go_ok_bind]
  rfl

theorem loadMesh_fails {file : Option Bytes} (h : ¬ ∃ m : Mesh α, Loads file m) : (loadMesh file : Go (Mesh α)) = .error .fatal := by
  match file with
  | none => rfl
  | some b =>
    obtain ⟨r, hr, _, _⟩ := C04_total (α := α) b
    unfold loadMesh
    simp only [hr, go_ok_bind]
    match r, hr with
    | (some m, none), hr => exact absurd ⟨m, b, rfl, hr⟩ h
    | (none, none), _ => rfl
    | (none, some _), _ => rfl
    | (some _, some _), _ => rfl

/-- a program that loads a file that is not STL ends with `log.Fatal` and writes nothing -/
def NothingWritten {κ : Type} (o : Outcome κ) : Prop := o.files = [] ∧ o.status = .error .fatal

theorem C66_unreadable (S : Sorter) (f : List (STri α) → α → List (STri α)) (M : Machine α) (fuel : Nat) (read : String → Option Bytes)
    (templates : String → Option (List Char)) (canWrite : String → Bool) (now : String) (stl : String)
    (h : ¬ ∃ m : Mesh α, Loads (read stl) m) :
    (∀ fl : CutterFlags α, fl.stl = stl → NothingWritten (runCutter S read canWrite fl)) ∧
    (∀ fl : SimplifierFlags, fl.stl = stl → NothingWritten (runSimplifier f read canWrite fl)) ∧
    (∀ fl : ColorizerFlags α, fl.stl = stl → NothingWritten (runColorizer read canWrite fl)) ∧
    (∀ fl : AnalyzerFlags α, fl.stl = stl → NothingWritten (runAnalyzer S read canWrite fl)) ∧
    (∀ fl : GoosliFlags α, fl.stl = stl → NothingWritten (runGoosli M fuel read templates canWrite now fl)) := by
  have e := loadMesh_fails h
  refine ⟨?_, ?_, ?_, ?_, ?_⟩ <;> rintro fl rfl
  · unfold runCutter; rw [e]; exact ⟨rfl, rfl⟩
  · unfold runSimplifier; rw [e]; exact ⟨rfl, rfl⟩
  · unfold runColorizer; rw [e]; exact ⟨rfl, rfl⟩
  · unfold runAnalyzer; rw [e]; exact ⟨rfl, rfl⟩
  · unfold runGoosli; rw [e]; exact ⟨rfl, rfl⟩

theorem writeFiles_all {κ : Type} (canWrite : String → Bool) (fs : List (String × κ)) (h : ∀ f ∈ fs, canWrite f.1 = true) :
    writeFiles canWrite fs = ⟨fs, .ok ()⟩ := by
  induction fs with
  | nil => rfl
  | cons f fs ih =>
    have := ih fun g hg => h g (List.mem_cons_of_mem _ hg)
    unfold writeFiles
    rw [if_pos (h f List.mem_cons_self), this]

theorem writeFiles_prefix {κ : Type} (canWrite : String → Bool) (fs : List (String × κ)) :
    (writeFiles canWrite fs).files <+: fs ∧
      ((writeFiles canWrite fs).status = .ok () ∨ (writeFiles canWrite fs).status = .error .fatal) := by
  induction fs with
  | nil => exact ⟨List.prefix_rfl, Or.inl rfl⟩
  | cons f fs ih =>
    unfold writeFiles
    by_cases c : canWrite f.1 = true
    · rw [if_pos c]; exact ⟨List.cons_prefix_cons.2 ⟨rfl, ih.1⟩, ih.2⟩
    · rw [if_neg c]; exact ⟨List.nil_prefix, Or.inr rfl⟩

/-- C66, the cutter: on every STL file, with every plane, the program does not crash. If both files can be written they hold the two
parts that `CutMesh` returns, and `LoadSTL` reads them back: the same triangles in the same order, with `float32` coordinates. If one
cannot be written the program says so; it never writes the lower part without the upper one. -/
theorem C66_cutter (S : Sorter) (read : String → Option Bytes) (canWrite : String → Bool) (fl : CutterFlags α) (m : Mesh α)
    (h : Loads (read fl.stl) m) : ∃ up down : Mesh α, cutMesh S (some m) ⟨fl.point, fl.normal⟩ = .ok (up, down) ∧
      (canWrite fl.out1 = true → canWrite fl.out2 = true → ∃ b1 b2 : Bytes,
        runCutter S read canWrite fl = ⟨[(fl.out1, b1), (fl.out2, b2)], .ok ()⟩ ∧
        (up.triangles.length < 2 ^ 32 → loadSTL b1 = .ok (some up.via32, none)) ∧
        (down.triangles.length < 2 ^ 32 → loadSTL b2 = .ok (some down.via32, none))) ∧
      (canWrite fl.out1 = false → runCutter S read canWrite fl = ⟨[], .error .fatal⟩) ∧
      (canWrite fl.out1 = true → canWrite fl.out2 = false →
        runCutter S read canWrite fl = ⟨[(fl.out1, saveSTL up)], .error .fatal⟩) := by
  obtain ⟨up, down, hc⟩ := cutMesh_total S (some m) ⟨fl.point, fl.normal⟩
  have e : runCutter S read canWrite fl = writeFiles canWrite [(fl.out1, saveSTL up), (fl.out2, saveSTL down)] := by
    unfold runCutter
    simp only [loadMesh_loads h, go_ok_bind, hc]
    rfl
  refine ⟨up, down, hc, ?_, ?_, ?_⟩
  · intro h1 h2
    refine ⟨saveSTL up, saveSTL down, ?_, C03_round_trip up, C03_round_trip down⟩
    rw [e, writeFiles_all]
    intro f hf
    simp only [List.mem_cons, List.not_mem_nil, or_false] at hf
    rcases hf with rfl | rfl
    · exact h1
    · exact h2
  · intro h1; rw [e]; simp [writeFiles, h1]
  · intro h1 h2; rw [e]; simp [writeFiles, h1, h2]

/-- C66, the simplifier: it does not crash; it writes one file, and `LoadSTL` reads the simplified mesh back from it. With at most
`triangles` triangles it is the mesh of the input, whatever the simplifier does. -/
theorem C66_simplifier (f : List (STri α) → α → List (STri α)) (read : String → Option Bytes) (canWrite : String → Bool)
    (fl : SimplifierFlags) (m : Mesh α) (h : Loads (read fl.stl) m) (hw : canWrite fl.out = true) :
    ∃ (r : Mesh α) (b : Bytes), runSimplifier f read canWrite fl = ⟨[(fl.out, b)], .ok ()⟩ ∧
      simplifyMesh f (some m) fl.triangles = some r ∧
      (r.triangles.length < 2 ^ 32 → loadSTL b = .ok (some r.via32, none)) ∧
      ((m.triangles.length : Int) ≤ fl.triangles → r = m) := by
  obtain ⟨r, hr⟩ : ∃ r, simplifyMesh f (some m) fl.triangles = some r := by
    unfold simplifyMesh
    by_cases c : (m.triangles.length : Int) ≤ fl.triangles
    · exact ⟨m, by simp [c]⟩
    · simp [c]
  refine ⟨r, saveSTL r, ?_, hr, C03_round_trip r, ?_⟩
  · unfold runSimplifier
    simp only [loadMesh_loads h, go_ok_bind, hr]
    show writeFiles canWrite [(fl.out, saveSTL r)] = _
    rw [writeFiles_all]
    intro g hg
    simp only [List.mem_cons, List.not_mem_nil, or_false] at hg
    rw [hg]; exact hw
  · intro hk
    have := C57_small f m fl.triangles hk
    rw [hr] at this
    injection this

/-- C66, the colorizer: it does not crash; the file has one byte per triangle, in the order of the input file, 1 for the triangles the
classification flags and 0 for the others. -/
theorem C66_colorizer (read : String → Option Bytes) (canWrite : String → Bool) (fl : ColorizerFlags α) (m : Mesh α)
    (h : Loads (read fl.stl) m) (hw : canWrite fl.out = true) : ∃ b : Bytes,
      runColorizer read canWrite fl = ⟨[(fl.out, b)], .ok ()⟩ ∧ b.length = m.triangles.length ∧
      ∀ (i : Nat) (t : Triangle α), m.triangles[i]? = some t →
        b[i]? = some (if t.n.angle fl.normal.reverse <? lit 90 0 - fl.angle then 1 else 0) := by
  refine ⟨boolBytes (colorizeTriangles m fl.angle fl.normal), ?_, ?_, ?_⟩
  · unfold runColorizer
    simp only [loadMesh_loads h, go_ok_bind]
    show writeFiles canWrite _ = _
    rw [writeFiles_all]
    intro g hg
    simp only [List.mem_cons, List.not_mem_nil, or_false] at hg
    rw [hg]; exact hw
  · simp [boolBytes, (C28_flags m fl.angle fl.normal).1]
  · intro i t ht
    have := (C28_flags m fl.angle fl.normal).2 i t ht
    simp [boolBytes, this]

/-- C66: the three programs never panic, whatever the files and the flags -/
theorem C66_no_panic (S : Sorter) (f : List (STri α) → α → List (STri α)) (read : String → Option Bytes) (canWrite : String → Bool) :
    (∀ fl : CutterFlags α, (runCutter S read canWrite fl).status ∈ [.ok (), .error .fatal]) ∧
    (∀ fl : SimplifierFlags, (runSimplifier f read canWrite fl).status ∈ [.ok (), .error .fatal]) ∧
    (∀ fl : ColorizerFlags α, (runColorizer read canWrite fl).status ∈ [.ok (), .error .fatal]) := by
  have key : ∀ fs : List (String × Bytes), (writeFiles canWrite fs).status ∈ [(.ok () : Go Unit), .error .fatal] := by
    intro fs
    rcases (writeFiles_prefix canWrite fs).2 with h | h <;> simp [h]
  have aux : ∀ (file : Option Bytes) (k : Mesh α → Go (List (String × Bytes))), (∀ m, (∃ fs, k m = .ok fs) ∨ k m = .error .fatal) →
      (finish canWrite (loadMesh file >>= k)).status ∈ [(.ok () : Go Unit), .error .fatal] := by
    intro file k hk
    by_cases hl : ∃ m : Mesh α, Loads file m
    · obtain ⟨m, hm⟩ := hl
      rw [loadMesh_loads hm, go_ok_bind]
      rcases hk m with ⟨fs, hfs⟩ | hfs
      · rw [hfs]; exact key fs
      · rw [hfs]; simp [finish]
    · rw [loadMesh_fails hl]
      show (Except.error GoErr.fatal : Go Unit) ∈ _
      simp
  refine ⟨fun fl => aux _ _ fun m => ?_, fun fl => aux _ _ fun m => ?_, fun fl => aux _ _ fun m => Or.inl ⟨_, rfl⟩⟩
  · obtain ⟨up, down, hc⟩ := cutMesh_total S (some m) ⟨fl.point, fl.normal⟩
    exact Or.inl ⟨_, by rw [hc]; rfl⟩
  · cases simplifyMesh f (some m) fl.triangles with
    | none => exact Or.inr rfl
    | some r => exact Or.inl ⟨_, rfl⟩

section
attribute [local instance] Toy.flt Toy.txt
/-- 32-bit two's complement integers as the narrow format -/
local instance bits66 : FltBits Int := ⟨fun i => BitVec.ofInt 32 i, fun b => b.toInt⟩

private def facet : Mesh Int := ⟨[newTriangle ⟨0, 0, 0⟩ ⟨2, 0, 0⟩ ⟨0, 1, 5⟩]⟩

/-- a file that loads as a mesh with a triangle -/
example : Loads (some (saveSTL facet)) facet.via32 ∧ facet.via32.triangles ≠ [] :=
  ⟨⟨_, rfl, C03_round_trip facet (by decide)⟩, by decide⟩

/-- a file that does not load -/
example : ¬ ∃ m : Mesh Int, Loads (some [1, 2, 3]) m := by
  rintro ⟨m, b, hb, h⟩
  injection hb with hb
  rw [← hb, C04_short _ (by decide)] at h
  injection h with h
  injection h with _ h
  injection h
end

end Goosli
