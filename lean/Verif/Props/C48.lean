import Verif.Props.C47
/-! # C48 Skirt -/
set_option linter.unusedSectionVars false
namespace Goosli
open Flt

variable {α : Type} [Flt α]

/-- **C48.** With count zero the layer is unchanged. Otherwise only its contours change: those with fewer than two points go, and every
other contour is printed once, in the old order, right after its skirt loops, the outermost first. The loops are successive offsets to the
outside (normal reversed), at most `count` of them (one for a negative count), and fewer only when there is no further offset. -/
theorem C48_skirt (l : Layer α) (count : Int) (w : α) :
    (count = 0 → skirtPathes l count w = l) ∧
    (count ≠ 0 → ∃ loops : List (List (Path α)),
      List.Forall₂ (OffsetsOf w l.norm.reverse (max count 1)) (l.paths.filter fun p => 2 ≤ p.points.length) loops ∧
      skirtPathes l count w = { l with paths :=
        (((l.paths.filter fun p => 2 ≤ p.points.length).zip loops).map fun q => q.2.reverse ++ [q.1]).flatten }) := by
  constructor
  · intro h; unfold skirtPathes; rw [if_pos h]
  · intro h
    refine ⟨(l.paths.filter fun p => 2 ≤ p.points.length).map fun p => offsetPaths p count w l.norm.reverse, ?_, ?_⟩
    · rw [List.forall₂_map_right_iff, List.forall₂_same]
      intro p _
      exact offsetPaths_spec p count w l.norm.reverse
    · unfold skirtPathes
      rw [if_neg h]
      congr 1
      induction l.paths with
      | nil => rfl
      | cons p ps ih =>
        by_cases hp : 2 ≤ p.points.length
        · rw [List.flatMap_cons, if_neg (by omega), ih, List.filter_cons_of_pos (by simpa using hp)]
          simp
        · rw [List.flatMap_cons, if_pos (by omega), ih, List.filter_cons_of_neg (by simpa using hp)]
          simp

/-- the skirt takes no contour away but those of fewer than two points, and keeps their order -/
theorem C48_keeps (l : Layer α) (count : Int) (w : α) :
    (l.paths.filter fun p => 2 ≤ p.points.length).Sublist (skirtPathes l count w).paths := by
  by_cases h : count = 0
  · rw [(C48_skirt l count w).1 h]; exact List.filter_sublist
  · obtain ⟨loops, h1, h2⟩ := (C48_skirt l count w).2 h
    rw [h2]
    show List.Sublist _ (List.flatten _)
    clear h2
    generalize l.paths.filter (fun p => 2 ≤ p.points.length) = ps at h1 ⊢
    induction h1 with
    | nil => simp
    | @cons p lp ps lps _ _ ih =>
      simp only [List.zip_cons_cons, List.map_cons, List.flatten_cons, List.append_assoc, List.singleton_append]
      exact (List.Sublist.cons₂ p ih).trans (List.sublist_append_right _ _)

section Examples
attribute [local instance] Toy.flt
/-- a layer with one triangle and a single point, two skirt loops: the triangle is printed after them, the point is gone -/
example : ((skirtPathes ⟨0, ⟨0, 0, 1⟩, [⟨[⟨0, 0, 0⟩, ⟨8, 0, 0⟩, ⟨8, 8, 0⟩, ⟨0, 1, 0⟩]⟩, ⟨[⟨3, 3, 3⟩]⟩], [], [], []⟩ 2 (1 : Int)).paths.map
    fun p => p.points.length) = [4, 4, 4] := by rfl
end Examples

end Goosli
