import Verif.Props.C107
/-!
# C108: files with unreadable numbers

A coordinate that is no number (C107) should make the loader of ASCII STL files fail.  It does not: `ParseFloat` prints the error and
returns zero.
-/
set_option autoImplicit false
namespace Goosli
open Flt Spec

/-! ## files -/

/-- the coordinates of the vertex are no numbers -/
def VertexText.Garbage (v : VertexText) : Prop := NotNumber v.x ∧ NotNumber v.y ∧ NotNumber v.z

/-- **C108 (ASCII STL).** A document whose coordinates are no numbers is loaded without an error: all its vertices are the origin. -/
theorem C108_document (head tail : List Bytes) (fs : List FacetText) (hh : ∀ l ∈ head, OtherLine l) (ht : ∀ l ∈ tail, OtherLine l)
    (hf : ∀ f ∈ fs, f.Ok) (hg : ∀ f ∈ fs, f.v1.Garbage ∧ f.v2.Garbage ∧ f.v3.Garbage) :
    loadSTLAscii (docText (head ++ fs.flatMap FacetText.lines ++ tail)) =
      (some ⟨List.replicate fs.length (newTriangle (originPoint : Point B64) originPoint originPoint)⟩, none) := by
  have hp : ∀ v : VertexText, v.Garbage → (v.point : Point B64) = originPoint := by
    intro v hv
    show (⟨FltText.parse32 v.x, FltText.parse32 v.y, FltText.parse32 v.z⟩ : Point B64) = _
    rw [C107_other _ hv.1, C107_other _ hv.2.1, C107_other _ hv.2.2]
    unfold originPoint
    rw [B64.lit0]
  rw [C05_document head tail fs hh ht hf]
  congr 3
  rw [List.eq_replicate_iff]
  refine ⟨by simp, ?_⟩
  intro t ht
  obtain ⟨f, hf', rfl⟩ := List.mem_map.1 ht
  obtain ⟨h1, h2, h3⟩ := hg f hf'
  rw [hp _ h1, hp _ h2, hp _ h3]

/-! ## a file with decimal commas -/

/-- the facet of C05 with the numbers written as `0,0`, `1,5`, `-1,0` -/
def commaFacet : FacetText where
  before := demoFacet.before
  v1 := ⟨[32, 32], [32], [48, 44, 48], [32], [48, 44, 48], [32], [48, 44, 48], []⟩
  v2 := ⟨[9], [32, 32], [49, 44, 53], [9], [48, 44, 48], [32], [48, 44, 48], [13]⟩
  v3 := ⟨[], [32], [48, 44, 48], [32], [49, 44, 53], [32], [45, 49, 44, 48], [32, 13]⟩
  after := demoFacet.after

theorem commaFacet_ok : commaFacet.Ok := by
  refine ⟨?_, ⟨by decide, by decide, by decide, by decide, by decide, by decide, by decide, by decide, by decide⟩,
    ⟨by decide, by decide, by decide, by decide, by decide, by decide, by decide, by decide, by decide⟩,
    ⟨by decide, by decide, by decide, by decide, by decide, by decide, by decide, by decide, by decide⟩, ?_⟩
  · intro l hl
    simp only [commaFacet, demoFacet, List.mem_cons, List.not_mem_nil, or_false] at hl
    rcases hl with rfl | rfl
    · exact otherLine_intro [] 102 _ (by decide)
    · exact otherLine_intro [32, 32] 111 _ (by decide)
  · intro l hl
    simp only [commaFacet, demoFacet, List.mem_cons, List.not_mem_nil, or_false] at hl
    rcases hl with rfl | rfl
    · exact otherLine_intro [32, 32] 101 _ (by decide)
    · exact otherLine_intro [] 101 _ (by decide)

theorem comma_garbage (v : VertexText) (h : 44 ∈ v.x ∧ 44 ∈ v.y ∧ 44 ∈ v.z) : v.Garbage :=
  ⟨notNumber_char _ 44 h.1 (by decide) (by decide), notNumber_char _ 44 h.2.1 (by decide) (by decide),
    notNumber_char _ 44 h.2.2 (by decide) (by decide)⟩

/-- **C108 is violated**: it is not so that a document with an unreadable coordinate gives an error.  (The document with decimal
commas is loaded, with all vertices at the origin.) -/
theorem C108_rejected_violated : ¬ ∀ (head tail : List Bytes) (fs : List FacetText), (∀ l ∈ head, OtherLine l) → (∀ l ∈ tail, OtherLine l) →
    (∀ f ∈ fs, f.Ok) → (∃ f ∈ fs, NotNumber f.v1.x) →
    (loadSTLAscii (docText (head ++ fs.flatMap FacetText.lines ++ tail)) : Option (Mesh B64) × Option LoadErr).2 ≠ none := by
  intro h
  have hg : ∀ f ∈ [commaFacet], f.v1.Garbage ∧ f.v2.Garbage ∧ f.v3.Garbage := by
    intro f hf
    rw [List.mem_singleton] at hf
    subst hf
    exact ⟨comma_garbage _ (by decide), comma_garbage _ (by decide), comma_garbage _ (by decide)⟩
  have hok : ∀ f ∈ [commaFacet], f.Ok := by
    intro f hf
    rw [List.mem_singleton] at hf
    subst hf
    exact commaFacet_ok
  refine h [] [] [commaFacet] (by simp) (by simp) hok ⟨commaFacet, by simp, (hg _ (by simp)).1.1⟩ ?_
  rw [C108_document [] [] [commaFacet] (by simp) (by simp) hok hg]

end Goosli
