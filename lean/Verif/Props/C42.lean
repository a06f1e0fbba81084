import Verif.Proofs.Fill
import Verif.Props.C44
/-! # C42 Solid bottom and top layers -/
set_option linter.unusedSectionVars false
namespace Goosli
open Flt

variable {α : Type} [Flt α]

/-- planes a layer is filled with: the full-density ones for the first `bottom` and the last `top` layers -/
def planesFor {β : Type} (full sparse : List β) (bottom top : Int) (n i : Nat) : List β :=
  if (i : Int) < bottom ∨ (n : Int) - top ≤ (i : Int) then full else sparse

/-- contours a layer is filled between: the innermost walls if there are any -/
def fillBetween (l : Layer α) : List (Path α) := if l.innerPs = [] then l.paths else l.innerPs

/-- the fill lines of a layer before reordering -/
def fillLines (S : Sorter) (full sparse : List (Plane α)) (sett : Settings α) (n i : Nat) (l : Layer α) : List (Path α) :=
  l.fill ++ (planesFor full sparse sett.bottomLayers sett.topLayers n i).flatMap fun p => intersectByPlane S (fillBetween l) p

/-- C42: filling never fails (on layers whose earlier fill, if any, has no empty line), keeps the number and order of the
layers, changes nothing but the fill, and the new fill consists of the lines cut out of the innermost walls (outer contours
if there are none) by the full-density planes exactly in the first `BottomLayers` and the last `TopLayers` layers and by the
sparse planes elsewhere: as many lines as cut out, each of them one of those, possibly reversed; and each exactly once if the
distances between line ends are comparable and below MaxFloat32. -/
theorem C42_fill (S : Sorter) (layers : List (Layer α)) (sparse full : List (Plane α)) (sett : Settings α)
    (hf : ∀ l ∈ layers, ∀ q ∈ l.fill, q.points ≠ []) :
    ∃ out, fillLayers S layers sparse full sett = .ok out ∧ out.length = layers.length ∧
      ∀ i l, layers[i]? = some l → ∃ o, out[i]? = some o ∧
        o.order = l.order ∧ o.norm = l.norm ∧ o.paths = l.paths ∧ o.middlePs = l.middlePs ∧ o.innerPs = l.innerPs ∧
        o.fill.length = (fillLines S full sparse sett layers.length i l).length ∧
        (∀ x ∈ o.fill, ∃ q ∈ fillLines S full sparse sett layers.length i l,
          x.points = q.points ∨ x.points = q.points.reverse) ∧
        (StrictWeakOn (fun a b : α => a <? b) (maxF32 :: endDistances (fillLines S full sparse sett layers.length i l)) →
          (∀ d ∈ endDistances (fillLines S full sparse sett layers.length i l), (d <? maxF32) = true) →
          ∃ l', l'.Perm (fillLines S full sparse sett layers.length i l) ∧
            List.Forall₂ (fun o q => o.points = q.points ∨ o.points = q.points.reverse) o.fill l') := by
  have hcont : ∀ l : Layer α, fillContours l = fillBetween l := by
    intro l
    unfold fillContours fillBetween
    cases l.innerPs <;> simp
  have hsel : ∀ n i, (if solidLayer sett n i then full else sparse) =
      planesFor full sparse sett.bottomLayers sett.topLayers n i := by
    intro n i
    unfold planesFor solidLayer
    simp only [Bool.or_eq_true, decide_eq_true_eq]
  have hseg : ∀ n i l, l ∈ layers → ∀ q ∈ fillLines S full sparse sett n i l, q.points ≠ [] := by
    intro n i l hl q hq
    rcases List.mem_append.1 hq with h | h
    · exact hf l hl q h
    · obtain ⟨p, _, hp⟩ := List.mem_flatMap.1 h
      obtain ⟨a, b, rfl, _⟩ := intersectByPlane_points S _ p q hp
      simp
  have hone : ∀ n i l, l ∈ layers → ∃ fill, fillLayer S sparse full sett n i l = .ok { l with fill := fill } ∧
      sortFillPathes (fillLines S full sparse sett n i l) = .ok fill ∧
      fill.length = (fillLines S full sparse sett n i l).length ∧
      ∀ x ∈ fill, ∃ q ∈ fillLines S full sparse sett n i l, x.points = q.points ∨ x.points = q.points.reverse := by
    intro n i l hl
    obtain ⟨fill, h1, h2, h3⟩ := sortFillPathes_total _ (hseg n i l hl)
    refine ⟨fill, ?_, h1, h2, h3⟩
    unfold fillLayer
    rw [hsel]
    rw [hcont]
    show (do let fill ← sortFillPathes (fillLines S full sparse sett n i l); _) = _
    rw [h1]
    rfl
  obtain ⟨out, h1, h2⟩ := go_mapM_total (fun q : Layer α × Nat => fillLayer S sparse full sett layers.length q.2 q.1)
    layers.zipIdx (by
      intro q hq
      obtain ⟨fill, h, _⟩ := hone layers.length q.2 q.1 (by
        obtain ⟨q1, q2⟩ := q
        exact (List.mem_zipIdx' hq).2 ▸ List.getElem_mem _)
      exact ⟨_, h⟩)
  refine ⟨out, h1, by rw [← h2.length_eq]; simp, ?_⟩
  intro i l hl
  have hmem : l ∈ layers := List.mem_of_getElem? hl
  have hz : layers.zipIdx[i]? = some (l, i) := by simp [List.getElem?_zipIdx, hl]
  obtain ⟨o, ho, hfo⟩ : ∃ o, out[i]? = some o ∧ fillLayer S sparse full sett layers.length i l = .ok o := by
    have hlen : i < out.length := by
      rw [← h2.length_eq]
      exact (List.getElem?_eq_some_iff.1 hz).1
    refine ⟨out[i], List.getElem?_eq_getElem hlen, ?_⟩
    obtain ⟨hi, hz'⟩ := List.getElem?_eq_some_iff.1 hz
    have := (List.forall₂_iff_get.1 h2).2 i hi hlen
    simp only [List.get_eq_getElem] at this
    rw [hz'] at this
    exact this
  obtain ⟨fill, g1, g2, g3, g4⟩ := hone layers.length i l hmem
  rw [g1] at hfo
  cases hfo
  refine ⟨_, ho, rfl, rfl, rfl, rfl, rfl, g3, g4, ?_⟩
  intro hord hmax
  obtain ⟨out', l', e1, _, e2, e3⟩ := C44_perm _ (hseg layers.length i l hmem) hord hmax
  rw [g2] at e1
  cases e1
  exact ⟨l', e2, e3⟩

section Examples
attribute [local instance] Toy.flt
/-- settings with 4 top and 1 bottom layers: of 6 layers, number 0 and numbers 2 to 5 are solid, number 1 is not -/
example : (List.range 6).map (fun i => planesFor [true] [false] 1 4 6 i) =
    [[true], [false], [true], [true], [true], [true]] := by decide
/-- a square contour cut by one vertical plane gives one fill line -/
example : intersectByPlane Sorter.insertion [⟨[⟨0, 0, 0⟩, ⟨8, 0, 0⟩, ⟨8, 8, 0⟩, ⟨0, 8, 0⟩, ⟨0, 0, 0⟩]⟩]
    (⟨⟨0, 0, 0⟩, ⟨1, 0, 0⟩⟩ : Plane Int) = [⟨[⟨0, 0, 0⟩, ⟨0, 8, 0⟩]⟩] := by decide
end Examples

end Goosli
