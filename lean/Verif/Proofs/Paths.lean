import Verif.Model.Path
import Verif.Proofs.Space
import Verif.Proofs.Norms
/-!
# Paths with real coordinates
-/
namespace Goosli
open Flt

/-- a path with real coordinates -/
noncomputable def rpath (ws : List R3) : Path XR := ⟨ws.map R3.pt⟩

@[simp] theorem rpath_points (ws : List R3) : (rpath ws).points = ws.map R3.pt := rfl

theorem adjPairs_map {β γ : Type} (f : β → γ) (l : List β) : adjPairs (l.map f) = (adjPairs l).map fun q => (f q.1, f q.2) := by
  unfold adjPairs
  rw [← List.map_tail, List.zip_map]
  rfl

/-- comparing by a finite key is a strict weak order -/
theorem strictWeak_fin {β : Type} (key : β → XR) (l : List β) (h : ∀ a ∈ l, ∃ x, key a = XR.fin x) :
    StrictWeakOn (fun a b => key a <? key b) l := by
  refine ⟨?_, ?_, ?_⟩
  · intro a ha
    obtain ⟨x, hx⟩ := h a ha
    simp [hx]
  · intro a ha b hb c hc
    obtain ⟨x, hx⟩ := h a ha
    obtain ⟨y, hy⟩ := h b hb
    obtain ⟨z, hz⟩ := h c hc
    simp only [hx, hy, hz, XR.fin_lt, decide_eq_true_eq]
    exact lt_trans
  · intro a ha b hb c hc
    obtain ⟨x, hx⟩ := h a ha
    obtain ⟨y, hy⟩ := h b hb
    obtain ⟨z, hz⟩ := h c hc
    simp only [hx, hy, hz, XR.fin_lt, decide_eq_false_iff_not, not_lt]
    intro h1 h2 h3 h4
    constructor <;> linarith

end Goosli
