import Verif.Proofs.Solid
/-!
# C25: the bounding interval is tight
-/
set_option linter.unusedSectionVars false
namespace Goosli
open Flt

/-- all vertices of a list of triangles -/
def allVerts (ts : List RTri) : List R3 := ts.flatMap RTri.verts

theorem tri_minMaxZ (t : RTri) (d : R3) :
    t.tri.minMaxZ d.vec = (XR.fin (min (t.a.dot d) (min (t.b.dot d) (t.c.dot d))),
      XR.fin (max (t.a.dot d) (max (t.b.dot d) (t.c.dot d)))) := by
  simp [Triangle.minMaxZ, RTri.tri]

/-- **C25.** For a non-empty mesh (with projections in the `float64` range) the two numbers returned bound the
projections of all vertices, and both are attained. -/
theorem C25_tight (ts : List RTri) (d : R3) (hne : ts ≠ []) (hr : ∀ w ∈ allVerts ts, |w.dot d| ≤ XR.maxF64R) :
    ∃ lo hi : ℝ, (rmesh ts).minMaxZ d.vec = (XR.fin lo, XR.fin hi) ∧ lo ≤ hi ∧
      (∀ w ∈ allVerts ts, lo ≤ w.dot d ∧ w.dot d ≤ hi) ∧
      (∃ w ∈ allVerts ts, w.dot d = lo) ∧ (∃ w ∈ allVerts ts, w.dot d = hi) := by
  have inner : ∀ (ts : List RTri) (lo hi : ℝ),
      ∃ lo' hi' : ℝ, (ts.map RTri.tri).foldl (fun acc t => (fmin acc.1 (t.minMaxZ d.vec).1, fmax acc.2 (t.minMaxZ d.vec).2))
          (XR.fin lo, XR.fin hi) = (XR.fin lo', XR.fin hi') ∧ lo' ≤ lo ∧ hi ≤ hi' ∧
        (∀ w ∈ allVerts ts, lo' ≤ w.dot d ∧ w.dot d ≤ hi') ∧
        (lo' = lo ∨ ∃ w ∈ allVerts ts, w.dot d = lo') ∧ (hi' = hi ∨ ∃ w ∈ allVerts ts, w.dot d = hi') := by
    intro ts
    induction ts with
    | nil => intro lo hi; exact ⟨lo, hi, rfl, le_refl _, le_refl _, by simp [allVerts], Or.inl rfl, Or.inl rfl⟩
    | cons t ts ih =>
      intro lo hi
      obtain ⟨lo', hi', h1, h2, h3, h4, h5, h6⟩ := ih (min lo (min (t.a.dot d) (min (t.b.dot d) (t.c.dot d))))
        (max hi (max (t.a.dot d) (max (t.b.dot d) (t.c.dot d))))
      have hv : allVerts (t :: ts) = [t.a, t.b, t.c] ++ allVerts ts := rfl
      refine ⟨lo', hi', ?_, h2.trans (min_le_left _ _), (le_max_left _ _).trans h3, ?_, ?_, ?_⟩
      · simp only [List.map_cons, List.foldl_cons, tri_minMaxZ, XR.fin_fmin, XR.fin_fmax]
        exact h1
      · intro w hw
        rw [hv, List.mem_append] at hw
        rcases hw with hw | hw
        · have l1 := h2.trans (min_le_right _ _)
          have g1 := (le_max_right _ _).trans h3
          have : w = t.a ∨ w = t.b ∨ w = t.c := by simpa using hw
          rcases this with rfl | rfl | rfl
          · exact ⟨l1.trans (min_le_left _ _), (le_max_left _ _).trans g1⟩
          · exact ⟨l1.trans ((min_le_right _ _).trans (min_le_left _ _)), ((le_max_left _ _).trans (le_max_right _ _)).trans g1⟩
          · exact ⟨l1.trans ((min_le_right _ _).trans (min_le_right _ _)), ((le_max_right _ _).trans (le_max_right _ _)).trans g1⟩
        · exact h4 w hw
      · rcases h5 with h5 | ⟨w, hw, he⟩
        · rcases min_choice lo (min (t.a.dot d) (min (t.b.dot d) (t.c.dot d))) with e | e
          · left; rw [h5, e]
          · right
            rcases min_choice (t.a.dot d) (min (t.b.dot d) (t.c.dot d)) with e2 | e2
            · exact ⟨t.a, by simp [hv], by rw [h5, e, e2]⟩
            · rcases min_choice (t.b.dot d) (t.c.dot d) with e3 | e3
              · exact ⟨t.b, by simp [hv], by rw [h5, e, e2, e3]⟩
              · exact ⟨t.c, by simp [hv], by rw [h5, e, e2, e3]⟩
        · right; exact ⟨w, by rw [hv]; exact List.mem_append_right _ hw, he⟩
      · rcases h6 with h5 | ⟨w, hw, he⟩
        · rcases max_choice hi (max (t.a.dot d) (max (t.b.dot d) (t.c.dot d))) with e | e
          · left; rw [h5, e]
          · right
            rcases max_choice (t.a.dot d) (max (t.b.dot d) (t.c.dot d)) with e2 | e2
            · exact ⟨t.a, by simp [hv], by rw [h5, e, e2]⟩
            · rcases max_choice (t.b.dot d) (t.c.dot d) with e3 | e3
              · exact ⟨t.b, by simp [hv], by rw [h5, e, e2, e3]⟩
              · exact ⟨t.c, by simp [hv], by rw [h5, e, e2, e3]⟩
        · right; exact ⟨w, by rw [hv]; exact List.mem_append_right _ hw, he⟩
  obtain ⟨lo, hi, h1, h2, h3, h4, h5, h6⟩ := inner ts XR.maxF64R (-XR.maxF64R)
  obtain ⟨t, ts', rfl⟩ := List.exists_cons_of_ne_nil hne
  have hta : t.a ∈ allVerts (t :: ts') := by simp [allVerts, RTri.verts]
  have b := h4 t.a hta
  refine ⟨lo, hi, ?_, b.1.trans b.2, h4, ?_, ?_⟩
  · unfold Mesh.minMaxZ rmesh
    rw [if_neg (by simp)]
    exact h1
  · rcases h5 with e | h
    · refine ⟨t.a, hta, le_antisymm ?_ b.1⟩
      rw [e]; exact (abs_le.1 (hr _ hta)).2
    · exact h
  · rcases h6 with e | h
    · refine ⟨t.a, hta, le_antisymm b.2 ?_⟩
      rw [e]; exact (abs_le.1 (hr _ hta)).1
    · exact h

/-- **C25.** An empty mesh gives `(0, 0)`, whatever the arithmetic. -/
theorem C25_empty {α : Type} [Flt α] (z : Vec α) : (Mesh.mk ([] : List (Triangle α))).minMaxZ z = (lit 0 0, lit 0 0) := rfl

/-- a unit triangle meets the hypotheses -/
example : ∀ w ∈ allVerts [RTri.mk ⟨0, 0, 0⟩ ⟨1, 0, 0⟩ ⟨0, 1, 1⟩], |w.dot ⟨0, 0, 1⟩| ≤ XR.maxF64R := by
  have h : (1 : ℝ) ≤ XR.maxF64R := by
    have : (1 : ℝ) ≤ 2 ^ 1023 := one_le_pow₀ (by norm_num)
    unfold XR.maxF64R
    have h2 : (1 : ℝ) ≤ 2 - 2⁻¹ ^ 52 := by norm_num
    exact one_le_mul_of_one_le_of_one_le h2 this
  intro w hw
  have : w = ⟨0, 0, 0⟩ ∨ w = ⟨1, 0, 0⟩ ∨ w = ⟨0, 1, 1⟩ := by simpa [allVerts, RTri.verts] using hw
  rcases this with rfl | rfl | rfl <;> simp [R3.dot] <;> linarith

end Goosli
