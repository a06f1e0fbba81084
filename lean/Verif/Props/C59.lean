import Verif.Proofs.Cut
/-!
# C59: the caps fill the contour
-/
set_option linter.unusedSectionVars false
namespace Goosli
open Flt

/-- Twice the area vector enclosed by a closed polyline (shoelace formula): the sum of `p × q` over its segments. -/
def loopArea : List R3 → R3
  | p :: q :: t => p.cross q + loopArea (q :: t)
  | _ => 0

/-- twice the area of the cap triangles, seen along `N` -/
noncomputable def capArea (N : R3) (caps : List RTri) : ℝ := (caps.map fun c => |c.nrm.dot N|).sum

theorem fan_area (w : R3) : ∀ rest : List R3,
    ((adjPairs rest).map fun q => (RTri.mk w q.1 q.2).nrm).foldr (· + ·) 0 =
      loopArea rest + w.cross (rest.headD w) - w.cross (rest.getLastD w)
  | [] => by apply R3.ext <;> simp [adjPairs, loopArea]
  | [p] => by apply R3.ext <;> simp [adjPairs, loopArea]
  | p :: q :: t => by
    have ih := fan_area w (q :: t)
    have e : adjPairs (p :: q :: t) = (p, q) :: adjPairs (q :: t) := rfl
    rw [e, List.map_cons, List.foldr_cons, ih]
    have e2 : (p :: q :: t).getLastD w = (q :: t).getLastD w := by simp [List.getLastD]
    rw [e2]
    apply R3.ext <;> simp [RTri.nrm, R3.cross, loopArea] <;> ring

theorem sum_dot (N : R3) : ∀ l : List R3, (l.foldr (· + ·) 0).dot N = (l.map fun v => v.dot N).sum
  | [] => by simp [R3.dot]
  | a :: l => by
    rw [List.foldr_cons, List.map_cons, List.sum_cons, ← sum_dot N l]
    simp [R3.dot]; ring

/-- the fan of a closed contour encloses what the contour encloses -/
theorem fan_loop (N w : R3) (rest : List R3) (hc : rest.getLast? = some w) :
    ((fan (w :: rest)).map fun f => f.nrm.dot N).sum = (loopArea (w :: rest)).dot N := by
  have h := congrArg (fun v => R3.dot v N) (fan_area w rest)
  simp only [sum_dot] at h
  rw [List.map_map] at h
  have e : (fan (w :: rest)).map (fun f => f.nrm.dot N) =
      (adjPairs rest).map ((fun v : R3 => v.dot N) ∘ fun q => (RTri.mk w q.1 q.2).nrm) := by
    simp [fan, Function.comp_def]
  rw [e, h]
  cases rest with
  | nil => simp at hc
  | cons p t =>
    have e2 : (p :: t).getLastD w = w := by
      rw [List.getLastD_eq_getLast?, hc]; rfl
    rw [e2]
    simp [loopArea, R3.dot, R3.cross]; ring

theorem caps_area_fan (N : R3) (fs cs : List RTri) (h : List.Forall₂ (fun f c => c = f ∨ c = RTri.flip f) fs cs) :
    capArea N cs = capArea N fs := by
  induction h with
  | nil => rfl
  | cons h _ ih =>
    simp only [capArea, List.map_cons, List.sum_cons] at *
    rw [ih]
    rcases h with rfl | rfl
    · rfl
    · rw [RTri.flip_nrm]
      congr 1
      rw [show (-RTri.nrm _ : R3).dot N = -((RTri.nrm _).dot N) by simp [R3.dot]; ring, abs_neg]

/-- **C59 (what holds for fans of one orientation).** If, seen from the first point of a closed contour, all its segments
run in the same sense (in particular if the contour is convex), the caps of the contour have together exactly the area it
encloses.  Missing to the full property: other contours, see `C59_concave_violated`. -/
theorem C59_fan_partial (P N w : R3) (rest : List R3) (hc : rest.getLast? = some w)
    (hf : (∀ f ∈ fan (w :: rest), 0 ≤ f.nrm.dot N) ∨ (∀ f ∈ fan (w :: rest), f.nrm.dot N ≤ 0)) :
    ∃ caps : List RTri, capTriangles (Plane.mk P.pt N.vec) ⟨(w :: rest).map R3.pt⟩ = caps.map (fun c => (c.tri, c.flip.tri)) ∧
      capArea N caps = |(loopArea (w :: rest)).dot N| := by
  obtain ⟨caps, h1, h2, _⟩ := caps_real P N (w :: rest)
  refine ⟨caps, h1, ?_⟩
  rw [caps_area_fan N _ _ h2, ← fan_loop N w rest hc]
  unfold capArea
  rcases hf with hf | hf
  · rw [abs_of_nonneg (List.sum_nonneg (by
      intro x hx; obtain ⟨f, hf', rfl⟩ := List.mem_map.1 hx; exact hf f hf'))]
    congr 1
    exact List.map_congr_left fun f hf' => abs_of_nonneg (hf f hf')
  · have neg : ∀ l : List RTri, (∀ f ∈ l, f.nrm.dot N ≤ 0) →
        (l.map fun f => |f.nrm.dot N|).sum = -(l.map fun f => f.nrm.dot N).sum := by
      intro l hl
      induction l with
      | nil => simp
      | cons f l ih =>
        rw [List.map_cons, List.map_cons, List.sum_cons, List.sum_cons, ih (fun g hg => hl g (by simp [hg])),
          abs_of_nonpos (hl f (by simp))]
        ring
    rw [neg _ hf, abs_of_nonpos]
    have := neg _ hf
    have h0 : 0 ≤ ((fan (w :: rest)).map fun f => |f.nrm.dot N|).sum :=
      List.sum_nonneg (by intro x hx; obtain ⟨f, _, rfl⟩ := List.mem_map.1 hx; exact abs_nonneg _)
    linarith

/-- The caps never have less area than the contour encloses. -/
theorem C59_at_least (P N w : R3) (rest : List R3) (hc : rest.getLast? = some w) :
    ∃ caps : List RTri, capTriangles (Plane.mk P.pt N.vec) ⟨(w :: rest).map R3.pt⟩ = caps.map (fun c => (c.tri, c.flip.tri)) ∧
      |(loopArea (w :: rest)).dot N| ≤ capArea N caps := by
  obtain ⟨caps, h1, h2, _⟩ := caps_real P N (w :: rest)
  refine ⟨caps, h1, ?_⟩
  rw [caps_area_fan N _ _ h2, ← fan_loop N w rest hc]
  unfold capArea
  generalize fan (w :: rest) = l
  induction l with
  | nil => simp
  | cons f l ih =>
    rw [List.map_cons, List.map_cons, List.sum_cons, List.sum_cons]
    exact (abs_add_le _ _).trans (by linarith)

/-- a notched square: the corner `(5, 1)` of the notch is not visible from the first point without crossing the border -/
def notched : List R3 := [⟨0, 0, 0⟩, ⟨10, 0, 0⟩, ⟨10, 10, 0⟩, ⟨5, 1, 0⟩, ⟨0, 10, 0⟩, ⟨0, 0, 0⟩]

/-- **C59 (violated for concave contours).** Every triangle of the fan is oriented by itself, so the fan of a notched
square is counted with the parts outside it: (twice) the area of the caps is 190, that enclosed by the contour 110. -/
theorem C59_concave_violated : ∃ caps : List RTri,
    capTriangles (Plane.mk (R3.mk 0 0 0).pt (R3.mk 0 0 1).vec) ⟨notched.map R3.pt⟩ = caps.map (fun c => (c.tri, c.flip.tri)) ∧
      (loopArea notched).dot ⟨0, 0, 1⟩ = 110 ∧ capArea ⟨0, 0, 1⟩ caps = 190 := by
  obtain ⟨caps, h1, h2, _⟩ := caps_real ⟨0, 0, 0⟩ ⟨0, 0, 1⟩ notched
  refine ⟨caps, h1, ?_, ?_⟩
  · simp [notched, loopArea, R3.cross, R3.dot]; norm_num
  · rw [caps_area_fan _ _ _ h2]
    simp [notched, fan, adjPairs, capArea, RTri.nrm, R3.cross, R3.dot]; norm_num

/-- the hypotheses of `C59_fan_partial` for a square -/
example : (∀ f ∈ fan [⟨0, 0, 0⟩, ⟨10, 0, 0⟩, ⟨10, 10, 0⟩, ⟨0, 10, 0⟩, ⟨0, 0, 0⟩], 0 ≤ f.nrm.dot ⟨0, 0, 1⟩) ∧
    [(⟨10, 0, 0⟩ : R3), ⟨10, 10, 0⟩, ⟨0, 10, 0⟩, ⟨0, 0, 0⟩].getLast? = some ⟨0, 0, 0⟩ := by
  refine ⟨?_, by simp⟩
  intro f hf
  simp only [fan, adjPairs, List.tail_cons, List.zip_cons_cons, List.zip_nil_right, List.map_cons, List.map_nil, List.mem_cons, List.not_mem_nil,
    or_false] at hf
  rcases hf with rfl | rfl | rfl <;> simp [RTri.nrm, R3.cross, R3.dot]

end Goosli
