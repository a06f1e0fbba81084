import Verif.Model.Helpers
import Verif.Proofs.Solid
import Verif.Props.C27
/-!
# C28: overhang classification
-/
set_option linter.unusedSectionVars false
namespace Goosli
open Flt

/-- **C28 (one flag per triangle, in order).** Every arithmetic. -/
theorem C28_flags {α : Type} [Flt α] (m : Mesh α) (angle : α) (v : Vec α) :
    (colorizeTriangles m angle v).length = m.triangles.length ∧
      ∀ (i : Nat) (t : Triangle α), m.triangles[i]? = some t →
        (colorizeTriangles m angle v)[i]? = some (t.n.angle v.reverse <? lit 90 0 - angle) := by
  constructor
  · simp [colorizeTriangles]
  · intro i t h; simp [colorizeTriangles, h]

/-- **C28 (filter).** The selected triangles are exactly the flagged ones, in order. Every arithmetic. -/
theorem C28_filter {α : Type} [Flt α] (m : Mesh α) (angle : α) (v : Vec α) :
    filterTrianglesByColor m angle v =
      ((m.triangles.zip (colorizeTriangles m angle v)).filter (fun q => q.2)).map (fun q => q.1) ∧
    (filterTrianglesByColor m angle v).Sublist m.triangles := by
  have e : filterTrianglesByColor m angle v =
      ((m.triangles.zip (colorizeTriangles m angle v)).filter (fun q => q.2)).map (fun q => q.1) := by
    unfold filterTrianglesByColor
    generalize m.triangles.zip (colorizeTriangles m angle v) = l
    induction l with
    | nil => rfl
    | cons q l ih => cases h : q.2 <;> simp [h, ih]
  refine ⟨e, ?_⟩
  rw [e]
  have h1 := (List.filter_sublist (p := fun q : Triangle α × Bool => q.2) (l := m.triangles.zip (colorizeTriangles m angle v))).map
    (fun q => q.1)
  refine h1.trans ?_
  have : (m.triangles.zip (colorizeTriangles m angle v)).map (fun q => q.1) = m.triangles := by
    rw [show (fun q : Triangle α × Bool => q.1) = Prod.fst from rfl, List.map_fst_zip]
    simp [colorizeTriangles]
  rw [this]

theorem R3.neg_ne_zero' {d : R3} (h : d ≠ 0) : -d ≠ 0 := by
  intro h0; apply h
  have e : d = - -d := by apply R3.ext <;> simp
  rw [e, h0]; apply R3.ext <;> simp

theorem R3.norm_neg' (d : R3) : (-d).norm = d.norm := by
  unfold R3.norm; congr 1; simp [R3.normSq, R3.dot]

theorem flag_fin (t : RTri) (a : ℝ) (d : R3) (hn : t.nrm ≠ 0) (hd : d ≠ 0) :
    (t.tri.n.angle d.vec.reverse <? (lit 90 0 - XR.fin a : XR)) = decide (angleDeg t.nrm (-d) < 90 - a) := by
  have l : (lit 90 0 : XR) = XR.fin 90 := by simp
  show (t.nrm.vec.angle d.vec.reverse <? _) = _
  rw [reverse_vec, angle_vec _ _ hn (R3.neg_ne_zero' hd), l, XR.fin_sub, XR.fin_lt]

theorem angle_nan_not_flagged (x : XR) : (XR.nan <? x) = false := rfl

/-- **C28 (meaning of the flag).** For a facet that is not degenerate and a direction that is not zero: flagged exactly
when the angle between its normal and the reversed direction is below `90 - a`; for `a` between -90 and 90 this is
`sin a · |n| · |d| < -n·d`. -/
theorem C28_meaning (ts : List RTri) (a : ℝ) (d : R3) (hd : d ≠ 0) (i : Nat) (t : RTri) (ht : ts[i]? = some t) (hn : t.nrm ≠ 0) :
    ∃ f : Bool, (colorizeTriangles (rmesh ts) (XR.fin a) d.vec)[i]? = some f ∧
      (f = true ↔ angleDeg t.nrm (-d) < 90 - a) ∧
      (-90 ≤ a → a ≤ 90 → (f = true ↔ Real.sin (rad a) * (t.nrm.norm * d.norm) < -(t.nrm.dot d))) := by
  have hi : (rmesh ts).triangles[i]? = some t.tri := by simp [rmesh, ht]
  refine ⟨_, (C28_flags _ _ _).2 i _ hi, ?_⟩
  rw [flag_fin t a d hn hd]
  simp only [decide_eq_true_eq, true_and]
  intro h1 h2
  have hpi := Real.pi_pos
  have hp := mul_pos (R3.norm_pos hn) (R3.norm_pos hd)
  have hc := abs_le.1 (R3.cauchy t.nrm d)
  have hdot : t.nrm.dot (-d) = -(t.nrm.dot d) := by simp [R3.dot]; ring
  unfold angleDeg
  rw [R3.norm_neg', hdot]
  set c := -(t.nrm.dot d) / (t.nrm.norm * d.norm) with hcdef
  have c1 : -1 ≤ c := by rw [hcdef, le_div_iff₀ hp]; linarith [hc.2]
  have c2 : c ≤ 1 := by rw [hcdef, div_le_iff₀ hp]; linarith [hc.1]
  have e1 : Real.arccos c * 180 / Real.pi < 90 - a ↔ Real.arccos c < Real.pi / 2 - rad a := by
    rw [div_lt_iff₀ hpi]
    unfold rad
    constructor <;> intro h <;> linarith
  rw [e1]
  have hr1 : 0 ≤ Real.pi / 2 - rad a := by unfold rad; nlinarith
  have hr2 : Real.pi / 2 - rad a ≤ Real.pi := by unfold rad; nlinarith
  have e2 : Real.arccos c < Real.pi / 2 - rad a ↔ Real.sin (rad a) < c := by
    rw [← Real.cos_pi_div_two_sub, ← Real.strictAntiOn_cos.lt_iff_gt ⟨hr1, hr2⟩ ⟨Real.arccos_nonneg c, Real.arccos_le_pi c⟩,
      Real.cos_arccos c1 c2]
  rw [e2, hcdef, lt_div_iff₀ hp]

/-- **C28 (degenerate facets).** A facet without area is never flagged. -/
theorem C28_degenerate (ts : List RTri) (a : ℝ) (d : R3) (i : Nat) (t : RTri) (ht : ts[i]? = some t) (hn : t.nrm = 0) :
    (colorizeTriangles (rmesh ts) (XR.fin a) d.vec)[i]? = some false := by
  have hi : (rmesh ts).triangles[i]? = some t.tri := by simp [rmesh, ht]
  rw [(C28_flags _ _ _).2 i _ hi]
  show some (t.nrm.vec.angle d.vec.reverse <? _) = _
  rw [hn, reverse_vec, (C27_zero _).2, angle_nan_not_flagged]

/-- **C28 (zero direction).** Nothing is flagged. -/
theorem C28_zero_direction (ts : List RTri) (a : ℝ) : ∀ f ∈ colorizeTriangles (rmesh ts) (XR.fin a) (0 : R3).vec, f = false := by
  intro f hf
  obtain ⟨t, ht, rfl⟩ := List.mem_map.1 hf
  obtain ⟨s, _, rfl⟩ := List.mem_map.1 ht
  have : (-(0 : R3)) = 0 := by apply R3.ext <;> simp
  show (s.nrm.vec.angle (0 : R3).vec.reverse <? _) = false
  rw [reverse_vec, this, (C27_zero _).1, angle_nan_not_flagged]

/-- **C28 (length of the direction).** -/
theorem C28_scale (ts : List RTri) (a k : ℝ) (hk : 0 < k) (d : R3) :
    colorizeTriangles (rmesh ts) (XR.fin a) (k • d).vec = colorizeTriangles (rmesh ts) (XR.fin a) d.vec := by
  unfold colorizeTriangles
  apply List.map_congr_left
  intro t ht
  obtain ⟨s, _, rfl⟩ := List.mem_map.1 ht
  show (s.nrm.vec.angle (k • d).vec.reverse <? _) = (s.nrm.vec.angle d.vec.reverse <? _)
  have e : -(k • d) = k • (-d) := by apply R3.ext <;> simp
  rw [reverse_vec, reverse_vec, e]
  by_cases hn : s.nrm = 0
  · rw [hn, (C27_zero _).2, (C27_zero _).2]
  · by_cases hd : d = 0
    · have e0 : (-d) = 0 := by rw [hd]; apply R3.ext <;> simp
      have e1 : k • (0 : R3) = 0 := by apply R3.ext <;> simp
      rw [e0, e1]
    · obtain ⟨θ, h1, _, _, _, _, h2, _⟩ := C27_angle s.nrm (-d) hn (R3.neg_ne_zero' hd)
      have := h2 1 k one_pos hk
      have e1 : (1 : ℝ) • s.nrm = s.nrm := by apply R3.ext <;> simp
      rw [e1] at this
      rw [this, h1]

/-- a facet looking straight down is an overhang for the upward direction and the angle 45, one looking up is not -/
example : let dn : RTri := ⟨⟨0, 0, 0⟩, ⟨0, 1, 0⟩, ⟨1, 0, 0⟩⟩
    let up : RTri := ⟨⟨0, 0, 0⟩, ⟨1, 0, 0⟩, ⟨0, 1, 0⟩⟩
    colorizeTriangles (rmesh [dn, up]) (XR.fin 45) (R3.mk 0 0 1).vec = [true, false] := by
  intro dn up
  have hd : (R3.mk 0 0 1) ≠ 0 := by intro h; have := congrArg R3.z h; simp at this
  have ndn : dn.nrm = ⟨0, 0, -1⟩ := by simp [dn, RTri.nrm, R3.cross]
  have nup : up.nrm = ⟨0, 0, 1⟩ := by simp [up, RTri.nrm, R3.cross]
  have n1 : (⟨0, 0, -1⟩ : R3).norm = 1 := by simp [R3.norm, R3.normSq, R3.dot]
  have n2 : (⟨0, 0, 1⟩ : R3).norm = 1 := by simp [R3.norm, R3.normSq, R3.dot]
  have hs : Real.sin (rad 45) < 1 := by
    have : rad 45 = Real.pi / 4 := by unfold rad; ring
    rw [this, Real.sin_pi_div_four]
    nlinarith [Real.sq_sqrt (show (0 : ℝ) ≤ 2 by norm_num), Real.sqrt_nonneg 2]
  have hs0 : 0 ≤ Real.sin (rad 45) := by
    have : rad 45 = Real.pi / 4 := by unfold rad; ring
    rw [this, Real.sin_pi_div_four]; positivity
  obtain ⟨f, hf, _, h⟩ := C28_meaning [dn, up] 45 _ hd 0 dn rfl (by rw [ndn]; intro h; have := congrArg R3.z h; simp at this)
  obtain ⟨g, hg, _, h'⟩ := C28_meaning [dn, up] 45 _ hd 1 up rfl (by rw [nup]; intro h; have := congrArg R3.z h; simp at this)
  have hft := (h (by norm_num) (by norm_num)).2 (by rw [ndn, n1, n2]; simp [R3.dot]; exact hs)
  have hgt : ¬ g = true := by
    rw [h' (by norm_num) (by norm_num), nup, n2]; simp [R3.dot]; linarith
  have hl := (C28_flags (rmesh [dn, up]) (XR.fin 45) (R3.mk 0 0 1).vec).1
  apply List.ext_getElem?
  intro i
  match i with
  | 0 => rw [hf, hft]; rfl
  | 1 => rw [hg]; simp at hgt; rw [hgt]; rfl
  | n + 2 => rw [List.getElem?_eq_none (by rw [hl]; simp [rmesh])]; rfl

end Goosli
