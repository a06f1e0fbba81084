import Verif.Proofs.Fill
import Verif.Proofs.FillPlanes
import Verif.Proofs.Paths
import Verif.Props.C07
import Verif.Spec.Contour
import Verif.Spec.Sorters
/-! # C43 Fill lines inside contours -/
set_option linter.unusedSectionVars false
namespace Goosli
open Flt Classical

/-- the coordinate by which the crossings on a fill plane are sorted -/
noncomputable def fillKey (P N : R3) (w : R3) : ℝ := if sortsByX (Plane.mk P.pt N.vec) then w.x else w.y

theorem planeCrossings_real (P N : R3) (cs : List (List R3)) :
    planeCrossings (cs.map rpath) (Plane.mk P.pt N.vec) = (cutPoints P N cs).map R3.pt := by
  have key : ∀ es : List (R3 × R3),
      es.filterMap (fun e => (Plane.mk P.pt N.vec).intersectSegment e.1.pt e.2.pt) =
        ((es.filter fun e => decide (cutsEdge P N e)).map (cutPoint P N)).map R3.pt := by
    intro es
    induction es with
    | nil => rfl
    | cons e es ih =>
      rw [List.filterMap_cons, intersectSegment_pt, List.filter_cons]
      by_cases h : R3.height P N e.1 = R3.height P N e.2
      · rw [if_pos h, if_neg (by simp [cutsEdge, h])]
        exact ih
      · rw [if_neg h]
        dsimp only
        by_cases hp : R3.height P N e.1 * R3.height P N e.2 ≤ 0
        · rw [if_neg ((param_mem h).2 hp), if_pos (by simp [cutsEdge, h, hp])]
          simp only [List.map_cons]
          rw [← ih]
          rfl
        · have : R3.height P N e.1 / (R3.height P N e.1 - R3.height P N e.2) < 0 ∨
              1 < R3.height P N e.1 / (R3.height P N e.1 - R3.height P N e.2) := by
            by_contra hc
            exact hp ((param_mem h).1 hc)
          rw [if_pos this, if_neg (by simp [cutsEdge, h]; linarith)]
          exact ih
  have e1 : planeCrossings (cs.map rpath) (Plane.mk P.pt N.vec) =
      (contourEdges cs).filterMap (fun e => (Plane.mk P.pt N.vec).intersectSegment e.1.pt e.2.pt) := by
    unfold planeCrossings contourEdges
    rw [List.filterMap_flatMap, List.flatMap_map]
    congr 1
    funext c
    rw [rpath_points, adjPairs_map, List.filterMap_map]
    rfl
  rw [e1, key]
  rfl

/-- C43, what the crossings are: exactly the common points of the plane with the sides that are not parallel to it -/
theorem C43_cut (P N : R3) (cs : List (List R3)) (w : R3) :
    w ∈ cutPoints P N cs ↔ ∃ e ∈ contourEdges cs, R3.height P N e.1 ≠ R3.height P N e.2 ∧ R3.onSegment e.1 e.2 w ∧ R3.onPlane P N w := by
  unfold cutPoints
  constructor
  · intro h
    obtain ⟨e, he, rfl⟩ := List.mem_map.1 h
    obtain ⟨he1, he2⟩ := List.mem_filter.1 he
    obtain ⟨h1, h2⟩ : cutsEdge P N e := by simpa using he2
    have hm := (param_mem h1).2 h2
    push Not at hm
    refine ⟨e, he1, h1, ⟨_, hm.1, hm.2, rfl⟩, ?_⟩
    unfold R3.onPlane cutPoint
    rw [height_lerp]
    have hd : R3.height P N e.1 - R3.height P N e.2 ≠ 0 := sub_ne_zero.2 h1
    field_simp
    ring
  · rintro ⟨e, he, h1, ⟨t, ht0, ht1, rfl⟩, hp⟩
    unfold R3.onPlane at hp
    rw [height_lerp] at hp
    have hd : R3.height P N e.1 - R3.height P N e.2 ≠ 0 := sub_ne_zero.2 h1
    have ht : t = R3.height P N e.1 / (R3.height P N e.1 - R3.height P N e.2) := by
      rw [eq_div_iff hd]; linarith
    refine List.mem_map.2 ⟨e, List.mem_filter.2 ⟨he, ?_⟩, by unfold cutPoint; rw [ht]⟩
    have : ¬ (R3.height P N e.1 / (R3.height P N e.1 - R3.height P N e.2) < 0 ∨
        1 < R3.height P N e.1 / (R3.height P N e.1 - R3.height P N e.2)) := by
      rw [← ht]; push Not; exact ⟨ht0, ht1⟩
    simpa [cutsEdge, h1] using (param_mem h1).1 this

/-- sorting the crossings: a permutation, ordered by the key -/
theorem sortCrossings_real (S : Sorter) (P N : R3) (X : List R3) :
    ∃ L : List R3, sortCrossings S (Plane.mk P.pt N.vec) (X.map R3.pt) = L.map R3.pt ∧ L.Perm X ∧
      L.Pairwise (fun a b => fillKey P N a ≤ fillKey P N b) := by
  -- read a point back
  let back : Point XR → R3 := fun p =>
    ⟨match p.x with | .fin x => x | _ => 0, match p.y with | .fin x => x | _ => 0, match p.z with | .fin x => x | _ => 0⟩
  have hback : ∀ w : R3, back w.pt = w := fun w => rfl
  have main : ∀ (get : R3 → ℝ) (less : Point XR → Point XR → Bool),
      (∀ a b : R3, less a.pt b.pt = decide (get a < get b)) → (∀ l : List R3, StrictWeakOn less (l.map R3.pt)) →
      ∃ L : List R3, S.run less (X.map R3.pt) = L.map R3.pt ∧ L.Perm X ∧ L.Pairwise (fun a b => get a ≤ get b) := by
    intro get less hless hsw
    have hperm := S.perm less (X.map R3.pt)
    have hsort := S.sorted less (X.map R3.pt) (hsw X)
    have hreal : S.run less (X.map R3.pt) = ((S.run less (X.map R3.pt)).map back).map R3.pt := by
      rw [List.map_map]
      have : ∀ p ∈ S.run less (X.map R3.pt), (R3.pt ∘ back) p = p := by
        intro p hp
        obtain ⟨w, _, rfl⟩ := List.mem_map.1 (hperm.mem_iff.1 hp)
        rfl
      conv_lhs => rw [← List.map_id (S.run less (X.map R3.pt))]
      exact (List.map_congr_left this).symm
    refine ⟨(S.run less (X.map R3.pt)).map back, hreal, ?_, ?_⟩
    · have := hperm.map back
      rw [List.map_map] at this
      have e : (back ∘ R3.pt) = id := by funext w; exact hback w
      rwa [e, List.map_id] at this
    · rw [List.pairwise_map]
      refine hsort.imp_of_mem ?_
      intro a b ha hb hab
      obtain ⟨u, _, rfl⟩ := List.mem_map.1 (hperm.mem_iff.1 ha)
      obtain ⟨v, _, rfl⟩ := List.mem_map.1 (hperm.mem_iff.1 hb)
      rw [hless] at hab
      rw [hback, hback]
      simpa using hab
  unfold sortCrossings fillKey
  cases sortsByX (Plane.mk P.pt N.vec) with
  | true =>
    simp only [if_true]
    refine main (fun w => w.x) _ (fun a b => by simp [R3.pt]) (fun l => strictWeak_fin _ _ ?_)
    intro a ha
    obtain ⟨w, _, rfl⟩ := List.mem_map.1 ha
    exact ⟨w.x, rfl⟩
  | false =>
    simp only [Bool.false_eq_true, if_false]
    refine main (fun w => w.y) _ (fun a b => by simp [R3.pt]) (fun l => strictWeak_fin _ _ ?_)
    intro a ha
    obtain ⟨w, _, rfl⟩ := List.mem_map.1 ha
    exact ⟨w.y, rfl⟩

/-- consecutive pairs of a list -/
def pairsOf {β : Type} : List β → List (β × β)
  | a :: b :: t => (a, b) :: pairsOf t
  | _ => []

theorem pairUp_real : ∀ L : List R3, pairUp (L.map R3.pt) = (pairsOf L).map fun s => rpath [s.1, s.2]
  | [] => rfl
  | [_] => rfl
  | a :: b :: t => by simp only [List.map_cons, pairUp, pairsOf, pairUp_real t]; rfl

theorem pairsOf_flat {β : Type} : ∀ L : List β, L.length % 2 = 0 → (pairsOf L).flatMap (fun s => [s.1, s.2]) = L
  | [], _ => rfl
  | [_], h => by simp at h
  | a :: b :: t, h => by
    simp only [pairsOf, List.flatMap_cons]
    rw [pairsOf_flat t (by simp at h; omega)]
    rfl

theorem pairsOf_length {β : Type} : ∀ L : List β, (pairsOf L).length = L.length / 2
  | [] => by simp [pairsOf]
  | [_] => by simp [pairsOf]
  | a :: b :: t => by simp only [pairsOf, List.length_cons, pairsOf_length t]; omega

theorem pairsOf_mem {β : Type} : ∀ (L : List β) (s : β × β), s ∈ pairsOf L → s.1 ∈ L ∧ s.2 ∈ L
  | [], s, h => by simp [pairsOf] at h
  | [_], s, h => by simp [pairsOf] at h
  | a :: b :: t, s, h => by
    rcases List.mem_cons.1 h with rfl | h
    · simp
    · have := pairsOf_mem t s h
      simp [this]

theorem pairsOf_sorted {β : Type} (key : β → ℝ) : ∀ L : List β, L.Pairwise (fun a b => key a ≤ key b) →
    (pairsOf L).Pairwise (fun s t => key s.2 ≤ key t.1) ∧ ∀ s ∈ pairsOf L, key s.1 ≤ key s.2
  | [], _ => by simp [pairsOf]
  | [_], _ => by simp [pairsOf]
  | a :: b :: t, h => by
    obtain ⟨h1, h2⟩ := List.pairwise_cons.1 h
    obtain ⟨h3, h4⟩ := List.pairwise_cons.1 h2
    obtain ⟨i1, i2⟩ := pairsOf_sorted key t h4
    simp only [pairsOf]
    refine ⟨List.pairwise_cons.2 ⟨fun s hs => h3 _ (pairsOf_mem t s hs).1, i1⟩, ?_⟩
    intro s hs
    rcases List.mem_cons.1 hs with rfl | hs
    · exact h1 b (by simp)
    · exact i2 s hs

/-- the fill lines on one plane, in terms of the sorted crossings -/
theorem intersectByPlane_real (S : Sorter) (P N : R3) (cs : List (List R3)) :
    ∃ (L : List R3) (segs : List (R3 × R3)), L.Perm (cutPoints P N cs) ∧ L.Pairwise (fun a b => fillKey P N a ≤ fillKey P N b) ∧
      intersectByPlane S (cs.map rpath) (Plane.mk P.pt N.vec) = segs.map (fun s => rpath [s.1, s.2]) ∧
      (L.length ≠ 3 → segs = pairsOf L) ∧ (∀ a b c, L = [a, b, c] → segs = [(a, c)]) := by
  obtain ⟨L, h1, h2, h3⟩ := sortCrossings_real S P N (cutPoints P N cs)
  have hlen : (planeCrossings (cs.map rpath) (Plane.mk P.pt N.vec)).length = L.length := by
    rw [planeCrossings_real, List.length_map, h2.length_eq]
  unfold intersectByPlane
  dsimp only
  rw [hlen, planeCrossings_real, h1]
  match L, h2, h3 with
  | [], h2, h3 => exact ⟨[], [], h2, h3, by simp, by simp [pairsOf], by simp⟩
  | [a], h2, h3 => exact ⟨[a], [], h2, h3, by simp, by simp [pairsOf], by simp⟩
  | [a, b], h2, h3 => exact ⟨[a, b], [(a, b)], h2, h3, by simp [rpath], by simp [pairsOf], by simp⟩
  | [a, b, c], h2, h3 =>
    refine ⟨[a, b, c], [(a, c)], h2, h3, by simp [rpath], by simp, ?_⟩
    intro x y z h
    simp at h
    obtain ⟨rfl, rfl, rfl⟩ := h
    rfl
  | [a, b, c, d], h2, h3 => exact ⟨[a, b, c, d], [(a, b), (c, d)], h2, h3, by simp [rpath], by simp [pairsOf], by simp⟩
  | a :: b :: c :: d :: e :: t, h2, h3 =>
    refine ⟨a :: b :: c :: d :: e :: t, pairsOf (a :: b :: c :: d :: e :: t), h2, h3, ?_, by simp, by simp⟩
    rw [if_neg (by simp), if_pos (by simp), pairUp_real]

/-- C43: the fill lines on one plane join crossings of the contours with it; they are ordered along the key coordinate and do
not overlap; with fewer than two crossings there is none; with an even number of crossings each crossing is an end of exactly
one line; with three there is one line, from the first to the last; with an odd number from five on one crossing is left out. -/
theorem C43_segments (S : Sorter) (P N : R3) (cs : List (List R3)) :
    ∃ segs : List (R3 × R3), intersectByPlane S (cs.map rpath) (Plane.mk P.pt N.vec) = segs.map (fun s => rpath [s.1, s.2]) ∧
      (∀ s ∈ segs, s.1 ∈ cutPoints P N cs ∧ s.2 ∈ cutPoints P N cs) ∧
      (∀ s ∈ segs, fillKey P N s.1 ≤ fillKey P N s.2) ∧
      segs.Pairwise (fun s t => fillKey P N s.2 ≤ fillKey P N t.1) ∧
      ((cutPoints P N cs).length < 2 → segs = []) ∧
      ((cutPoints P N cs).length % 2 = 0 → (segs.flatMap fun s => [s.1, s.2]).Perm (cutPoints P N cs)) ∧
      ((cutPoints P N cs).length = 3 → ∃ a b, segs = [(a, b)] ∧
        ∀ c ∈ cutPoints P N cs, fillKey P N a ≤ fillKey P N c ∧ fillKey P N c ≤ fillKey P N b) ∧
      (5 ≤ (cutPoints P N cs).length → segs.length = (cutPoints P N cs).length / 2) := by
  obtain ⟨L, segs, h1, h2, h3, h4, h5⟩ := intersectByPlane_real S P N cs
  have hlen := h1.length_eq
  by_cases h : L.length = 3
  · obtain ⟨a, b, c, rfl⟩ : ∃ a b c, L = [a, b, c] := by
      match L, h with
      | [a, b, c], _ => exact ⟨a, b, c, rfl⟩
    have := h5 a b c rfl
    subst this
    obtain ⟨p1, p2⟩ := List.pairwise_cons.1 h2
    obtain ⟨p3, _⟩ := List.pairwise_cons.1 p2
    refine ⟨[(a, c)], h3, ?_, ?_, by simp, by intro h'; simp at hlen; omega, by intro h'; simp at hlen; omega, ?_, by intro h'; simp at hlen; omega⟩
    · intro s hs
      simp at hs; subst hs
      exact ⟨h1.mem_iff.1 (by simp), h1.mem_iff.1 (by simp)⟩
    · intro s hs
      simp at hs; subst hs
      exact p1 c (by simp)
    · intro _
      refine ⟨a, c, rfl, ?_⟩
      intro x hx
      have hx := h1.mem_iff.2 hx
      simp at hx
      rcases hx with rfl | rfl | rfl
      · exact ⟨le_rfl, p1 c (by simp)⟩
      · exact ⟨p1 x (by simp), p3 c (by simp)⟩
      · exact ⟨p1 x (by simp), le_rfl⟩
  · have := h4 h
    subst this
    obtain ⟨s1, s2⟩ := pairsOf_sorted (fillKey P N) L h2
    refine ⟨pairsOf L, h3, ?_, s2, s1, ?_, ?_, ?_, ?_⟩
    · intro s hs
      have := pairsOf_mem L s hs
      exact ⟨h1.mem_iff.1 this.1, h1.mem_iff.1 this.2⟩
    · intro hl
      have : (pairsOf L).length = 0 := by rw [pairsOf_length]; omega
      exact List.length_eq_zero_iff.1 this
    · intro he
      rw [pairsOf_flat L (by omega)]
      exact h1
    · intro h'; omega
    · intro _
      rw [pairsOf_length]; omega

/-- on a vertical fill plane the key coordinate tells points of one horizontal layer apart, so that "ordered by the key" is
"ordered along the fill line" -/
theorem C43_key_separates {P N u v : R3} (hNz : N.z = 0) (hN : N ≠ 0) (hz : u.z = v.z) (hu : R3.onPlane P N u)
    (hv : R3.onPlane P N v) (hk : fillKey P N u = fillKey P N v) : u = v := by
  -- the angle the code computes
  have hproj : (N.vec.projectOnPlane (planeXY : Plane XR)) = N.vec := by
    have e : (planeXY : Plane XR).n = (R3.mk 0 0 1).vec := by simp [planeXY, axisZ, V, R3.vec]
    unfold Vec.projectOnPlane
    rw [e, projectOn_vec, reverse_vec, add_vec]
    congr 1
    apply R3.ext <;> simp [R3.dot, hNz]
  have hn := R3.norm_pos hN
  have hang : (N.vec.projectOnPlane (planeXY : Plane XR)).angle axisY =
      if N.y / N.norm < -1 ∨ 1 < N.y / N.norm then XR.fin 0 else XR.fin (Real.arccos (N.y / N.norm) * 180 / Real.pi) := by
    rw [hproj, axisY_vec]
    unfold Vec.angle
    have ey1 : R3.ey.norm = 1 := by simp [R3.norm, R3.normSq, R3.dot, R3.ey]
    have hd : N.dot R3.ey = N.y := by simp [R3.dot, R3.ey]
    simp only [dot_vec, length_vec, hd, ey1]
    rw [XR.fin_div hn.ne', XR.fin_div one_ne_zero, div_one]
    simp only [XR.lit_def, XR.fin_lt, XR.fin_acos', XR.pi_def]
    norm_num
    split
    · rfl
    · rw [XR.fin_div Real.pi_ne_zero]
  have hplane : (u.x - v.x) * N.x + (u.y - v.y) * N.y = 0 := by
    unfold R3.onPlane R3.height at hu hv
    simp only [R3.dot, R3.sub_x, R3.sub_y, R3.sub_z, hNz] at hu hv
    linarith
  have near : ∀ a b : ℝ, nearAngle (XR.fin a) (XR.fin b) = decide (a < b + 3 ∧ b - 3 < a) := by
    intro a b
    unfold nearAngle
    simp [← Bool.decide_and]
  unfold fillKey at hk
  cases hs : sortsByX (Plane.mk P.pt N.vec) with
  | true =>
    rw [hs] at hk
    simp only [if_true] at hk
    -- the normal has a Y component
    have hy : N.y ≠ 0 := by
      intro hy
      unfold sortsByX at hs
      dsimp only at hs
      rw [hang, hy] at hs
      simp only [zero_div, Real.arccos_zero, XR.lit_def, near] at hs
      rw [if_neg (by norm_num)] at hs
      have : Real.pi / 2 * 180 / Real.pi = 90 := by field_simp; norm_num
      rw [this] at hs
      simp only [near] at hs
      norm_num at hs
    rw [hk, sub_self, zero_mul, zero_add] at hplane
    have : u.y - v.y = 0 := by
      rcases mul_eq_zero.1 hplane with h | h
      · exact h
      · exact absurd h hy
    apply R3.ext
    · exact hk
    · linarith
    · exact hz
  | false =>
    rw [hs] at hk
    simp only [Bool.false_eq_true, if_false] at hk
    have hx : N.x ≠ 0 := by
      intro hx
      have hy : N.y ≠ 0 := by
        intro hy
        apply hN
        apply R3.ext <;> simp [hx, hy, hNz]
      have hnorm : N.norm = |N.y| := by
        unfold R3.norm R3.normSq R3.dot
        rw [hx, hNz]
        simp
        exact Real.sqrt_mul_self_eq_abs _
      unfold sortsByX at hs
      dsimp only at hs
      rw [hang, hnorm] at hs
      rcases lt_or_gt_of_ne hy with h | h
      · rw [abs_of_neg h, div_neg, div_self hy] at hs
        rw [if_neg (by norm_num), Real.arccos_neg_one] at hs
        have : Real.pi * 180 / Real.pi = 180 := by field_simp
        rw [this] at hs
        simp only [XR.lit_def, near] at hs
        norm_num at hs
      · rw [abs_of_pos h, div_self hy] at hs
        rw [if_neg (by norm_num), Real.arccos_one] at hs
        simp only [XR.lit_def, near] at hs
        norm_num at hs
    rw [hk, sub_self, zero_mul, add_zero] at hplane
    have : u.x - v.x = 0 := by
      rcases mul_eq_zero.1 hplane with h | h
      · exact h
      · exact absurd h hx
    apply R3.ext
    · linarith
    · exact hk
    · exact hz

/-- two crossings of a square with the plane x = 4 -/
example : cutPoints ⟨4, 0, 0⟩ ⟨1, 0, 0⟩ [[⟨0, 0, 1⟩, ⟨8, 0, 1⟩, ⟨8, 8, 1⟩, ⟨0, 8, 1⟩, ⟨0, 0, 1⟩]] = [⟨4, 0, 1⟩, ⟨4, 8, 1⟩] := by
  have h0 : R3.height ⟨4, 0, 0⟩ ⟨1, 0, 0⟩ ⟨0, 0, 1⟩ = -4 := by simp [R3.height, R3.dot]
  have h1 : R3.height ⟨4, 0, 0⟩ ⟨1, 0, 0⟩ ⟨8, 0, 1⟩ = 4 := by simp [R3.height, R3.dot]; norm_num
  have h2 : R3.height ⟨4, 0, 0⟩ ⟨1, 0, 0⟩ ⟨8, 8, 1⟩ = 4 := by simp [R3.height, R3.dot]; norm_num
  have h3 : R3.height ⟨4, 0, 0⟩ ⟨1, 0, 0⟩ ⟨0, 8, 1⟩ = -4 := by simp [R3.height, R3.dot]
  simp only [cutPoints, contourEdges, List.flatMap_cons, List.flatMap_nil, List.tail_cons, List.zip_cons_cons, List.zip_nil_right,
    List.append_nil, List.filter_cons, List.filter_nil, cutsEdge, cutPoint, h0, h1, h2, h3]
  norm_num [cutPoint, h0, h1, h2, h3]
  constructor <;> apply R3.ext <;> norm_num

end Goosli
