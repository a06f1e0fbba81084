import Verif.Props.C43
/-! # C60 Infill stays inside the contours -/
set_option linter.unusedSectionVars false
namespace Goosli
open Flt Classical

/-- along a chain of points off the plane the number of sides cut has the parity of "ends on opposite sides" -/
theorem chain_parity (P N : R3) : ∀ (a : R3) (t : List R3), (∀ w ∈ a :: t, R3.height P N w ≠ 0) →
    ∀ z, (a :: t).getLast? = some z →
    ((((a :: t).zip t).filter fun e => decide (cutsEdge P N e)).length % 2 = 1 ↔ R3.height P N a * R3.height P N z < 0)
  | a, [], h, z, hz => by
    simp at hz; subst hz
    simp
    exact mul_self_nonneg _
  | a, b :: t, h, z, hz => by
    have hz' : (b :: t).getLast? = some z := by simpa [List.getLast?_cons_cons] using hz
    have ih := chain_parity P N b t (fun w hw => h w (List.mem_cons_of_mem _ hw)) z hz'
    have ha := h a (by simp)
    have hb := h b (by simp)
    have hzz : R3.height P N z ≠ 0 := h z (List.mem_cons_of_mem _ (List.mem_of_getLast? hz'))
    rw [List.zip_cons_cons, List.filter_cons]
    by_cases hc : cutsEdge P N (a, b)
    · rw [if_pos (by simpa using hc), List.length_cons]
      have hab : R3.height P N a * R3.height P N b < 0 := lt_of_le_of_ne hc.2 (mul_ne_zero ha hb)
      have : (((b :: t).zip t).filter fun e => decide (cutsEdge P N e)).length % 2 = 0 ↔ ¬ R3.height P N b * R3.height P N z < 0 := by
        rw [← ih]; omega
      have e : ((((b :: t).zip t).filter fun e => decide (cutsEdge P N e)).length + 1) % 2 = 1 ↔
          (((b :: t).zip t).filter fun e => decide (cutsEdge P N e)).length % 2 = 0 := by omega
      rw [e, this]
      rcases mul_neg_iff.1 hab with ⟨p, q⟩ | ⟨p, q⟩ <;> rcases lt_or_gt_of_ne hzz with r | r
      · exact iff_of_true (by nlinarith) (by nlinarith)
      · exact iff_of_false (by push Not; nlinarith) (by push Not; nlinarith)
      · exact iff_of_false (by push Not; nlinarith) (by push Not; nlinarith)
      · exact iff_of_true (by nlinarith) (by nlinarith)
    · rw [if_neg (by simpa using hc), ih]
      have hab : 0 < R3.height P N a * R3.height P N b := by
        by_contra hcon
        push Not at hcon
        apply hc
        refine ⟨?_, hcon⟩
        intro heq
        dsimp only at heq
        rw [heq] at hcon
        exact hb (mul_self_eq_zero.1 (le_antisymm hcon (mul_self_nonneg _)))
      rcases pos_and_pos_or_neg_and_neg_of_mul_pos hab with ⟨p, q⟩ | ⟨p, q⟩
      · constructor <;> intro hh
        · have := neg_of_mul_neg_right hh q.le; nlinarith
        · have := neg_of_mul_neg_right hh p.le; nlinarith
      · constructor <;> intro hh
        · have := pos_of_mul_neg_right hh q.le; nlinarith
        · have := pos_of_mul_neg_right hh p.le; nlinarith

/-- closed contours none of whose vertices is on the plane are crossed an even number of times -/
theorem cutPoints_even (P N : R3) (cs : List (List R3)) (hclosed : ∀ c ∈ cs, closedContour c)
    (hoff : ∀ c ∈ cs, ∀ w ∈ c, R3.height P N w ≠ 0) : (cutPoints P N cs).length % 2 = 0 := by
  unfold cutPoints contourEdges
  rw [List.length_map]
  induction cs with
  | nil => rfl
  | cons c cs ih =>
    rw [List.flatMap_cons, List.filter_append, List.length_append]
    have h1 := ih (fun c hc => hclosed c (List.mem_cons_of_mem _ hc)) (fun c hc => hoff c (List.mem_cons_of_mem _ hc))
    obtain ⟨a, t, rfl, ht⟩ := hclosed c (by simp)
    have h2 := chain_parity P N a t (hoff _ (by simp)) a ht
    have h3 : ¬ R3.height P N a * R3.height P N a < 0 := by have := mul_self_nonneg (R3.height P N a); linarith
    rw [List.tail_cons]
    have h4 := (not_congr h2).2 h3
    omega

theorem countP_pairs {β : Type} (key : β → ℝ) (k : ℝ) : ∀ L : List β, L.Pairwise (fun a b => key a ≤ key b) →
    ∀ s ∈ pairsOf L, key s.1 < k → k < key s.2 → (L.countP fun c => decide (key c < k)) % 2 = 1
  | [], _, s, hs, _, _ => by simp [pairsOf] at hs
  | [_], _, s, hs, _, _ => by simp [pairsOf] at hs
  | a :: b :: t, h, s, hs, h1, h2 => by
    obtain ⟨p1, p2⟩ := List.pairwise_cons.1 h
    obtain ⟨p3, p4⟩ := List.pairwise_cons.1 p2
    rcases List.mem_cons.1 hs with rfl | hs
    · dsimp only at h1 h2
      have e : (t.countP fun c => decide (key c < k)) = 0 := by
        rw [List.countP_eq_zero]
        intro c hc
        have := p3 c hc
        simp
        linarith
      rw [List.countP_cons_of_pos (by simpa using h1), List.countP_cons_of_neg (by simp; linarith), e]
    · have ih := countP_pairs key k t p4 s hs h1 h2
      have hm := (pairsOf_mem t s hs).1
      have ha : key a < k := lt_of_le_of_lt (p1 _ (by simp [hm])) h1
      have hb : key b < k := lt_of_le_of_lt (p3 _ hm) h1
      rw [List.countP_cons_of_pos (by simpa using ha), List.countP_cons_of_pos (by simpa using hb)]
      omega

/-- C60, for planes through no vertex: every point strictly inside a fill line is inside the closed contours by the even-odd
rule, and every crossing is the end of exactly one fill line. What is missing is the plane that passes through a vertex, for
which the statement is false, see `C60_vertex_violated`. -/
theorem C60_inside_partial (S : Sorter) (P N : R3) (cs : List (List R3)) (hclosed : ∀ c ∈ cs, closedContour c)
    (hoff : ∀ c ∈ cs, ∀ w ∈ c, R3.height P N w ≠ 0) (z : ℝ) (hz : ∀ c ∈ cs, ∀ w ∈ c, w.z = z) (hNz : N.z = 0) (hN : N ≠ 0) :
    ∃ segs : List (R3 × R3), intersectByPlane S (cs.map rpath) (Plane.mk P.pt N.vec) = segs.map (fun s => rpath [s.1, s.2]) ∧
      (segs.flatMap fun s => [s.1, s.2]).Perm (cutPoints P N cs) ∧
      ∀ s ∈ segs, s.1 ≠ s.2 → ∀ t : ℝ, 0 < t → t < 1 → evenOddInside P N cs (fillKey P N) (s.1 + t • (s.2 - s.1)) := by
  obtain ⟨L, segs, h1, h2, h3, h4, -⟩ := intersectByPlane_real S P N cs
  have heven := cutPoints_even P N cs hclosed hoff
  have hlen := h1.length_eq
  have := h4 (by omega)
  subst this
  refine ⟨_, h3, ?_, ?_⟩
  · rw [pairsOf_flat L (by omega)]; exact h1
  · intro s hs hne t ht0 ht1
    have hkey := (pairsOf_sorted (fillKey P N) L h2).2 s hs
    have hm := pairsOf_mem L s hs
    have hzc : ∀ w ∈ cutPoints P N cs, w.z = z ∧ R3.onPlane P N w := by
      intro w hw
      obtain ⟨e, he, -, ⟨t, -, -, hwe⟩, hp⟩ := (C43_cut P N cs w).1 hw
      refine ⟨?_, hp⟩
      obtain ⟨c, hc, hec⟩ := List.mem_flatMap.1 he
      have e1 := hz c hc e.1 (List.of_mem_zip hec).1
      have e2 := hz c hc e.2 (List.mem_of_mem_tail (List.of_mem_zip hec).2)
      rw [hwe]
      simp [e1, e2]
    obtain ⟨z1, q1⟩ := hzc _ (h1.mem_iff.1 hm.1)
    obtain ⟨z2, q2⟩ := hzc _ (h1.mem_iff.1 hm.2)
    have hlt : fillKey P N s.1 < fillKey P N s.2 :=
      lt_of_le_of_ne hkey fun he => hne (C43_key_separates hNz hN (z1.trans z2.symm) q1 q2 he)
    have hlin : fillKey P N (s.1 + t • (s.2 - s.1)) = fillKey P N s.1 + t * (fillKey P N s.2 - fillKey P N s.1) := by
      unfold fillKey
      split <;> simp
    unfold evenOddInside
    rw [← h1.countP_eq]
    refine countP_pairs (fillKey P N) _ L h2 s hs ?_ ?_
    · rw [hlin]
      have := mul_pos ht0 (sub_pos.2 hlt)
      linarith
    · rw [hlin]
      nlinarith [sub_pos.2 hlt]

/-- a house with its ridge on the plane x = 0, and a square behind it -/
def ridgeContours : List (List R3) :=
  [[⟨-1, 0, 1⟩, ⟨1, 0, 1⟩, ⟨1, 2, 1⟩, ⟨0, 3, 1⟩, ⟨-1, 2, 1⟩, ⟨-1, 0, 1⟩], [⟨-1, 5, 1⟩, ⟨1, 5, 1⟩, ⟨1, 7, 1⟩, ⟨-1, 7, 1⟩, ⟨-1, 5, 1⟩]]

theorem ridge_cuts : cutPoints ⟨0, 0, 0⟩ ⟨1, 0, 0⟩ ridgeContours = [⟨0, 0, 1⟩, ⟨0, 3, 1⟩, ⟨0, 3, 1⟩, ⟨0, 5, 1⟩, ⟨0, 7, 1⟩] := by
  have hh : ∀ x y z : ℝ, R3.height ⟨0, 0, 0⟩ ⟨1, 0, 0⟩ ⟨x, y, z⟩ = x := by intro x y z; simp [R3.height, R3.dot]
  simp only [cutPoints, ridgeContours, contourEdges, List.flatMap_cons, List.flatMap_nil, List.tail_cons, List.zip_cons_cons,
    List.zip_nil_right, List.append_nil, List.filter_cons, List.filter_nil, cutsEdge, hh, List.cons_append, List.nil_append]
  norm_num [cutPoint, hh]
  refine ⟨?_, ?_, ?_, ?_, ?_⟩ <;> apply R3.ext <;> norm_num

theorem ridge_lines (S : Sorter) : intersectByPlane S (ridgeContours.map rpath) (Plane.mk (R3.mk 0 0 0).pt (R3.mk 1 0 0).vec) =
    [rpath [⟨0, 0, 1⟩, ⟨0, 3, 1⟩], rpath [⟨0, 3, 1⟩, ⟨0, 5, 1⟩]] := by
  obtain ⟨L, segs, h1, h2, h3, h4, -⟩ := intersectByPlane_real S ⟨0, 0, 0⟩ ⟨1, 0, 0⟩ ridgeContours
  rw [ridge_cuts] at h1
  have hL : L = [⟨0, 0, 1⟩, ⟨0, 3, 1⟩, ⟨0, 3, 1⟩, ⟨0, 5, 1⟩, ⟨0, 7, 1⟩] := by
    refine h1.eq_of_pairwise (le := fun a b => fillKey ⟨0, 0, 0⟩ ⟨1, 0, 0⟩ a ≤ fillKey ⟨0, 0, 0⟩ ⟨1, 0, 0⟩ b) ?_ h2 ?_
    · intro a b ha hb hab hba
      have mem : ∀ w : R3, w ∈ [(⟨0, 0, 1⟩ : R3), ⟨0, 3, 1⟩, ⟨0, 3, 1⟩, ⟨0, 5, 1⟩, ⟨0, 7, 1⟩] → w.z = 1 ∧ R3.onPlane ⟨0, 0, 0⟩ ⟨1, 0, 0⟩ w := by
        intro w hw
        simp only [List.mem_cons, List.not_mem_nil, or_false] at hw
        rcases hw with rfl | rfl | rfl | rfl | rfl <;> simp [R3.onPlane, R3.height, R3.dot]
      obtain ⟨a1, a2⟩ := mem a (h1.mem_iff.1 ha)
      obtain ⟨b1, b2⟩ := mem b hb
      refine C43_key_separates rfl ?_ (a1.trans b1.symm) a2 b2 (le_antisymm hab hba)
      intro h
      have := congrArg R3.x h
      simp at this
    · have hy : ∀ w : R3, w.x = 0 → ∀ v : R3, v.x = 0 → w.y ≤ v.y → fillKey ⟨0, 0, 0⟩ ⟨1, 0, 0⟩ w ≤ fillKey ⟨0, 0, 0⟩ ⟨1, 0, 0⟩ v := by
        intro w hw v hv h
        unfold fillKey
        split
        · rw [hw, hv]
        · exact h
      simp only [List.pairwise_cons, List.mem_cons, List.not_mem_nil, or_false, forall_eq_or_imp, forall_eq, List.Pairwise.nil,
        and_true, false_imp_iff, implies_true]
      refine ⟨⟨?_, ?_, ?_, ?_⟩, ⟨?_, ?_, ?_⟩, ⟨?_, ?_⟩, ?_⟩ <;> refine hy _ rfl _ rfl (by norm_num)
  have := h4 (by rw [hL]; simp)
  rw [h3, this, hL]
  rfl

/-- C60 is false for a plane through a vertex: the ridge of the house is counted twice, the crossings are 0, 3, 3, 5, 7 and the
second fill line goes from the ridge to the square behind the house, through the air; the square itself gets no fill. -/
theorem C60_vertex_violated (S : Sorter) : ∃ (P N : R3) (cs : List (List R3)), (∀ c ∈ cs, closedContour c) ∧ N.z = 0 ∧ N ≠ 0 ∧
    (∀ c ∈ cs, ∀ w ∈ c, w.z = 1) ∧
    intersectByPlane S (cs.map rpath) (Plane.mk P.pt N.vec) =
      [rpath [⟨0, 0, 1⟩, ⟨0, 3, 1⟩], rpath [⟨0, 3, 1⟩, ⟨0, 5, 1⟩]] ∧
    ∀ c ∈ cs, (∀ w ∈ c, w.y ≤ 3) ∨ (∀ w ∈ c, 5 ≤ w.y) := by
  refine ⟨⟨0, 0, 0⟩, ⟨1, 0, 0⟩, ridgeContours, ?_, rfl, ?_, ?_, ?_, ?_⟩
  · intro c hc
    simp only [ridgeContours, List.mem_cons, List.not_mem_nil, or_false] at hc
    rcases hc with rfl | rfl <;> exact ⟨_, _, rfl, by simp⟩
  · intro h
    have := congrArg R3.x h
    simp at this
  · intro c hc
    simp only [ridgeContours, List.mem_cons, List.not_mem_nil, or_false] at hc
    rcases hc with rfl | rfl <;> simp
  · exact ridge_lines S
  · intro c hc
    simp only [ridgeContours, List.mem_cons, List.not_mem_nil, or_false] at hc
    rcases hc with rfl | rfl
    · left; simp; norm_num
    · right; simp; norm_num

/-- the hypotheses of `C60_inside_partial`: a closed square and the plane x = 4 -/
example : closedContour [⟨0, 0, 1⟩, ⟨8, 0, 1⟩, ⟨8, 8, 1⟩, ⟨0, 8, 1⟩, ⟨0, 0, 1⟩] ∧
    ∀ w ∈ [(⟨0, 0, 1⟩ : R3), ⟨8, 0, 1⟩, ⟨8, 8, 1⟩, ⟨0, 8, 1⟩, ⟨0, 0, 1⟩], R3.height ⟨4, 0, 0⟩ ⟨1, 0, 0⟩ w ≠ 0 := by
  refine ⟨⟨_, _, rfl, by simp⟩, ?_⟩
  intro w hw
  simp only [List.mem_cons, List.not_mem_nil, or_false] at hw
  rcases hw with rfl | rfl | rfl | rfl | rfl <;> norm_num [R3.height, R3.dot]

end Goosli
