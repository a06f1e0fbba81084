import Verif.Props.C08
/-!
# C09: visible cross sections are not lost
-/
set_option linter.unusedSectionVars false
namespace Goosli
open Flt

/-- differing by more than `1.02e-6` in some coordinate -/
def R3.apart (u v : R3) : Prop :=
  102 / 10 ^ 8 < |u.x - v.x| ∨ 102 / 10 ^ 8 < |u.y - v.y| ∨ 102 / 10 ^ 8 < |u.z - v.z|

theorem apart_not_near {u v : R3} (h : u.apart v) : ¬ u.near v := by
  intro hn
  have e : tol < 102 / 10 ^ 8 := by unfold tol; norm_num
  rcases h with h | h | h
  · linarith [hn.1]
  · linarith [hn.2.1]
  · linarith [hn.2.2]

theorem apart_symm {u v : R3} (h : u.apart v) : v.apart u := by
  unfold R3.apart at *
  rwa [abs_sub_comm v.x, abs_sub_comm v.y, abs_sub_comm v.z]

theorem apart_round {u v : R3} (h : u.apart v) : ¬ u.round8.near v.round8 := by
  intro hn
  have key : ∀ {a b : ℝ}, 102 / 10 ^ 8 < |a - b| → |r8 a - r8 b| < tol → False := by
    intro a b h1 h2
    have h3 := abs_le.1 (r8_bounds a)
    have h4 := abs_le.1 (r8_bounds b)
    have h5 := abs_lt.1 h2
    unfold tol at h5
    have : |a - b| ≤ 102 / 10 ^ 8 := by
      rw [abs_le]; norm_num at *; constructor <;> linarith
    linarith
  rcases h with h | h | h
  · exact key h hn.1
  · exact key h hn.2.1
  · exact key h hn.2.2

theorem distinctPair_none {o o' : Option (Point XR)} (h : Plane.distinctPair o o' = none) {u v : R3}
    (h1 : o = some u.pt) (h2 : o' = some v.pt) : u.near v := by
  subst h1 h2
  by_contra hc
  have : u.pt.equal v.pt = false := by
    rw [← Bool.not_eq_true]; exact fun h => hc ((equal_pt _ _).1 h)
  simp [Plane.distinctPair, this] at h

/-- if all three edges of a triangle are crossed, the plane passes through a vertex and two crossings coincide -/
theorem three_crossings {P N a b c u v w : R3} (h1 : crosses P N a b u) (h2 : crosses P N b c v)
    (h3 : crosses P N c a w) : u = v ∨ v = w ∨ u = w := by
  have prod : ∀ {s t q : R3}, crosses P N s t q → R3.height P N s * R3.height P N t ≤ 0 := by
    intro s t q h
    exact ((C07_when P N s t).1 (by rw [(intersectSegment_iff P N s t q.pt).2 ⟨q, rfl, h⟩]; rfl)).2
  have p1 := prod h1; have p2 := prod h2; have p3 := prod h3
  have ends : ∀ s t : R3, R3.onSegment s t s ∧ R3.onSegment s t t := by
    intro s t
    exact ⟨⟨0, le_refl _, zero_le_one, by apply R3.ext <;> simp⟩, ⟨1, zero_le_one, le_refl _, by apply R3.ext <;> simp⟩⟩
  have hz : R3.height P N a = 0 ∨ R3.height P N b = 0 ∨ R3.height P N c = 0 := by
    by_contra hc
    push Not at hc
    obtain ⟨ha, hb, hc⟩ := hc
    have q1 := lt_of_le_of_ne p1 (mul_ne_zero ha hb)
    have q2 := lt_of_le_of_ne p2 (mul_ne_zero hb hc)
    have q3 := lt_of_le_of_ne p3 (mul_ne_zero hc ha)
    have : 0 < (R3.height P N a * R3.height P N b) * (R3.height P N b * R3.height P N c) := mul_pos_of_neg_of_neg q1 q2
    have h4 : (R3.height P N a * R3.height P N b) * (R3.height P N b * R3.height P N c) * (R3.height P N c * R3.height P N a) < 0 :=
      mul_neg_of_pos_of_neg this q3
    have h5 : 0 ≤ (R3.height P N a * R3.height P N b * R3.height P N c) * (R3.height P N a * R3.height P N b * R3.height P N c) :=
      mul_self_nonneg _
    nlinarith
  rcases hz with h | h | h
  · have e1 := crossing_unique h1.1 h1.2.1 h1.2.2 (ends a b).1 h
    have e2 := crossing_unique h3.1 h3.2.1 h3.2.2 (ends c a).2 h
    exact Or.inr (Or.inr (e1.trans e2.symm))
  · have e1 := crossing_unique h1.1 h1.2.1 h1.2.2 (ends a b).2 h
    have e2 := crossing_unique h2.1 h2.2.1 h2.2.2 (ends b c).1 h
    exact Or.inl (e1.trans e2.symm)
  · have e1 := crossing_unique h2.1 h2.2.1 h2.2.2 (ends b c).2 h
    have e2 := crossing_unique h3.1 h3.2.1 h3.2.2 (ends c a).1 h
    exact Or.inr (Or.inl (e1.trans e2.symm))

/-- two crossings of edges with the plane that are more than `1.02e-6` apart in some coordinate are found -/
theorem section_of_crossings (P N a b c u v : R3) (ha : a.small) (hb : b.small) (hc : c.small)
    (hu : crosses P N a b u ∨ crosses P N b c u ∨ crosses P N c a u)
    (hv : crosses P N a b v ∨ crosses P N b c v ∨ crosses P N c a v) (hap : u.apart v) :
    ∃ l, (Plane.mk P.pt N.vec).intersectTriangle (newTriangle a.pt b.pt c.pt) = some l ∧
      (l = ⟨u.round8.pt, v.round8.pt⟩ ∨ l = ⟨v.round8.pt, u.round8.pt⟩) := by
  have uniq : ∀ {s t w w'}, crosses P N s t w → crosses P N s t w' → w = w' := by
    intro s t w w' h h'; exact crossing_unique h.1 h.2.1 h.2.2 h'.2.1 h'.2.2
  have hne : u ≠ v := by rintro rfl; exact apart_not_near hap (R3.near_refl u)
  have is : ∀ {s t w}, crosses P N s t w → (Plane.mk P.pt N.vec).intersectSegment s.pt t.pt = some w.pt :=
    fun h => (intersectSegment_iff _ _ _ _ _).2 ⟨_, rfl, h⟩
  -- the chord found joins u and v
  have chord : ∀ n, ∃ x y, (Plane.mk P.pt N.vec).chordEnds ⟨n, a.pt, b.pt, c.pt⟩ = some (x, y) ∧
      ((x = u.pt ∧ y = v.pt) ∨ (x = v.pt ∧ y = u.pt)) := by
    intro n
    -- any pair of distinct crossings is {u, v}
    have pair : ∀ {w w'}, (crosses P N a b w ∨ crosses P N b c w ∨ crosses P N c a w) →
        (crosses P N a b w' ∨ crosses P N b c w' ∨ crosses P N c a w') → w ≠ w' →
        (w = u ∧ w' = v) ∨ (w = v ∧ w' = u) := by
      have three : ∀ {w}, (crosses P N a b w ∨ crosses P N b c w ∨ crosses P N c a w) → w = u ∨ w = v := by
        intro w hw
        rcases hw with hw | hw | hw <;> rcases hu with h1 | h1 | h1 <;> rcases hv with h2 | h2 | h2 <;>
          first
          | exact Or.inl (uniq hw h1)
          | exact Or.inr (uniq hw h2)
          | exact absurd (uniq h1 h2) hne
          | (rcases three_crossings hw h1 h2 with e | e | e <;> first | exact Or.inl e | exact Or.inr e | exact absurd e hne | exact absurd e.symm hne | exact Or.inl e.symm | exact Or.inr e.symm)
          | (rcases three_crossings hw h2 h1 with e | e | e <;> first | exact Or.inl e | exact Or.inr e | exact absurd e hne | exact absurd e.symm hne | exact Or.inl e.symm | exact Or.inr e.symm)
          | (rcases three_crossings h1 hw h2 with e | e | e <;> first | exact Or.inl e | exact Or.inr e | exact absurd e hne | exact absurd e.symm hne | exact Or.inl e.symm | exact Or.inr e.symm)
          | (rcases three_crossings h2 hw h1 with e | e | e <;> first | exact Or.inl e | exact Or.inr e | exact absurd e hne | exact absurd e.symm hne | exact Or.inl e.symm | exact Or.inr e.symm)
          | (rcases three_crossings h1 h2 hw with e | e | e <;> first | exact Or.inl e | exact Or.inr e | exact absurd e hne | exact absurd e.symm hne | exact Or.inl e.symm | exact Or.inr e.symm)
          | (rcases three_crossings h2 h1 hw with e | e | e <;> first | exact Or.inl e | exact Or.inr e | exact absurd e hne | exact absurd e.symm hne | exact Or.inl e.symm | exact Or.inr e.symm)
      intro w w' hw hw' hww
      rcases three hw with rfl | rfl <;> rcases three hw' with rfl | rfl
      · exact absurd rfl hww
      · exact Or.inl ⟨rfl, rfl⟩
      · exact Or.inr ⟨rfl, rfl⟩
      · exact absurd rfl hww
    cases hce : (Plane.mk P.pt N.vec).chordEnds ⟨n, a.pt, b.pt, c.pt⟩ with
    | some q =>
      obtain ⟨x, y⟩ := q
      obtain ⟨s, t, rfl, rfl, hn, hcase⟩ := chordEnds_spec P N a b c _ _ _ hce
      have hst : s ≠ t := by rintro rfl; exact hn (R3.near_refl s)
      have hs : crosses P N a b s ∨ crosses P N b c s ∨ crosses P N c a s := by tauto
      have ht : crosses P N a b t ∨ crosses P N b c t ∨ crosses P N c a t := by tauto
      refine ⟨_, _, rfl, ?_⟩
      rcases pair hs ht hst with ⟨rfl, rfl⟩ | ⟨rfl, rfl⟩
      · exact Or.inl ⟨rfl, rfl⟩
      · exact Or.inr ⟨rfl, rfl⟩
    | none =>
      exfalso
      unfold Plane.chordEnds at hce
      simp only at hce
      have orNone : ∀ {β : Type} {o : Option β} {f : Unit → Option β}, o.orElse f = none → o = none ∧ f () = none := by
        intro β o f h
        cases o with
        | none => exact ⟨rfl, h⟩
        | some y => simp [Option.orElse] at h
      obtain ⟨n1, hce⟩ := orNone hce
      obtain ⟨n2, n3⟩ := orNone hce
      rcases hu with h1 | h1 | h1 <;> rcases hv with h2 | h2 | h2 <;>
        first
        | exact hne (uniq h1 h2)
        | exact apart_not_near hap (distinctPair_none n1 (is h1) (is h2))
        | exact apart_not_near (apart_symm hap) (distinctPair_none n1 (is h2) (is h1))
        | exact apart_not_near hap (distinctPair_none n2 (is h1) (is h2))
        | exact apart_not_near (apart_symm hap) (distinctPair_none n2 (is h2) (is h1))
        | exact apart_not_near hap (distinctPair_none n3 (is h1) (is h2))
        | exact apart_not_near (apart_symm hap) (distinctPair_none n3 (is h2) (is h1))
  have sm : ∀ {w}, crosses P N a b w ∨ crosses P N b c w ∨ crosses P N c a w → w.small := by
    intro w h
    rcases h with h | h | h
    · exact small_of_onSegment h.2.1 ha hb
    · exact small_of_onSegment h.2.1 hb hc
    · exact small_of_onSegment h.2.1 hc ha
  have su := sm hu
  have sv := sm hv
  rw [newTriangle_pt]
  unfold Plane.intersectTriangle
  obtain ⟨x, y, hce, hxy⟩ := chord ((b - a).cross (c - a)).vec
  rw [hce]
  have huv : u.round8.pt.equal v.round8.pt = false := by
    rw [← Bool.not_eq_true]; exact fun h => apart_round hap ((equal_pt _ _).1 h)
  have hvu : v.round8.pt.equal u.round8.pt = false := by
    rw [← Bool.not_eq_true]; exact fun h => apart_round (apart_symm hap) ((equal_pt _ _).1 h)
  rcases hxy with ⟨rfl, rfl⟩ | ⟨rfl, rfl⟩
  · simp only [roundPlaces_pt u su, roundPlaces_pt v sv, huv, Bool.false_eq_true, if_false]
    split_ifs
    · exact ⟨_, rfl, Or.inl rfl⟩
    · exact ⟨_, rfl, Or.inr rfl⟩
  · simp only [roundPlaces_pt u su, roundPlaces_pt v sv, hvu, Bool.false_eq_true, if_false]
    split_ifs
    · exact ⟨_, rfl, Or.inr rfl⟩
    · exact ⟨_, rfl, Or.inl rfl⟩

/-- **C09.** If the plane has a vertex strictly on each side and `u`, `v` are points common to the plane and the
boundary of the triangle that are more than `1.02e-6` apart in some coordinate, `IntersectTriangle` returns a line,
and it joins the (rounded) points `u` and `v`. -/
theorem C09_not_lost (P N a b c u v : R3) (ha : a.small) (hb : b.small) (hc : c.small)
    (hfront : 0 < R3.height P N a ∨ 0 < R3.height P N b ∨ 0 < R3.height P N c)
    (hback : R3.height P N a < 0 ∨ R3.height P N b < 0 ∨ R3.height P N c < 0)
    (hu : R3.onBoundary a b c u ∧ R3.onPlane P N u) (hv : R3.onBoundary a b c v ∧ R3.onPlane P N v)
    (hap : u.apart v) :
    ∃ l, (Plane.mk P.pt N.vec).intersectTriangle (newTriangle a.pt b.pt c.pt) = some l ∧
      (l = ⟨u.round8.pt, v.round8.pt⟩ ∨ l = ⟨v.round8.pt, u.round8.pt⟩) := by
  -- a boundary point on the plane is a crossing of a non-parallel edge
  have lift : ∀ {w}, R3.onBoundary a b c w ∧ R3.onPlane P N w →
      crosses P N a b w ∨ crosses P N b c w ∨ crosses P N c a w := by
    rintro w ⟨hb, hp⟩
    have vert : ∀ {s t}, R3.onSegment s t w → R3.height P N s = R3.height P N t → R3.height P N s = 0 := by
      rintro s t ⟨r, _, _, rfl⟩ h
      unfold R3.onPlane at hp
      rw [height_lerp] at hp
      rw [← h] at hp
      linarith
    rcases hb with hb | hb | hb
    · by_cases h : R3.height P N a = R3.height P N b
      · have h0 := vert hb h
        exfalso
        rcases hfront with h1 | h1 | h1 <;> rcases hback with h2 | h2 | h2 <;> linarith
      · exact Or.inl ⟨h, hb, hp⟩
    · by_cases h : R3.height P N b = R3.height P N c
      · have h0 := vert hb h
        exfalso
        rcases hfront with h1 | h1 | h1 <;> rcases hback with h2 | h2 | h2 <;> linarith
      · exact Or.inr (Or.inl ⟨h, hb, hp⟩)
    · by_cases h : R3.height P N c = R3.height P N a
      · have h0 := vert hb h
        exfalso
        rcases hfront with h1 | h1 | h1 <;> rcases hback with h2 | h2 | h2 <;> linarith
      · exact Or.inr (Or.inr ⟨h, hb, hp⟩)
  exact section_of_crossings P N a b c u v ha hb hc (lift hu) (lift hv) hap

/-- the plane `z = 0` and the triangle `(0,0,-1) (4,0,1) (-4,0,1)`, crossed at `x = 2` and `x = -2`: all hypotheses of
`C09_not_lost` (and hence of `C08_sound`) are met -/
example : ∃ l, (Plane.mk (R3.mk 0 0 0).pt (R3.mk 0 0 1).vec).intersectTriangle
    (newTriangle (R3.mk 0 0 (-1)).pt (R3.mk 4 0 1).pt (R3.mk (-4) 0 1).pt) = some l := by
  have sm : ∀ x y z : ℝ, |x| ≤ 4 → |y| ≤ 4 → |z| ≤ 4 → (R3.mk x y z).small := by
    intro x y z h1 h2 h3
    have : (4 : ℝ) ≤ roundLimit := by unfold roundLimit; norm_num
    exact ⟨h1.trans this, h2.trans this, h3.trans this⟩
  obtain ⟨l, hl, _⟩ := C09_not_lost (R3.mk 0 0 0) (R3.mk 0 0 1) (R3.mk 0 0 (-1)) (R3.mk 4 0 1) (R3.mk (-4) 0 1)
    (R3.mk 2 0 0) (R3.mk (-2) 0 0) (sm _ _ _ (by norm_num) (by norm_num) (by norm_num))
    (sm _ _ _ (by norm_num) (by norm_num) (by norm_num)) (sm _ _ _ (by norm_num) (by norm_num) (by norm_num))
    (Or.inr (Or.inl (by simp [R3.height, R3.dot]))) (Or.inl (by simp [R3.height, R3.dot]))
    ⟨Or.inl ⟨1/2, by norm_num, by norm_num, by apply R3.ext <;> simp <;> norm_num⟩, by simp [R3.onPlane, R3.height, R3.dot]⟩
    ⟨Or.inr (Or.inr ⟨1/2, by norm_num, by norm_num, by apply R3.ext <;> simp <;> norm_num⟩), by simp [R3.onPlane, R3.height, R3.dot]⟩
    (Or.inl (by norm_num))
  exact ⟨l, hl⟩

end Goosli
