import Verif.Spec.RaySolid
import Verif.Props.C60
import Verif.Props.C83
/-!
# C84: the fill lines are the material of the layer, exactly
-/
set_option autoImplicit false
namespace Goosli
open Flt R3

/-! ## Pairs of a sorted list -/

theorem pairs_gap {β : Type} (key : β → ℝ) : ∀ L : List β, L.Pairwise (fun a b => key a ≤ key b) →
    ∀ s ∈ pairsOf L, ∀ c ∈ L, key c ≤ key s.1 ∨ key s.2 ≤ key c
  | [], _, s, hs => by simp [pairsOf] at hs
  | [_], _, s, hs => by simp [pairsOf] at hs
  | a :: b :: t, h, s, hs => by
    obtain ⟨p1, p2⟩ := List.pairwise_cons.1 h
    obtain ⟨p3, p4⟩ := List.pairwise_cons.1 p2
    intro c hc
    rcases List.mem_cons.1 hs with rfl | hs
    · rcases List.mem_cons.1 hc with rfl | hc
      · exact Or.inl le_rfl
      · rcases List.mem_cons.1 hc with rfl | hc
        · exact Or.inr le_rfl
        · exact Or.inr (p3 c hc)
    · have hm := (pairsOf_mem t s hs).1
      rcases List.mem_cons.1 hc with rfl | hc
      · exact Or.inl (p1 _ (by simp [hm]))
      · rcases List.mem_cons.1 hc with rfl | hc
        · exact Or.inl (p3 _ hm)
        · exact pairs_gap key t p4 s hs c hc

theorem pairs_of_odd {β : Type} (key : β → ℝ) (k : ℝ) : ∀ L : List β, L.Pairwise (fun a b => key a ≤ key b) → L.length % 2 = 0 →
    (∀ c ∈ L, key c ≠ k) → (L.countP fun c => decide (key c < k)) % 2 = 1 → ∃ s ∈ pairsOf L, key s.1 < k ∧ k < key s.2
  | [], _, _, _, h => by simp at h
  | [_], _, h, _, _ => by simp at h
  | a :: b :: t, h, hl, hne, ho => by
    obtain ⟨p1, p2⟩ := List.pairwise_cons.1 h
    obtain ⟨p3, p4⟩ := List.pairwise_cons.1 p2
    have hz : ∀ l : List β, (∀ c ∈ l, k < key c) → (l.countP fun c => decide (key c < k)) = 0 := by
      intro l hl
      rw [List.countP_eq_zero]
      intro c hc
      simp
      exact (hl c hc).le
    rcases lt_or_gt_of_ne (hne a (by simp)) with ha | ha
    · rcases lt_or_gt_of_ne (hne b (by simp)) with hb | hb
      · rw [List.countP_cons_of_pos (by simpa using ha), List.countP_cons_of_pos (by simpa using hb)] at ho
        obtain ⟨s, hs, h⟩ := pairs_of_odd key k t p4 (by simp at hl; omega) (fun c hc => hne c (by simp [hc])) (by omega)
        exact ⟨s, List.mem_cons_of_mem _ hs, h⟩
      · exact ⟨(a, b), by simp [pairsOf], ha, hb⟩
    · rw [hz _ (by
        intro c hc
        rcases List.mem_cons.1 hc with rfl | hc
        · exact ha
        · exact lt_of_lt_of_le ha (p1 c hc))] at ho
      simp at ho

/-! ## A side and the fill plane -/

/-- the key is linear -/
theorem fillKey_add (P N u d : R3) (s : ℝ) : fillKey P N (u + s • d) = fillKey P N u + s * fillKey P N d := by
  unfold fillKey
  split <;> simp

theorem fillKey_xy (P N u v : R3) (hx : u.x = v.x) (hy : u.y = v.y) : fillKey P N u = fillKey P N v := by
  unfold fillKey
  rw [hx, hy]

theorem height_xy {P N u v : R3} (hNz : N.z = 0) (hx : u.x = v.x) (hy : u.y = v.y) : R3.height P N u = R3.height P N v := by
  simp [R3.height, R3.dot, hNz, hx, hy]

theorem height_side (P N a b : R3) (r : ℝ) : R3.height P N (a + r • (b - a)) = R3.height P N a + r * (R3.height P N b - R3.height P N a) := by
  simp [R3.height, R3.dot]; ring

/-- a side that has a point on the plane but not its first end is cut, there -/
theorem cut_of_on {P N : R3} {q : R3 × R3} (h1 : R3.height P N q.1 ≠ 0) {r : ℝ} (hr0 : 0 ≤ r) (hr1 : r ≤ 1)
    (h : R3.height P N (q.1 + r • (q.2 - q.1)) = 0) : cutsEdge P N q ∧ cutPoint P N q = q.1 + r • (q.2 - q.1) := by
  rw [height_side] at h
  have hne : R3.height P N q.1 ≠ R3.height P N q.2 := by
    intro he
    rw [← he] at h
    exact h1 (by linarith)
  have hd : R3.height P N q.1 - R3.height P N q.2 ≠ 0 := sub_ne_zero.2 hne
  refine ⟨⟨hne, ?_⟩, ?_⟩
  · have e : R3.height P N q.1 * (1 - r) = -(r * R3.height P N q.2) := by linarith
    by_contra hc
    push Not at hc
    rcases eq_or_lt_of_le hr0 with h0 | h0
    · rw [← h0] at h; exact h1 (by linarith)
    · have : R3.height P N q.1 * (R3.height P N q.1 * (1 - r)) = -(r * (R3.height P N q.1 * R3.height P N q.2)) := by rw [e]; ring
      have p1 : 0 ≤ R3.height P N q.1 * (R3.height P N q.1 * (1 - r)) := by
        rw [← mul_assoc]; exact mul_nonneg (mul_self_nonneg _) (by linarith)
      have p2 := mul_pos h0 hc
      linarith
  · unfold cutPoint
    have : R3.height P N q.1 / (R3.height P N q.1 - R3.height P N q.2) = r := by
      rw [div_eq_iff hd]; linarith
    rw [this]

/-- the cut is on the side and on the plane -/
theorem cut_on {P N : R3} {q : R3 × R3} (h : cutsEdge P N q) :
    ∃ r : ℝ, 0 ≤ r ∧ r ≤ 1 ∧ cutPoint P N q = q.1 + r • (q.2 - q.1) ∧ R3.height P N (cutPoint P N q) = 0 := by
  obtain ⟨hne, hle⟩ := h
  have hd : R3.height P N q.1 - R3.height P N q.2 ≠ 0 := sub_ne_zero.2 hne
  refine ⟨R3.height P N q.1 / (R3.height P N q.1 - R3.height P N q.2), ?_, ?_, rfl, ?_⟩
  · rcases lt_or_gt_of_ne hd with h | h
    · exact div_nonneg_of_nonpos (by nlinarith) h.le
    · exact div_nonneg (by nlinarith) h.le
  · rcases lt_or_gt_of_ne hd with h | h
    · rw [div_le_one_of_neg h]; nlinarith
    · rw [div_le_one h]; nlinarith
  · unfold cutPoint
    rw [height_side]
    field_simp
    ring

/-- the direction of the fill line against the order of the crossings -/
theorem fill_direction {P N : R3} (hNz : N.z = 0) (hN : N ≠ 0) : ∃ (d : R3) (k : ℝ), k ≠ 0 ∧ d = k • ⟨N.y, -N.x, 0⟩ ∧ fillKey P N d = -1 := by
  have h0 : fillKey P N ⟨N.y, -N.x, 0⟩ ≠ 0 := by
    intro h
    have e : P + (1 : ℝ) • (⟨N.y, -N.x, 0⟩ : R3) = P := by
      refine C43_key_separates (P := P) hNz hN ?_ ?_ ?_ ?_
      · simp
      · simp [R3.onPlane, R3.height, R3.dot]; ring
      · simp [R3.onPlane, R3.height, R3.dot]
      · rw [fillKey_add, h]; ring
    have ex := congrArg R3.x e
    have ey := congrArg R3.y e
    simp at ex ey
    exact hN (R3.ext ey ex hNz)
  refine ⟨(-1 / fillKey P N ⟨N.y, -N.x, 0⟩) • ⟨N.y, -N.x, 0⟩, -1 / fillKey P N ⟨N.y, -N.x, 0⟩, div_ne_zero (by norm_num) h0, rfl, ?_⟩
  have : ∀ (k : ℝ) (u : R3), fillKey P N (k • u) = k * fillKey P N u := by
    intro k u; unfold fillKey; split <;> simp
  rw [this]
  field_simp

/-- the ray from `x` against the order of the crossings meets exactly the sides whose crossing comes before `x` -/
theorem ray_side {P N x d : R3} {k z : ℝ} (hNz : N.z = 0) (hN : N ≠ 0) (hx : R3.height P N x = 0) (hxz : x.z = z)
    (hd : d = k • ⟨N.y, -N.x, 0⟩) (hk : fillKey P N d = -1) {q : R3 × R3} (h1 : R3.height P N q.1 ≠ 0)
    (z1 : q.1.z = z) (z2 : q.2.z = z)
    (hon : ¬ ∃ t : ℝ, 0 ≤ t ∧ t ≤ 1 ∧ q.1.x + t * (q.2.x - q.1.x) = x.x ∧ q.1.y + t * (q.2.y - q.1.y) = x.y) :
    RayHits x d q ↔ cutsEdge P N q ∧ fillKey P N (cutPoint P N q) < fillKey P N x := by
  have hds : ∀ s : ℝ, R3.height P N (x + s • d) = 0 := by
    intro s
    have : R3.height P N (x + s • d) = R3.height P N x + s * d.dot N := by simp [R3.height, R3.dot]; ring
    rw [this, hx, hd]
    simp [R3.dot, hNz]; ring_nf; simp
  constructor
  · rintro ⟨s, r, hs, hr0, hr1, ex, ey⟩
    have e : R3.height P N (q.1 + r • (q.2 - q.1)) = 0 := by
      rw [← hds s]
      exact height_xy hNz (by simpa using ex) (by simpa using ey)
    obtain ⟨hc, hp⟩ := cut_of_on h1 hr0 hr1 e
    refine ⟨hc, ?_⟩
    rw [hp, fillKey_xy P N _ (x + s • d) (by simpa using ex) (by simpa using ey), fillKey_add, hk]
    have : s ≠ 0 := by
      rintro rfl
      exact hon ⟨r, hr0, hr1, by simpa using ex, by simpa using ey⟩
    have := lt_of_le_of_ne hs this.symm
    linarith
  · rintro ⟨hc, hlt⟩
    obtain ⟨r, hr0, hr1, hp, hh⟩ := cut_on hc
    have e : cutPoint P N q = x + (fillKey P N x - fillKey P N (cutPoint P N q)) • d := by
      refine C43_key_separates hNz hN ?_ hh (hds _) ?_
      · rw [hp]; simp [z1, z2, hxz, hd]
      · rw [fillKey_add, hk]; ring
    refine ⟨fillKey P N x - fillKey P N (cutPoint P N q), r, by linarith, hr0, hr1, ?_, ?_⟩
    · have := congrArg R3.x e; rw [hp] at this; simpa [hp] using this
    · have := congrArg R3.y e; rw [hp] at this; simpa [hp] using this

open Classical in
theorem count_cuts {P N x d : R3} : ∀ es : List (R3 × R3),
    (∀ q ∈ es, RayHits x d q ↔ cutsEdge P N q ∧ fillKey P N (cutPoint P N q) < fillKey P N x) →
    es.countP (fun q => decide (RayHits x d q)) =
      ((es.filter fun e => decide (cutsEdge P N e)).map (cutPoint P N)).countP fun c => decide (fillKey P N c < fillKey P N x)
  | [], _ => rfl
  | q :: es, h => by
    have ih := count_cuts es fun q hq => h q (List.mem_cons_of_mem _ hq)
    have hq := h q (by simp)
    rw [List.countP_cons, ih, List.filter_cons]
    by_cases hc : cutsEdge P N q
    · simp only [hc, decide_true, if_true, List.map_cons, List.countP_cons]
      simp only [hq, hc, true_and]
    · have : ¬ RayHits x d q := fun h => hc (hq.1 h).1
      simp only [hc, this, decide_false, Bool.false_eq_true, if_false, Nat.add_zero]

/-- on a fill plane the even-odd rule of C60 is the parity of the contours around the point -/
theorem evenOdd_insideOdd {P N x : R3} {z : ℝ} (cs : List (List R3)) (hNz : N.z = 0) (hN : N ≠ 0)
    (hcl : ∀ c ∈ cs, c ≠ [] ∧ c.head? = c.getLast?) (hoff : ∀ c ∈ cs, ∀ w ∈ c, R3.height P N w ≠ 0)
    (hz : ∀ c ∈ cs, ∀ w ∈ c, w.z = z) (hx : R3.height P N x = 0) (hxz : x.z = z) (hon : ∀ c ∈ cs, ¬ OnContour x c) :
    evenOddInside P N cs (fillKey P N) x ↔ InsideOdd x cs := by
  obtain ⟨d, k, hk0, hd, hk⟩ := fill_direction (P := P) hNz hN
  have hW : ∀ c ∈ cs, Within x c ↔ OddHits x d c := by
    intro c hc
    refine within_oddHits x d c (hcl c hc).2 (hon c hc) fun w hw h => hoff c hc w hw ?_
    rw [hd] at h
    simp [R3.cross2] at h
    have : k * (R3.height P N w - R3.height P N x) = 0 := by
      have e : R3.height P N w - R3.height P N x = N.y * (w.y - x.y) + N.x * (w.x - x.x) := by simp [R3.height, R3.dot, hNz]; ring
      rw [e]; linarith
    rw [hx, sub_zero] at this
    exact (mul_eq_zero.1 this).resolve_left hk0
  unfold InsideOdd evenOddInside cutPoints contourEdges
  rw [odd_sum _ _ cs hW, ← count_cuts, List.countP_flatMap]
  · rfl
  · intro q hq
    obtain ⟨c, hc, hqc⟩ := List.mem_flatMap.1 hq
    have hm := mem_sides (ws := c) hqc
    exact ray_side hNz hN hx hxz hd hk (hoff c hc _ hm.1) (hz c hc _ hm.1) (hz c hc _ hm.2)
      fun h => hon c hc ⟨q, hqc, h⟩

/-- **C84.** Contours of a layer are closed and level, none of their corners is on a vertical fill plane. Then the fill lines in this
plane are the material in it: their ends are on the contours, every point strictly inside a fill line is off the contours and inside an odd number of them, and every
point of the plane at this level that is off the contours and inside an odd number of them is strictly inside a fill line. What is
missing is the plane that passes through a corner, for which the statement is false (`C60_vertex_violated`). -/
theorem C84_fill_exact_partial (S : Sorter) (P N : R3) (cs : List (List R3)) (z : ℝ) (hNz : N.z = 0) (hN : N ≠ 0)
    (hcl : ∀ c ∈ cs, c ≠ [] ∧ c.head? = c.getLast?) (hoff : ∀ c ∈ cs, ∀ w ∈ c, R3.height P N w ≠ 0)
    (hz : ∀ c ∈ cs, ∀ w ∈ c, w.z = z) :
    ∃ segs : List (R3 × R3), intersectByPlane S (cs.map rpath) (Plane.mk P.pt N.vec) = segs.map (fun s => rpath [s.1, s.2]) ∧
      (∀ s ∈ segs, ∀ w, w = s.1 ∨ w = s.2 → R3.height P N w = 0 ∧ ∃ c ∈ cs, ∃ q ∈ sides c, R3.onSegment q.1 q.2 w) ∧
      (∀ s ∈ segs, s.1 ≠ s.2 → ∀ t : ℝ, 0 < t → t < 1 →
        (∀ c ∈ cs, ¬ OnContour (s.1 + t • (s.2 - s.1)) c) ∧ InsideOdd (s.1 + t • (s.2 - s.1)) cs) ∧
      ∀ x : R3, x.z = z → R3.height P N x = 0 → (∀ c ∈ cs, ¬ OnContour x c) → InsideOdd x cs →
        ∃ s ∈ segs, s.1 ≠ s.2 ∧ ∃ t : ℝ, 0 < t ∧ t < 1 ∧ x = s.1 + t • (s.2 - s.1) := by
  have hclosed : ∀ c ∈ cs, closedContour c := by
    intro c hc
    obtain ⟨h2, he⟩ := hcl c hc
    cases c with
    | nil => simp at h2
    | cons a t => exact ⟨a, t, rfl, by rw [← he]; rfl⟩
  obtain ⟨L, segs, h1, h2, h3, h4, -⟩ := intersectByPlane_real S P N cs
  have heven := cutPoints_even P N cs hclosed hoff
  have hlen := h1.length_eq
  have := h4 (by omega)
  subst this
  have hmem : ∀ w ∈ L, w.z = z ∧ R3.height P N w = 0 := by
    intro w hw
    obtain ⟨e, he, -, ⟨t, -, -, hwe⟩, hp⟩ := (C43_cut P N cs w).1 (h1.mem_iff.1 hw)
    refine ⟨?_, hp⟩
    obtain ⟨c, hc, hec⟩ := List.mem_flatMap.1 he
    have hm := mem_sides (ws := c) hec
    rw [hwe]
    simp [hz c hc _ hm.1, hz c hc _ hm.2]
  -- a point of the plane on a contour is a crossing
  have hcut : ∀ x : R3, x.z = z → R3.height P N x = 0 → (∃ c ∈ cs, OnContour x c) → x ∈ L := by
    rintro x hxz hx ⟨c, hc, q, hq, r, hr0, hr1, ex, ey⟩
    have hm := mem_sides hq
    have e : q.1 + r • (q.2 - q.1) = x := by
      apply R3.ext
      · simpa using ex
      · simpa using ey
      · simp [hz c hc _ hm.1, hz c hc _ hm.2, hxz]
    obtain ⟨hce, hp⟩ := cut_of_on (hoff c hc _ hm.1) hr0 hr1 (by rw [e]; exact hx)
    rw [h1.mem_iff]
    refine List.mem_map.2 ⟨q, List.mem_filter.2 ⟨List.mem_flatMap.2 ⟨c, hc, hq⟩, by simpa using hce⟩, by rw [hp, e]⟩
  have hon : ∀ x : R3, x.z = z → R3.height P N x = 0 → (∀ w ∈ L, fillKey P N w ≠ fillKey P N x) → ∀ c ∈ cs, ¬ OnContour x c :=
    fun x hxz hx hk c hc ho => hk x (hcut x hxz hx ⟨c, hc, ho⟩) rfl
  refine ⟨_, h3, ?_, ?_, ?_⟩
  · intro s hs w hw
    have hm : w ∈ L := by
      rcases hw with rfl | rfl
      · exact (pairsOf_mem L s hs).1
      · exact (pairsOf_mem L s hs).2
    obtain ⟨e, he, -, hwe, hp⟩ := (C43_cut P N cs w).1 (h1.mem_iff.1 hm)
    obtain ⟨c, hc, hec⟩ := List.mem_flatMap.1 he
    exact ⟨hp, c, hc, e, hec, hwe⟩
  · intro s hs hne t ht0 ht1
    have hkey := (pairsOf_sorted (fillKey P N) L h2).2 s hs
    have hm := pairsOf_mem L s hs
    obtain ⟨z1, q1⟩ := hmem _ hm.1
    obtain ⟨z2, q2⟩ := hmem _ hm.2
    have hlt : fillKey P N s.1 < fillKey P N s.2 :=
      lt_of_le_of_ne hkey fun he => hne (C43_key_separates hNz hN (z1.trans z2.symm) q1 q2 he)
    have hlin : fillKey P N (s.1 + t • (s.2 - s.1)) = fillKey P N s.1 + t * (fillKey P N s.2 - fillKey P N s.1) := by
      unfold fillKey
      split <;> simp
    have k1 : fillKey P N s.1 < fillKey P N (s.1 + t • (s.2 - s.1)) := by
      rw [hlin]
      have := mul_pos ht0 (sub_pos.2 hlt)
      linarith
    have k2 : fillKey P N (s.1 + t • (s.2 - s.1)) < fillKey P N s.2 := by
      rw [hlin]
      nlinarith [sub_pos.2 hlt]
    have xz : (s.1 + t • (s.2 - s.1)).z = z := by simp [z1, z2]
    have xh : R3.height P N (s.1 + t • (s.2 - s.1)) = 0 := by rw [height_side, q1, q2]; ring
    have off := hon _ xz xh fun w hw he => by
      rcases pairs_gap (fillKey P N) L h2 s hs w hw with h | h <;> linarith
    refine ⟨off, (evenOdd_insideOdd cs hNz hN hcl hoff hz xh xz off).1 ?_⟩
    unfold evenOddInside
    rw [← h1.countP_eq]
    exact countP_pairs (fillKey P N) _ L h2 s hs k1 k2
  · intro x hxz hx hox hin
    have ho := (evenOdd_insideOdd cs hNz hN hcl hoff hz hx hxz hox).2 hin
    unfold evenOddInside at ho
    rw [← h1.countP_eq] at ho
    have hkn : ∀ w ∈ L, fillKey P N w ≠ fillKey P N x := by
      intro w hw hke
      obtain ⟨wz, wh⟩ := hmem w hw
      have := C43_key_separates hNz hN (wz.trans hxz.symm) wh hx hke
      subst this
      obtain ⟨e, he, hce, rfl⟩ : ∃ e ∈ contourEdges cs, cutsEdge P N e ∧ cutPoint P N e = w := by
        obtain ⟨e, he, rfl⟩ := List.mem_map.1 (h1.mem_iff.1 hw)
        obtain ⟨m1, m2⟩ := List.mem_filter.1 he
        exact ⟨e, m1, by simpa using m2, rfl⟩
      obtain ⟨c, hc, hec⟩ := List.mem_flatMap.1 he
      obtain ⟨r, hr0, hr1, hp, _⟩ := cut_on hce
      exact hox c hc ⟨e, hec, r, hr0, hr1, by rw [hp]; simp, by rw [hp]; simp⟩
    obtain ⟨s, hs, k1, k2⟩ := pairs_of_odd (fillKey P N) _ L h2 (by omega) hkn ho
    have hm := pairsOf_mem L s hs
    obtain ⟨z1, q1⟩ := hmem _ hm.1
    obtain ⟨z2, q2⟩ := hmem _ hm.2
    have hpos : 0 < fillKey P N s.2 - fillKey P N s.1 := by linarith
    refine ⟨s, hs, fun h => by rw [h] at k1; linarith, (fillKey P N x - fillKey P N s.1) / (fillKey P N s.2 - fillKey P N s.1),
      div_pos (by linarith) hpos, by rw [div_lt_one hpos]; linarith, ?_⟩
    refine C43_key_separates hNz hN ?_ hx ?_ ?_
    · simp [z1, z2, hxz]
    · show R3.height P N _ = 0
      rw [height_side, q1, q2]; ring
    · have hlin : ∀ t : ℝ, fillKey P N (s.1 + t • (s.2 - s.1)) = fillKey P N s.1 + t * (fillKey P N s.2 - fillKey P N s.1) := by
        intro t; unfold fillKey
        split <;> simp
      rw [hlin]
      field_simp
      ring

/-! ## A plane through a corner -/

theorem ridge_air : ¬ InsideOdd ⟨0, 4, 1⟩ ridgeContours := by
  have hlev : ∀ c ∈ ridgeContours, ∀ q ∈ sides c, (q.1.y ≤ 3 ∧ q.2.y ≤ 3) ∨ (5 ≤ q.1.y ∧ 5 ≤ q.2.y) := by
    intro c hc q hq
    have hm := mem_sides hq
    simp only [ridgeContours, List.mem_cons, List.not_mem_nil, or_false] at hc
    rcases hc with rfl | rfl
    · left
      have : ∀ w ∈ [(⟨-1, 0, 1⟩ : R3), ⟨1, 0, 1⟩, ⟨1, 2, 1⟩, ⟨0, 3, 1⟩, ⟨-1, 2, 1⟩, ⟨-1, 0, 1⟩], w.y ≤ 3 := by
        intro w hw
        simp only [List.mem_cons, List.not_mem_nil, or_false] at hw
        rcases hw with rfl | rfl | rfl | rfl | rfl | rfl <;> norm_num
      exact ⟨this _ hm.1, this _ hm.2⟩
    · right
      have : ∀ w ∈ [(⟨-1, 5, 1⟩ : R3), ⟨1, 5, 1⟩, ⟨1, 7, 1⟩, ⟨-1, 7, 1⟩, ⟨-1, 5, 1⟩], 5 ≤ w.y := by
        intro w hw
        simp only [List.mem_cons, List.not_mem_nil, or_false] at hw
        rcases hw with rfl | rfl | rfl | rfl | rfl <;> norm_num
      exact ⟨this _ hm.1, this _ hm.2⟩
  have hmiss : ∀ c ∈ ridgeContours, ∀ q ∈ sides c, ∀ t : ℝ, 0 ≤ t → t ≤ 1 → q.1.y + t * (q.2.y - q.1.y) ≠ 4 := by
    intro c hc q hq t h0 h1 he
    rcases hlev c hc q hq with ⟨a, b⟩ | ⟨a, b⟩ <;> nlinarith
  have hW : ∀ c ∈ ridgeContours, ¬ Within ⟨0, 4, 1⟩ c := by
    intro c hc
    have hcl : 2 ≤ c.length ∧ c.head? = c.getLast? := by
      simp only [ridgeContours, List.mem_cons, List.not_mem_nil, or_false] at hc
      rcases hc with rfl | rfl <;> simp
    rw [C77_ray ⟨0, 4, 1⟩ ⟨1, 0, 0⟩ c hcl.1 hcl.2]
    · unfold OddHits
      rw [List.countP_eq_zero.2]
      · simp
      · intro q hq
        simp only [decide_eq_true_eq]
        rintro ⟨s, t, -, h0, h1, -, ey⟩
        exact hmiss c hc q hq t h0 h1 (by simpa using ey)
    · rintro ⟨q, hq, t, h0, h1, -, ey⟩
      exact hmiss c hc q hq t h0 h1 ey
    · intro w hw
      obtain ⟨q, hq, h⟩ := corner_side hcl.1 hw
      have h0 := hmiss c hc q hq 0 le_rfl zero_le_one
      have h1 := hmiss c hc q hq 1 zero_le_one le_rfl
      rcases h with rfl | rfl
      · simp [R3.cross2]; intro h; exact h0 (by linarith)
      · simp [R3.cross2]; intro h; exact h1 (by linarith)
  unfold InsideOdd
  rw [List.countP_eq_zero.2 fun c hc => by simpa using hW c hc]
  simp

/-- **C84 is false for a plane through a corner**: a fill line through the air, for every order the sort may return. -/
theorem C84_violated (S : Sorter) : ∃ (P N : R3) (cs : List (List R3)), N.z = 0 ∧ N ≠ 0 ∧
    (∀ c ∈ cs, 2 ≤ c.length ∧ c.head? = c.getLast?) ∧ (∀ c ∈ cs, ∀ w ∈ c, w.z = 1) ∧
    ∃ a b : R3, rpath [a, b] ∈ intersectByPlane S (cs.map rpath) (Plane.mk P.pt N.vec) ∧ a ≠ b ∧
      ∃ t : ℝ, 0 < t ∧ t < 1 ∧ ¬ InsideOdd (a + t • (b - a)) cs := by
  refine ⟨⟨0, 0, 0⟩, ⟨1, 0, 0⟩, ridgeContours, rfl, fun h => by simpa using congrArg R3.x h, ?_, ?_, ⟨0, 3, 1⟩, ⟨0, 5, 1⟩, ?_, ?_, 1 / 2,
    by norm_num, by norm_num, ?_⟩
  · intro c hc
    simp only [ridgeContours, List.mem_cons, List.not_mem_nil, or_false] at hc
    rcases hc with rfl | rfl <;> simp
  · intro c hc
    simp only [ridgeContours, List.mem_cons, List.not_mem_nil, or_false] at hc
    rcases hc with rfl | rfl <;> simp
  · rw [ridge_lines]; simp
  · intro h; have := congrArg R3.y h; norm_num at this
  · have : (⟨0, 3, 1⟩ : R3) + (1 / 2 : ℝ) • ((⟨0, 5, 1⟩ : R3) - ⟨0, 3, 1⟩) = ⟨0, 4, 1⟩ := by apply R3.ext <;> simp <;> norm_num
    rw [this]; exact ridge_air

/-! ## Non-vacuity -/

/-- the hypotheses are met by a square and the plane x = 0 through its middle, which is in the material, so that there is a fill line -/
example (S : Sorter) : ∃ segs : List (R3 × R3),
    intersectByPlane S ([box 4].map rpath) (Plane.mk (R3.mk 0 0 0).pt (R3.mk 1 0 0).vec) = segs.map (fun s => rpath [s.1, s.2]) ∧
      ∃ s ∈ segs, s.1 ≠ s.2 ∧ ∃ t : ℝ, 0 < t ∧ t < 1 ∧ (⟨0, 0, 0⟩ : R3) = s.1 + t • (s.2 - s.1) := by
  obtain ⟨segs, h1, -, -, h3⟩ := C84_fill_exact_partial S ⟨0, 0, 0⟩ ⟨1, 0, 0⟩ [box 4] 0 rfl
    (by intro h; have := congrArg R3.x h; simp at this) (by simp [box])
    (by
      intro c hc w hw
      rw [List.mem_singleton] at hc; subst hc
      simp only [box, List.mem_cons, List.not_mem_nil, or_false] at hw
      rcases hw with rfl | rfl | rfl | rfl | rfl <;> simp [R3.height, R3.dot])
    (by
      intro c hc w hw
      rw [List.mem_singleton] at hc; subst hc
      simp only [box, List.mem_cons, List.not_mem_nil, or_false] at hw
      rcases hw with rfl | rfl | rfl | rfl | rfl <;> rfl)
  refine ⟨segs, h1, h3 ⟨0, 0, 0⟩ rfl (by simp [R3.height, R3.dot]) ?_ ?_⟩
  · intro c hc
    rw [List.mem_singleton] at hc; subst hc
    rintro ⟨q, hq, t, h0, h1, ex, ey⟩
    simp [box, sides] at hq
    rcases hq with rfl | rfl | rfl | rfl <;> simp at ex ey
  · unfold InsideOdd
    rw [List.countP_cons_of_pos (by simpa using box_within 4 0 (by norm_num))]
    rfl

end Goosli
