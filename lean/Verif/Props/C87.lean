import Verif.Props.C83
import Verif.Proofs.Paths
/-!
# C87: moving the corners of a contour a little
-/
set_option autoImplicit false
namespace Goosli
open Flt R3

/-- square of the distance, seen from above -/
noncomputable def R3.distSq2 (a b : R3) : ℝ := (a.x - b.x) ^ 2 + (a.y - b.y) ^ 2

/-- seen from above, `x` is farther than `ε` from every side of the contour -/
def FarFrom (ε : ℝ) (x : R3) (c : List R3) : Prop :=
  ∀ q ∈ sides c, ∀ t : ℝ, 0 ≤ t → t ≤ 1 → ε ^ 2 < R3.distSq2 (q.1 + t • (q.2 - q.1)) x

/-- seen from above, no corner moves by more than `ε` -/
def MovedBy (ε : ℝ) (c c' : List R3) : Prop := List.Forall₂ (fun w w' => R3.distSq2 w' w ≤ ε ^ 2) c c'

/-! ## Contours in a half-plane -/

theorem rayHits_swap {x d a b : R3} : RayHits x d (a, b) ↔ RayHits x d (b, a) := by
  have : ∀ {a b : R3}, RayHits x d (a, b) → RayHits x d (b, a) := by
    rintro a b ⟨s, t, hs, h0, h1, ex, ey⟩
    exact ⟨s, 1 - t, hs, by linarith, by linarith, by simp only at ex ⊢; linarith, by simp only at ey ⊢; linarith⟩
  exact ⟨this, this⟩

theorem rayHits_self {x d w : R3} (h : d.cross2 (w - x) ≠ 0) : ¬ RayHits x d (w, w) := by
  rintro ⟨s, t, _, _, _, ex, ey⟩
  apply h
  simp [R3.cross2] at ex ey ⊢
  rw [ex, ey]; ring

/-- a closed contour all corners of which are on the same side of a line through `x` does not go around `x` -/
theorem halfplane {x n : R3} {c : List R3} (h2 : 2 ≤ c.length) (hc : c.head? = c.getLast?)
    (h : ∀ w ∈ c, (w.x - x.x) * n.x + (w.y - x.y) * n.y < 0) : ¬ OnContour x c ∧ ¬ Within x c := by
  have hs : ∀ q ∈ sides c, ∀ t : ℝ, 0 ≤ t → t ≤ 1 →
      (q.1.x + t * (q.2.x - q.1.x) - x.x) * n.x + (q.1.y + t * (q.2.y - q.1.y) - x.y) * n.y < 0 := by
    intro q hq t h0 h1
    have hm := mem_sides hq
    have e1 := h _ hm.1
    have e2 := h _ hm.2
    have : (q.1.x + t * (q.2.x - q.1.x) - x.x) * n.x + (q.1.y + t * (q.2.y - q.1.y) - x.y) * n.y =
        (1 - t) * ((q.1.x - x.x) * n.x + (q.1.y - x.y) * n.y) + t * ((q.2.x - x.x) * n.x + (q.2.y - x.y) * n.y) := by ring
    rw [this]
    rcases eq_or_lt_of_le h0 with rfl | h0
    · simpa using e1
    · nlinarith [mul_neg_of_pos_of_neg h0 e2, mul_nonneg (sub_nonneg.2 h1) (neg_nonneg.2 e1.le)]
  have hon : ¬ OnContour x c := by
    rintro ⟨q, hq, t, h0, h1, ex, ey⟩
    have := hs q hq t h0 h1
    rw [ex, ey] at this
    simp at this
  refine ⟨hon, ?_⟩
  have hn : n.x ≠ 0 ∨ n.y ≠ 0 := by
    by_contra hn
    push Not at hn
    cases c with
    | nil => simp at h2
    | cons w t => have := h w (by simp); rw [hn.1, hn.2] at this; simp at this
  obtain ⟨d, hd, he⟩ := exists_generic x c (by
    intro w hw
    by_contra hn
    push Not at hn
    have := h w hw
    rw [hn.1, hn.2] at this
    simp at this) [⟨-n.y, n.x, 0⟩] (by
    intro e he
    rw [List.mem_singleton] at he
    subst he
    rcases hn with hn | hn
    · exact Or.inr hn
    · exact Or.inl (neg_ne_zero.2 hn))
  have hdn : d.x * n.x + d.y * n.y ≠ 0 := by
    have := he _ (List.mem_singleton.2 rfl)
    simpa [R3.cross2] using this
  obtain ⟨e, hge, hen⟩ : ∃ e : R3, Generic x e c ∧ 0 < e.x * n.x + e.y * n.y := by
    rcases lt_or_gt_of_ne hdn with h | h
    · refine ⟨⟨-d.x, -d.y, 0⟩, fun w hw h0 => hd w hw ?_, by simp only; linarith⟩
      simp [R3.cross2] at h0 ⊢
      linarith
    · exact ⟨d, hd, h⟩
  rw [C77_ray x e c h2 hc hon hge]
  unfold OddHits
  rw [List.countP_eq_zero.2]
  · simp
  · intro q hq
    simp only [decide_eq_true_eq]
    rintro ⟨s, t, h0, ht0, ht1, ex, ey⟩
    have := hs q hq t ht0 ht1
    rw [ex, ey] at this
    nlinarith [mul_nonneg h0 hen.le]

/-! ## One side -/

/-- a direction from the side to `x`: the side is behind its foot -/
theorem foot (a b x : R3) : ∃ t : ℝ, 0 ≤ t ∧ t ≤ 1 ∧
    (∀ y, y = a ∨ y = b → (y.x - (a.x + t * (b.x - a.x))) * (x.x - (a.x + t * (b.x - a.x))) +
      (y.y - (a.y + t * (b.y - a.y))) * (x.y - (a.y + t * (b.y - a.y))) ≤ 0) := by
  by_cases h1 : (x.x - a.x) * (b.x - a.x) + (x.y - a.y) * (b.y - a.y) ≤ 0
  · refine ⟨0, le_rfl, zero_le_one, ?_⟩
    rintro y (rfl | rfl)
    · simp
    · simp; linarith
  · by_cases h2 : 0 ≤ (x.x - b.x) * (b.x - a.x) + (x.y - b.y) * (b.y - a.y)
    · refine ⟨1, zero_le_one, le_rfl, ?_⟩
      rintro y (rfl | rfl)
      · simp; linarith
      · simp
    · push Not at h1 h2
      have hpos : 0 < (b.x - a.x) ^ 2 + (b.y - a.y) ^ 2 := by nlinarith
      set L := (x.x - a.x) * (b.x - a.x) + (x.y - a.y) * (b.y - a.y) with hL
      have hlt : L < (b.x - a.x) ^ 2 + (b.y - a.y) ^ 2 := by nlinarith
      refine ⟨L / ((b.x - a.x) ^ 2 + (b.y - a.y) ^ 2), div_nonneg h1.le hpos.le, by rw [div_le_one hpos]; exact hlt.le, ?_⟩
      set t := L / ((b.x - a.x) ^ 2 + (b.y - a.y) ^ 2) with ht
      have hmul : t * ((b.x - a.x) ^ 2 + (b.y - a.y) ^ 2) = L := by rw [ht]; field_simp
      have hz : (b.x - a.x) * (x.x - (a.x + t * (b.x - a.x))) + (b.y - a.y) * (x.y - (a.y + t * (b.y - a.y))) = 0 := by
        have : (b.x - a.x) * (x.x - (a.x + t * (b.x - a.x))) + (b.y - a.y) * (x.y - (a.y + t * (b.y - a.y))) =
            L - t * ((b.x - a.x) ^ 2 + (b.y - a.y) ^ 2) := by rw [hL]; ring
        rw [this, hmul]; ring
      rintro y (rfl | rfl)
      · have : (y.x - (y.x + t * (b.x - y.x))) * (x.x - (y.x + t * (b.x - y.x))) +
            (y.y - (y.y + t * (b.y - y.y))) * (x.y - (y.y + t * (b.y - y.y))) =
            -t * ((b.x - y.x) * (x.x - (y.x + t * (b.x - y.x))) + (b.y - y.y) * (x.y - (y.y + t * (b.y - y.y)))) := by ring
        rw [this, hz]; simp
      · have : (y.x - (a.x + t * (y.x - a.x))) * (x.x - (a.x + t * (y.x - a.x))) +
            (y.y - (a.y + t * (y.y - a.y))) * (x.y - (a.y + t * (y.y - a.y))) =
            (1 - t) * ((y.x - a.x) * (x.x - (a.x + t * (y.x - a.x))) + (y.y - a.y) * (x.y - (a.y + t * (y.y - a.y)))) := by ring
        rw [this, hz]; simp

/-- the strip a side sweeps over when its ends move by at most `ε` does not go around a point farther than `ε` from it -/
theorem strip {ε : ℝ} {a b a' b' x : R3} (hfar : ∀ t : ℝ, 0 ≤ t → t ≤ 1 → ε ^ 2 < R3.distSq2 (a + t • (b - a)) x)
    (ha : R3.distSq2 a' a ≤ ε ^ 2) (hb : R3.distSq2 b' b ≤ ε ^ 2) :
    ¬ OnContour x [a, b, b', a', a] ∧ ¬ Within x [a, b, b', a', a] := by
  obtain ⟨t, h0, h1, hf⟩ := foot a b x
  have hd := hfar t h0 h1
  set p : R3 := a + t • (b - a) with hp
  have px : a.x + t * (b.x - a.x) = p.x := by simp [hp]
  have py : a.y + t * (b.y - a.y) = p.y := by simp [hp]
  rw [px, py] at hf
  have far : ε ^ 2 < (x.x - p.x) ^ 2 + (x.y - p.y) ^ 2 := by unfold R3.distSq2 at hd; nlinarith
  have near : ∀ y y' : R3, (y = a ∨ y = b) → R3.distSq2 y' y ≤ ε ^ 2 → (y'.x - x.x) * (x.x - p.x) + (y'.y - x.y) * (x.y - p.y) < 0 := by
    intro y y' hy hyy
    have f := hf y hy
    unfold R3.distSq2 at hyy
    set u := y'.x - y.x
    set v := y'.y - y.y
    set m := x.x - p.x
    set k := x.y - p.y
    have cs : (u * m + v * k) ^ 2 ≤ (u ^ 2 + v ^ 2) * (m ^ 2 + k ^ 2) := by nlinarith [sq_nonneg (u * k - v * m)]
    have hpos : 0 < m ^ 2 + k ^ 2 := lt_of_le_of_lt (sq_nonneg ε) far
    have lt : u * m + v * k < m ^ 2 + k ^ 2 := by
      refine lt_of_pow_lt_pow_left₀ 2 hpos.le ?_
      nlinarith
    have e : (y'.x - x.x) * m + (y'.y - x.y) * k = (u * m + v * k) + ((y.x - p.x) * m + (y.y - p.y) * k) - (m ^ 2 + k ^ 2) := by
      simp only [u, v, m, k]; ring
    rw [e]; linarith
  have zero : ∀ y : R3, R3.distSq2 y y ≤ ε ^ 2 := by intro y; simp [R3.distSq2]; exact sq_nonneg ε
  refine halfplane (n := ⟨x.x - p.x, x.y - p.y, 0⟩) (by simp) (by simp) ?_
  intro w hw
  simp only [List.mem_cons, List.not_mem_nil, or_false] at hw
  rcases hw with rfl | rfl | rfl | rfl | rfl
  · exact near _ _ (Or.inl rfl) (zero _)
  · exact near _ _ (Or.inr rfl) (zero _)
  · exact near _ _ (Or.inr rfl) hb
  · exact near _ _ (Or.inl rfl) ha
  · exact near _ _ (Or.inl rfl) (zero _)

/-! ## All sides -/

open Classical in
/-- 1 if the ray meets the side -/
noncomputable def hit (x d a b : R3) : Nat := if RayHits x d (a, b) then 1 else 0

theorem hit_swap (x d a b : R3) : hit x d a b = hit x d b a := by
  have h := rayHits_swap (x := x) (d := d) (a := a) (b := b)
  unfold hit
  by_cases hab : RayHits x d (a, b)
  · rw [if_pos hab, if_pos (h.1 hab)]
  · rw [if_neg hab, if_neg fun hba => hab (h.2 hba)]

open Classical in
theorem strip_even {ε : ℝ} {a b a' b' x d : R3} (hfar : ∀ t : ℝ, 0 ≤ t → t ≤ 1 → ε ^ 2 < R3.distSq2 (a + t • (b - a)) x)
    (ha : R3.distSq2 a' a ≤ ε ^ 2) (hb : R3.distSq2 b' b ≤ ε ^ 2) (hg : Generic x d [a, b, b', a', a]) :
    (hit x d a b + hit x d a' b' + hit x d a a' + hit x d b b') % 2 = 0 := by
  obtain ⟨hon, hw⟩ := strip hfar ha hb
  rw [C77_ray x d _ (by simp) (by simp) hon hg] at hw
  unfold OddHits at hw
  have e : (sides [a, b, b', a', a]).countP (fun q => decide (RayHits x d q)) = hit x d a' a + hit x d b' a' + hit x d b b' + hit x d a b := by
    simp only [sides, List.tail_cons, List.zip_cons_cons, List.zip_nil_right, List.countP_cons, List.countP_nil, hit, decide_eq_true_eq, Nat.zero_add]
  rw [e, hit_swap x d a' a, hit_swap x d b' a'] at hw
  omega

open Classical in
theorem chain_even {ε : ℝ} {x d : R3} : ∀ (a a' : R3) (t t' : List R3), MovedBy ε (a :: t) (a' :: t') → FarFrom ε x (a :: t) →
    (∀ w ∈ a :: t, d.cross2 (w - x) ≠ 0) → (∀ w ∈ a' :: t', d.cross2 (w - x) ≠ 0) → ∀ z z', (a :: t).getLast? = some z → (a' :: t').getLast? = some z' →
    ((sides (a :: t)).countP (fun q => decide (RayHits x d q)) + (sides (a' :: t')).countP (fun q => decide (RayHits x d q)) +
      hit x d a a' + hit x d z z') % 2 = 0
  | a, a', [], [], _, _, _, _, z, z', hz, hz' => by
    simp at hz hz'
    subst hz; subst hz'
    simp only [sides, List.tail_cons, List.zip_nil_right, List.countP_nil]
    omega
  | a, a', [], _ :: _, h, _, _, _, _, _, _, _ => by have := h.length_eq; simp at this
  | a, a', _ :: _, [], h, _, _, _, _, _, _, _ => by have := h.length_eq; simp at this
  | a, a', b :: t, b' :: t', h, hf, hg, hg', z, z', hz, hz' => by
    obtain ⟨h1, h2⟩ := List.forall₂_cons.1 h
    have ih := chain_even b b' t t' h2 (fun q hq => hf q (List.mem_cons_of_mem _ hq)) (fun w hw => hg w (List.mem_cons_of_mem _ hw))
      (fun w hw => hg' w (List.mem_cons_of_mem _ hw)) z z' (by simpa using hz) (by simpa using hz')
    have hq := strip_even (d := d) (hf (a, b) (by simp [sides])) h1 (List.forall₂_cons.1 h2).1 (by
      intro w hw
      simp only [List.mem_cons, List.not_mem_nil, or_false] at hw
      rcases hw with rfl | rfl | rfl | rfl | rfl
      · exact hg _ (by simp)
      · exact hg _ (by simp)
      · exact hg' _ (by simp)
      · exact hg' _ (by simp)
      · exact hg _ (by simp))
    simp only at hq
    have e1 : (sides (a :: b :: t)).countP (fun q => decide (RayHits x d q)) = (sides (b :: t)).countP (fun q => decide (RayHits x d q)) + hit x d a b := by
      show ((a, b) :: sides (b :: t)).countP _ = _
      rw [List.countP_cons]; simp [hit]
    have e2 : (sides (a' :: b' :: t')).countP (fun q => decide (RayHits x d q)) = (sides (b' :: t')).countP (fun q => decide (RayHits x d q)) + hit x d a' b' := by
      show ((a', b') :: sides (b' :: t')).countP _ = _
      rw [List.countP_cons]; simp [hit]
    rw [e1, e2]
    omega

theorem moved_off {ε : ℝ} {x : R3} : ∀ {c c' : List R3}, MovedBy ε c c' → FarFrom ε x c → ¬ OnContour x c'
  | [], [], _, _, h => by obtain ⟨q, hq, _⟩ := h; simp [sides] at hq
  | [_], [_], _, _, h => by obtain ⟨q, hq, _⟩ := h; simp [sides] at hq
  | a :: b :: t, a' :: b' :: t', h, hf, ho => by
    obtain ⟨h1, h2⟩ := List.forall₂_cons.1 h
    obtain ⟨q, hq, r, h0, hr, ex, ey⟩ := ho
    rcases List.mem_cons.1 (show q ∈ (a', b') :: sides (b' :: t') from hq) with rfl | hq
    · obtain ⟨hon, -⟩ := strip (hf (a, b) (by simp [sides])) h1 (List.forall₂_cons.1 h2).1
      refine hon ⟨(b', a'), by simp [sides], 1 - r, by linarith, by linarith, ?_, ?_⟩
      · rw [← ex]; ring
      · rw [← ey]; ring
    · exact moved_off h2 (fun q hq => hf q (List.mem_cons_of_mem _ hq)) ⟨q, hq, r, h0, hr, ex, ey⟩
  | [], _ :: _, h, _, _ => by have := h.length_eq; simp at this
  | _ :: _, [], h, _, _ => by have := h.length_eq; simp at this
  | [_], _ :: _ :: _, h, _, _ => by have := h.length_eq; simp at this
  | _ :: _ :: _, [_], h, _, _ => by have := h.length_eq; simp at this

/-- **C87.** A closed contour is moved, each corner by at most `ε` seen from above, and stays closed. A point farther than `ε` from all
sides of the original contour is not on the moved one, and is inside the one exactly if it is inside the other. -/
theorem C87_moved {ε : ℝ} {x : R3} {c c' : List R3} (h2 : 2 ≤ c.length) (hc : c.head? = c.getLast?) (hc' : c'.head? = c'.getLast?)
    (hm : MovedBy ε c c') (hf : FarFrom ε x c) : ¬ OnContour x c ∧ ¬ OnContour x c' ∧ (Within x c ↔ Within x c') := by
  have hl := hm.length_eq
  have hself : MovedBy ε c c := List.forall₂_same.2 fun w _ => by simp [R3.distSq2]; exact sq_nonneg ε
  have hon := moved_off hself hf
  have hon' := moved_off hm hf
  refine ⟨hon, hon', ?_⟩
  have corner : ∀ {c : List R3}, 2 ≤ c.length → ¬ OnContour x c → ∀ w ∈ c, w.x ≠ x.x ∨ w.y ≠ x.y := by
    intro c h2 hon w hw
    by_contra hn
    push Not at hn
    obtain ⟨q, hq, h⟩ := corner_side h2 hw
    rcases h with rfl | rfl
    · exact hon ⟨q, hq, 0, le_rfl, zero_le_one, by rw [← hn.1]; ring, by rw [← hn.2]; ring⟩
    · exact hon ⟨q, hq, 1, zero_le_one, le_rfl, by rw [← hn.1]; ring, by rw [← hn.2]; ring⟩
  obtain ⟨d, hd, -⟩ := exists_generic x (c ++ c') (by
    intro w hw
    rcases List.mem_append.1 hw with hw | hw
    · exact corner h2 hon w hw
    · exact corner (by omega) hon' w hw) [] (by simp)
  have hg : Generic x d c := fun w hw => hd w (by simp [hw])
  have hg' : Generic x d c' := fun w hw => hd w (by simp [hw])
  rw [C77_ray x d c h2 hc hon hg, C77_ray x d c' (by omega) hc' hon' hg']
  match c, c', h2, hl with
  | a :: t, a' :: t', _, _ =>
    have := chain_even a a' t t' hm hf hg hg' a a' hc.symm hc'.symm
    unfold OddHits
    omega

open Classical in
theorem insideOdd_map {x : R3} (f : List R3 → List R3) : ∀ cs : List (List R3), (∀ c ∈ cs, Within x c ↔ Within x (f c)) →
    (InsideOdd x cs ↔ InsideOdd x (cs.map f)) := by
  intro cs h
  unfold InsideOdd
  rw [List.countP_map]
  have : cs.countP (fun c => decide (Within x c)) = cs.countP ((fun c => decide (Within x c)) ∘ f) := by
    refine List.countP_congr fun c hc => ?_
    simpa using h c hc
  rw [this]

theorem round8_moved (c : List R3) : MovedBy (1 / 10 ^ 8) c (c.map R3.round8) := by
  unfold MovedBy
  rw [List.forall₂_map_right_iff]
  refine List.forall₂_same.2 fun w _ => ?_
  obtain ⟨hx, hy, -⟩ := round8_within w
  unfold R3.distSq2
  rw [abs_le] at hx hy
  nlinarith [hx.1, hx.2, hy.1, hy.2]

/-- **C87, rounding.** A point farther than 1e-8 from the exact contours is inside an odd number of them exactly if it is inside an odd
number of the contours with corners rounded to eight decimals. -/
theorem C87_rounded {x : R3} {cs : List (List R3)} (hc : ∀ c ∈ cs, 2 ≤ c.length ∧ c.head? = c.getLast?)
    (hf : ∀ c ∈ cs, FarFrom (1 / 10 ^ 8) x c) :
    (∀ c ∈ cs, ¬ OnContour x (c.map R3.round8)) ∧ (InsideOdd x cs ↔ InsideOdd x (cs.map (List.map R3.round8))) := by
  have key := fun c h => C87_moved (hc c h).1 (hc c h).2 (c' := c.map R3.round8) (by
    rw [List.head?_map, List.getLast?_map, (hc c h).2]) (round8_moved c) (hf c h)
  exact ⟨fun c h => (key c h).2.1, insideOdd_map _ cs fun c h => (key c h).2.2⟩

/-- **C87, layers.** Under the conditions of C83: the contours assembled for a plane, with the corners as they are stored (rounded to
eight decimals), are closed and enclose the material of the model in the plane, for every point of the plane that is, seen from above,
farther than 1e-8 from the surface. -/
theorem C87_cross_section (S : Sorter) (ts : List RTri) (P N : R3) (hN : N.z ≠ 0) (hw : Watertight ts) (hdeg : ∀ t ∈ ts, t.nrm ≠ 0)
    (hsm : ∀ w ∈ allVerts ts, w.small) (hoff : ∀ w ∈ allVerts ts, R3.height P N w ≠ 0) (hsep : WellSeparated P N ts)
    (p : List (Path XR)) (hp : p.Perm (sectionPaths (Plane.mk P.pt N.vec) (rmesh ts).triangles)) :
    ∃ cs : List (List R3), joinPaths3 S p = .ok (cs.map rpath) ∧ (∀ c ∈ cs, 2 ≤ c.length ∧ c.head? = c.getLast?) ∧
      ∀ x : R3, R3.height P N x = 0 →
        (∀ t ∈ ts, ∀ y, OnTri t y → R3.height P N y = 0 → (1 / 10 ^ 8) ^ 2 < R3.distSq2 y x) →
        (∀ c ∈ cs, ¬ OnContour x c) ∧
        ∀ d : R3, d.dot N = 0 → (∀ w, CrossPoint P N ts w → d.cross2 (w - x) ≠ 0) → (InsideOdd x cs ↔ OddTris x d ts) := by
  obtain ⟨cs, ho, hc, hperm⟩ := C83_contours S ts P N hw hdeg hsm hoff hsep p hp
  refine ⟨cs.map (List.map R3.round8), ?_, ?_, ?_⟩
  · rw [ho, List.map_map]
    congr 1
    refine List.map_congr_left fun c _ => ?_
    simp [rpath, Function.comp_def]
  · intro c hm
    obtain ⟨c, h, rfl⟩ := List.mem_map.1 hm
    rw [List.length_map, List.head?_map, List.getLast?_map, (hc c h).2]
    exact ⟨(hc c h).1, rfl⟩
  · intro x hx hfar
    have hf : ∀ c ∈ cs, FarFrom (1 / 10 ^ 8) x c := by
      intro c h q hq r h0 h1
      obtain ⟨t, ht, hs⟩ := List.mem_filterMap.1 (hperm.mem_iff.1 (List.mem_flatMap.2 ⟨c, h, hq⟩))
      have hv : ∀ w ∈ t.verts, R3.height P N w ≠ 0 := fun w hw => hoff w (List.mem_flatMap.2 ⟨t, ht, hw⟩)
      obtain ⟨c1, c2⟩ := secOf_cross ht hs
      have hz := height_between (crossPoint_height c1) (crossPoint_height c2) r
      exact hfar t ht _ ((onTri_secOf P N t (hv _ (by simp [RTri.verts])) (hv _ (by simp [RTri.verts])) (hv _ (by simp [RTri.verts]))
        _ hz).2 ⟨q, hs, r, h0, h1, rfl⟩) hz
    obtain ⟨hoc, hio⟩ := C87_rounded hc hf
    refine ⟨fun c hm => ?_, fun d hd hg => ?_⟩
    · obtain ⟨c, h, rfl⟩ := List.mem_map.1 hm
      exact hoc c h
    · rw [← hio]
      refine contours_bound hN hoff hc hperm hx (fun t ht hon => ?_) hd hg
      have := hfar t ht x hon hx
      simp [R3.distSq2] at this
      norm_num at this

/-! ## Non-vacuity -/

theorem exTetra_far : ∀ t ∈ exTetra, ∀ y, OnTri t y → R3.height ⟨0, 0, 1⟩ ⟨0, 0, 1⟩ y = 0 → (1 / 10 ^ 8) ^ 2 < R3.distSq2 y ⟨1, 1 / 2, 1⟩ := by
  intro t ht y hy hz
  simp only [exTetra, List.mem_cons, List.not_mem_nil, or_false] at ht
  simp [R3.height, R3.dot] at hz
  rcases ht with rfl | rfl | rfl | rfl <;> obtain ⟨u, v, w, hu, hv, hw, hs, rfl⟩ := hy <;> simp [R3.distSq2] at hz ⊢
  · norm_num; nlinarith [sq_nonneg (v * 4 - 1)]
  · have e1 : w = 1 / 4 := by linarith
    have e2 : v = 3 / 4 - u := by linarith
    rw [e2]; norm_num; nlinarith [sq_nonneg (u - 7 / 16)]
  · norm_num; nlinarith [sq_nonneg (u * 4 - 1 / 2)]

/-- the tetrahedron at height 1: the stored contours contain a point of the inside -/
example (S : Sorter) : ∃ cs : List (List R3),
    joinPaths3 S (sectionPaths (Plane.mk (R3.mk 0 0 1).pt (R3.mk 0 0 1).vec) (rmesh exTetra).triangles) = .ok (cs.map rpath) ∧
      InsideOdd ⟨1, 1 / 2, 1⟩ cs := by
  obtain ⟨hw, hdeg, hsm, hoff, hsep⟩ := exTetra_ok
  obtain ⟨cs, ho, _, h⟩ := C87_cross_section S exTetra ⟨0, 0, 1⟩ ⟨0, 0, 1⟩ (by simp) hw hdeg hsm hoff hsep _ (List.Perm.refl _)
  refine ⟨cs, ho, ((h ⟨1, 1 / 2, 1⟩ (by simp [R3.height, R3.dot]) ?_).2 ⟨1, 0, 0⟩ (by simp [R3.dot]) ?_).2 exTetra_inner.2⟩
  · exact exTetra_far
  · intro w hw
    rcases exTetra_cross hw with h | h <;> simp [R3.cross2, h] <;> norm_num

/-- the middle of a square, and a square with one corner (which is stored twice) moved -/
example : FarFrom 1 ⟨0, 0, 0⟩ (box 4) ∧ MovedBy 1 (box 4) [⟨-4, -5, 0⟩, ⟨4, -4, 0⟩, ⟨4, 4, 0⟩, ⟨-4, 4, 0⟩, ⟨-4, -5, 0⟩] ∧
    Within ⟨0, 0, 0⟩ (box 4) := by
  refine ⟨?_, ?_, box_within 4 0 (by norm_num)⟩
  · intro q hq t h0 h1
    simp [box, sides] at hq
    rcases hq with rfl | rfl | rfl | rfl <;> simp [R3.distSq2] <;> nlinarith
  · simp [MovedBy, box, R3.distSq2]; norm_num

end Goosli
