import Verif.Props.C87
import Verif.Props.C17
/-!
# C88: merging collinear lines keeps the inside of a contour
-/
set_option autoImplicit false
namespace Goosli
open Flt R3

/-- seen from above, `x` is in the (closed) triangle -/
def InTri2 (x u v w : R3) : Prop := ∃ α β γ : ℝ, 0 ≤ α ∧ 0 ≤ β ∧ 0 ≤ γ ∧ α + β + γ = 1 ∧
  x.x = α * u.x + β * v.x + γ * w.x ∧ x.y = α * u.y + β * v.y + γ * w.y

/-- seen from above, `x` is in no triangle of three corners of the contour that is so slim that two of its sides count as collinear -/
def OffSlim (x : R3) (c : List R3) : Prop :=
  ∀ u ∈ c, ∀ v ∈ c, ∀ w ∈ c, u ≠ v → v ≠ w → u ≠ w → ((v - u).cross (w - v)).norm < 1 / 10 ^ 6 → ¬ InTri2 x u v w

/-! ## One triangle -/

theorem inTri2_rot {x u v w : R3} (h : InTri2 x u v w) : InTri2 x v w u := by
  obtain ⟨α, β, γ, h1, h2, h3, hs, ex, ey⟩ := h
  exact ⟨β, γ, α, h2, h3, h1, by linarith, by linarith, by linarith⟩

theorem inTri2_swap {x u v w : R3} (h : InTri2 x u v w) : InTri2 x u w v := by
  obtain ⟨α, β, γ, h1, h2, h3, hs, ex, ey⟩ := h
  exact ⟨α, γ, β, h1, h3, h2, by linarith, by linarith, by linarith⟩

theorem inTri2_of_side {x u w : R3} (v : R3) {t : ℝ} (h0 : 0 ≤ t) (h1 : t ≤ 1) (ex : u.x + t * (w.x - u.x) = x.x)
    (ey : u.y + t * (w.y - u.y) = x.y) : InTri2 x u v w :=
  ⟨1 - t, 0, t, by linarith, le_rfl, h0, by ring, by rw [← ex]; ring, by rw [← ey]; ring⟩

/-- of the two sides at the corner that is alone on its side of the line, the ray meets one and the opposite ray the other -/
theorem apex_in {x d p q r : R3} (hp : d.cross2 (p - x) ≠ 0) (hr : d.cross2 (r - x) ≠ 0)
    (hpr : d.cross2 (p - x) * d.cross2 (r - x) < 0) (hq : RayHits x d (p, q)) (hn : ¬ RayHits x d (p, r)) : InTri2 x p q r := by
  have e : ∀ w : R3, (⟨-d.x, -d.y, 0⟩ : R3).cross2 w = -d.cross2 w := by intro w; simp [R3.cross2]; ring
  have hb : RayHits x ⟨-d.x, -d.y, 0⟩ (p, r) := by
    rw [rayHits_iff _ _ _ _ (by rw [e]; exact neg_ne_zero.2 hp) (by rw [e]; exact neg_ne_zero.2 hr), e, e]
    rw [rayHits_iff _ _ _ _ hp hr, not_and, not_le] at hn
    have := hn hpr
    exact ⟨by linarith, by linarith⟩
  obtain ⟨s, t, hs, h0, h1, ex, ey⟩ := hq
  obtain ⟨s', t', hs', h0', h1', ex', ey'⟩ := hb
  simp only at ex ey ex' ey'
  rcases eq_or_lt_of_le (add_nonneg hs hs') with hz | hz
  · have : s = 0 := by linarith
    subst this
    exact inTri2_swap (inTri2_of_side r h0 h1 (by linarith) (by linarith))
  · refine ⟨(s' * (1 - t) + s * (1 - t')) / (s + s'), s' * t / (s + s'), s * t' / (s + s'), ?_, by positivity, by positivity, ?_, ?_, ?_⟩
    · have := mul_nonneg hs' (sub_nonneg.2 h1)
      have := mul_nonneg hs (sub_nonneg.2 h1')
      positivity
    · field_simp; ring
    · field_simp; linear_combination -s' * ex - s * ex'
    · field_simp; linear_combination -s' * ey - s * ey'

theorem hit_pos {x d a b : R3} (h : RayHits x d (a, b)) : hit x d a b = 1 := by unfold hit; rw [if_pos h]
theorem hit_neg {x d a b : R3} (h : ¬ RayHits x d (a, b)) : hit x d a b = 0 := by unfold hit; rw [if_neg h]

/-- the corner `p` is alone on its side of the line -/
theorem apex_even {x d p q r : R3} (hp : d.cross2 (p - x) ≠ 0) (hq : d.cross2 (q - x) ≠ 0) (hr : d.cross2 (r - x) ≠ 0)
    (hpq : d.cross2 (p - x) * d.cross2 (q - x) < 0) (hpr : d.cross2 (p - x) * d.cross2 (r - x) < 0) (hx : ¬ InTri2 x p q r) :
    (hit x d p q + hit x d q r + hit x d p r) % 2 = 0 := by
  have hqr : ¬ RayHits x d (q, r) := by
    rw [rayHits_iff _ _ _ _ hq hr, not_and]
    intro h
    rcases lt_or_gt_of_ne hp with h1 | h1 <;> rcases lt_or_gt_of_ne hq with h2 | h2 <;> rcases lt_or_gt_of_ne hr with h3 | h3 <;> nlinarith
  rw [hit_neg hqr]
  by_cases h1 : RayHits x d (p, q) <;> by_cases h2 : RayHits x d (p, r)
  · rw [hit_pos h1, hit_pos h2]
  · exact absurd (apex_in hp hr hpr h1 h2) hx
  · exact absurd (inTri2_swap (apex_in hp hq hpq h2 h1)) hx
  · rw [hit_neg h1, hit_neg h2]

/-- a ray meets an even number of sides of a triangle that does not contain its origin -/
theorem tri_even {x d u v w : R3} (hu : d.cross2 (u - x) ≠ 0) (hv : d.cross2 (v - x) ≠ 0) (hw : d.cross2 (w - x) ≠ 0)
    (hx : ¬ InTri2 x u v w) : (hit x d u v + hit x d v w + hit x d u w) % 2 = 0 := by
  by_cases h1 : d.cross2 (u - x) * d.cross2 (v - x) < 0
  · by_cases h2 : d.cross2 (u - x) * d.cross2 (w - x) < 0
    · exact apex_even hu hv hw h1 h2 hx
    · have h3 : d.cross2 (v - x) * d.cross2 (w - x) < 0 := by
        rcases lt_or_gt_of_ne hu with h1 | h1 <;> rcases lt_or_gt_of_ne hv with h2 | h2 <;> rcases lt_or_gt_of_ne hw with h3 | h3 <;> nlinarith
      have := apex_even hv hw hu h3 (by linarith) fun h => hx (inTri2_rot (inTri2_rot h))
      rw [hit_swap x d w u, hit_swap x d v u] at this
      omega
  · by_cases h2 : d.cross2 (u - x) * d.cross2 (w - x) < 0
    · have h3 : d.cross2 (w - x) * d.cross2 (v - x) < 0 := by
        rcases lt_or_gt_of_ne hu with h1 | h1 <;> rcases lt_or_gt_of_ne hv with h2 | h2 <;> rcases lt_or_gt_of_ne hw with h3 | h3 <;> nlinarith
      have := apex_even hw hu hv (by linarith) h3 fun h => hx (inTri2_rot h)
      rw [hit_swap x d w u, hit_swap x d w v] at this
      omega
    · have h3 : ¬ d.cross2 (v - x) * d.cross2 (w - x) < 0 := by
        intro h
        rcases lt_or_gt_of_ne hu with h1 | h1 <;> rcases lt_or_gt_of_ne hv with h2 | h2 <;> rcases lt_or_gt_of_ne hw with h3 | h3 <;> nlinarith
      rw [hit_neg fun h => h1 ((rayHits_iff _ _ _ _ hu hv).1 h).1, hit_neg fun h => h2 ((rayHits_iff _ _ _ _ hu hw).1 h).1,
        hit_neg fun h => h3 ((rayHits_iff _ _ _ _ hv hw).1 h).1]

/-- the same for three corners that need not be distinct -/
theorem tri_even' {x d u v w : R3} (hu : d.cross2 (u - x) ≠ 0) (hv : d.cross2 (v - x) ≠ 0) (hw : d.cross2 (w - x) ≠ 0)
    (hx : u ≠ v → v ≠ w → u ≠ w → ¬ InTri2 x u v w) : (hit x d u v + hit x d v w + hit x d u w) % 2 = 0 := by
  by_cases h1 : u = v
  · subst h1; rw [hit_neg (rayHits_self hu)]; omega
  · by_cases h2 : v = w
    · subst h2; rw [hit_neg (rayHits_self hv)]; omega
    · by_cases h3 : u = w
      · subst h3; rw [hit_neg (rayHits_self hu), hit_swap x d v u]; omega
      · exact tri_even hu hv hw (hx h1 h2 h3)

/-- seen from above, `x` is on the segment -/
def OnSide (x u v : R3) : Prop := ∃ r : ℝ, 0 ≤ r ∧ r ≤ 1 ∧ u.x + r * (v.x - u.x) = x.x ∧ u.y + r * (v.y - u.y) = x.y

theorem onSide_drop {x u v w : R3} (hx : u ≠ v → v ≠ w → u ≠ w → ¬ InTri2 x u v w) (h : OnSide x u w) : OnSide x u v ∨ OnSide x v w := by
  by_cases h1 : u = v
  · subst h1; exact Or.inr h
  · by_cases h2 : v = w
    · subst h2; exact Or.inl h
    · obtain ⟨r, h0, hr, ex, ey⟩ := h
      by_cases h3 : u = w
      · subst h3
        exact Or.inl ⟨0, le_rfl, zero_le_one, by linarith, by linarith⟩
      · exact absurd (inTri2_of_side v h0 hr ex ey) (hx h1 h2 h3)

/-! ## Taking a corner out of a path -/

open Classical in
/-- number of sides the ray meets -/
noncomputable def hits (x d : R3) (c : List R3) : Nat := (sides c).countP (fun q => decide (RayHits x d q))

theorem hits_single (x d a : R3) : hits x d [a] = 0 := by simp [hits, sides]

open Classical in
theorem hits_cons (x d a b : R3) (t : List R3) : hits x d (a :: b :: t) = hit x d a b + hits x d (b :: t) := by
  show ((a, b) :: sides (b :: t)).countP _ = _
  rw [List.countP_cons, hits, hit]; simp [add_comm]

theorem hits_append (x d : R3) : ∀ (A : List R3) (b : R3) (B : List R3), hits x d (A ++ b :: B) = hits x d (A ++ [b]) + hits x d (b :: B)
  | [], b, B => by simp [hits_single]
  | [a], b, B => by simp [hits_cons, hits_single]
  | a :: a' :: A, b, B => by
    have := hits_append x d (a' :: A) b B
    simp only [List.cons_append, hits_cons] at this ⊢
    omega

theorem onContour_cons (x a b : R3) (t : List R3) : OnContour x (a :: b :: t) ↔ OnSide x a b ∨ OnContour x (b :: t) := by
  have : sides (a :: b :: t) = (a, b) :: sides (b :: t) := rfl
  unfold OnContour OnSide
  rw [this]
  simp only [List.mem_cons, exists_eq_or_imp]

theorem onContour_append (x : R3) : ∀ (A : List R3) (b : R3) (B : List R3), OnContour x (A ++ b :: B) ↔ OnContour x (A ++ [b]) ∨ OnContour x (b :: B)
  | [], b, B => by
    have : ¬ OnContour x [b] := by rintro ⟨q, hq, _⟩; simp [sides] at hq
    simp [this]
  | [a], b, B => by
    have : ¬ OnContour x [b] := by rintro ⟨q, hq, _⟩; simp [sides] at hq
    simp [onContour_cons, this]
  | a :: a' :: A, b, B => by
    have := onContour_append x (a' :: A) b B
    simp only [List.cons_append, onContour_cons] at this ⊢
    rw [this, or_assoc]

/-- without a corner where two sides count as collinear -/
theorem drop_corner {x d : R3} (A : List R3) (u v w : R3) (B : List R3) (hx : u ≠ v → v ≠ w → u ≠ w → ¬ InTri2 x u v w)
    (hg : ∀ y ∈ [u, v, w], d.cross2 (y - x) ≠ 0) :
    hits x d (A ++ u :: w :: B) % 2 = hits x d (A ++ u :: v :: w :: B) % 2 := by
  rw [hits_append x d A u (w :: B), hits_append x d A u (v :: w :: B), hits_cons, hits_cons, hits_cons]
  have := tri_even' (hg u (by simp)) (hg v (by simp)) (hg w (by simp)) hx
  omega

theorem drop_off {x : R3} (A : List R3) (u v w : R3) (B : List R3) (hx : u ≠ v → v ≠ w → u ≠ w → ¬ InTri2 x u v w) (h : ¬ OnContour x (A ++ u :: v :: w :: B)) :
    ¬ OnContour x (A ++ u :: w :: B) := by
  rw [onContour_append, onContour_cons, onContour_cons] at h
  rw [onContour_append, onContour_cons]
  rintro (h1 | h1 | h1)
  · exact h (Or.inl h1)
  · rcases onSide_drop hx h1 with h1 | h1
    · exact h (Or.inr (Or.inl h1))
    · exact h (Or.inr (Or.inr (Or.inl h1)))
  · exact h (Or.inr (Or.inr (Or.inr h1)))

/-! ## The loop, for any arithmetic -/

/-- seen from above, `x` is in no triangle of three corners of the contour that counts as slim -/
def OffSlimBy (Slim : R3 → R3 → R3 → Prop) (x : R3) (c : List R3) : Prop :=
  ∀ u ∈ c, ∀ v ∈ c, ∀ w ∈ c, u ≠ v → v ≠ w → u ≠ w → Slim u v w → ¬ InTri2 x u v w

theorem offSlim_mono {Slim : R3 → R3 → R3 → Prop} {x : R3} {c c' : List R3} (h : ∀ w ∈ c', w ∈ c) (ho : OffSlimBy Slim x c) :
    OffSlimBy Slim x c' :=
  fun u hu v hv w hw => ho u (h u hu) v (h v hv) w (h w hw)

/-- if the program takes two sides with these corners for collinear, they are `Slim`; `f` is how a point is represented -/
def MergesSlim {α : Type} [Flt α] (f : R3 → Point α) (Slim : R3 → R3 → R3 → Prop) (K : List R3) : Prop :=
  ∀ u ∈ K, ∀ v ∈ K, ∀ w ∈ K, (Line.mk (f u) (f v)).isCollinear (Line.mk (f v) (f w)) = true → Slim u v w

section Any
variable {α : Type} [Flt α] {f : R3 → Point α} {Slim : R3 → R3 → R3 → Prop} {K : List R3}

theorem minimizeLoop_real (hK : MergesSlim f Slim K) : ∀ (rest A : List R3) (u v : R3), (∀ y ∈ A ++ u :: v :: rest, y ∈ K) →
    ∃ (A' : List R3) (u' v' : R3),
    minimizeLoop (rest.map f) ((A ++ [u, v]).map f) ⟨f u, f v⟩ = ((A' ++ [u', v']).map f, ⟨f u', f v'⟩) ∧
    (∀ y ∈ A' ++ [u', v'], y ∈ A ++ u :: v :: rest) ∧ (A' ++ [u', v']).head? = (A ++ u :: v :: rest).head? ∧
    (A' ++ [u', v']).getLast? = (A ++ u :: v :: rest).getLast? ∧
    ∀ x, OffSlimBy Slim x (A ++ u :: v :: rest) → (¬ OnContour x (A ++ u :: v :: rest) → ¬ OnContour x (A' ++ [u', v'])) ∧
      ∀ d, Generic x d (A ++ u :: v :: rest) → hits x d (A' ++ [u', v']) % 2 = hits x d (A ++ u :: v :: rest) % 2
  | [], A, u, v, _ => ⟨A, u, v, by simp [minimizeLoop], fun y h => h, rfl, rfl, fun x _ => ⟨fun h => h, fun d _ => rfl⟩⟩
  | w :: t, A, u, v, hin => by
    simp only [List.map_cons, minimizeLoop]
    by_cases hc : (Line.mk (f u) (f v)).isCollinear (Line.mk (f v) (f w)) = true
    · rw [if_pos hc]
      have e : setLast ((A ++ [u, v]).map f) (f w) = (A ++ [u, w]).map f := by
        have : (A ++ [u, v]).map f = (A.map f ++ [f u]) ++ [f v] := by simp
        rw [setLast, this, List.dropLast_concat]; simp
      rw [e]
      have hm : ∀ y ∈ A ++ u :: w :: t, y ∈ A ++ u :: v :: w :: t := by
        intro y hy
        simp only [List.mem_append, List.mem_cons] at hy ⊢
        tauto
      obtain ⟨A', u', v', h1, h2, h3, h4, h5⟩ := minimizeLoop_real hK t A u w fun y hy => hin y (hm y hy)
      refine ⟨A', u', v', h1, fun y hy => hm y (h2 y hy), ?_, ?_, ?_⟩
      · rw [h3]; cases A <;> rfl
      · rw [h4, List.getLast?_append_of_ne_nil _ (by simp), List.getLast?_append_of_ne_nil _ (by simp)]
        simp only [List.getLast?_cons_cons]
      · intro x hs
        have hx : u ≠ v → v ≠ w → u ≠ w → ¬ InTri2 x u v w := fun n1 n2 n3 =>
          hs u (by simp) v (by simp) w (by simp) n1 n2 n3
            (hK u (hin u (by simp)) v (hin v (by simp)) w (hin w (by simp)) hc)
        obtain ⟨k1, k2⟩ := h5 x (offSlim_mono hm hs)
        refine ⟨fun h => k1 (drop_off A u v w t hx h), fun d hg => ?_⟩
        rw [k2 d fun y hy => hg y (hm y hy)]
        exact drop_corner A u v w t hx fun y hy => hg y (by
          simp only [List.mem_append, List.mem_cons, List.not_mem_nil] at hy ⊢
          tauto)
    · rw [if_neg hc]
      obtain ⟨A', u', v', h1, h2, h3, h4, h5⟩ := minimizeLoop_real hK t (A ++ [u]) v w (by simpa using hin)
      simp only [List.append_assoc, List.cons_append, List.nil_append] at h1 h2 h3 h4 h5
      refine ⟨A', u', v', ?_, h2, h3, h4, h5⟩
      rw [← h1]; simp

/-! ## Closing the contour -/

/-- what the closing step does to a closed contour `r :: M ++ [r]` with `M = s :: _ = _ ++ [u]` -/
theorem minimizeClose_real (f : R3 → Point α) (r s u : R3) (M M' M'' : List R3) (h1 : M = s :: M') (h2 : M = M'' ++ [u]) :
    (minimizeClose ((r :: (M ++ [r])).map f) ⟨f u, f r⟩ = (r :: (M ++ [r])).map f) ∨
    ((Line.mk (f u) (f r)).isCollinear (Line.mk (f r) (f s)) = true ∧
      (minimizeClose ((r :: (M ++ [r])).map f) ⟨f u, f r⟩ = (M ++ [s]).map f ∨
        minimizeClose ((r :: (M ++ [r])).map f) ⟨f u, f r⟩ = (u :: M).map f)) := by
  have e : (r :: (M ++ [r])).map f = f r :: f s :: (M' ++ [r]).map f := by rw [h1]; rfl
  by_cases hc : (Line.mk (f u) (f r)).isCollinear (Line.mk (f r) (f s)) = true
  · by_cases hl : (Path.mk (f r :: f s :: (M' ++ [r]).map f)).isClosed = true
    · right
      refine ⟨hc, ?_⟩
      rw [e]
      unfold minimizeClose
      simp only
      rw [if_pos hl, if_pos hc]
      split
      · left
        have : f s :: (M' ++ [r]).map f = M.map f ++ [f r] := by rw [h1]; simp
        rw [this, setLast, List.dropLast_concat]; simp
      · right
        have e2 : f r :: f s :: (M' ++ [r]).map f = (f r :: M''.map f ++ [f u]) ++ [f r] := by
          rw [← e, h2]; simp
        have e3 : f u :: f s :: (M' ++ [r]).map f = (u :: M).map f ++ [f r] := by rw [h1]; simp
        rw [e2, List.dropLast_concat, List.getLast?_concat]
        simp only
        rw [e3, List.dropLast_concat]
    · left
      rw [e]
      unfold minimizeClose
      simp only
      rw [if_neg hl]
  · left
    rw [e]
    unfold minimizeClose
    simp only
    split <;> rfl

theorem minimizeClose_two (f : R3 → Point α) (r : R3) :
    minimizeClose [f r, f r] ⟨f r, f r⟩ = [f r] ∨ minimizeClose [f r, f r] ⟨f r, f r⟩ = [f r, f r] := by
  unfold minimizeClose
  simp only
  split
  · split
    · left; split <;> simp [setLast]
    · right; rfl
  · right; rfl

theorem within_ray (x d : R3) (c : List R3) (hc : c.head? = c.getLast?) (hon : ¬ OnContour x c) (hg : Generic x d c) :
    Within x c ↔ hits x d c % 2 = 1 := within_oddHits x d c hc hon hg

/-- merging collinear lines, for any arithmetic in which only slim corners are taken for collinear -/
theorem minimize_inside (c : List R3) (hK : MergesSlim f Slim c) (h2 : 2 ≤ c.length) (hc : c.head? = c.getLast?) :
    ∃ c' : List R3, (Path.mk (c.map f)).minimizeLines = ⟨c'.map f⟩ ∧ c' ≠ [] ∧ c'.head? = c'.getLast? ∧ (∀ w ∈ c', w ∈ c) ∧
      ∀ x, ¬ OnContour x c → OffSlimBy Slim x c → ¬ OnContour x c' ∧ (Within x c ↔ Within x c') := by
  match c, h2 with
  | [a, b], _ => exact ⟨[a, b], rfl, by simp, hc, fun _ h => h, fun x h _ => ⟨h, Iff.rfl⟩⟩
  | p0 :: p1 :: p2 :: rest, h2 =>
    obtain ⟨A, u, v, e1, hm, hh, hl, hp⟩ := minimizeLoop_real hK (p2 :: rest) [] p0 p1 fun y h => h
    simp only [List.nil_append] at e1 hm hh hl hp
    -- the parity for all points, given the parity after the closing step
    have fin : ∀ c' : List R3, minimizeClose ((A ++ [u, v]).map f) ⟨f u, f v⟩ = c'.map f → c' ≠ [] → c'.head? = c'.getLast? →
        (∀ w ∈ c', w ∈ A ++ [u, v]) → (∀ x, OffSlimBy Slim x (A ++ [u, v]) → ¬ OnContour x (A ++ [u, v]) → ¬ OnContour x c' ∧
          ∀ d, Generic x d (A ++ [u, v]) → hits x d c' % 2 = hits x d (A ++ [u, v]) % 2) →
        ∃ c' : List R3, (Path.mk ((p0 :: p1 :: p2 :: rest).map f)).minimizeLines = ⟨c'.map f⟩ ∧ c' ≠ [] ∧ c'.head? = c'.getLast? ∧
          (∀ w ∈ c', w ∈ p0 :: p1 :: p2 :: rest) ∧
          ∀ x, ¬ OnContour x (p0 :: p1 :: p2 :: rest) → OffSlimBy Slim x (p0 :: p1 :: p2 :: rest) →
            ¬ OnContour x c' ∧ (Within x (p0 :: p1 :: p2 :: rest) ↔ Within x c') := by
      intro c' e2 hne hcl hsub hpar
      refine ⟨c', ?_, hne, hcl, fun w hw => hm w (hsub w hw), fun x hon hs => ?_⟩
      · simp only [Path.minimizeLines, List.map_cons] at e1 ⊢
        simp only [List.map_nil] at e1
        rw [e1, e2]
      · obtain ⟨k1, k2⟩ := hp x hs
        obtain ⟨k3, k4⟩ := hpar x (offSlim_mono hm hs) (k1 hon)
        refine ⟨k3, ?_⟩
        obtain ⟨d, hd, -⟩ := exists_generic x _ (corner_ne h2 hon) [] (by simp)
        rw [within_ray x d _ hc hon hd, within_ray x d c' hcl k3 fun w hw => hd w (hm w (hsub w hw)), k4 d fun w hw => hd w (hm w hw), k2 d hd]
    have hcl : (A ++ [u, v]).head? = (A ++ [u, v]).getLast? := by rw [hh, hl]; exact hc
    cases A with
    | nil =>
      simp at hcl
      subst hcl
      rcases minimizeClose_two f u with h | h
      · refine fin [u] (by simpa using h) (by simp) rfl (by simp) fun x hs hon => ⟨?_, fun d hg => ?_⟩
        · rintro ⟨q, hq, _⟩; simp [sides] at hq
        · simp only [List.nil_append, hits_cons, hits_single]
          rw [hit_neg (rayHits_self (hg u (by simp)))]
      · exact fin [u, u] (by simpa using h) (by simp) rfl (by simp) fun x hs hon => ⟨hon, fun d hg => rfl⟩
    | cons r B =>
      have hv : v = r := by
        rw [show r :: B ++ [u, v] = (r :: B ++ [u]) ++ [v] by simp, List.getLast?_concat] at hcl
        simpa using hcl.symm
      subst hv
      obtain ⟨s, M', hM⟩ : ∃ s M', B ++ [u] = s :: M' := by cases B <;> simp
      have eM : v :: B ++ [u, v] = v :: ((B ++ [u]) ++ [v]) := by simp
      rw [eM] at fin hcl hm
      have gen : ∀ x d, hits x d (v :: ((B ++ [u]) ++ [v])) = hit x d v s + hits x d (B ++ [u]) + hit x d u v := by
        intro x d
        rw [hM, List.cons_append, hits_cons, ← List.cons_append, ← hM, show (B ++ [u]) ++ [v] = B ++ u :: [v] by simp, hits_append, hits_cons, hits_single]
        omega
      have single : ∀ {x y : R3}, ¬ OnContour x [y] := by
        rintro x y ⟨q, hq, _⟩; simp [sides] at hq
      have offM : ∀ x, OnContour x (B ++ [u]) → OnContour x (v :: ((B ++ [u]) ++ [v])) := by
        intro x hx
        rw [hM, List.cons_append, onContour_cons, ← List.cons_append, ← hM, show (B ++ [u]) ++ [v] = B ++ u :: [v] by simp, onContour_append]
        exact Or.inr (Or.inl hx)
      have huM : u ∈ v :: ((B ++ [u]) ++ [v]) := by simp
      have hsM : s ∈ v :: ((B ++ [u]) ++ [v]) := by rw [hM]; simp
      have offS : ∀ x, OnSide x u v ∨ OnSide x v s → OnContour x (v :: ((B ++ [u]) ++ [v])) := by
        intro x hx
        rw [hM, List.cons_append, onContour_cons, ← List.cons_append, ← hM, show (B ++ [u]) ++ [v] = B ++ u :: [v] by simp, onContour_append,
          onContour_cons]
        tauto
      rcases minimizeClose_real f v s u (B ++ [u]) M' B hM rfl with h | ⟨hcol, h⟩
      · exact fin _ h (by simp) hcl (fun _ h => h) fun x _ hon => ⟨hon, fun d _ => rfl⟩
      have slim : ∀ x, OffSlimBy Slim x (v :: ((B ++ [u]) ++ [v])) → u ≠ v → v ≠ s → u ≠ s → ¬ InTri2 x u v s :=
        fun x hs n1 n2 n3 => hs u huM v (by simp) s hsM n1 n2 n3
          (hK u (hm u huM) v (hm v (by simp)) s (hm s hsM) hcol)
      rcases h with h | h
      · refine fin _ h (by simp) ?_ ?_ fun x hs hon => ⟨?_, fun d hg => ?_⟩
        · rw [List.getLast?_concat, hM]; rfl
        · intro w hw
          rcases List.mem_append.1 hw with hw | hw
          · exact List.mem_cons_of_mem _ (List.mem_append_left _ hw)
          · rw [List.mem_singleton] at hw
            subst hw
            exact hsM
        · rw [show (B ++ [u]) ++ [s] = B ++ u :: [s] by simp, onContour_append, onContour_cons]
          rintro (h1 | h1 | h1)
          · exact hon (offM x h1)
          · exact hon (offS x (onSide_drop (slim x hs) h1))
          · exact single h1
        · have := tri_even' (hg u huM) (hg v (by simp)) (hg s hsM) (slim x hs)
          rw [gen, show (B ++ [u]) ++ [s] = B ++ u :: [s] by simp, hits_append, hits_cons, hits_single]
          omega
      · refine fin _ h (by simp) ?_ ?_ fun x hs hon => ⟨?_, fun d hg => ?_⟩
        · rw [← List.cons_append, List.getLast?_concat]; rfl
        · intro w hw
          rcases List.mem_cons.1 hw with rfl | hw
          · exact huM
          · exact List.mem_cons_of_mem _ (List.mem_append_left _ hw)
        · rw [hM, onContour_cons, ← hM]
          rintro (h1 | h1)
          · exact hon (offS x (onSide_drop (slim x hs) h1))
          · exact hon (offM x h1)
        · have := tri_even' (hg u huM) (hg v (by simp)) (hg s hsM) (slim x hs)
          rw [gen, hM, hits_cons, ← hM]
          omega
end Any

/-- **C88.** A closed contour with finite coordinates stays a closed contour with corners from among the old ones when collinear lines
are merged. A point that is not on it and in no slim triangle of its corners is not on the merged contour, and is inside the one exactly
if it is inside the other. What is missing are the points in slim triangles, for which the statement is false (`C88_violated`). -/
theorem C88_inside_partial (c : List R3) (h2 : 2 ≤ c.length) (hc : c.head? = c.getLast?) :
    ∃ c' : List R3, (rpath c).minimizeLines = rpath c' ∧ c' ≠ [] ∧ c'.head? = c'.getLast? ∧ (∀ w ∈ c', w ∈ c) ∧
      ∀ x, ¬ OnContour x c → OffSlim x c → ¬ OnContour x c' ∧ (Within x c ↔ Within x c') :=
  minimize_inside (f := R3.pt) (Slim := fun u v w => ((v - u).cross (w - v)).norm < 1 / 10 ^ 6) c (by
    intro u _ v _ w _ h
    rw [isCollinear_pt, decide_eq_true_eq] at h
    simpa [tol] using h) h2 hc

/-! ## Points in slim triangles -/

theorem minimizeClose_point (r : R3) : minimizeClose [r.pt, r.pt] ⟨r.pt, r.pt⟩ = [r.pt] := by
  have hl : (Path.mk [r.pt, r.pt]).isClosed = true := by
    simp [Path.isClosed, equal_pt]; exact near_refl r
  unfold minimizeClose
  simp only
  rw [if_pos hl, isCollinear_pt, decide_eq_true (by simp [R3.cross, R3.norm, R3.normSq, R3.dot, tol]), if_pos rfl]
  split <;> simp [setLast]


/-- **C88, small contours.** A square of half a thousandth is merged into a single point, although it contains points. -/
theorem C88_violated : ∃ (c : List R3) (x : R3), c.head? = c.getLast? ∧ (∀ w ∈ c, w.z = x.z) ∧ ¬ OnContour x c ∧ Within x c ∧
    ∃ c' : List R3, (rpath c).minimizeLines = rpath c' ∧ ¬ OnContour x c' ∧ ¬ Within x c' := by
  have hon : ¬ OnContour ⟨0, 0, 0⟩ (box (1 / 4000)) := by
    rintro ⟨q, hq, t, h0, h1, ex, ey⟩
    simp [box, sides] at hq
    rcases hq with rfl | rfl | rfl | rfl <;> first | (norm_num at ex; done) | norm_num at ey
  refine ⟨box (1 / 4000), ⟨0, 0, 0⟩, rfl, ?_, hon, box_within _ 0 (by norm_num), [⟨-(1 / 4000), -(1 / 4000), 0⟩], ?_, ?_, ?_⟩
  · intro w hw
    simp [box] at hw
    rcases hw with rfl | rfl | rfl | rfl | rfl <;> rfl
  · have k : ∀ a b c : R3, (a.z = 0 ∧ b.z = 0 ∧ c.z = 0 ∧ |(b.x - a.x) * (c.y - b.y) - (b.y - a.y) * (c.x - b.x)| < 1 / 10 ^ 6) →
        (Line.mk a.pt b.pt).isCollinear (Line.mk b.pt c.pt) = true := by
      rintro a b c ⟨ha, hb, hc, h⟩
      rw [isCollinear_pt, decide_eq_true_eq]
      have e : ((b - a).cross (c - b)).norm = |(b.x - a.x) * (c.y - b.y) - (b.y - a.y) * (c.x - b.x)| := by
        simp [R3.norm, R3.normSq, R3.dot, R3.cross, ha, hb, hc, Real.sqrt_mul_self_eq_abs]
      rw [e]; simpa [tol] using h
    simp only [rpath, box, List.map_cons, List.map_nil, Path.minimizeLines, minimizeLoop]
    rw [k _ _ _ (by norm_num [abs_lt]), if_pos rfl]
    simp only [setLast, List.dropLast, List.cons_append, List.nil_append]
    rw [k _ _ _ (by norm_num [abs_lt]), if_pos rfl]
    rw [k _ _ _ (by norm_num [abs_lt]), if_pos rfl, minimizeClose_point]
  · rintro ⟨q, hq, _⟩; simp [sides] at hq
  · rintro ⟨d, _, h⟩; simp [OddHits, sides] at h

/-! ## Non-vacuity -/

/-- a square with a corner in the middle of a side: a point inside that is in no slim triangle -/
example : ¬ OnContour ⟨1, 1, 0⟩ [⟨0, 0, 0⟩, ⟨2, 0, 0⟩, ⟨4, 0, 0⟩, ⟨4, 4, 0⟩, ⟨0, 4, 0⟩, ⟨0, 0, 0⟩] ∧
    OffSlim ⟨1, 1, 0⟩ [⟨0, 0, 0⟩, ⟨2, 0, 0⟩, ⟨4, 0, 0⟩, ⟨4, 4, 0⟩, ⟨0, 4, 0⟩, ⟨0, 0, 0⟩] ∧
    Within ⟨1, 1, 0⟩ [⟨0, 0, 0⟩, ⟨2, 0, 0⟩, ⟨4, 0, 0⟩, ⟨4, 4, 0⟩, ⟨0, 4, 0⟩, ⟨0, 0, 0⟩] := by
  refine ⟨?_, ?_, ⟨2, 1, 0⟩, ?_, ?_⟩
  · rintro ⟨q, hq, t, h0, h1, ex, ey⟩
    simp [sides] at hq
    rcases hq with rfl | rfl | rfl | rfl | rfl <;> first | (norm_num at ex; done) | norm_num at ey
  · intro u hu v hv w hw n1 n2 n3 hn hx
    have hz : ∀ y ∈ [(⟨0, 0, 0⟩ : R3), ⟨2, 0, 0⟩, ⟨4, 0, 0⟩, ⟨4, 4, 0⟩, ⟨0, 4, 0⟩, ⟨0, 0, 0⟩], y.z = 0 := by
      intro y hy; simp at hy; rcases hy with rfl | rfl | rfl | rfl | rfl | rfl <;> rfl
    have hn' : |(v.x - u.x) * (w.y - v.y) - (v.y - u.y) * (w.x - v.x)| < 1 / 10 ^ 6 := by
      simpa [R3.norm, R3.normSq, R3.dot, R3.cross, hz u hu, hz v hv, hz w hw, Real.sqrt_mul_self_eq_abs] using hn
    rw [abs_lt] at hn'
    obtain ⟨l1, l2⟩ := hn'
    obtain ⟨α, β, γ, h1, h2, h3, hs, ex, ey⟩ := hx
    have l := And.intro l1 (And.intro l2 ey)
    clear hn hz l1 l2 ex ey
    simp only [List.mem_cons, List.not_mem_nil, or_false] at hu hv hw
    rcases hu with rfl | rfl | rfl | rfl | rfl | rfl <;> rcases hv with rfl | rfl | rfl | rfl | rfl | rfl <;>
      rcases hw with rfl | rfl | rfl | rfl | rfl | rfl <;> first | exact absurd rfl n1 | exact absurd rfl n2 | exact absurd rfl n3 |
      norm_num at l
  · intro w hw
    simp at hw
    rcases hw with rfl | rfl | rfl | rfl | rfl | rfl <;> norm_num [R3.cross2]
  · have hs : sides [(⟨0, 0, 0⟩ : R3), ⟨2, 0, 0⟩, ⟨4, 0, 0⟩, ⟨4, 4, 0⟩, ⟨0, 4, 0⟩, ⟨0, 0, 0⟩] = [(⟨0, 0, 0⟩, ⟨2, 0, 0⟩), (⟨2, 0, 0⟩, ⟨4, 0, 0⟩),
      (⟨4, 0, 0⟩, ⟨4, 4, 0⟩), (⟨4, 4, 0⟩, ⟨0, 4, 0⟩), (⟨0, 4, 0⟩, ⟨0, 0, 0⟩)] := rfl
    unfold OddHits
    rw [hs]
    simp only [List.countP_cons, List.countP_nil]
    rw [if_neg, if_neg, if_pos, if_neg, if_neg] <;> simp only [decide_eq_true_eq] <;>
      rw [rayHits_iff _ _ _ _ (by norm_num [R3.cross2]) (by norm_num [R3.cross2])] <;> norm_num [R3.cross2]

end Goosli
