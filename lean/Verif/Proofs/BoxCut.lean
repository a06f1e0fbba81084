import Verif.Proofs.Box
/-!
# The cross-section of a box is a rectangle
-/
set_option autoImplicit false
namespace Goosli
open Flt Spec

/-! ## specification -/

/-- seen from above, `y` is on the rectangle between `p` and `q` -/
def OnOutline (p q y : R3) : Prop :=
  p.x ≤ y.x ∧ y.x ≤ q.x ∧ p.y ≤ y.y ∧ y.y ≤ q.y ∧ (y.x = p.x ∨ y.x = q.x ∨ y.y = p.y ∨ y.y = q.y)

/-- seen from above, `x` is farther than `1e-8` from the rectangle -/
def OffOutline (p q x : R3) : Prop := ∀ y, OnOutline p q y → (1 / 10 ^ 8) ^ 2 < R3.distSq2 y x

/-- seen from above, `x` is inside the rectangle -/
def InRectangle (p q x : R3) : Prop := p.x < x.x ∧ x.x < q.x ∧ p.y < x.y ∧ x.y < q.y

/-! ## the surface -/

theorem cond_mem {u v : ℝ} (h : u < v) (a : Bool) : u ≤ (bif a then v else u) ∧ (bif a then v else u) ≤ v := by
  cases a <;> simp [h.le]

theorem convex3 {u v a b c x y z : ℝ} (hx : 0 ≤ x) (hy : 0 ≤ y) (hz : 0 ≤ z) (h : x + y + z = 1) (ha : u ≤ a ∧ a ≤ v) (hb : u ≤ b ∧ b ≤ v)
    (hc : u ≤ c ∧ c ≤ v) : u ≤ x * a + y * b + z * c ∧ x * a + y * b + z * c ≤ v := by
  have e : z = 1 - x - y := by linarith
  subst e
  constructor <;> nlinarith [mul_le_mul_of_nonneg_left ha.1 hx, mul_le_mul_of_nonneg_left hb.1 hy, mul_le_mul_of_nonneg_left hc.1 hz,
    mul_le_mul_of_nonneg_left ha.2 hx, mul_le_mul_of_nonneg_left hb.2 hy, mul_le_mul_of_nonneg_left hc.2 hz]

theorem brick_bounds {p q : R3} (h : Below3 p q) {t : RTri} (ht : t ∈ brick p q) {y : R3} (hy : OnTri t y) :
    p.x ≤ y.x ∧ y.x ≤ q.x ∧ p.y ≤ y.y ∧ y.y ≤ q.y := by
  obtain ⟨f, -, rfl⟩ := List.mem_map.1 ht
  obtain ⟨u, v, w, hu, hv, hw, hs, rfl⟩ := hy
  have a := convex3 hu hv hw hs (cond_mem h.1 f.1.1) (cond_mem h.1 f.2.1.1) (cond_mem h.1 f.2.2.1)
  have b := convex3 hu hv hw hs (cond_mem h.2.1 f.1.2.1) (cond_mem h.2.1 f.2.1.2.1) (cond_mem h.2.1 f.2.2.2.1)
  exact ⟨a.1, a.2, b.1, b.2⟩

theorem brick_outline {p q : R3} (h : Below3 p q) {t : RTri} (ht : t ∈ brick p q) {y : R3} (hy : OnTri t y) (h0 : p.z < y.z) (h1 : y.z < q.z) :
    OnOutline p q y := by
  obtain ⟨b1, b2, b3, b4⟩ := brick_bounds h ht hy
  refine ⟨b1, b2, b3, b4, ?_⟩
  obtain ⟨f, hf, rfl⟩ := List.mem_map.1 ht
  obtain ⟨u, v, w, hu, hv, hw, hs, e⟩ := hy
  have ex := congrArg R3.x e
  have ey := congrArg R3.y e
  have ez := congrArg R3.z e
  have one : ∀ c : ℝ, u * c + v * c + w * c = c := fun c => by rw [← add_mul, ← add_mul, hs, one_mul]
  simp only [boxFaces, List.mem_cons, List.not_mem_nil, or_false] at hf
  rcases hf with rfl | rfl | rfl | rfl | rfl | rfl | rfl | rfl | rfl | rfl | rfl | rfl <;>
    simp [cornerAt, one] at ex ey ez <;> first
    | (exfalso; linarith)
    | (left; exact ex)
    | (right; left; exact ex)
    | (right; right; left; exact ey)
    | (right; right; right; exact ey)

theorem far_of_off {p q : R3} (h : Below3 p q) {l : ℝ} (h0 : p.z < l) (h1 : l < q.z) {x : R3} (hx : OffOutline p q x) :
    FarFromSurface (1 / 10 ^ 8) (lvl l) zUp (brick p q) x := by
  intro t ht y hy hl
  rw [height_lvl] at hl
  have hz : y.z = l := by linarith
  exact hx y (brick_outline h ht hy (by rw [hz]; exact h0) (by rw [hz]; exact h1))

/-! ## thin triangles -/

/-- the coefficients of the double area of three crossing points, in `(1-τ)^2`, `τ(1-τ)`, `τ^2` -/
def bern (e f g : Corner × Corner) : ℤ × ℤ × ℤ :=
  let X := fun (e : Corner × Corner) => (bit e.1.1, bit e.2.1)
  let Y := fun (e : Corner × Corner) => (bit e.1.2.1, bit e.2.2.1)
  let d := fun (u v : ℤ × ℤ) => (u.1 - v.1, u.2 - v.2)
  let m := fun (u v : ℤ × ℤ) => (u.1 * v.1, u.1 * v.2 + u.2 * v.1, u.2 * v.2)
  let a := m (d (X f) (X e)) (d (Y g) (Y f))
  let b := m (d (Y f) (Y e)) (d (X g) (X f))
  (a.1 - b.1, a.2.1 - b.2.1, a.2.2 - b.2.2)

/-- on a common side -/
def oneSide (e f g : Corner × Corner) : Bool :=
  let c := fun (s : Corner → Bool) (v : Bool) => s e.1 == v && s e.2 == v && s f.1 == v && s f.2 == v && s g.1 == v && s g.2 == v
  c (·.1) false || c (·.1) true || c (·.2.1) false || c (·.2.1) true

set_option maxRecDepth 16384 in
theorem rising_triples : ∀ e ∈ risingEdges, ∀ f ∈ risingEdges, ∀ g ∈ risingEdges, e ≠ f → f ≠ g → e ≠ g →
    oneSide e f g = true ∨ (0 ≤ (bern e f g).1 ∧ 0 ≤ (bern e f g).2.1 ∧ 0 ≤ (bern e f g).2.2 ∧ 0 < (bern e f g).1 + (bern e f g).2.1 + (bern e f g).2.2) ∨
      ((bern e f g).1 ≤ 0 ∧ (bern e f g).2.1 ≤ 0 ∧ (bern e f g).2.2 ≤ 0 ∧ (bern e f g).1 + (bern e f g).2.1 + (bern e f g).2.2 < 0) := by
  decide

/-- the double area, as a share -/
noncomputable def triArea2 (τ : ℝ) (e f g : Corner × Corner) : ℝ :=
  (along τ f.1.1 f.2.1 - along τ e.1.1 e.2.1) * (along τ g.1.2.1 g.2.2.1 - along τ f.1.2.1 f.2.2.1) -
    (along τ f.1.2.1 f.2.2.1 - along τ e.1.2.1 e.2.2.1) * (along τ g.1.1 g.2.1 - along τ f.1.1 f.2.1)

theorem area2_bern (τ : ℝ) (e f g : Corner × Corner) :
    triArea2 τ e f g = (bern e f g).1 * (1 - τ) ^ 2 + (bern e f g).2.1 * (τ * (1 - τ)) + (bern e f g).2.2 * τ ^ 2 := by
  unfold triArea2 bern along
  push_cast
  ring

theorem bern_lower {x y z : ℤ} {τ μ : ℝ} (hμ : 0 ≤ μ) (h0 : μ ≤ τ) (h1 : μ ≤ 1 - τ) (hx : 0 ≤ x) (hy : 0 ≤ y) (hz : 0 ≤ z) (hs : 0 < x + y + z) :
    μ ^ 2 ≤ x * (1 - τ) ^ 2 + y * (τ * (1 - τ)) + z * τ ^ 2 := by
  have a : μ ^ 2 ≤ (1 - τ) ^ 2 := by nlinarith
  have b : μ ^ 2 ≤ τ * (1 - τ) := by nlinarith
  have c : μ ^ 2 ≤ τ ^ 2 := by nlinarith
  have hx' : (0 : ℝ) ≤ x := by exact_mod_cast hx
  have hy' : (0 : ℝ) ≤ y := by exact_mod_cast hy
  have hz' : (0 : ℝ) ≤ z := by exact_mod_cast hz
  have hs' : (1 : ℝ) ≤ x + y + z := by exact_mod_cast hs
  nlinarith [mul_le_mul_of_nonneg_left a hx', mul_le_mul_of_nonneg_left b hy', mul_le_mul_of_nonneg_left c hz', mul_le_mul_of_nonneg_right hs' (sq_nonneg μ)]

theorem area2_lower {τ μ : ℝ} (hμ : 0 ≤ μ) (h0 : μ ≤ τ) (h1 : μ ≤ 1 - τ) {e f g : Corner × Corner} (he : e ∈ risingEdges) (hf : f ∈ risingEdges)
    (hg : g ∈ risingEdges) (ef : e ≠ f) (fg : f ≠ g) (eg : e ≠ g) : oneSide e f g = true ∨ μ ^ 2 ≤ |triArea2 τ e f g| := by
  rcases rising_triples e he f hf g hg ef fg eg with h | ⟨x, y, z, s⟩ | ⟨x, y, z, s⟩
  · exact Or.inl h
  · right
    rw [area2_bern]
    exact (bern_lower hμ h0 h1 x y z s).trans (le_abs_self _)
  · right
    rw [area2_bern]
    have := bern_lower (x := -(bern e f g).1) (y := -(bern e f g).2.1) (z := -(bern e f g).2.2) hμ h0 h1 (by omega) (by omega) (by omega) (by omega)
    push_cast at this
    refine le_trans ?_ (neg_le_abs _)
    linarith

theorem along_mem {τ : ℝ} (h0 : 0 ≤ τ) (h1 : τ ≤ 1) (a b : Bool) : 0 ≤ along τ a b ∧ along τ a b ≤ 1 := by
  unfold along
  cases a <;> cases b <;> simp [bit] <;> (try constructor) <;> linarith

/-- moving the corners by `ε` changes the double area by little -/
theorem cross_move {u v u' v' a b ε : ℝ} (ha : 0 ≤ a) (hb : 0 ≤ b) (hε : 0 ≤ ε) {du dv du' dv' : ℝ} (hu : |u| ≤ a) (hv : |v| ≤ b)
    (hu' : |u'| ≤ a) (hv' : |v'| ≤ b) (e1 : |du - u| ≤ ε) (e2 : |dv - v| ≤ ε) (e3 : |du' - u'| ≤ ε) (e4 : |dv' - v'| ≤ ε) :
    |u * v' - v * u'| ≤ |du * dv' - dv * du'| + 2 * ε * (a + b + ε) := by
  have k : ∀ {x y dx dy A B : ℝ}, 0 ≤ A → |x| ≤ A → |y| ≤ B → |dx - x| ≤ ε → |dy - y| ≤ ε → |x * y - dx * dy| ≤ ε * (A + B + ε) := by
    intro x y dx dy A B hA h1 h2 h3 h4
    have e : x * y - dx * dy = -(x * (dy - y) + (dx - x) * y + (dx - x) * (dy - y)) := by ring
    rw [e, abs_neg]
    refine (abs_add_le _ _).trans ?_
    have := abs_add_le (x * (dy - y)) ((dx - x) * y)
    rw [abs_mul, abs_mul] at this
    rw [abs_mul]
    nlinarith [mul_le_mul h1 h4 (abs_nonneg _) hA, mul_le_mul h3 h2 (abs_nonneg _) hε, mul_le_mul h3 h4 (abs_nonneg _) hε]
  have k1 := k ha hu hv' e1 e4
  have k2 := k hb hv hu' e2 e3
  have e : u * v' - v * u' = (u * v' - du * dv') - (v * u' - dv * du') + (du * dv' - dv * du') := by ring
  rw [e]
  refine (abs_add_le _ _).trans ?_
  have := abs_sub (u * v' - du * dv') (v * u' - dv * du')
  linarith

theorem GoodBox.sides {k : ℕ} {p q : R3} (H : GoodBox k p q) : 1 ≤ q.x - p.x ∧ 1 ≤ q.y - p.y := by
  have a := (H.qx.sub H.px).le_abs (sub_ne_zero.2 H.below.1.ne')
  have b := (H.qy.sub H.py).le_abs (sub_ne_zero.2 H.below.2.1.ne')
  rw [abs_of_pos (sub_pos.2 H.below.1)] at a
  rw [abs_of_pos (sub_pos.2 H.below.2.1)] at b
  norm_num at a b
  exact ⟨a, b⟩

/-- a level on the grid is neither close to the bottom nor to the top -/
theorem GoodBox.share {k : ℕ} {p q : R3} (H : GoodBox k p q) {h : ℝ} (hg : Dyadic k h) (h0 : p.z < h) (h1 : h < q.z) :
    1 / 500 ≤ share p q h ∧ 1 / 500 ≤ 1 - share p q h := by
  have k0 : (0 : ℝ) < 2 ^ k := by positivity
  have a := (hg.sub (H.pz.mono (Nat.zero_le k))).le_abs (sub_ne_zero.2 h0.ne')
  have b := ((H.qz.mono (Nat.zero_le k)).sub hg).le_abs (sub_ne_zero.2 h1.ne')
  rw [abs_of_pos (by linarith), div_le_iff₀ k0] at a b
  have hz : 0 < q.z - p.z := by linarith
  have hh := H.high
  unfold Goosli.share
  constructor
  · rw [le_div_iff₀ hz]
    by_contra hc
    push Not at hc
    nlinarith
  · have e : 1 - (h - p.z) / (q.z - p.z) = (q.z - h) / (q.z - p.z) := by field_simp; ring
    rw [e, le_div_iff₀ hz]
    by_contra hc
    push Not at hc
    nlinarith

theorem between_along {u v τ : ℝ} (huv : u ≤ v) (h0 : 0 ≤ τ) (h1 : τ ≤ 1) (a b : Bool) : u ≤ u + (v - u) * along τ a b ∧ u + (v - u) * along τ a b ≤ v := by
  obtain ⟨l0, l1⟩ := along_mem h0 h1 a b
  constructor <;> nlinarith

theorem clamp_near {l u v : ℝ} (lu : l ≤ u) (h0 : l - 6 / 10 ^ 9 ≤ v) (h1 : v ≤ u + 6 / 10 ^ 9) :
    ∃ w, l ≤ w ∧ w ≤ u ∧ (w - v) ^ 2 ≤ (6 / 10 ^ 9) ^ 2 := by
  rcases le_total v l with hv | hv
  · exact ⟨l, le_refl _, lu, by nlinarith⟩
  · rcases le_total v u with hw | hw
    · exact ⟨v, hv, hw, by rw [sub_self]; norm_num⟩
    · exact ⟨u, lu, le_refl _, by nlinarith⟩

/-- a point near a side is not off the outline -/
theorem near_side {p q x : R3} (hb : Below3 p q) (hx : OffOutline p q x) (x0 : p.x - 6 / 10 ^ 9 ≤ x.x) (x1 : x.x ≤ q.x + 6 / 10 ^ 9)
    (y0 : p.y - 6 / 10 ^ 9 ≤ x.y) (y1 : x.y ≤ q.y + 6 / 10 ^ 9) :
    ¬ (|x.x - p.x| ≤ 6 / 10 ^ 9 ∨ |x.x - q.x| ≤ 6 / 10 ^ 9 ∨ |x.y - p.y| ≤ 6 / 10 ^ 9 ∨ |x.y - q.y| ≤ 6 / 10 ^ 9) := by
  obtain ⟨wx, wx0, wx1, wx2⟩ := clamp_near hb.1.le x0 x1
  obtain ⟨wy, wy0, wy1, wy2⟩ := clamp_near hb.2.1.le y0 y1
  have sq : ∀ {u v : ℝ}, |u - v| ≤ 6 / 10 ^ 9 → (v - u) ^ 2 ≤ (6 / 10 ^ 9) ^ 2 := by
    intro u v h
    rw [show (v - u) ^ 2 = |u - v| ^ 2 by rw [sq_abs]; ring]
    exact pow_le_pow_left₀ (abs_nonneg _) h 2
  have fin : ∀ {A B : ℝ}, A ≤ (6 / 10 ^ 9) ^ 2 → B ≤ (6 / 10 ^ 9) ^ 2 → ¬ ((1 / 10 ^ 8) ^ 2 < A + B) := by
    intro A B hA hB; norm_num at hA hB ⊢; linarith
  rintro (h | h | h | h)
  · exact fin (sq h) wy2 (hx ⟨p.x, wy, 0⟩ ⟨le_refl _, hb.1.le, wy0, wy1, Or.inl rfl⟩)
  · exact fin (sq h) wy2 (hx ⟨q.x, wy, 0⟩ ⟨hb.1.le, le_refl _, wy0, wy1, Or.inr (Or.inl rfl)⟩)
  · exact fin wx2 (sq h) (hx ⟨wx, p.y, 0⟩ ⟨wx0, wx1, le_refl _, hb.2.1.le, Or.inr (Or.inr (Or.inl rfl))⟩)
  · exact fin wx2 (sq h) (hx ⟨wx, q.y, 0⟩ ⟨wx0, wx1, hb.2.1.le, le_refl _, Or.inr (Or.inr (Or.inr rfl))⟩)

/-- where the crossing point of the edge is -/
def CutAt (p q : R3) (h : ℝ) (e : Corner × Corner) (u : R3) : Prop :=
  u.z = h ∧ u.x = p.x + (q.x - p.x) * along (share p q h) e.1.1 e.2.1 ∧ u.y = p.y + (q.y - p.y) * along (share p q h) e.1.2.1 e.2.2.1

/-- the stored crossing point is near the exact one, which is in the rectangle -/
theorem CutAt.near {k : ℕ} {p q : R3} (H : GoodBox k p q) {h : ℝ} (h0 : p.z < h) (h1 : h < q.z) {e : Corner × Corner} {u : R3} (hu : CutAt p q h e u) :
    (p.x ≤ u.x ∧ u.x ≤ q.x) ∧ (p.y ≤ u.y ∧ u.y ≤ q.y) ∧ |(storedAt u).x - u.x| ≤ 6 / 10 ^ 9 ∧ |(storedAt u).y - u.y| ≤ 6 / 10 ^ 9 := by
  obtain ⟨s0, s1⟩ := share_mem h0 h1
  obtain ⟨-, ux, uy⟩ := hu
  have ix := between_along H.below.1.le s0.le s1.le e.1.1 e.2.1
  have iy := between_along H.below.2.1.le s0.le s1.le e.1.2.1 e.2.2.1
  rw [← ux] at ix
  rw [← uy] at iy
  have a := abs_le.1 H.pr.1
  have b := abs_le.1 H.qr.1
  have c := abs_le.1 H.pr.2.1
  have d := abs_le.1 H.qr.2.1
  refine ⟨ix, iy, (store_err (c := u.x) (abs_le.2 ⟨by linarith, by linarith⟩)).1.trans (by norm_num),
    (store_err (c := u.y) (abs_le.2 ⟨by linarith, by linarith⟩)).1.trans (by norm_num)⟩

theorem conv_near {α β γ a b c s ε : ℝ} (α0 : 0 ≤ α) (β0 : 0 ≤ β) (γ0 : 0 ≤ γ) (hs : α + β + γ = 1) (ha : |a - s| ≤ ε) (hb : |b - s| ≤ ε) (hc : |c - s| ≤ ε) :
    |α * a + β * b + γ * c - s| ≤ ε := by
  rw [abs_le] at *
  have := convex3 α0 β0 γ0 hs (u := s - ε) (v := s + ε) (a := a) (b := b) (c := c) (by constructor <;> linarith [ha.1, ha.2])
    (by constructor <;> linarith [hb.1, hb.2]) (by constructor <;> linarith [hc.1, hc.2])
  constructor <;> linarith [this.1, this.2]

theorem conv_in {α β γ a b c a' b' c' l u ε : ℝ} (α0 : 0 ≤ α) (β0 : 0 ≤ β) (γ0 : 0 ≤ γ) (hs : α + β + γ = 1) (ha : |a' - a| ≤ ε) (hb : |b' - b| ≤ ε) (hc : |c' - c| ≤ ε)
    (ia : l ≤ a ∧ a ≤ u) (ib : l ≤ b ∧ b ≤ u) (ic : l ≤ c ∧ c ≤ u) :
    l - ε ≤ α * a' + β * b' + γ * c' ∧ α * a' + β * b' + γ * c' ≤ u + ε := by
  rw [abs_le] at ha hb hc
  exact convex3 α0 β0 γ0 hs (by constructor <;> linarith [ha.1, ha.2]) (by constructor <;> linarith [hb.1, hb.2]) (by constructor <;> linarith [hc.1, hc.2])

theorem cut_const {p q : R3} {h : ℝ} {e : Corner × Corner} {u : R3} (hu : CutAt p q h e u) :
    (e.1.1 = false → e.2.1 = false → u.x = p.x) ∧ (e.1.1 = true → e.2.1 = true → u.x = q.x) ∧
    (e.1.2.1 = false → e.2.2.1 = false → u.y = p.y) ∧ (e.1.2.1 = true → e.2.2.1 = true → u.y = q.y) := by
  obtain ⟨-, ux, uy⟩ := hu
  refine ⟨fun a b => ?_, fun a b => ?_, fun a b => ?_, fun a b => ?_⟩
  · rw [ux, a, b]; simp [along, bit]
  · rw [ux, a, b]; simp [along, bit]
  · rw [uy, a, b]; simp [along, bit]
  · rw [uy, a, b]; simp [along, bit]

/-- a triangle of stored crossing points on one side is near this side -/
theorem thin_side {k : ℕ} {p q : R3} (H : GoodBox k p q) {h : ℝ} (h0 : p.z < h) (h1 : h < q.z) {x : R3} (hx : OffOutline p q x)
    {e f g : Corner × Corner} {a b c : R3} (ha : CutAt p q h e a) (hb : CutAt p q h f b) (hc : CutAt p q h g c) (hside : oneSide e f g = true) :
    ¬ InTri2 x (storedAt a) (storedAt b) (storedAt c) := by
  rintro ⟨α, β, γ, α0, β0, γ0, hs, ex, ey⟩
  obtain ⟨ax, ay, nax, nay⟩ := ha.near H h0 h1
  obtain ⟨bx, bY, nbx, nby⟩ := hb.near H h0 h1
  obtain ⟨cx, cy, ncx, ncy⟩ := hc.near H h0 h1
  have rx := conv_in α0 β0 γ0 hs nax nbx ncx ax bx cx
  have ry := conv_in α0 β0 γ0 hs nay nby ncy ay bY cy
  rw [← ex] at rx
  rw [← ey] at ry
  apply near_side H.below hx rx.1 rx.2 ry.1 ry.2
  obtain ⟨a1, a2, a3, a4⟩ := cut_const ha
  obtain ⟨b1, b2, b3, b4⟩ := cut_const hb
  obtain ⟨c1, c2, c3, c4⟩ := cut_const hc
  simp only [oneSide, Bool.or_eq_true, Bool.and_eq_true, beq_iff_eq] at hside
  rcases hside with ((hside | hside) | hside) | hside <;> obtain ⟨⟨⟨⟨⟨s1, s2⟩, s3⟩, s4⟩, s5⟩, s6⟩ := hside
  · refine Or.inl ?_
    rw [ex]
    exact conv_near α0 β0 γ0 hs (a1 s1 s2 ▸ nax) (b1 s3 s4 ▸ nbx) (c1 s5 s6 ▸ ncx)
  · refine Or.inr (Or.inl ?_)
    rw [ex]
    exact conv_near α0 β0 γ0 hs (a2 s1 s2 ▸ nax) (b2 s3 s4 ▸ nbx) (c2 s5 s6 ▸ ncx)
  · refine Or.inr (Or.inr (Or.inl ?_))
    rw [ey]
    exact conv_near α0 β0 γ0 hs (a3 s1 s2 ▸ nay) (b3 s3 s4 ▸ nby) (c3 s5 s6 ▸ ncy)
  · refine Or.inr (Or.inr (Or.inr ?_))
    rw [ey]
    exact conv_near α0 β0 γ0 hs (a4 s1 s2 ▸ nay) (b4 s3 s4 ▸ nby) (c4 s5 s6 ▸ ncy)

/-- other triangles of stored crossing points are not thin -/
theorem thin_not {k : ℕ} {p q : R3} (H : GoodBox k p q) {h : ℝ} (h0 : p.z < h) (h1 : h < q.z)
    {e f g : Corner × Corner} {a b c : R3} (ha : CutAt p q h e a) (hb : CutAt p q h f b) (hc : CutAt p q h g c)
    (hbig : (1 / 500) ^ 2 ≤ |triArea2 (share p q h) e f g|) :
    102 / 10 ^ 8 ≤ |(storedAt b - storedAt a).cross2 (storedAt c - storedAt b)| := by
  obtain ⟨ax, ay, nax, nay⟩ := ha.near H h0 h1
  obtain ⟨bx, bY, nbx, nby⟩ := hb.near H h0 h1
  obtain ⟨cx, cy, ncx, ncy⟩ := hc.near H h0 h1
  obtain ⟨sx, sy⟩ := H.sides
  have diff : ∀ {u v du dv : ℝ}, |du - u| ≤ 6 / 10 ^ 9 → |dv - v| ≤ 6 / 10 ^ 9 → |(du - dv) - (u - v)| ≤ 12 / 10 ^ 9 := by
    intro u v du dv h1 h2
    rw [abs_le] at h1 h2 ⊢
    constructor <;> linarith [h1.1, h1.2, h2.1, h2.2]
  have within : ∀ {l r u v : ℝ}, l ≤ u ∧ u ≤ r → l ≤ v ∧ v ≤ r → |u - v| ≤ r - l := by
    intro l r u v h1 h2
    rw [abs_le]
    constructor <;> linarith [h1.1, h1.2, h2.1, h2.2]
  have key := cross_move (a := q.x - p.x) (b := q.y - p.y) (ε := 12 / 10 ^ 9) (by linarith) (by linarith) (by norm_num)
    (within bx ax) (within bY ay) (within cx bx) (within cy bY) (diff nbx nax) (diff nby nay) (diff ncx nbx) (diff ncy nby)
  have e0 : (b.x - a.x) * (c.y - b.y) - (b.y - a.y) * (c.x - b.x) = (q.x - p.x) * (q.y - p.y) * triArea2 (share p q h) e f g := by
    unfold triArea2
    rw [ha.2.1, ha.2.2, hb.2.1, hb.2.2, hc.2.1, hc.2.2]
    ring
  have e1 : (storedAt b - storedAt a).cross2 (storedAt c - storedAt b) =
      ((storedAt b).x - (storedAt a).x) * ((storedAt c).y - (storedAt b).y) - ((storedAt b).y - (storedAt a).y) * ((storedAt c).x - (storedAt b).x) := rfl
  rw [e1]
  rw [e0, abs_mul, abs_of_pos (mul_pos (by linarith) (by linarith) : 0 < (q.x - p.x) * (q.y - p.y))] at key
  generalize |((storedAt b).x - (storedAt a).x) * ((storedAt c).y - (storedAt b).y) - ((storedAt b).y - (storedAt a).y) * ((storedAt c).x - (storedAt b).x)| = R at key ⊢
  generalize |triArea2 (share p q h) e f g| = D at key hbig
  generalize q.x - p.x = A at key sx
  generalize q.y - p.y = B at key sy
  clear * - key sx sy hbig
  have ab1 : A + B ≤ 2 * (A * B) := by nlinarith
  have ab2 : 1 ≤ A * B := by nlinarith
  have := mul_le_mul_of_nonneg_left hbig (by linarith : 0 ≤ A * B)
  norm_num at *
  linarith

/-- at a level of a box there are no thin triangles away from the outline -/
theorem box_thin {k : ℕ} {p q : R3} (H : GoodBox k p q) {h : ℝ} (hg : Dyadic k h) (h0 : p.z < h) (h1 : h < q.z) {x : R3} (hx : OffOutline p q x) :
    OffThinCuts h (brick p q) x := by
  intro a b c ha hb hc ab bc ac harea
  obtain ⟨az, e, he, ax, ay⟩ := box_cross h0 h1 ha
  obtain ⟨bz, f, hf, bx, by'⟩ := box_cross h0 h1 hb
  obtain ⟨cz, g, hg', cx, cy⟩ := box_cross h0 h1 hc
  obtain ⟨m0, m1⟩ := H.share hg h0 h1
  have same : ∀ {u v : R3} {i j : Corner × Corner}, CutAt p q h i u → CutAt p q h j v → i = j → storedAt u = storedAt v := by
    rintro u v i j ⟨uz, ux, uy⟩ ⟨vz, vx, vy⟩ rfl
    rw [R3.ext (ux.trans vx.symm) (uy.trans vy.symm) (uz.trans vz.symm)]
  have A : CutAt p q h e a := ⟨az, ax, ay⟩
  have B : CutAt p q h f b := ⟨bz, bx, by'⟩
  have C : CutAt p q h g c := ⟨cz, cx, cy⟩
  rcases area2_lower (μ := 1 / 500) (by norm_num) m0 m1 he hf hg' (fun hh => ab (same A B hh)) (fun hh => bc (same B C hh)) (fun hh => ac (same A C hh)) with hside | hbig
  · exact thin_side H h0 h1 hx A B C hside
  · exact absurd harea (not_lt.2 (thin_not H h0 h1 A B C hbig))

end Goosli
