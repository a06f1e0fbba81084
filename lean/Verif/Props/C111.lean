import Verif.Props.C110
/-!
# C111: fill lines of boxes run from wall to wall, and solid layers of boxes are solid
-/
set_option autoImplicit false
namespace Goosli
open Flt R3 Spec

/-! ## specification -/

/-- seen from above, `x` is farther than `ε` from the rectangle -/
def FarOutline (ε : ℝ) (p q x : R3) : Prop := ∀ y, OnOutline p q y → ε ^ 2 < R3.distSq2 y x

/-- the line runs along Y at the abscissa `X`, from the wall at `p` to the wall at `q` -/
def UpTo (p q : R3) (X : ℝ) (s : R3 × R3) : Prop :=
  |s.1.x - X| ≤ 2 / 10 ^ 11 ∧ |s.2.x - X| ≤ 2 / 10 ^ 11 ∧ |s.1.y - p.y| ≤ 2 / 10 ^ 8 ∧ |s.2.y - q.y| ≤ 2 / 10 ^ 8

/-- the line runs along Y at the abscissa `X` from one wall to the other, one way or the other -/
def WallToWall (p q : R3) (X : ℝ) (s : R3 × R3) : Prop := UpTo p q X s ∨ UpTo p q X s.swap

/-- the abscissas at which the diagonals of the sides of the box pass the level -/
noncomputable def diagonalsAt (p q : R3) (h : ℝ) : List ℝ :=
  [p.x + (q.x - p.x) * ((h - p.z) / (q.z - p.z)), q.x - (q.x - p.x) * ((h - p.z) / (q.z - p.z))]

/-- the abscissa `X` keeps a distance of more than 0.0002 from the diagonals -/
def ClearOfDiagonals (p q : R3) (h X : ℝ) : Prop := ∀ v ∈ diagonalsAt p q h, 2001 / 10 ^ 7 ≤ |X - v|

/-! ## distances -/

theorem far_tri {a b : ℝ} (a0 : 0 ≤ a) (b0 : 0 ≤ b) {u v w : R3} (h1 : R3.distSq2 u v ≤ a ^ 2) (h2 : (a + b) ^ 2 < R3.distSq2 u w) :
    b ^ 2 < R3.distSq2 v w := by
  by_contra hc
  rw [not_lt] at hc
  simp only [R3.distSq2] at h1 h2 hc
  have key : |(u.x - v.x) * (v.x - w.x) + (u.y - v.y) * (v.y - w.y)| ≤ a * b := by
    apply abs_le_of_sq_le_sq _ (mul_nonneg a0 b0)
    have cs : ((u.x - v.x) * (v.x - w.x) + (u.y - v.y) * (v.y - w.y)) ^ 2 ≤
        ((u.x - v.x) ^ 2 + (u.y - v.y) ^ 2) * ((v.x - w.x) ^ 2 + (v.y - w.y) ^ 2) := by
      nlinarith [sq_nonneg ((u.x - v.x) * (v.y - w.y) - (u.y - v.y) * (v.x - w.x))]
    refine cs.trans ?_
    rw [mul_pow]
    exact mul_le_mul h1 hc (by positivity) (by positivity)
  have := (abs_le.1 key).2
  nlinarith

/-- a point of a contour is near the outline -/
theorem contour_near {k : ℕ} {p q : R3} (H : GoodBox k p q) {h : ℝ} (hg : Dyadic k h) (h0 : p.z < h) (h1 : h < q.z) {cs : List (List R3)}
    (hcs : BoundMaterialF h (brick p q) cs) {c : List R3} (hc : c ∈ cs) {y : R3} (hy : OnContour y c) :
    ∃ o, OnOutline p q o ∧ R3.distSq2 o y ≤ (1 / 10 ^ 8) ^ 2 := by
  by_contra hn
  push Not at hn
  have off : OffOutline p q ⟨y.x, y.y, h⟩ := fun o ho => hn o ho
  exact (C110_contours H hg h0 h1 hcs rfl off).1 c hc hy

/-! ## the chord -/

/-- **C111, chord.** On a fill plane that keeps a distance of `g` from the corners of the contours, the fill lines of a box are the part of the
plane in the rectangle, for points farther than `3e-8 / g + 1e-8` from the outline. -/
theorem C111_chord {k : ℕ} {p q : R3} (H : GoodBox k p q) {h : ℝ} (hg : Dyadic k h) (h0 : p.z < h) (h1 : h < q.z) {cs : List (List R3)}
    (hcs : BoundMaterialF h (brick p q) cs) {g : ℝ} (g0 : 0 < g) {F N : R3} {lines : List (R3 × R3)}
    (hf : FillIsMaterialF (3 / 10 ^ 8 / g) h (brick p q) cs F N lines) {x : R3} (hz : x.z = h) (hx : R3.height F N x = 0)
    (far : FarOutline (3 / 10 ^ 8 / g + 1 / 10 ^ 8) p q x) : InRectangle p q x ↔ ∃ s ∈ lines, OnLineF s x := by
  have e0 : 0 ≤ 3 / 10 ^ 8 / g := by positivity
  have off : OffOutline p q x := fun y hy => by
    refine lt_of_le_of_lt ?_ (far y hy)
    exact pow_le_pow_left₀ (by norm_num) (by linarith) 2
  rw [← box_material H hg h0 h1 hz off]
  refine hf x hz hx (fun c hc s hs t t0 t1 => ?_) (far_of_off H.below h0 h1 off) (box_thin H hg h0 h1 off)
  obtain ⟨o, ho, hd⟩ := contour_near H hg h0 h1 hcs hc (y := s.1 + t • (s.2 - s.1)) ⟨s, hs, t, t0, t1, by simp, by simp⟩
  refine far_tri (by norm_num) e0 hd ?_
  rw [add_comm]
  exact far o ho

/-! ## from wall to wall -/

theorem rising_abscissa : ∀ e ∈ risingEdges, (e.1.1, e.2.1) ∈ [(false, false), (true, true), (false, true), (true, false)] := by decide

/-- the corners of the contours are at the sides or on the diagonals -/
theorem corner_abscissa {k : ℕ} {p q : R3} (H : GoodBox k p q) {h : ℝ} (h0 : p.z < h) (h1 : h < q.z) {cs : List (List R3)}
    (hcs : BoundMaterialF h (brick p q) cs) {c : List R3} (hc : c ∈ cs) {w : R3} (hw : w ∈ c) :
    ∃ v, (v = p.x ∨ v = q.x ∨ v ∈ diagonalsAt p q h) ∧ |w.x - v| ≤ 6 / 10 ^ 9 := by
  obtain ⟨a, ha, rfl⟩ := (hcs.1 c hc).2.2 w hw
  obtain ⟨az, e, he, ax, ay⟩ := box_cross h0 h1 ha
  obtain ⟨-, -, n1, -⟩ := CutAt.near H h0 h1 (e := e) ⟨az, ax, ay⟩
  refine ⟨a.x, ?_, n1⟩
  have hr := rising_abscissa e he
  simp only [List.mem_cons, Prod.mk.injEq, List.not_mem_nil, or_false] at hr
  have hs : share p q h = (h - p.z) / (q.z - p.z) := rfl
  rcases hr with ⟨e1, e2⟩ | ⟨e1, e2⟩ | ⟨e1, e2⟩ | ⟨e1, e2⟩ <;> rw [e1, e2] at ax <;> simp only [along, bit, cond_true, cond_false] at ax
  · left; rw [ax]; ring
  · right; left; rw [ax]; ring
  · right; right
    simp only [diagonalsAt, List.mem_cons, List.not_mem_nil, or_false]
    left; rw [ax, hs]; ring
  · right; right
    simp only [diagonalsAt, List.mem_cons, List.not_mem_nil, or_false]
    right; rw [ax, hs]; ring

theorem height_x (F w : R3) : R3.height F ⟨1, 0, 0⟩ w = w.x - F.x := by simp [R3.height, R3.dot]

/-- the end of a fill line at the abscissa `X` is at one of the two walls -/
theorem end_at_wall {k : ℕ} {p q : R3} (H : GoodBox k p q) {h : ℝ} (hg : Dyadic k h) (h0 : p.z < h) (h1 : h < q.z) {cs : List (List R3)}
    (hcs : BoundMaterialF h (brick p q) cs) {X : ℝ} (x0 : p.x + 1 / 5000 ≤ X) (x1 : X ≤ q.x - 1 / 5000) {w : R3} (hw : |w.x - X| ≤ 2 / 10 ^ 11)
    (hn : NearSide cs w) : |w.y - p.y| ≤ 2 / 10 ^ 8 ∨ |w.y - q.y| ≤ 2 / 10 ^ 8 := by
  obtain ⟨c, hc, s, hs, t, t0, t1, ex, ey⟩ := hn
  obtain ⟨o, ⟨-, -, -, -, ho⟩, hd⟩ := contour_near H hg h0 h1 hcs hc
    (y := ⟨s.1.x + t * (s.2.x - s.1.x), s.1.y + t * (s.2.y - s.1.y), h⟩) ⟨s, hs, t, t0, t1, rfl, rfl⟩
  simp only [R3.distSq2] at hd
  generalize s.1.x + t * (s.2.x - s.1.x) = a at ex hd
  generalize s.1.y + t * (s.2.y - s.1.y) = b at ey hd
  have dx : |o.x - a| ≤ 1 / 10 ^ 8 := abs_le_of_sq_le_sq (by nlinarith [sq_nonneg (o.y - b)]) (by norm_num)
  have dy : |o.y - b| ≤ 1 / 10 ^ 8 := abs_le_of_sq_le_sq (by nlinarith [sq_nonneg (o.x - a)]) (by norm_num)
  rw [abs_le] at hw ex ey dx dy
  rcases ho with e | e | e | e
  · exfalso; norm_num at *; linarith
  · exfalso; norm_num at *; linarith
  · left; rw [abs_le]; norm_num at *; constructor <;> linarith
  · right; rw [abs_le]; norm_num at *; constructor <;> linarith

theorem between_ends {t a b l u : ℝ} (t0 : 0 < t) (t1 : t < 1) (ha : l ≤ a ∧ a ≤ u) (hb : l ≤ b ∧ b ≤ u) : l ≤ a + t * (b - a) ∧ a + t * (b - a) ≤ u := by
  constructor <;> nlinarith

/-- a fill plane across the X axis which is in the box, and keeps a distance of 0.0002 from its sides and from the diagonals of its sides, is filled
from wall to wall -/
theorem wall_lines {k : ℕ} {p q : R3} (H : GoodBox k p q) {h : ℝ} (hg : Dyadic k h) (h0 : p.z < h) (h1 : h < q.z) {cs : List (List R3)}
    (hcs : BoundMaterialF h (brick p q) cs) {f : R3 × R3} {lines : List (R3 × R3)}
    (hends : ∀ s ∈ lines, ∀ w, w = s.1 ∨ w = s.2 → w.isF ∧ w.onBed ∧ w.z = rd (r8 h) ∧ NearSide cs w)
    (m1 : ∀ s ∈ lines, ∀ w, w = s.1 ∨ w = s.2 → |R3.height f.1 f.2 w| ≤ 2 / 10 ^ 11)
    (hmat : ∀ g : ℝ, 1 / 10 ^ 7 ≤ g → g ≤ 1 → (∀ c ∈ cs, ∀ w ∈ c, g ≤ |R3.height f.1 f.2 w|) →
      FillIsMaterialF (3 / 10 ^ 8 / g) h (brick p q) cs f.1 f.2 lines)
    (hN : f.2 = ⟨1, 0, 0⟩) (x0 : p.x + 2001 / 10 ^ 7 ≤ f.1.x) (x1 : f.1.x ≤ q.x - 2001 / 10 ^ 7)
    (hclear : ClearOfDiagonals p q h f.1.x) : ∃ s ∈ lines, WallToWall p q f.1.x s := by
  obtain ⟨F, N⟩ := f
  simp only at hN x0 x1 hclear m1 ⊢
  subst hN
  obtain ⟨sx, sy⟩ := H.sides
  have corners : ∀ c ∈ cs, ∀ w ∈ c, 1 / 5000 ≤ |R3.height F ⟨1, 0, 0⟩ w| := by
    intro c hc w hw
    obtain ⟨v, hv, hd⟩ := corner_abscissa H h0 h1 hcs hc hw
    have far : 2001 / 10 ^ 7 ≤ |F.x - v| := by
      rcases hv with rfl | rfl | hv
      · rw [abs_of_nonneg (by norm_num at *; linarith)]; linarith
      · rw [abs_of_nonpos (by norm_num at *; linarith)]; linarith
      · exact hclear v hv
    rw [height_x]
    have := abs_sub_le F.x w.x v
    rw [abs_sub_comm F.x w.x] at this
    norm_num at *
    linarith
  have m2 := hmat (1 / 5000) (by norm_num) (by norm_num) corners
  have hm := (C111_chord H hg h0 h1 hcs (by norm_num) m2 (x := ⟨F.x, (p.y + q.y) / 2, h⟩) rfl (by rw [height_x]; simp) (by
    rintro y ⟨-, -, -, -, ho⟩
    simp only [R3.distSq2]
    have sq : (2 / 10 ^ 4 : ℝ) ^ 2 ≤ (y.x - F.x) ^ 2 ∨ (2 / 10 ^ 4 : ℝ) ^ 2 ≤ (y.y - (p.y + q.y) / 2) ^ 2 := by
      norm_num at x0 x1 ⊢
      rcases ho with e | e | e | e
      · left; rw [e]; nlinarith
      · left; rw [e]; nlinarith
      · right; rw [e]; nlinarith
      · right; rw [e]; nlinarith
    have a := sq_nonneg (y.x - F.x)
    have b := sq_nonneg (y.y - (p.y + q.y) / 2)
    rcases sq with h | h <;> norm_num at h ⊢ <;> linarith)).1 (by
      refine ⟨?_, ?_, ?_, ?_⟩ <;> simp <;> norm_num at x0 x1 <;> linarith)
  obtain ⟨u, hu, t, t0, t1, ty, -⟩ := hm
  simp only [R3.add_y, R3.smul_y, R3.sub_y] at ty
  have e1 := m1 u hu u.1 (Or.inl rfl)
  have e2 := m1 u hu u.2 (Or.inr rfl)
  rw [height_x] at e1 e2
  have w1 := end_at_wall H hg h0 h1 hcs (by norm_num at x0 ⊢; linarith) (by norm_num at x1 ⊢; linarith) e1 (hends u hu u.1 (Or.inl rfl)).2.2.2
  have w2 := end_at_wall H hg h0 h1 hcs (by norm_num at x0 ⊢; linarith) (by norm_num at x1 ⊢; linarith) e2 (hends u hu u.2 (Or.inr rfl)).2.2.2
  have ww : WallToWall p q F.x u := by
    rcases w1 with w1 | w1 <;> rcases w2 with w2 | w2
    · exfalso
      rw [abs_le] at w1 w2
      have := (between_ends (l := p.y - 2 / 10 ^ 8) (u := p.y + 2 / 10 ^ 8) (a := u.1.y) (b := u.2.y) t0 t1 ⟨by linarith, by linarith⟩ ⟨by linarith, by linarith⟩).2
      norm_num at this
      linarith
    · exact Or.inl ⟨e1, e2, w1, w2⟩
    · exact Or.inr ⟨e2, e1, w2, w1⟩
    · exfalso
      rw [abs_le] at w1 w2
      have := (between_ends (l := q.y - 2 / 10 ^ 8) (u := q.y + 2 / 10 ^ 8) (a := u.1.y) (b := u.2.y) t0 t1 ⟨by linarith, by linarith⟩ ⟨by linarith, by linarith⟩).1
      norm_num at this
      linarith
  exact ⟨u, hu, ww⟩

/-- **C111, walls.** In a layer of a box whose contours are its cross-section and whose fill lines are its material (C101, C102), a fill plane across
the X axis which is in the box, and keeps a distance of 0.0002 from its sides and from the diagonals of its sides, is filled from wall to wall. -/
theorem C111_wall {k : ℕ} {p q : R3} (H : GoodBox k p q) {h : ℝ} (hg : Dyadic k h) (h0 : p.z < h) (h1 : h < q.z) {cs : List (List R3)}
    (hcs : BoundMaterialF h (brick p q) cs) {planes segs : List (R3 × R3)} (hfill : FillIsModelF h (brick p q) cs planes segs)
    {f : R3 × R3} (hf : f ∈ planes) (hN : f.2 = ⟨1, 0, 0⟩) (x0 : p.x + 2001 / 10 ^ 7 ≤ f.1.x) (x1 : f.1.x ≤ q.x - 2001 / 10 ^ 7)
    (hclear : ClearOfDiagonals p q h f.1.x) : ∃ s ∈ segs, WallToWall p q f.1.x s := by
  obtain ⟨lines, l, hperm, hall, hends, hon, hmat⟩ := hfill
  obtain ⟨u, hu, ww⟩ := wall_lines H hg h0 h1 hcs (hends f hf) (hon f hf).2 (hmat f hf) hN x0 x1 hclear
  have hl : u ∈ l := hperm.mem_iff.2 (List.mem_flatMap.2 ⟨_, hf, hu⟩)
  obtain ⟨s, hs, e | e⟩ := forall₂_mem_right hall hl
  · exact ⟨s, hs, e ▸ ww⟩
  · refine ⟨s, hs, ?_⟩
    rw [e]
    rcases ww with w | w
    · exact Or.inr w
    · exact Or.inl w

/-! ## no gaps -/

/-- away from the sides by a step, every abscissa of a box is within half a step of a fill plane across the X axis -/
theorem box_cover {p q : R3} {s : ℝ} {fs : List (R3 × R3)} (h : GridF (brick p q) s ⟨1, 0, 0⟩ fs) (s0 : 1 / 100 ≤ s) {x : ℝ}
    (h1 : p.x + s + 1 / 10 ^ 5 ≤ x) (h2 : x ≤ q.x - s - 1 / 10 ^ 5) : ∃ f ∈ fs, f.2 = ⟨1, 0, 0⟩ ∧ |x - f.1.x| ≤ s / 2 + 1 / 10 ^ 6 := by
  obtain ⟨hN, k, hk, hcov⟩ := h
  have sp : 0 < s := by linarith
  have v0 : cornerAt p q (false, false, false) ∈ allVerts (brick p q) := by
    rw [box_verts]; exact List.mem_map.2 ⟨_, by decide, rfl⟩
  have v1 : cornerAt p q (true, false, false) ∈ allVerts (brick p q) := by
    rw [box_verts]; exact List.mem_map.2 ⟨_, by decide, rfl⟩
  have a1 := (hcov _ v0 _ (Or.inl rfl)).1
  have a2 := (hcov _ v1 _ (Or.inl rfl)).2
  simp only [cornerAt, cond_true, cond_false] at a1 a2
  have b1 : (k : ℝ) * s ≤ x := by norm_num at *; linarith
  have b2 : x ≤ ((k + fs.length - 1 : ℤ) : ℝ) * s := by push_cast; norm_num at *; linarith
  have r1 : k ≤ _root_.round (x / s) := by
    rw [round_eq]
    refine Int.le_floor.2 ?_
    have : (k : ℝ) ≤ x / s := by rw [le_div_iff₀ sp]; exact b1
    linarith
  have r2 : _root_.round (x / s) ≤ k + fs.length - 1 := by
    rw [round_eq, ← Int.lt_add_one_iff, Int.floor_lt]
    have : x / s ≤ ((k + fs.length - 1 : ℤ) : ℝ) := by rw [div_le_iff₀ sp]; exact b2
    push_cast at this ⊢
    linarith
  have r3 := abs_sub_round (x / s)
  obtain ⟨j, hj⟩ : ∃ j : ℕ, (j : ℤ) = _root_.round (x / s) - k := ⟨(_root_.round (x / s) - k).toNat, Int.toNat_of_nonneg (by omega)⟩
  have hlt : j < fs.length := by omega
  have hjr : (k : ℝ) + j = (_root_.round (x / s) : ℝ) := by
    have : (k : ℤ) + j = _root_.round (x / s) := by omega
    exact_mod_cast this
  refine ⟨fs[j], List.getElem_mem hlt, (hN _ (List.getElem_mem hlt)).2, ?_⟩
  have hx := (hk j _ (List.getElem?_eq_getElem hlt)).1
  simp only [mul_one] at hx
  rw [hjr] at hx
  have near : |x - _root_.round (x / s) * s| ≤ s / 2 := by
    have e : x - _root_.round (x / s) * s = (x / s - _root_.round (x / s)) * s := by rw [sub_mul, div_mul_cancel₀ _ sp.ne']
    rw [e, abs_mul, abs_of_pos sp]
    nlinarith
  have := abs_sub_le x (_root_.round (x / s) * s) fs[j].1.x
  rw [abs_sub_comm (_root_.round (x / s) * s) fs[j].1.x] at this
  linarith

/-- **C111, solid.** In a solid layer of a box no gap is wider than the line: a point of the rectangle that is at least a line width from the sides is
within half a line width of a line that runs from wall to wall, if the fill planes keep away from the diagonals of the sides. -/
theorem C111_solid {k : ℕ} {p q : R3} (H : GoodBox k p q) {h : ℝ} (hg : Dyadic k h) (h0 : p.z < h) (h1 : h < q.z) {cs : List (List R3)}
    (hcs : BoundMaterialF h (brick p q) cs) {planes segs : List (R3 × R3)} (hfill : FillIsModelF h (brick p q) cs planes segs)
    {lw : ℝ} (l0 : 1 / 50 ≤ lw) (hgrid : GridF (brick p q) lw ⟨1, 0, 0⟩ planes)
    (hclear : ∀ f ∈ planes, ClearOfDiagonals p q h f.1.x) {x : ℝ} (x0 : p.x + lw + 1 / 10 ^ 5 ≤ x) (x1 : x ≤ q.x - lw - 1 / 10 ^ 5) :
    ∃ s ∈ segs, ∃ X, |x - X| ≤ lw / 2 + 1 / 10 ^ 6 ∧ WallToWall p q X s := by
  obtain ⟨f, hf, hN, hx⟩ := box_cover hgrid (by linarith) x0 x1
  have ha := abs_le.1 hx
  obtain ⟨s, hs, hw⟩ := C111_wall H hg h0 h1 hcs hfill hf hN (by norm_num at *; linarith) (by norm_num at *; linarith) (hclear f hf)
  exact ⟨s, hs, f.1.x, hx, hw⟩

/-! ## in the file -/

/-- the move runs along Y at the abscissa `X` from one wall to the other, to 0.0016 -/
def MoveAcross (p q : R3) (X : ℝ) (m : PrintedMove) : Prop :=
  |m.start.x - X| ≤ 16 / 10 ^ 4 ∧ |m.stop.x - X| ≤ 16 / 10 ^ 4 ∧
    ((|m.start.y - p.y| ≤ 16 / 10 ^ 4 ∧ |m.stop.y - q.y| ≤ 16 / 10 ^ 4) ∨ (|m.start.y - q.y| ≤ 16 / 10 ^ 4 ∧ |m.stop.y - p.y| ≤ 16 / 10 ^ 4))

theorem across {p q : R3} {X : ℝ} {s : R3 × R3} (h : WallToWall p q X s) (k : ℕ) :
    ∃ m ∈ (pathRun [s.1, s.2]).map (fun u => (⟨k, "FILL_PATHES".toList, u.1, u.2⟩ : PrintedMove)), MoveAcross p q X m := by
  obtain ⟨s1, s2⟩ := s
  refine ⟨⟨k, "FILL_PATHES".toList, s1.thousandth, nozzleTo s1.thousandth s1 s2⟩, List.mem_map.2 ⟨(s1.thousandth, nozzleTo s1.thousandth s1 s2), by simp [pathRun, nozzleRun], rfl⟩, ?_⟩
  have ax : |s1.thousandth.x - s1.x| ≤ 1 / 2000 := thousandth_near _
  have ay : |s1.thousandth.y - s1.y| ≤ 1 / 2000 := thousandth_near _
  have bx : |(nozzleTo s1.thousandth s1 s2).x - s2.x| ≤ 1 / 2000 + 1 / 1000 := coordAfter_near le_rfl ax
  have by' : |(nozzleTo s1.thousandth s1 s2).y - s2.y| ≤ 1 / 2000 + 1 / 1000 := coordAfter_near le_rfl ay
  have tri : ∀ {a b c δ : ℝ}, |a - b| ≤ 1 / 2000 + 1 / 1000 → |b - c| ≤ δ → δ ≤ 2 / 10 ^ 8 → |a - c| ≤ 16 / 10 ^ 4 := by
    intro a b c δ h1 h2 h3
    have := abs_sub_le a b c
    norm_num at *
    linarith
  have big : ∀ {a : ℝ}, a ≤ 1 / 2000 → a ≤ 1 / 2000 + 1 / 1000 := fun h => by linarith
  rcases h with ⟨h1, h2, h3, h4⟩ | ⟨h1, h2, h3, h4⟩
  · exact ⟨tri (big ax) h1 (by norm_num), tri bx h2 (by norm_num), Or.inl ⟨tri (big ay) h3 le_rfl, tri by' h4 le_rfl⟩⟩
  · exact ⟨tri (big ax) h2 (by norm_num), tri bx h1 (by norm_num), Or.inr ⟨tri (big ay) h4 le_rfl, tri by' h3 le_rfl⟩⟩

theorem layersRun_mem {ds : List (List (List R3) × List (R3 × R3))} : ∀ {k i : ℕ} {d : List (List R3) × List (R3 × R3)}, ds[i]? = some d →
    ∀ m ∈ layerRun (k + i) d, m ∈ layersRun k ds := by
  induction ds with
  | nil => intro k i d h; simp at h
  | cons a t ih =>
    intro k i d h m hm
    rw [layersRun, List.mem_append]
    cases i with
    | zero =>
      simp only [List.getElem?_cons_zero, Option.some.injEq] at h
      subst h
      exact Or.inl hm
    | succ i =>
      right
      refine ih (k := k + 1) (by simpa using h) m ?_
      rw [show k + 1 + i = k + (i + 1) by omega]
      exact hm

/-- **C111, program.** A run of the program in `float64` on a box as in C110. Let the multiples of the line width keep a distance of 0.0003 from the
diagonals of the sides of the box at every level. Then the top and bottom layers are solid: for every abscissa that is a line width or more from the
sides, within half a line width of it the file moves the nozzle from one wall straight to the other, filling the layer. -/
theorem C111_program (M : Machine B64) (fuel : ℕ) (read : String → Option Bytes) (templates : String → Option (List Char))
    (canWrite : String → Bool) (now : String) (fl : GoosliFlags B64) (ts0 : List RTri) (o p q : R3) (t lw : ℝ) (k n : ℕ)
    (hread : Loads (read fl.stl) (fmesh ts0)) (hF : ∀ w ∈ allVerts ts0, w.isF) (hty : fl.slicingType = "3axes") (ho : o.isF)
    (horg : fl.origin = o.f64v) (hout : canWrite fl.out = true) (htop : (templates "data/header_template.txt").isSome)
    (hbot : (templates "data/footer_template.txt").isSome) (hts : ts0.map (RTri.movedF o) = brick p q)
    (H : GoodBox k p q) (E : EvenLayers k n p.z q.z t) (hn : 2 ≤ n)
    (ht : fl.layerHeight = B64.of t) (hs : fl.supportsOn = false)
    (hlw : fl.lineWidth = B64.of lw) (Flw : IsF lw) (l0 : 1 / 50 ≤ lw) (l1 : lw ≤ 10)
    (hd0 : 1 ≤ densityShare fl.fillingType fl.fillDensity) (hd1 : densityShare fl.fillingType fl.fillDensity ≤ 100)
    (hclear : ∀ i < n, ∀ v ∈ diagonalsAt p q (p.z + ((i : ℕ) + 1 / 2) * t), ∀ m : ℤ, 3 / 10 ^ 4 ≤ |m * lw - v|) :
    ∃ (hd ft : List Char) (text : String), runGoosli M fuel read templates canWrite now fl = ⟨[(fl.out, hd ++ text.toList ++ ft)], .ok ()⟩ ∧
      ∀ i < n, (i : ℤ) < fl.settings.bottomLayers ∨ (n : ℤ) - i ≤ fl.settings.topLayers →
        ∀ x : ℝ, p.x + lw + 1 / 10 ^ 5 ≤ x → x ≤ q.x - lw - 1 / 10 ^ 5 → ∀ P : Printer, P.tool = 0 →
          ∃ m ∈ printedMoves P (parseText text), m.layer = (i : ℤ) ∧ m.sect = "FILL_PATHES".toList ∧
            ∃ X, |x - X| ≤ lw / 2 + 1 / 10 ^ 6 ∧ MoveAcross p q X m := by
  obtain ⟨hd, ft, text, sparse, full, ds, h1, h2, h3, h4, h5, h6⟩ := box_run M fuel read templates canWrite now fl ts0 o p q t lw k n hread hF hty ho
    horg hout htop hbot hts H E hn ht hs hlw Flw l0 l1 hd0 hd1
  refine ⟨hd, ft, text, h1, fun i hi hsol x x0 x1 P hP => ?_⟩
  have hd' : ds[i]? = some ds[i] := List.getElem?_eq_getElem (by omega)
  obtain ⟨g, a, b, f1, f2⟩ := h5 i _ hd'
  rw [planesAtF, if_pos hsol] at f2
  have cl : ∀ f ∈ full, ClearOfDiagonals p q (p.z + ((i : ℕ) + 1 / 2) * t) f.1.x := by
    intro f hf v hv
    obtain ⟨c, hc, e⟩ := List.mem_iff_getElem.1 hf
    obtain ⟨-, j, hj, -⟩ := h3
    have e1 := (hj c f (by rw [← e]; exact List.getElem?_eq_getElem hc)).1
    have e2 := hclear i hi v hv (j + c)
    have e3 := abs_sub_le ((j + c : ℤ) * lw) f.1.x v
    rw [abs_sub_comm _ f.1.x] at e3
    push_cast at e2 e3
    simp only [mul_one] at e1
    norm_num at *
    linarith
  obtain ⟨s, hs', X, hX, hw⟩ := C111_solid H g a b f1 f2 l0 h3 cl x0 x1
  obtain ⟨m, hm, hac⟩ := across hw i
  refine ⟨m, ?_, ?_, ?_, X, hX, hac⟩
  · rw [h6 P hP]
    refine layersRun_mem (k := 0) hd' m ?_
    rw [Nat.zero_add]
    refine List.mem_append_right _ ?_
    obtain ⟨u, hu, rfl⟩ := List.mem_map.1 hm
    exact List.mem_map.2 ⟨u, List.mem_flatMap.2 ⟨s, hs', hu⟩, rfl⟩
  · obtain ⟨u, -, rfl⟩ := List.mem_map.1 hm
    rfl
  · obtain ⟨u, -, rfl⟩ := List.mem_map.1 hm
    rfl

/-- flags for a vertical slice in layers of a quarter of a millimetre with lines of half a millimetre, two solid layers at the bottom and three on top -/
private noncomputable def exFlags : GoosliFlags B64 :=
  ⟨"in.stl", "out.gcode", (⟨0, 0, 0⟩ : R3).f64v, (⟨0, 0, 0⟩ : R3).f64, B64.of 10, B64.of (1 / 4), B64.of 1, 20, 3, 2, 60, 200, 50, 30, 40, false,
    B64.of (1 / 2), "Squares", false, 20, B64.of 5, "planes.txt", "3axes", B64.of 30, zUp.f64v, false, B64.of 1, B64.of 2, B64.of 1, 3⟩

/-- a box of 40 by 30 by 12 mm -/
private theorem exBox : GoodBox 3 ⟨-20, 5, 0⟩ ⟨20, 35, 12⟩ where
  below := by unfold Below3; norm_num
  coarse := by norm_num
  px := ⟨-20, by norm_num⟩
  py := ⟨5, by norm_num⟩
  pz := ⟨0, by norm_num⟩
  qx := ⟨20, by norm_num⟩
  qy := ⟨35, by norm_num⟩
  qz := ⟨12, by norm_num⟩
  pr := by unfold R3.inRange; norm_num
  qr := by unfold R3.inRange; norm_num
  high := by norm_num

private theorem exClear (i : ℕ) : ∀ v ∈ diagonalsAt (⟨-20, 5, 0⟩ : R3) ⟨20, 35, 12⟩ (0 + ((i : ℕ) + 1 / 2) * (1 / 4)), ∀ m : ℤ,
    (3 : ℝ) / 10 ^ 4 ≤ |m * (1 / 2) - v| := by
  have odd : ∀ z : ℤ, z % 2 = 1 → (1 : ℝ) ≤ |(z : ℝ)| := by
    intro z hz
    have : z ≠ 0 := by rintro rfl; simp at hz
    rw [← Int.cast_abs]
    exact_mod_cast Int.one_le_abs this
  intro v hv m
  simp only [diagonalsAt, List.mem_cons, List.not_mem_nil, or_false] at hv
  rcases hv with rfl | rfl
  · have := odd (6 * m - 5 * (2 * i + 1) + 240) (by omega)
    have e : (m : ℝ) * (1 / 2) - (-20 + (20 - -20) * ((0 + ((i : ℝ) + 1 / 2) * (1 / 4) - 0) / (12 - 0))) =
        ((6 * m - 5 * (2 * i + 1) + 240 : ℤ) : ℝ) / 12 := by push_cast; ring
    rw [e, abs_div]
    norm_num at *
    linarith
  · have := odd (6 * m + 5 * (2 * i + 1) - 240) (by omega)
    have e : (m : ℝ) * (1 / 2) - (20 - (20 - -20) * ((0 + ((i : ℝ) + 1 / 2) * (1 / 4) - 0) / (12 - 0))) =
        ((6 * m + 5 * (2 * i + 1) - 240 : ℤ) : ℝ) / 12 := by push_cast; ring
    rw [e, abs_div]
    norm_num at *
    linarith

/-- the theorem applies: the first layer of the box of 40 by 30 by 12 mm is filled with a line from wall to wall within 0.26 mm of its middle -/
example (M : Machine B64) (fuel : ℕ) (now : String) :
    ∃ (hd ft : List Char) (text : String),
    runGoosli M fuel (fun _ => some (saveSTL (fmesh (brick ⟨-20, 5, 0⟩ ⟨20, 35, 12⟩)))) (fun _ => some []) (fun _ => true) now exFlags =
      ⟨[("out.gcode", hd ++ text.toList ++ ft)], .ok ()⟩ ∧
    ∀ P : Printer, P.tool = 0 → ∃ m ∈ printedMoves P (parseText text), m.layer = 0 ∧ ∃ X, |X| ≤ 26 / 100 ∧
      MoveAcross ⟨-20, 5, 0⟩ ⟨20, 35, 12⟩ X m := by
  have em := movedF_zero (ts := brick ⟨-20, 5, 0⟩ ⟨20, 35, 12⟩) (box_isF exBox)
  have step : rd (((48 : ℕ) : ℝ) * (1 / 4) * rd (1 / ((48 : ℕ) : ℝ))) = 1 / 4 := by
    have := even_upto48 (n := 48) (by omega) (by omega) (b := -2) (by norm_num)
    have e : (2 : ℝ) ^ (-2 : ℤ) = 1 / 4 := by norm_num
    rwa [e] at this
  have E : EvenLayers 3 48 0 12 (1 / 4) := ⟨⟨0, by norm_num⟩, ⟨1, by norm_num⟩, by norm_num, by norm_num, by norm_num, by norm_num, step⟩
  obtain ⟨hd, ft, text, h1, h2⟩ :=
    C111_program M fuel (fun _ => some (saveSTL (fmesh (brick ⟨-20, 5, 0⟩ ⟨20, 35, 12⟩)))) (fun _ => some []) (fun _ => true) now exFlags
      (brick ⟨-20, 5, 0⟩ ⟨20, 35, 12⟩) ⟨0, 0, 0⟩ ⟨-20, 5, 0⟩ ⟨20, 35, 12⟩ (1 / 4) (1 / 2) 3 48
      (box_loads exBox) (box_isF exBox) rfl ⟨isF_zero, isF_zero, isF_zero⟩ rfl rfl rfl rfl em exBox E (by omega) rfl rfl rfl isF_half (by norm_num)
      (by norm_num) (by decide) (by decide) (fun i _ => exClear i)
  refine ⟨hd, ft, text, h1, fun P hP => ?_⟩
  obtain ⟨m, hm, hl, -, X, hX, hac⟩ := h2 0 (by norm_num) (Or.inl (by decide)) 0 (by norm_num) (by norm_num) P hP
  refine ⟨m, hm, by simpa using hl, X, ?_, hac⟩
  rw [zero_sub, abs_neg] at hX
  norm_num at *
  linarith

end Goosli
