import Verif.Props.C111
import Mathlib.Algebra.BigOperators.Fin
/-!
# C117: how densely boxes are filled
-/
set_option autoImplicit false
namespace Goosli
open Flt R3 Spec

/-! ## specification -/

/-- the length of lines along Y -/
noncomputable def alongY (ls : List (R3 × R3)) : ℝ := (ls.map fun s => |s.2.y - s.1.y|).sum

/-- the length of moves along Y -/
noncomputable def movesY (ms : List PrintedMove) : ℝ := (ms.map fun m => |m.stop.y - m.start.y|).sum

open Classical in
/-- the moves that fill layer `i` -/
noncomputable def fillMovesOf (i : ℕ) (ms : List PrintedMove) : List PrintedMove :=
  ms.filter fun m => m.layer = (i : ℤ) ∧ m.sect = "FILL_PATHES".toList

/-- lines of length `T` at a distance of `s` fill a rectangle of `a` by `b`, except for at most one line too many or three too few, and `0.001` -/
def FillsArea (s T a b : ℝ) : Prop := (a - 3 * s - 1 / 1000) * (b - 1 / 10 ^ 6) ≤ s * T ∧ s * T ≤ (a + s + 1 / 1000) * (b + 1 / 10 ^ 6)

/-! ## counting -/

theorem count_le {s a b : ℝ} (s0 : 0 < s) (ab : a ≤ b) {k : ℤ} {n : ℕ} {A : Finset (Fin n)}
    (h : ∀ j ∈ A, a ≤ ((k : ℝ) + (j : ℕ)) * s ∧ ((k : ℝ) + (j : ℕ)) * s ≤ b) : (A.card : ℝ) ≤ (b - a) / s + 1 := by
  have sub : A.card ≤ (Finset.Icc ⌈a / s⌉ ⌊b / s⌋).card := by
    refine Finset.card_le_card_of_injOn (fun j : Fin n => k + ((j : ℕ) : ℤ)) ?_ ?_
    · intro j hj
      obtain ⟨h1, h2⟩ := h j hj
      simp only [Finset.coe_Icc, Set.mem_Icc]
      constructor
      · rw [Int.ceil_le, div_le_iff₀ s0]; push_cast; exact h1
      · rw [Int.le_floor, le_div_iff₀ s0]; push_cast; exact h2
    · intro i _ j _ e
      simp only [add_right_inj, Nat.cast_inj] at e
      exact Fin.ext e
  rw [Int.card_Icc] at sub
  have e1 := Int.floor_le (b / s)
  have e2 := Int.le_ceil (a / s)
  have hab : a / s ≤ b / s := by gcongr
  rw [sub_div]
  have h3 : (A.card : ℝ) ≤ ((⌊b / s⌋ + 1 - ⌈a / s⌉).toNat : ℝ) := by exact_mod_cast sub
  rcases le_total 0 (⌊b / s⌋ + 1 - ⌈a / s⌉) with h0 | h0
  · have : ((⌊b / s⌋ + 1 - ⌈a / s⌉).toNat : ℝ) = ((⌊b / s⌋ + 1 - ⌈a / s⌉ : ℤ) : ℝ) := by
      rw [← Int.cast_natCast, Int.toNat_of_nonneg h0]
    rw [this] at h3
    push_cast at h3
    linarith
  · rw [Int.toNat_of_nonpos h0] at h3
    push_cast at h3
    linarith

theorem le_count {s a b : ℝ} (s0 : 0 < s) {k : ℤ} {n : ℕ} {A : Finset (Fin n)} (ha : ((k : ℝ) - 1) * s < a) (hb : b < ((k : ℝ) + n) * s)
    (h : ∀ j : Fin n, a ≤ ((k : ℝ) + (j : ℕ)) * s → ((k : ℝ) + (j : ℕ)) * s ≤ b → j ∈ A) : (b - a) / s - 1 ≤ (A.card : ℝ) := by
  have sub : (Finset.Icc ⌈a / s⌉ ⌊b / s⌋).card ≤ A.card := by
    refine Finset.card_le_card_of_surjOn (fun j : Fin n => k + ((j : ℕ) : ℤ)) ?_
    intro m hm
    rw [Finset.coe_Icc, Set.mem_Icc, Int.ceil_le, Int.le_floor, div_le_iff₀ s0, le_div_iff₀ s0] at hm
    have m1 : k ≤ m := by
      have : (k : ℝ) - 1 < m := lt_of_mul_lt_mul_right (ha.trans_le hm.1) s0.le
      have : k - 1 < m := by exact_mod_cast this
      omega
    have m2 : m < k + n := by
      have : (m : ℝ) < k + n := lt_of_mul_lt_mul_right (hm.2.trans_lt hb) s0.le
      exact_mod_cast this
    have e : (((m - k).toNat : ℕ) : ℤ) = m - k := Int.toNat_of_nonneg (by omega)
    refine ⟨⟨(m - k).toNat, by omega⟩, h _ ?_ ?_, by simp only; omega⟩
    all_goals
      have er : ((k : ℝ) + (((m - k).toNat : ℕ) : ℝ)) = m := by
        rw [← Int.cast_natCast, e]; push_cast; ring
      simp only [er]
    · exact hm.1
    · exact hm.2
  rw [Int.card_Icc] at sub
  have e1 := Int.lt_floor_add_one (b / s)
  have e2 := Int.ceil_lt_add_one (a / s)
  rw [sub_div]
  have h3 : ((⌊b / s⌋ + 1 - ⌈a / s⌉).toNat : ℝ) ≤ A.card := by exact_mod_cast sub
  have h4 : ((⌊b / s⌋ + 1 - ⌈a / s⌉ : ℤ) : ℝ) ≤ ((⌊b / s⌋ + 1 - ⌈a / s⌉).toNat : ℝ) := by
    exact_mod_cast Int.self_le_toNat _
  push_cast at h4
  linarith

/-! ## one plane -/

theorem alongY_nonneg (ls : List (R3 × R3)) : 0 ≤ alongY ls := List.sum_nonneg fun x hx => by
  obtain ⟨s, -, rfl⟩ := List.mem_map.1 hx
  exact abs_nonneg _

theorem alongY_mem {ls : List (R3 × R3)} {s : R3 × R3} (h : s ∈ ls) : |s.2.y - s.1.y| ≤ alongY ls :=
  List.single_le_sum (fun x hx => by obtain ⟨s, -, rfl⟩ := List.mem_map.1 hx; exact abs_nonneg _) _ (List.mem_map.2 ⟨s, h, rfl⟩)

/-- lines that do not overlap are not longer than the interval -/
theorem alongY_le : ∀ {ls : List (R3 × R3)}, OneAfterOther ls → ∀ {lo hi : ℝ}, lo ≤ hi → (∀ s ∈ ls, lo ≤ s.1.y ∧ s.2.y ≤ hi) → alongY ls ≤ hi - lo
  | [], _, lo, hi, hle, _ => by simpa [alongY] using hle
  | s :: t, ⟨h1, h2⟩, lo, hi, _, h3 => by
    have e := h1 s (List.mem_cons_self ..)
    obtain ⟨a, b⟩ := h3 s (List.mem_cons_self ..)
    have r := alongY_le (ls := t) ⟨fun u hu => h1 u (List.mem_cons_of_mem _ hu), (List.pairwise_cons.1 h2).2⟩ (lo := s.2.y) b
      fun u hu => ⟨(List.pairwise_cons.1 h2).1 u hu, (h3 u (List.mem_cons_of_mem _ hu)).2⟩
    unfold alongY at r ⊢
    rw [List.map_cons, List.sum_cons, abs_of_nonneg (by linarith)]
    linarith

/-- the ends of the fill lines are in the rectangle, up to `2e-8` -/
theorem end_in_box {k : ℕ} {p q : R3} (H : GoodBox k p q) {h : ℝ} (hg : Dyadic k h) (h0 : p.z < h) (h1 : h < q.z) {cs : List (List R3)}
    (hcs : BoundMaterialF h (brick p q) cs) {w : R3} (hn : NearSide cs w) :
    p.x - 2 / 10 ^ 8 ≤ w.x ∧ w.x ≤ q.x + 2 / 10 ^ 8 ∧ p.y - 2 / 10 ^ 8 ≤ w.y ∧ w.y ≤ q.y + 2 / 10 ^ 8 := by
  obtain ⟨c, hc, s, hs, t, t0, t1, ex, ey⟩ := hn
  obtain ⟨o, ⟨o1, o2, o3, o4, -⟩, hd⟩ := contour_near H hg h0 h1 hcs hc
    (y := ⟨s.1.x + t * (s.2.x - s.1.x), s.1.y + t * (s.2.y - s.1.y), h⟩) ⟨s, hs, t, t0, t1, rfl, rfl⟩
  simp only [R3.distSq2] at hd
  generalize s.1.x + t * (s.2.x - s.1.x) = a at ex hd
  generalize s.1.y + t * (s.2.y - s.1.y) = b at ey hd
  have dx : |o.x - a| ≤ 1 / 10 ^ 8 := abs_le_of_sq_le_sq (by nlinarith [sq_nonneg (o.y - b)]) (by norm_num)
  have dy : |o.y - b| ≤ 1 / 10 ^ 8 := abs_le_of_sq_le_sq (by nlinarith [sq_nonneg (o.x - a)]) (by norm_num)
  rw [abs_le] at ex ey dx dy
  norm_num at *
  refine ⟨?_, ?_, ?_, ?_⟩ <;> linarith

theorem diagonals_in {p q : R3} {h v : ℝ} (hx : p.x ≤ q.x) (h0 : p.z < h) (h1 : h < q.z) (hv : v ∈ diagonalsAt p q h) : p.x ≤ v ∧ v ≤ q.x := by
  have t0 : 0 ≤ (h - p.z) / (q.z - p.z) := div_nonneg (by linarith) (by linarith)
  have t1 : (h - p.z) / (q.z - p.z) ≤ 1 := by rw [div_le_one (by linarith)]; linarith
  simp only [diagonalsAt, List.mem_cons, List.not_mem_nil, or_false] at hv
  rcases hv with rfl | rfl <;> constructor <;> nlinarith

/-! ## a layer -/

/-- **C117, layer.** In a layer of a box whose contours are its cross-section and whose fill lines are its material (C101, C102), with fill planes across
the X axis at a distance of `s`, the length of the fill lines is the area of the box over `s`: there is at most one line from wall to wall too many
and there are at most three too few. -/
theorem C117_layer {k : ℕ} {p q : R3} (H : GoodBox k p q) {h : ℝ} (hg : Dyadic k h) (h0 : p.z < h) (h1 : h < q.z) {cs : List (List R3)}
    (hcs : BoundMaterialF h (brick p q) cs) {planes segs : List (R3 × R3)} (hfill : FillIsModelF h (brick p q) cs planes segs)
    {s : ℝ} (s0 : 1 / 100 ≤ s) (hgrid : GridF (brick p q) s ⟨1, 0, 0⟩ planes) : FillsArea s (alongY segs) (q.x - p.x) (q.y - p.y) := by
  obtain ⟨sx, sy⟩ := H.sides
  obtain ⟨lines, l, hperm, hall, hends, hord, hmat⟩ := hfill
  obtain ⟨hN, m, hm, hcov⟩ := hgrid
  have sp : 0 < s := by norm_num at s0; linarith
  -- the lines, plane by plane
  have e1 : alongY segs = alongY l := by
    unfold alongY
    clear hperm
    induction hall with
    | nil => rfl
    | cons e _ ih =>
      rw [List.map_cons, List.map_cons, List.sum_cons, List.sum_cons, ih]
      rcases e with rfl | rfl
      · rfl
      · rw [abs_sub_comm]; rfl
  have e2 : alongY l = (planes.map fun f => alongY (lines f)).sum := by
    have : alongY l = alongY (planes.flatMap lines) := by unfold alongY; exact (hperm.map _).sum_eq
    rw [this]
    clear hall hperm hends hord hmat hN hm hcov this e1
    unfold alongY
    induction planes with
    | nil => rfl
    | cons f t ih => rw [List.flatMap_cons, List.map_append, List.sum_append, ih, List.map_cons, List.sum_cons]
  rw [e1, e2, ← Fin.sum_univ_fun_getElem planes fun f => alongY (lines f)]
  have near : ∀ j : Fin planes.length, |planes[(j : ℕ)].1.x - ((m : ℝ) + (j : ℕ)) * s| ≤ 1 / 10 ^ 6 := fun j => by
    have := (hm j _ (List.getElem?_eq_getElem j.2)).1
    simpa using this
  have mem : ∀ j : Fin planes.length, planes[(j : ℕ)] ∈ planes := fun j => List.getElem_mem j.2
  generalize hX : (fun j : Fin planes.length => planes[(j : ℕ)].1.x) = X
  have hXj : ∀ j : Fin planes.length, planes[(j : ℕ)].1.x = X j := fun j => by rw [← hX]
  simp only [hXj] at near
  -- at most the width on a plane
  have up : ∀ j : Fin planes.length, alongY (lines planes[(j : ℕ)]) ≤ q.y - p.y + 4 / 10 ^ 8 := by
    intro j
    have := alongY_le (hord _ (mem j)).1 (lo := p.y - 2 / 10 ^ 8) (hi := q.y + 2 / 10 ^ 8) (by norm_num; linarith) fun u hu =>
      ⟨(end_in_box H hg h0 h1 hcs (hends _ (mem j) u hu u.1 (Or.inl rfl)).2.2.2).2.2.1,
        (end_in_box H hg h0 h1 hcs (hends _ (mem j) u hu u.2 (Or.inr rfl)).2.2.2).2.2.2⟩
    norm_num at this ⊢
    linarith
  -- nothing on planes outside
  have out : ∀ j : Fin planes.length, ¬ (p.x - 1 / 4000 ≤ X j ∧ X j ≤ q.x + 1 / 4000) → alongY (lines planes[(j : ℕ)]) = 0 := by
    intro j hj
    have hNj := (hN _ (mem j)).2
    have empty : lines planes[(j : ℕ)] = [] := by
      rcases hl : lines planes[(j : ℕ)] with _ | ⟨u, t⟩
      · rfl
      · exfalso
        have hu : u ∈ lines planes[(j : ℕ)] := by rw [hl]; exact List.mem_cons_self ..
        have a := (hord _ (mem j)).2 u hu u.1 (Or.inl rfl)
        rw [hNj, height_x, hXj, abs_le] at a
        obtain ⟨b1, b2, -⟩ := end_in_box H hg h0 h1 hcs (hends _ (mem j) u hu u.1 (Or.inl rfl)).2.2.2
        apply hj
        constructor <;> norm_num at a b1 b2 ⊢ <;> linarith
    rw [empty]
    rfl
  -- from wall to wall on planes inside and clear of the diagonals
  have low : ∀ j : Fin planes.length, p.x + 2001 / 10 ^ 7 ≤ X j → X j ≤ q.x - 2001 / 10 ^ 7 → ClearOfDiagonals p q h (X j) →
      q.y - p.y - 4 / 10 ^ 8 ≤ alongY (lines planes[(j : ℕ)]) := by
    intro j x0 x1 cl
    obtain ⟨u, hu, w⟩ := wall_lines H hg h0 h1 hcs (hends _ (mem j)) (hord _ (mem j)).2 (hmat _ (mem j)) (hN _ (mem j)).2 (by rw [hXj]; exact x0)
      (by rw [hXj]; exact x1) (by rw [hXj]; exact cl)
    refine le_trans ?_ (alongY_mem hu)
    rcases w with ⟨-, -, a, b⟩ | ⟨-, -, a, b⟩
    · rw [abs_le] at a b
      refine le_trans ?_ (le_abs_self _)
      norm_num at *; linarith
    · simp only [Prod.fst_swap, Prod.snd_swap] at a b
      rw [abs_le] at a b
      refine le_trans ?_ (neg_le_abs _)
      norm_num at *; linarith
  have v0 : cornerAt p q (false, false, false) ∈ allVerts (brick p q) := by
    rw [box_verts]; exact List.mem_map.2 ⟨_, by decide, rfl⟩
  have v1 : cornerAt p q (true, false, false) ∈ allVerts (brick p q) := by
    rw [box_verts]; exact List.mem_map.2 ⟨_, by decide, rfl⟩
  have a1 := (hcov _ v0 _ (Or.inl rfl)).1
  have a2 := (hcov _ v1 _ (Or.inl rfl)).2
  simp only [cornerAt, cond_true, cond_false] at a1 a2
  generalize hL : (fun j : Fin planes.length => alongY (lines planes[(j : ℕ)])) = L
  have hLj : ∀ j : Fin planes.length, alongY (lines planes[(j : ℕ)]) = L j := fun j => by rw [← hL]
  have L0 : ∀ j, 0 ≤ L j := fun j => by rw [← hLj]; exact alongY_nonneg _
  simp only [hLj] at up out low ⊢
  clear hX hXj hL hLj hmat hord hends hm hN hcov e1 e2 hall hperm mem
  constructor
  · -- at least
    classical
    set I : Finset (Fin planes.length) := Finset.univ.filter fun j => p.x + 3 / 10 ^ 4 ≤ ((m : ℝ) + (j : ℕ)) * s ∧ ((m : ℝ) + (j : ℕ)) * s ≤ q.x - 3 / 10 ^ 4
    have cI : ((q.x - 3 / 10 ^ 4) - (p.x + 3 / 10 ^ 4)) / s - 1 ≤ (I.card : ℝ) := by
      refine le_count sp (k := m) (by norm_num at *; linarith) ?_ fun j u1 u2 => by simp only [I, Finset.mem_filter, Finset.mem_univ, true_and]; exact ⟨u1, u2⟩
      norm_num at *; nlinarith
    -- one plane at most near a diagonal
    have one : ∀ v : ℝ, ((Finset.univ.filter fun j : Fin planes.length => |X j - v| < 2001 / 10 ^ 7).card : ℝ) ≤ 1 := by
      intro v
      have : (Finset.univ.filter fun j : Fin planes.length => |X j - v| < 2001 / 10 ^ 7).card ≤ 1 := by
        rw [Finset.card_le_one]
        intro i hi j hj
        simp only [Finset.mem_filter, Finset.mem_univ, true_and] at hi hj
        have ni := near i
        have nj := near j
        rw [abs_lt] at hi hj
        rw [abs_le] at ni nj
        by_contra hne
        have hne' : (i : ℕ) ≠ j := fun e => hne (Fin.ext e)
        rcases Nat.lt_or_gt_of_ne hne' with hlt | hlt
        · have : ((i : ℕ) : ℝ) + 1 ≤ (j : ℕ) := by exact_mod_cast hlt
          norm_num at *; nlinarith
        · have : ((j : ℕ) : ℝ) + 1 ≤ (i : ℕ) := by exact_mod_cast hlt
          norm_num at *; nlinarith
      exact_mod_cast this
    set D1 := Finset.univ.filter fun j : Fin planes.length => |X j - (p.x + (q.x - p.x) * ((h - p.z) / (q.z - p.z)))| < 2001 / 10 ^ 7
    set D2 := Finset.univ.filter fun j : Fin planes.length => |X j - (q.x - (q.x - p.x) * ((h - p.z) / (q.z - p.z)))| < 2001 / 10 ^ 7
    have d1 : (D1.card : ℝ) ≤ 1 := one _
    have d2 : (D2.card : ℝ) ≤ 1 := one _
    have cJ : (I.card : ℝ) ≤ ((I \ (D1 ∪ D2)).card : ℝ) + 2 := by
      have h1 := Finset.le_card_sdiff (D1 ∪ D2) I
      have h2 := Finset.card_union_le D1 D2
      have d1' : D1.card ≤ 1 := by exact_mod_cast d1
      have d2' : D2.card ≤ 1 := by exact_mod_cast d2
      have : I.card ≤ (I \ (D1 ∪ D2)).card + 2 := by omega
      exact_mod_cast this
    have sum1 : ((I \ (D1 ∪ D2)).card : ℝ) * (q.y - p.y - 4 / 10 ^ 8) ≤ ∑ j, L j := by
      rw [← nsmul_eq_mul, ← Finset.sum_const]
      refine (Finset.sum_le_sum fun j hj => ?_).trans (Finset.sum_le_sum_of_subset_of_nonneg (Finset.subset_univ _) fun j _ _ => L0 j)
      simp only [I, D1, D2, Finset.mem_sdiff, Finset.mem_union, Finset.mem_filter, Finset.mem_univ, true_and, not_or, not_lt] at hj
      obtain ⟨⟨u1, u2⟩, u3, u4⟩ := hj
      have n := abs_le.1 (near j)
      refine low j (by norm_num at *; linarith) (by norm_num at *; linarith) fun v hv => ?_
      simp only [diagonalsAt, List.mem_cons, List.not_mem_nil, or_false] at hv
      rcases hv with rfl | rfl
      · exact u3
      · exact u4
    have w0 : 0 ≤ q.y - p.y - 4 / 10 ^ 8 := by norm_num; linarith
    have key : (q.x - p.x - 6 / 10 ^ 4) - 3 * s ≤ s * ((I \ (D1 ∪ D2)).card : ℝ) := by
      have e : (q.x - p.x - 6 / 10 ^ 4) - 3 * s = s * (((q.x - 3 / 10 ^ 4) - (p.x + 3 / 10 ^ 4)) / s - 1 - 2) := by
        field_simp; ring
      rw [e]
      exact mul_le_mul_of_nonneg_left (by linarith) sp.le
    generalize ((I \ (D1 ∪ D2)).card : ℝ) = c at key sum1
    have T0 : 0 ≤ ∑ j, L j := Finset.sum_nonneg fun j _ => L0 j
    generalize ∑ j, L j = T at sum1 T0
    clear * - key sum1 w0 sp sx sy T0
    rcases le_total 0 (q.x - p.x - 3 * s - 1 / 1000) with hp | hp
    · calc (q.x - p.x - 3 * s - 1 / 1000) * (q.y - p.y - 1 / 10 ^ 6) ≤ (q.x - p.x - 3 * s - 1 / 1000) * (q.y - p.y - 4 / 10 ^ 8) :=
            mul_le_mul_of_nonneg_left (by norm_num; linarith) hp
        _ ≤ (s * c) * (q.y - p.y - 4 / 10 ^ 8) := mul_le_mul_of_nonneg_right (by norm_num at *; linarith) w0
        _ = s * (c * (q.y - p.y - 4 / 10 ^ 8)) := by ring
        _ ≤ s * T := mul_le_mul_of_nonneg_left sum1 sp.le
    · exact (mul_nonpos_of_nonpos_of_nonneg hp (by norm_num; linarith)).trans (mul_nonneg sp.le T0)
  · -- at most
    classical
    set I : Finset (Fin planes.length) := Finset.univ.filter fun j => p.x - 1 / 4000 ≤ X j ∧ X j ≤ q.x + 1 / 4000
    have cI : (I.card : ℝ) ≤ ((q.x + 3 / 10 ^ 4) - (p.x - 3 / 10 ^ 4)) / s + 1 := by
      refine count_le sp (k := m) (by norm_num; linarith) fun j hj => ?_
      simp only [I, Finset.mem_filter, Finset.mem_univ, true_and] at hj
      have n := abs_le.1 (near j)
      constructor <;> norm_num at * <;> linarith
    have sum1 : ∑ j, L j ≤ (I.card : ℝ) * (q.y - p.y + 4 / 10 ^ 8) := by
      rw [← nsmul_eq_mul, ← Finset.sum_const]
      rw [← Finset.sum_subset (Finset.subset_univ I) fun j _ hj => out j (by simpa only [I, Finset.mem_filter, Finset.mem_univ, true_and] using hj)]
      exact Finset.sum_le_sum fun j _ => up j
    have w0 : 0 ≤ q.y - p.y + 4 / 10 ^ 8 := by norm_num; linarith
    have key : s * (I.card : ℝ) ≤ (q.x - p.x + 6 / 10 ^ 4) + s := by
      have e : (q.x - p.x + 6 / 10 ^ 4) + s = s * (((q.x + 3 / 10 ^ 4) - (p.x - 3 / 10 ^ 4)) / s + 1) := by
        field_simp; ring
      rw [e]
      exact mul_le_mul_of_nonneg_left cI sp.le
    generalize (I.card : ℝ) = c at key sum1
    generalize ∑ j, L j = T at sum1
    clear * - key sum1 w0 sp sx sy
    calc s * T ≤ s * (c * (q.y - p.y + 4 / 10 ^ 8)) := mul_le_mul_of_nonneg_left sum1 sp.le
      _ = (s * c) * (q.y - p.y + 4 / 10 ^ 8) := by ring
      _ ≤ (q.x - p.x + s + 1 / 1000) * (q.y - p.y + 4 / 10 ^ 8) := mul_le_mul_of_nonneg_right (by norm_num at *; linarith) w0
      _ ≤ _ := mul_le_mul_of_nonneg_left (by norm_num) (by norm_num; linarith)

/-! ## in the file -/

theorem layersRun_ge : ∀ (ds : List (List (List R3) × List (R3 × R3))) (k : ℕ), ∀ m ∈ layersRun k ds, (k : ℤ) ≤ m.layer
  | [], _, m, h => by simp [layersRun] at h
  | d :: ds, k, m, h => by
    rw [layersRun, List.mem_append] at h
    rcases h with h | h
    · rw [layerRun, List.mem_append] at h
      rcases h with h | h <;> obtain ⟨u, -, rfl⟩ := List.mem_map.1 h <;> exact le_rfl
    · have := layersRun_ge ds (k + 1) m h
      push_cast at this
      omega

/-- the moves that fill a layer are those along its fill lines -/
theorem fillMoves_run : ∀ {ds : List (List (List R3) × List (R3 × R3))} {k j : ℕ} {d : List (List R3) × List (R3 × R3)}, ds[j]? = some d →
    fillMovesOf (k + j) (layersRun k ds) = (d.2.flatMap fun s => pathRun [s.1, s.2]).map fun q => ⟨(k + j : ℕ), "FILL_PATHES".toList, q.1, q.2⟩
  | [], k, j, d, h => by simp at h
  | a :: t, k, j, d, h => by
    classical
    have part : ∀ i : ℕ, fillMovesOf i (layerRun k a) =
        if i = k then (a.2.flatMap fun s => pathRun [s.1, s.2]).map fun q => ⟨k, "FILL_PATHES".toList, q.1, q.2⟩ else [] := by
      intro i
      unfold fillMovesOf layerRun
      rw [List.filter_append, List.filter_eq_nil_iff.2 (by
        intro m hm
        obtain ⟨u, -, rfl⟩ := List.mem_map.1 hm
        have ne : "OUTER_PATHES".toList ≠ "FILL_PATHES".toList := by decide
        rw [decide_eq_true_eq]
        exact fun e => ne e.2), List.nil_append]
      split
      · next e =>
        rw [List.filter_eq_self]
        intro m hm
        obtain ⟨u, -, rfl⟩ := List.mem_map.1 hm
        rw [decide_eq_true_eq]
        exact ⟨by rw [e], rfl⟩
      · next e =>
        rw [List.filter_eq_nil_iff]
        intro m hm
        obtain ⟨u, -, rfl⟩ := List.mem_map.1 hm
        rw [decide_eq_true_eq]
        exact fun e' => e (Nat.cast_injective e'.1).symm
    rw [layersRun]
    have app : fillMovesOf (k + j) (layerRun k a ++ layersRun (k + 1) t) = fillMovesOf (k + j) (layerRun k a) ++ fillMovesOf (k + j) (layersRun (k + 1) t) := by
      unfold fillMovesOf
      exact List.filter_append ..
    rw [app, part]
    cases j with
    | zero =>
      simp only [List.getElem?_cons_zero, Option.some.injEq] at h
      subst h
      have none : fillMovesOf (k + 0) (layersRun (k + 1) t) = [] := by
        unfold fillMovesOf
        rw [List.filter_eq_nil_iff]
        intro m hm
        have := layersRun_ge t (k + 1) m hm
        rw [decide_eq_true_eq]
        rintro ⟨e, -⟩
        rw [e] at this
        push_cast at this
        omega
      rw [none, if_pos (Nat.add_zero k), List.append_nil]
      rfl
    | succ j =>
      rw [if_neg (by omega), List.nil_append]
      have := fillMoves_run (k := k + 1) (j := j) (ds := t) (d := d) (by simpa using h)
      rw [show k + 1 + j = k + (j + 1) by omega] at this
      exact this

/-- the moves are as long as the lines, up to 0.002 each -/
theorem movesY_near (k : ℕ) : ∀ ls : List (R3 × R3),
    ((ls.flatMap fun s => pathRun [s.1, s.2]).map fun q => (⟨k, "FILL_PATHES".toList, q.1, q.2⟩ : PrintedMove)).length = ls.length ∧
    |movesY ((ls.flatMap fun s => pathRun [s.1, s.2]).map fun q => ⟨k, "FILL_PATHES".toList, q.1, q.2⟩) - alongY ls| ≤ (ls.length : ℝ) / 500
  | [] => by simp [movesY, alongY]
  | (a, b) :: t => by
    obtain ⟨i1, i2⟩ := movesY_near k t
    have e : (((a, b) :: t).flatMap fun s => pathRun [s.1, s.2]) = (a.thousandth, nozzleTo a.thousandth a b) :: (t.flatMap fun s => pathRun [s.1, s.2]) := by
      rw [List.flatMap_cons]; simp [pathRun, nozzleRun]
    rw [e, List.map_cons]
    have ay : |a.thousandth.y - a.y| ≤ 1 / 2000 := thousandth_near _
    have b' : |(nozzleTo a.thousandth a b).y - b.y| ≤ 1 / 2000 + 1 / 1000 := coordAfter_near le_rfl ay
    constructor
    · rw [List.length_cons, i1, List.length_cons]
    · unfold movesY alongY at i2 ⊢
      simp only [List.map_cons, List.sum_cons, List.length_cons, Nat.cast_add, Nat.cast_one]
      generalize (List.map (fun m : PrintedMove => |m.stop.y - m.start.y|) _).sum = A at i2 ⊢
      generalize (List.map (fun s : R3 × R3 => |s.2.y - s.1.y|) t).sum = B at i2 ⊢
      have tri := abs_abs_sub_abs_le ((nozzleTo a.thousandth a b).y - a.thousandth.y) (b.y - a.y)
      rw [abs_le] at *
      have := abs_le.1 (le_refl |(nozzleTo a.thousandth a b).y - a.thousandth.y - (b.y - a.y)|)
      have big : |(nozzleTo a.thousandth a b).y - a.thousandth.y - (b.y - a.y)| ≤ 1 / 500 := by
        rw [abs_le]; constructor <;> linarith
      constructor <;> linarith

/-- the layer is one of the solid ones -/
def IsSolid (sett : Settings B64) (n i : ℕ) : Prop := (i : ℤ) < sett.bottomLayers ∨ (n : ℤ) - i ≤ sett.topLayers

/-- **C117, program.** A run of the program in `float64` on a box as in C110. In every solid layer, and with a pattern of one direction in every other
layer as well, the moves that fill the layer cover the area of the box if every move is as wide as the distance of the lines: at most one line from wall
to wall too many, and at most three too few, up to 0.002 mm for every move. This distance is the line width in solid layers, and the line width over
the fill density in all others. -/
theorem C117_program (M : Machine B64) (fuel : ℕ) (read : String → Option Bytes) (templates : String → Option (List Char))
    (canWrite : String → Bool) (now : String) (fl : GoosliFlags B64) (ts0 : List RTri) (o p q : R3) (t lw : ℝ) (k n : ℕ)
    (hread : Loads (read fl.stl) (fmesh ts0)) (hF : ∀ w ∈ allVerts ts0, w.isF) (hty : fl.slicingType = "3axes") (ho : o.isF)
    (horg : fl.origin = o.f64v) (hout : canWrite fl.out = true) (htop : (templates "data/header_template.txt").isSome)
    (hbot : (templates "data/footer_template.txt").isSome) (hts : ts0.map (RTri.movedF o) = brick p q)
    (H : GoodBox k p q) (E : EvenLayers k n p.z q.z t) (hn : 2 ≤ n)
    (ht : fl.layerHeight = B64.of t) (hs : fl.supportsOn = false)
    (hlw : fl.lineWidth = B64.of lw) (Flw : IsF lw) (l0 : 1 / 50 ≤ lw) (l1 : lw ≤ 10)
    (hd0 : 1 ≤ densityShare fl.fillingType fl.fillDensity) (hd1 : densityShare fl.fillingType fl.fillDensity ≤ 100) :
    ∃ (hd ft : List Char) (text : String), runGoosli M fuel read templates canWrite now fl = ⟨[(fl.out, hd ++ text.toList ++ ft)], .ok ()⟩ ∧
      ∀ i < n, IsSolid fl.settings n i ∨ (fl.fillingType ≠ "Squares" ∧ fl.fillingType ≠ "Triangles") →
        ∃ s : ℝ, (IsSolid fl.settings n i → s = lw) ∧ (¬ IsSolid fl.settings n i → |s - 100 / fl.fillDensity * lw| ≤ 1 / 10 ^ 12) ∧
          ∃ T, FillsArea s T (q.x - p.x) (q.y - p.y) ∧ ∀ P : Printer, P.tool = 0 →
            |movesY (fillMovesOf i (printedMoves P (parseText text))) - T| ≤ ((fillMovesOf i (printedMoves P (parseText text))).length : ℝ) / 500 := by
  obtain ⟨hd, ft, text, sparse, full, ds, h1, h2, h3, h4, h5, h6⟩ := box_run M fuel read templates canWrite now fl ts0 o p q t lw k n hread hF hty ho
    horg hout htop hbot hts H E hn ht hs hlw Flw l0 l1 hd0 hd1
  refine ⟨hd, ft, text, h1, fun i hi hone => ?_⟩
  have hd' : ds[i]? = some ds[i] := List.getElem?_eq_getElem (by omega)
  obtain ⟨g, a, b, f1, f2⟩ := h5 i _ hd'
  have moves : ∀ P : Printer, P.tool = 0 → |movesY (fillMovesOf i (printedMoves P (parseText text))) - alongY ds[i].2| ≤
      ((fillMovesOf i (printedMoves P (parseText text))).length : ℝ) / 500 := by
    intro P hP
    rw [h6 P hP]
    have := fillMoves_run (k := 0) hd'
    rw [Nat.zero_add] at this
    rw [this, (movesY_near _ _).1]
    exact (movesY_near _ _).2
  by_cases hsol : IsSolid fl.settings n i
  · have hsol' := hsol
    unfold IsSolid at hsol'
    rw [planesAtF, if_pos hsol'] at f2
    exact ⟨lw, fun _ => rfl, fun h => absurd hsol h, _, C117_layer H g a b f1 f2 (by norm_num at l0 ⊢; linarith) h3, moves⟩
  · have hsol' := hsol
    unfold IsSolid at hsol'
    rw [planesAtF, if_neg hsol'] at f2
    obtain ⟨n1, n2⟩ := hone.resolve_left hsol
    have ed : densityShare fl.fillingType fl.fillDensity = fl.fillDensity := by rw [densityShare, if_neg n1, if_neg n2]
    have ep : patternDirs fl.fillingType = [⟨1, 0, 0⟩] := by rw [patternDirs, if_neg n1, if_neg n2]
    rw [ed] at h2 hd0 hd1
    rw [ep] at h2
    obtain ⟨parts, e, hp⟩ := h2
    obtain ⟨part, rest, hg, hr, e'⟩ := List.forall₂_cons_left_iff.1 hp
    rw [List.forall₂_nil_left_iff.1 hr] at e'
    rw [e', List.flatten_singleton] at e
    rw [← e] at hg
    obtain ⟨-, -, s0, -, s1⟩ := stepF_spec hd0 hd1 Flw l0 l1
    exact ⟨_, fun h => absurd h hsol, fun _ => s1, _, C117_layer H g a b f1 f2 s0 hg, moves⟩

/-- flags for a vertical slice in layers of a quarter of a millimetre with lines of half a millimetre, two solid layers at the bottom and three on top,
and a fill density of 20 percent in between -/
private noncomputable def exFlags : GoosliFlags B64 :=
  ⟨"in.stl", "out.gcode", (⟨0, 0, 0⟩ : R3).f64v, (⟨0, 0, 0⟩ : R3).f64, B64.of 10, B64.of (1 / 4), B64.of 1, 20, 3, 2, 60, 200, 50, 30, 40, false,
    B64.of (1 / 2), "Lines", false, 20, B64.of 5, "planes.txt", "3axes", B64.of 30, zUp.f64v, false, B64.of 1, B64.of 2, B64.of 1, 3⟩

/-- a box of 40 by 30 by 12 mm -/
private theorem exBox : GoodBox 3 ⟨-20, 5, 0⟩ ⟨20, 35, 12⟩ where
  below := by unfold Below3; norm_num
  coarse := by norm_num
  px := ⟨-20, by norm_num⟩
  py := ⟨5, by norm_num⟩
  pz := ⟨0, by norm_num⟩
  qx := ⟨20, by norm_num⟩
  qy := ⟨35, by norm_num⟩
  qz := ⟨12, by norm_num⟩
  pr := by unfold R3.inRange; norm_num
  qr := by unfold R3.inRange; norm_num
  high := by norm_num

/-- the theorem applies: the tenth layer of the box of 40 by 30 by 12 mm gets 480 mm of fill lines, up to one line of 30 mm more or three less, and the
first layer 2400 mm -/
example (M : Machine B64) (fuel : ℕ) (now : String) :
    ∃ (hd ft : List Char) (text : String),
    runGoosli M fuel (fun _ => some (saveSTL (fmesh (brick ⟨-20, 5, 0⟩ ⟨20, 35, 12⟩)))) (fun _ => some []) (fun _ => true) now exFlags =
      ⟨[("out.gcode", hd ++ text.toList ++ ft)], .ok ()⟩ ∧
    (∃ T, 389 ≤ T ∧ T ≤ 511 ∧ ∀ P : Printer, P.tool = 0 → |movesY (fillMovesOf 10 (printedMoves P (parseText text))) - T| ≤
      ((fillMovesOf 10 (printedMoves P (parseText text))).length : ℝ) / 500) ∧
    ∃ T, 2309 ≤ T ∧ T ≤ 2431 ∧ ∀ P : Printer, P.tool = 0 → |movesY (fillMovesOf 0 (printedMoves P (parseText text))) - T| ≤
      ((fillMovesOf 0 (printedMoves P (parseText text))).length : ℝ) / 500 := by
  have em := movedF_zero (ts := brick ⟨-20, 5, 0⟩ ⟨20, 35, 12⟩) (box_isF exBox)
  have step : rd (((48 : ℕ) : ℝ) * (1 / 4) * rd (1 / ((48 : ℕ) : ℝ))) = 1 / 4 := by
    have := even_upto48 (n := 48) (by omega) (by omega) (b := -2) (by norm_num)
    have e : (2 : ℝ) ^ (-2 : ℤ) = 1 / 4 := by norm_num
    rwa [e] at this
  have E : EvenLayers 3 48 0 12 (1 / 4) := ⟨⟨0, by norm_num⟩, ⟨1, by norm_num⟩, by norm_num, by norm_num, by norm_num, by norm_num, step⟩
  obtain ⟨hd, ft, text, h1, h2⟩ :=
    C117_program M fuel (fun _ => some (saveSTL (fmesh (brick ⟨-20, 5, 0⟩ ⟨20, 35, 12⟩)))) (fun _ => some []) (fun _ => true) now exFlags
      (brick ⟨-20, 5, 0⟩ ⟨20, 35, 12⟩) ⟨0, 0, 0⟩ ⟨-20, 5, 0⟩ ⟨20, 35, 12⟩ (1 / 4) (1 / 2) 3 48
      (box_loads exBox) (box_isF exBox) rfl ⟨isF_zero, isF_zero, isF_zero⟩ rfl rfl rfl rfl em exBox E (by omega) rfl rfl rfl isF_half (by norm_num)
      (by norm_num) (by decide) (by decide)
  refine ⟨hd, ft, text, h1, ?_, ?_⟩
  · obtain ⟨s, -, a, T, ⟨b1, b2⟩, c⟩ := h2 10 (by norm_num) (Or.inr ⟨by decide, by decide⟩)
    have a' : |s - 100 / ((20 : ℤ) : ℝ) * (1 / 2)| ≤ 1 / 10 ^ 12 := a (by
      have e1 : exFlags.settings.bottomLayers = 2 := rfl
      have e2 : exFlags.settings.topLayers = 3 := rfl
      unfold IsSolid; rw [e1, e2]; norm_num)
    rw [abs_le] at a'
    norm_num at a' b1 b2
    refine ⟨T, ?_, ?_, c⟩ <;> nlinarith
  · obtain ⟨s, a, -, T, ⟨b1, b2⟩, c⟩ := h2 0 (by norm_num) (Or.inr ⟨by decide, by decide⟩)
    have e1 : exFlags.settings.bottomLayers = 2 := rfl
    rw [a (Or.inl (by rw [e1]; norm_num))] at b1 b2
    norm_num at b1 b2
    refine ⟨T, ?_, ?_, c⟩ <;> linarith

end Goosli
