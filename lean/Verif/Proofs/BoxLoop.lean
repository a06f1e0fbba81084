import Verif.Props.C111
/-!
# The contour of a box layer is one rectangle

The eight sections of the sides of a box form one ring; joining and merging them gives a closed path of five points.
-/
set_option autoImplicit false
namespace Goosli
open Flt R3 Spec

/-! ## rings -/

/-- a closed chain the sides of which go from one point of a ring to the next goes around the whole ring -/
theorem ring_chain {m : ℕ} (v : ℕ → R3) (inj : ∀ i j, v i = v j → i % m = j % m) (per : ∀ i j, i % m = j % m → v i = v j) :
    ∀ (c : List R3) (i : ℕ), c.head? = some (v i) → (∀ s ∈ sides c, ∃ j, s = (v j, v (j + 1))) →
      c = (List.range c.length).map fun j => v (i + j) := by
  intro c
  induction c with
  | nil => intro i h; simp at h
  | cons a t ih =>
    intro i h hs
    simp only [List.head?_cons, Option.some.injEq] at h
    subst h
    cases t with
    | nil => simp
    | cons b t =>
      obtain ⟨j, hj⟩ := hs (v i, b) (by simp [sides])
      injection hj with h1 h2
      have hb : b = v (i + 1) := by
        rw [h2]
        exact per _ _ (by rw [Nat.add_mod, ← inj _ _ h1, ← Nat.add_mod])
      have := ih (i + 1) (by simp [hb]) fun s hs' => hs s (by simp [sides] at hs' ⊢; exact Or.inr hs')
      rw [List.length_cons, List.range_succ_eq_map, List.map_cons, List.map_map]
      simp only [Nat.add_zero, List.cons.injEq, true_and]
      rw [this]
      simp only [List.length_map, List.length_range]
      apply List.map_congr_left
      intro k _
      simp only [Function.comp, Nat.succ_eq_add_one]
      congr 1; omega

theorem sides_length (c : List R3) : (sides c).length = c.length - 1 := by
  simp [sides]

/-- closed contours the sides of which are the sides of a ring, each used once, are one contour around the ring -/
theorem ring_once {m : ℕ} (hm : 2 ≤ m) (v : ℕ → R3) (inj : ∀ i j, v i = v j → i % m = j % m) (per : ∀ i j, i % m = j % m → v i = v j)
    {cs : List (List R3)} (hc : ∀ c ∈ cs, 2 ≤ c.length ∧ c.head? = c.getLast?)
    (hp : (cs.flatMap sides).Perm ((List.range m).map fun j => (v j, v (j + 1)))) :
    ∃ i, i < m ∧ cs = [(List.range (m + 1)).map fun j => v (i + j)] := by
  have each : ∀ c ∈ cs, ∃ i, i < m ∧ m + 1 ≤ c.length ∧ c = (List.range c.length).map fun j => v (i + j) := by
    intro c h
    obtain ⟨h2, hcl⟩ := hc c h
    have hs : ∀ s ∈ sides c, ∃ j, s = (v j, v (j + 1)) := by
      intro s hs
      obtain ⟨j, -, rfl⟩ := List.mem_map.1 (hp.mem_iff.1 (List.mem_flatMap.2 ⟨c, h, hs⟩))
      exact ⟨j, rfl⟩
    match c, h2, hcl, hs with
    | a :: b :: t, h2, hcl, hs =>
      obtain ⟨i, hi⟩ := hs (a, b) (by simp [sides])
      injection hi with h1 _
      have e := ring_chain v inj per (a :: b :: t) (i % m) (by rw [h1]; simp [per i (i % m) (by simp)]) hs
      refine ⟨i % m, Nat.mod_lt _ (by omega), ?_, e⟩
      rw [e] at hcl
      simp only [List.head?_map, List.getLast?_map, List.length_cons, List.head?_range, List.getLast?_range] at hcl
      simp only [Nat.succ_ne_zero, if_false, Option.map_some, Option.some.injEq, Nat.add_zero] at hcl
      have := inj _ _ hcl
      have hd : m ∣ (t.length + 1) := by
        have : (i % m + 0) % m = (i % m + (t.length + 1)) % m := by simpa using this
        have := Nat.ModEq.add_left_cancel' (i % m) this
        exact (Nat.modEq_zero_iff_dvd).1 this.symm
      have := Nat.le_of_dvd (by omega) hd
      simp only [List.length_cons]
      omega
  have hlen := hp.length_eq
  rw [List.length_flatMap] at hlen
  simp only [List.length_map, List.length_range] at hlen
  match cs, each, hlen with
  | [], _, hlen => simp at hlen; omega
  | [c], each, hlen =>
    obtain ⟨i, h1, h2, h3⟩ := each c (by simp)
    simp [sides_length] at hlen
    refine ⟨i, h1, ?_⟩
    have : c.length = m + 1 := by omega
    rw [this] at h3
    rw [h3]
  | c :: d :: t, each, hlen =>
    obtain ⟨_, _, h2, _⟩ := each c (by simp)
    obtain ⟨_, _, h2', _⟩ := each d (by simp)
    simp [sides_length] at hlen
    omega

/-! ## the ring of a box -/

/-- the rising edges in the order in which the contour meets them -/
def ringEdge (i : ℕ) : Corner × Corner :=
  let o := false; let l := true
  match i % 8 with
  | 0 => ((l,o,o), (l,o,l))
  | 1 => ((o,o,o), (l,o,l))
  | 2 => ((o,o,o), (o,o,l))
  | 3 => ((o,o,o), (o,l,l))
  | 4 => ((o,l,o), (o,l,l))
  | 5 => ((o,l,o), (l,l,l))
  | 6 => ((l,l,o), (l,l,l))
  | _ => ((l,o,o), (l,l,l))

/-- where the level meets the edge -/
noncomputable def cutOf (p q : R3) (h : ℝ) (e : Corner × Corner) : R3 :=
  ⟨p.x + (q.x - p.x) * along (share p q h) e.1.1 e.2.1, p.y + (q.y - p.y) * along (share p q h) e.1.2.1 e.2.2.1, h⟩

theorem cutOf_at (p q : R3) (h : ℝ) (e : Corner × Corner) : CutAt p q h e (cutOf p q h e) := ⟨rfl, rfl, rfl⟩

noncomputable def ringPt (p q : R3) (h : ℝ) (i : ℕ) : R3 := cutOf p q h (ringEdge i)

theorem ringEdge_mem (i : ℕ) : ringEdge i ∈ risingEdges := by
  have : ∀ j < 8, ringEdge j ∈ risingEdges := by decide
  have e : ringEdge i = ringEdge (i % 8) := by unfold ringEdge; rw [Nat.mod_mod]
  rw [e]; exact this _ (Nat.mod_lt _ (by norm_num))

theorem ringEdge_inj {i j : ℕ} (h : ringEdge i = ringEdge j) : i % 8 = j % 8 := by
  have : ∀ i < 8, ∀ j < 8, ringEdge i = ringEdge j → i = j := by decide
  have e : ∀ i, ringEdge i = ringEdge (i % 8) := fun i => by unfold ringEdge; rw [Nat.mod_mod]
  rw [e i, e j] at h
  exact this _ (Nat.mod_lt _ (by norm_num)) _ (Nat.mod_lt _ (by norm_num)) h

theorem cutOf_inj {p q : R3} (hb : Below3 p q) {h : ℝ} (h0 : p.z < h) (h1 : h < q.z) {e f : Corner × Corner} (he : e ∈ risingEdges)
    (hf : f ∈ risingEdges) (hx : cutOf p q h e = cutOf p q h f) : e = f := by
  obtain ⟨s0, s1⟩ := share_mem h0 h1
  have ex := congrArg R3.x hx
  have ey := congrArg R3.y hx
  simp only [cutOf, add_right_inj] at ex ey
  have ex := mul_left_cancel₀ (sub_ne_zero.2 hb.1.ne') ex
  have ey := mul_left_cancel₀ (sub_ne_zero.2 hb.2.1.ne') ey
  generalize share p q h = τ at ex ey s0 s1
  have key : ∀ {a b c d : Bool}, (a = true → b = true) → (c = true → d = true) → along τ a b = along τ c d → a = c ∧ b = d := by
    intro a b c d h1 h2 h
    unfold along at h
    cases a <;> cases b <;> cases c <;> cases d <;> simp [bit] at h h1 h2 ⊢ <;> linarith
  have up : ∀ e ∈ risingEdges, (e.1.1 = true → e.2.1 = true) ∧ (e.1.2.1 = true → e.2.2.1 = true) ∧ e.1.2.2 = false ∧ e.2.2.2 = true := by decide
  obtain ⟨a1, a2, a3, a4⟩ := up e he
  obtain ⟨b1, b2, b3, b4⟩ := up f hf
  obtain ⟨c1, c2⟩ := key a1 b1 ex
  obtain ⟨c3, c4⟩ := key a2 b2 ey
  exact Prod.ext (Prod.ext c1 (Prod.ext c3 (a3.trans b3.symm))) (Prod.ext c2 (Prod.ext c4 (a4.trans b4.symm)))

/-- the section of a triangle of the box by its crossing edges -/
theorem crossAt_cut {p q : R3} {h : ℝ} (h0 : p.z < h) (h1 : h < q.z) (i j : Corner) (hi : i.2.2 = false) (hj : j.2.2 = true) :
    crossAt (lvl h) zUp (cornerAt p q i, cornerAt p q j) = cutOf p q h (i, j) ∧ crossAt (lvl h) zUp (cornerAt p q j, cornerAt p q i) = cutOf p q h (i, j) := by
  have hz : q.z - p.z ≠ 0 := by linarith [h0, h1] |> fun (h : 0 < q.z - p.z) => h.ne'
  have hz' : p.z - q.z ≠ 0 := fun e => hz (by linarith)
  have ci : (cornerAt p q i).z = p.z := by simp [cornerAt, hi]
  have cj : (cornerAt p q j).z = q.z := by simp [cornerAt, hj]
  obtain ⟨-, g2, g3, g4⟩ := crossAt_lvl (h := h) (e := (cornerAt p q i, cornerAt p q j)) (Or.inl ⟨by rw [height_lvl, ci]; linarith, by rw [height_lvl, cj]; linarith⟩)
  obtain ⟨-, k2, k3, k4⟩ := crossAt_lvl (h := h) (e := (cornerAt p q j, cornerAt p q i)) (Or.inr ⟨by rw [height_lvl, ci]; linarith, by rw [height_lvl, cj]; linarith⟩)
  simp only [ci, cj] at g3 g4 k3 k4
  have es : (h - q.z) / (p.z - q.z) = 1 - share p q h := by
    unfold share; field_simp; ring
  have al : ∀ a b : Bool, along (1 - share p q h) a b = along (share p q h) b a := by
    intro a b; unfold along; ring
  rw [es] at k3 k4
  constructor
  · refine R3.ext ?_ ?_ g2
    · rw [g3]; exact along_eq
    · rw [g4]; exact along_eq
  · refine R3.ext ?_ ?_ k2
    · rw [k3]; simp only [cornerAt]; rw [along_eq, al]; rfl
    · rw [k4]; simp only [cornerAt]; rw [along_eq, al]; rfl

theorem box_sections {p q : R3} {h : ℝ} (h0 : p.z < h) (h1 : h < q.z) :
    ((brick p q).filterMap (secOf (lvl h) zUp)).Perm ((List.range 8).map fun j => (ringPt p q h j, ringPt p q h (j + 1))) := by
  have a : ∀ i : Corner, R3.height (lvl h) zUp (cornerAt p q i) = (bif i.2.2 then q.z else p.z) - h := fun i => height_lvl _ _
  have n0 : ¬ (0 < p.z - h) := by linarith
  have n1 : ¬ (q.z - h < 0) := by linarith
  have y0 : p.z - h < 0 := by linarith
  have y1 : 0 < q.z - h := by linarith
  have key : (brick p q).filterMap (secOf (lvl h) zUp) = [(0, 1), (1, 2), (4, 5), (5, 6), (2, 3), (3, 4), (6, 7), (7, 0)].map
      fun j : ℕ × ℕ => (ringPt p q h j.1, ringPt p q h j.2) := by
    have c := fun i j hi hj => (crossAt_cut h0 h1 (p := p) (q := q) i j hi hj)
    have e : ∀ (i j k : Corner), secOf (lvl h) zUp ⟨cornerAt p q i, cornerAt p q j, cornerAt p q k⟩ = 
      match i.2.2, j.2.2, k.2.2 with
      | false, false, true => some (cutOf p q h (j, k), cutOf p q h (i, k))
      | false, true, false => some (cutOf p q h (i, j), cutOf p q h (k, j))
      | true, false, false => some (cutOf p q h (k, i), cutOf p q h (j, i))
      | false, true, true => some (cutOf p q h (i, j), cutOf p q h (i, k))
      | true, false, true => some (cutOf p q h (j, k), cutOf p q h (j, i))
      | true, true, false => some (cutOf p q h (k, i), cutOf p q h (k, j))
      | _, _, _ => none := by
      intro i j k
      rcases hi : i.2.2 <;> rcases hj : j.2.2 <;> rcases hk : k.2.2 <;>
        simp [secOf, RTri.edges, ups, downs, ascends, descends, a, hi, hj, hk, n0, n1, y0, y1, List.filter] <;>
        constructor <;> first
          | exact (c _ _ (by assumption) (by assumption)).1
          | exact (c _ _ (by assumption) (by assumption)).2
    simp only [brick, boxFaces, List.map_cons, List.map_nil, List.filterMap_cons, e, List.filterMap_nil]
    rfl
  rw [key]
  have : ((List.range 8).map fun j => (ringPt p q h j, ringPt p q h (j + 1))) = [(0, 1), (1, 2), (2, 3), (3, 4), (4, 5), (5, 6), (6, 7), (7, 0)].map
      fun j : ℕ × ℕ => (ringPt p q h j.1, ringPt p q h j.2) := rfl
  rw [this]
  exact List.Perm.map _ (by decide)

/-- joined, the sections of a box at a level are one contour around the ring -/
theorem box_ring {k : ℕ} {p q : R3} (H : GoodBox k p q) {h : ℝ} (h0 : p.z < h) (h1 : h < q.z) {cs : List (List R3)}
    (hc : ∀ c ∈ cs, 2 ≤ c.length ∧ c.head? = c.getLast?) (hp : (cs.flatMap sides).Perm ((brick p q).filterMap (secOf (lvl h) zUp))) :
    ∃ i, i < 8 ∧ cs = [(List.range 9).map fun j => ringPt p q h (i + j)] :=
  ring_once (by norm_num) (ringPt p q h)
    (fun i j e => ringEdge_inj (cutOf_inj H.below h0 h1 (ringEdge_mem i) (ringEdge_mem j) e))
    (fun i j e => by unfold ringPt ringEdge; rw [e]) hc (hp.trans (box_sections h0 h1))

/-! ## merging -/

section
variable {α : Type} [Flt α]

/-- three points of the chain are merged -/
def Merges (u v w : Point α) : Prop := (Line.mk u v).isCollinear (Line.mk v w) = true

theorem minimize_even {A a B b C c D d : Point α} (hA : A.equal A = true) (m1 : Merges A a B) (n1 : ¬ Merges A B b) (m2 : Merges B b C) (n2 : ¬ Merges B C c)
    (m3 : Merges C c D) (n3 : ¬ Merges C D d) (m4 : Merges D d A) (n4 : ¬ Merges D A B) :
    (Path.mk [A, a, B, b, C, c, D, d, A]).minimizeLines = ⟨[A, B, C, D, A]⟩ := by
  unfold Merges at *
  simp [Path.minimizeLines, minimizeLoop, minimizeClose, setLast, Path.isClosed, m1, m2, m3, m4, n1, n2, n3, n4]

theorem minimize_odd {A a B b C c D d : Point α} (ha : a.equal a = true) (n1 : ¬ Merges a B b) (m2 : Merges B b C) (n2 : ¬ Merges B C c)
    (m3 : Merges C c D) (n3 : ¬ Merges C D d) (m4 : Merges D d A) (n4 : ¬ Merges D A a) (m1 : Merges A a B) :
    (Path.mk [a, B, b, C, c, D, d, A, a]).minimizeLines = ⟨[A, B, C, D, A]⟩ ∨
    (Path.mk [a, B, b, C, c, D, d, A, a]).minimizeLines = ⟨[B, C, D, A, B]⟩ := by
  unfold Merges at *
  rcases hl : ((Line.mk a B).len <? (Line.mk A a).len : Bool) with _ | _
  · left
    simp [Path.minimizeLines, minimizeLoop, minimizeClose, setLast, Path.isClosed, m1, m2, m3, m4, n1, n2, n3, n4, ha, hl]
  · right
    simp [Path.minimizeLines, minimizeLoop, minimizeClose, setLast, Path.isClosed, m1, m2, m3, m4, n1, n2, n3, n4, ha, hl]
end

/-- corner `i` of the rectangle of the box at the level -/
noncomputable def rectCorner (p q : R3) (h : ℝ) (i : ℕ) : R3 :=
  match i % 4 with
  | 0 => ⟨q.x, p.y, h⟩
  | 1 => ⟨p.x, p.y, h⟩
  | 2 => ⟨p.x, q.y, h⟩
  | _ => ⟨q.x, q.y, h⟩

/-- around the rectangle, from corner `i` back to it -/
noncomputable def rectLoop (p q : R3) (h : ℝ) (i : ℕ) : List R3 :=
  [rectCorner p q h i, rectCorner p q h (i + 1), rectCorner p q h (i + 2), rectCorner p q h (i + 3), rectCorner p q h i]

/-- numbers on the grid are stored as they are -/
theorem store_exact {k : ℕ} (hk : k ≤ 8) {x : ℝ} (hx : Dyadic k x) (hr : |x| ≤ 1000) : rd (r8 x) = x := by
  have F := grid_isF hk hx hr
  have e : ∃ m : ℤ, x * 10 ^ 8 = m := by
    obtain ⟨n, rfl⟩ := hx
    refine ⟨n * 5 ^ 8 * 2 ^ (8 - k), ?_⟩
    have : (10 : ℝ) ^ 8 = 5 ^ 8 * 2 ^ (8 - k) * 2 ^ k := by
      rw [mul_assoc, ← pow_add, Nat.sub_add_cancel hk]; norm_num
    rw [this]
    push_cast
    rw [div_mul_eq_mul_div, div_eq_iff (by positivity)]
    ring
  obtain ⟨m, hm⟩ := e
  have : r8 x = x := by
    unfold r8
    rw [hm]
    have f1 : ⌈(m : ℝ) - 1 / 2⌉ = m := by rw [Int.ceil_eq_iff]; constructor <;> linarith
    have f2 : ⌊(m : ℝ) + 1 / 2⌋ = m := by rw [Int.floor_eq_iff]; constructor <;> linarith
    rw [f1, f2, ite_self, ← hm]
    field_simp
  rw [this]
  exact rd_of_rep F.1

theorem GoodBox.level_range {k : ℕ} {p q : R3} (H : GoodBox k p q) {h : ℝ} (h0 : p.z < h) (h1 : h < q.z) : |h| ≤ 1000 := by
  have a := abs_le.1 H.pr.2.2; have b := abs_le.1 H.qr.2.2
  rw [abs_le]; constructor <;> linarith

theorem stored_corner {k : ℕ} {p q : R3} (H : GoodBox k p q) {h : ℝ} (hg : Dyadic k h) (h0 : p.z < h) (h1 : h < q.z) (i : ℕ) :
    storedAt (ringPt p q h (2 * i)) = rectCorner p q h i := by
  have hz := store_exact H.coarse hg (H.level_range h0 h1)
  have px := store_exact (Nat.zero_le 8) H.px H.pr.1
  have py := store_exact (Nat.zero_le 8) H.py H.pr.2.1
  have qx := store_exact (Nat.zero_le 8) H.qx H.qr.1
  have qy := store_exact (Nat.zero_le 8) H.qy H.qr.2.1
  unfold ringPt ringEdge rectCorner storedAt cutOf
  have e : 2 * i % 8 = 2 * (i % 4) := by omega
  rw [e]
  have : i % 4 < 4 := Nat.mod_lt _ (by norm_num)
  interval_cases i % 4 <;> simp [along, bit, px, py, qx, qy, hz]

theorem cut_inRange {k : ℕ} {p q : R3} (H : GoodBox k p q) {h : ℝ} (h0 : p.z < h) (h1 : h < q.z) (e : Corner × Corner) : (cutOf p q h e).inRange := by
  obtain ⟨a, b, -, -⟩ := (cutOf_at p q h e).near H h0 h1
  have a1 := abs_le.1 H.pr.1
  have b1 := abs_le.1 H.qr.1
  have c1 := abs_le.1 H.pr.2.1
  have d1 := abs_le.1 H.qr.2.1
  exact ⟨abs_le.2 ⟨by linarith, by linarith⟩, abs_le.2 ⟨by linarith, by linarith⟩, H.level_range h0 h1⟩

/-- a stored point of the ring -/
noncomputable def ringF (p q : R3) (h : ℝ) (i : ℕ) : Point B64 := (storedAt (ringPt p q h i)).f64

theorem ring_not {k : ℕ} {p q : R3} (H : GoodBox k p q) {h : ℝ} (hg : Dyadic k h) (h0 : p.z < h) (h1 : h < q.z) (i j l : ℕ)
    (ij : ringEdge i ≠ ringEdge j) (jl : ringEdge j ≠ ringEdge l) (il : ringEdge i ≠ ringEdge l) (hs : oneSide (ringEdge i) (ringEdge j) (ringEdge l) = false) :
    ¬ Merges (ringF p q h i) (ringF p q h j) (ringF p q h l) := by
  intro hm
  obtain ⟨m0, m1⟩ := H.share hg h0 h1
  have R := fun i => storedAt_isF (cut_inRange H h0 h1 (ringEdge i))
  have z : ∀ i j, (storedAt (cutOf p q h (ringEdge i))).z = (storedAt (cutOf p q h (ringEdge j))).z := fun i j => rfl
  have := collinear_f64 (R i).1 (R j).1 (R l).1 (R i).2 (R j).2 (R l).2 (z i j) (z j l) hm
  rcases area2_lower (by norm_num) m0 m1 (ringEdge_mem i) (ringEdge_mem j) (ringEdge_mem l) ij jl il with hs' | hbig
  · rw [hs] at hs'; cases hs'
  · exact absurd (thin_not H h0 h1 (cutOf_at p q h (ringEdge i)) (cutOf_at p q h (ringEdge j)) (cutOf_at p q h (ringEdge l)) hbig) (not_le.2 this)

/-- points with the same `x` or the same `y` at one height are merged -/
theorem merges_side {u v w : R3} (hu : u.isF) (hv : v.isF) (hw : w.isF) (bu : u.inBox) (bv : v.inBox) (bw : w.inBox)
    (huv : u.z = v.z) (hvw : v.z = w.z) (hs : (u.x = v.x ∧ v.x = w.x) ∨ (u.y = v.y ∧ v.y = w.y)) : Merges u.f64 v.f64 w.f64 := by
  have d : ∀ {x y : ℝ}, |x| ≤ 1100 → |y| ≤ 1100 → |x - y| ≤ 2200 := by
    intro x y hx hy; have := abs_sub_range hx hy; linarith
  have F : ∀ {x : ℝ}, |x| ≤ 2200 → IsF (rd x) := fun h => isF_rd (h.trans (by norm_num))
  have F0 := isF_zero
  have ux := F (d bv.1 bu.1)
  have uy := F (d bv.2.1 bu.2.1)
  have wx := F (d bw.1 bv.1)
  have wy := F (d bw.2.1 bv.2.1)
  have hc : ((Line.mk u.f64 v.f64).toVector.cross (Line.mk v.f64 w.f64).toVector) = ⟨B64.of 0, B64.of 0, B64.of 0⟩ := by
    show (⟨(B64.of v.y - B64.of u.y) * (B64.of w.z - B64.of v.z) - (B64.of v.z - B64.of u.z) * (B64.of w.y - B64.of v.y),
      (B64.of v.z - B64.of u.z) * (B64.of w.x - B64.of v.x) - (B64.of v.x - B64.of u.x) * (B64.of w.z - B64.of v.z),
      (B64.of v.x - B64.of u.x) * (B64.of w.y - B64.of v.y) - (B64.of v.y - B64.of u.y) * (B64.of w.x - B64.of v.x)⟩ : Vec B64) = _
    rw [B64.sub_of hv.1 hu.1, B64.sub_of hv.2.1 hu.2.1, B64.sub_of hv.2.2 hu.2.2, B64.sub_of hw.1 hv.1, B64.sub_of hw.2.1 hv.2.1,
      B64.sub_of hw.2.2 hv.2.2, huv, hvw, sub_self, rd_zero]
    rcases hs with ⟨e1, e2⟩ | ⟨e1, e2⟩
    · rw [e1, e2, sub_self, rd_zero, B64.mul_of uy F0, B64.mul_of F0 wy, B64.mul_of F0 F0, mul_zero, zero_mul, rd_zero, mul_zero, rd_zero, B64.sub_of F0 F0,
        sub_self, rd_zero]
    · rw [e1, e2, sub_self, rd_zero, B64.mul_of ux F0, B64.mul_of F0 wx, B64.mul_of F0 F0, mul_zero, zero_mul, rd_zero, mul_zero, rd_zero, B64.sub_of F0 F0,
        sub_self, rd_zero]
  unfold Merges Line.isCollinear
  rw [hc]
  show almostZero (Flt.sqrt (B64.of 0 * B64.of 0 + B64.of 0 * B64.of 0 + B64.of 0 * B64.of 0)) = true
  rw [B64.mul_of F0 F0, mul_zero, rd_zero, B64.add_of F0 F0, add_zero, rd_zero, B64.add_of F0 F0, add_zero, rd_zero, B64.sqrt_of F0 le_rfl, Real.sqrt_zero, rd_zero]
  have := almostZero_same F0
  rwa [B64.sub_of F0 F0, sub_self, rd_zero] at this

theorem ring_merges {k : ℕ} {p q : R3} (H : GoodBox k p q) {h : ℝ} (h0 : p.z < h) (h1 : h < q.z) (i j l : ℕ)
    (hs : oneSide (ringEdge i) (ringEdge j) (ringEdge l) = true) : Merges (ringF p q h i) (ringF p q h j) (ringF p q h l) := by
  have R := fun i => storedAt_isF (cut_inRange H h0 h1 (ringEdge i))
  refine merges_side (R i).1 (R j).1 (R l).1 (R i).2 (R j).2 (R l).2 rfl rfl ?_
  obtain ⟨a1, a2, a3, a4⟩ := cut_const (cutOf_at p q h (ringEdge i))
  obtain ⟨b1, b2, b3, b4⟩ := cut_const (cutOf_at p q h (ringEdge j))
  obtain ⟨c1, c2, c3, c4⟩ := cut_const (cutOf_at p q h (ringEdge l))
  simp only [oneSide, Bool.or_eq_true, Bool.and_eq_true, beq_iff_eq] at hs
  simp only [storedAt, ringPt]
  rcases hs with ((hside | hside) | hside) | hside <;> obtain ⟨⟨⟨⟨⟨s1, s2⟩, s3⟩, s4⟩, s5⟩, s6⟩ := hside
  · left; rw [a1 s1 s2, b1 s3 s4, c1 s5 s6]; exact ⟨rfl, rfl⟩
  · left; rw [a2 s1 s2, b2 s3 s4, c2 s5 s6]; exact ⟨rfl, rfl⟩
  · right; rw [a3 s1 s2, b3 s3 s4, c3 s5 s6]; exact ⟨rfl, rfl⟩
  · right; rw [a4 s1 s2, b4 s3 s4, c4 s5 s6]; exact ⟨rfl, rfl⟩

/-- **the contour of a box layer.** Joined and merged in `float64`, the sections of a box at a level on the grid are one path: once around the
rectangle, from one of its corners, at exactly the height of the level. -/
theorem box_outline (S : Sorter) {k : ℕ} {p q : R3} (H : GoodBox k p q) {h : ℝ} (hg : Dyadic k h) (h0 : p.z < h) (h1 : h < q.z)
    (ps : List (Path B64)) (hp : ps.Perm (sectionPaths (levelF h) (fmesh (brick p q)).triangles)) :
    ∃ i, i < 4 ∧ joinPaths3AndMinimize S ps = .ok [fpath (rectLoop p q h i)] := by
  have safe : FloatSafe h (brick p q) := C109_safe (box_grid H) hg (H.level_range h0 h1) (fun w hw e => by
    rcases (box_vert hw).2.2 with e' | e' <;> linarith)
  obtain ⟨cs, hj, hc, hperm⟩ := C101_contours S (brick p q) h (box_watertight H.below) (box_solid H.below) safe ps hp
  obtain ⟨i, hi, rfl⟩ := box_ring H h0 h1 hc hperm
  have per : ∀ i j, i % 8 = j % 8 → ringF p q h i = ringF p q h j := fun i j e => by unfold ringF ringPt ringEdge; rw [e]
  have M := ring_merges H h0 h1
  have N := ring_not H hg h0 h1
  have eqv : ∀ i, (ringF p q h i).equal (ringF p q h i) = true := fun i => equal_f64 (storedAt_isF (cut_inRange H h0 h1 (ringEdge i))).1
  have cor : ∀ i, ringF p q h (2 * i) = (rectCorner p q h i).f64 := fun i => by unfold ringF; rw [stored_corner H hg h0 h1]
  have hm : ∃ j, j < 4 ∧ (Path.mk ((List.range 9).map fun j => ringF p q h (i + j))).minimizeLines = fpath (rectLoop p q h j) := by
    have loop : ∀ n, fpath (rectLoop p q h n) = ⟨[ringF p q h (2 * n), ringF p q h (2 * n + 2), ringF p q h (2 * n + 4), ringF p q h (2 * n + 6), ringF p q h (2 * n)]⟩ := by
      intro n
      have c := fun m => (cor (n + m)).symm
      simp only [Nat.mul_add] at c
      simp only [fpath, rectLoop, List.map_cons, List.map_nil]
      rw [c 1, c 2, c 3, ← cor n]
    have even : ∀ n, n < 4 → (Path.mk ((List.range 9).map fun j => ringF p q h (2 * n + j))).minimizeLines = fpath (rectLoop p q h n) := by
      intro n hn
      rw [loop]
      have e8 := per (2 * n + 8) (2 * n) (by omega)
      show (Path.mk [ringF p q h (2 * n), ringF p q h (2 * n + 1), ringF p q h (2 * n + 2), ringF p q h (2 * n + 3), ringF p q h (2 * n + 4), ringF p q h (2 * n + 5),
        ringF p q h (2 * n + 6), ringF p q h (2 * n + 7), ringF p q h (2 * n + 8)]).minimizeLines = _
      rw [e8]
      refine minimize_even (eqv _) ?_ ?_ ?_ ?_ ?_ ?_ ?_ ?_
      all_goals first
        | (refine M _ _ _ ?_; interval_cases n <;> decide)
        | (refine N _ _ _ ?_ ?_ ?_ ?_ <;> (interval_cases n <;> decide))
    have odd : ∀ n, n < 4 → ∃ j, j < 4 ∧ (Path.mk ((List.range 9).map fun j => ringF p q h (2 * n + 1 + j))).minimizeLines = fpath (rectLoop p q h j) := by
      intro n hn
      have e8 := per (2 * n + 8) (2 * n) (by omega)
      have e9 := per (2 * n + 9) (2 * n + 1) (by omega)
      have := minimize_odd (A := ringF p q h (2 * n)) (a := ringF p q h (2 * n + 1)) (B := ringF p q h (2 * n + 2)) (b := ringF p q h (2 * n + 3))
        (C := ringF p q h (2 * n + 4)) (c := ringF p q h (2 * n + 5)) (D := ringF p q h (2 * n + 6)) (d := ringF p q h (2 * n + 7)) (eqv _) ?_ ?_ ?_ ?_ ?_ ?_ ?_ ?_
      · have el : (Path.mk ((List.range 9).map fun j => ringF p q h (2 * n + 1 + j))) = ⟨[ringF p q h (2 * n + 1), ringF p q h (2 * n + 2), ringF p q h (2 * n + 3),
          ringF p q h (2 * n + 4), ringF p q h (2 * n + 5), ringF p q h (2 * n + 6), ringF p q h (2 * n + 7), ringF p q h (2 * n), ringF p q h (2 * n + 1)]⟩ := by
          rw [← e8]
          show Path.mk [ringF p q h (2 * n + 1), ringF p q h (2 * n + 2), ringF p q h (2 * n + 3), ringF p q h (2 * n + 4), ringF p q h (2 * n + 5),
            ringF p q h (2 * n + 6), ringF p q h (2 * n + 7), ringF p q h (2 * n + 8), ringF p q h (2 * n + 9)] = _
          rw [e9]
        rw [el]
        rcases this with e | e
        · exact ⟨n, hn, by rw [e, loop]⟩
        · refine ⟨(n + 1) % 4, Nat.mod_lt _ (by norm_num), ?_⟩
          rw [e, loop, per (2 * ((n + 1) % 4)) (2 * n + 2) (by omega), per (2 * ((n + 1) % 4) + 2) (2 * n + 4) (by omega),
            per (2 * ((n + 1) % 4) + 4) (2 * n + 6) (by omega), per (2 * ((n + 1) % 4) + 6) (2 * n) (by omega)]
      all_goals first
        | (refine M _ _ _ ?_; interval_cases n <;> decide)
        | (refine N _ _ _ ?_ ?_ ?_ ?_ <;> (interval_cases n <;> decide))
    rcases Nat.even_or_odd' i with ⟨n, rfl | rfl⟩
    · exact ⟨n, by omega, even n (by omega)⟩
    · exact odd n (by omega)
  obtain ⟨j, hj4, hm⟩ := hm
  refine ⟨j, hj4, ?_⟩
  unfold joinPaths3AndMinimize
  rw [hj]
  show Except.ok _ = _
  congr 1
  simp only [List.map_cons, List.map_nil, List.map_map]
  rw [← hm]
  rfl

end Goosli
