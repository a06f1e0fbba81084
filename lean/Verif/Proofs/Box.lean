import Verif.Props.C109
/-!
# Boxes

The twelve triangles of a box with sides along the axes, as a model on a grid (C109).
-/
set_option autoImplicit false
namespace Goosli
open Flt Spec

/-! ## specification -/

/-- a corner of a box: for each axis, lower or upper -/
abbrev Corner := Bool × Bool × Bool

/-- the corner of the box from `p` to `q` -/
noncomputable def cornerAt (p q : R3) (i : Corner) : R3 :=
  ⟨bif i.1 then q.x else p.x, bif i.2.1 then q.y else p.y, bif i.2.2 then q.z else p.z⟩

/-- the two triangles of each side: bottom, top, front, back, left, right -/
def boxFaces : List (Corner × Corner × Corner) :=
  let o := false; let l := true
  [((o,o,o), (o,l,o), (l,l,o)), ((o,o,o), (l,l,o), (l,o,o)),
   ((o,o,l), (l,o,l), (l,l,l)), ((o,o,l), (l,l,l), (o,l,l)),
   ((o,o,o), (l,o,o), (l,o,l)), ((o,o,o), (l,o,l), (o,o,l)),
   ((o,l,o), (o,l,l), (l,l,l)), ((o,l,o), (l,l,l), (l,l,o)),
   ((o,o,o), (o,o,l), (o,l,l)), ((o,o,o), (o,l,l), (o,l,o)),
   ((l,o,o), (l,l,o), (l,l,l)), ((l,o,o), (l,l,l), (l,o,l))]

/-- the surface of the box from `p` to `q` -/
noncomputable def brick (p q : R3) : List RTri := boxFaces.map fun f => ⟨cornerAt p q f.1, cornerAt p q f.2.1, cornerAt p q f.2.2⟩

/-! ## its edges -/

/-- the directed edges by corners -/
def boxEdges : List (Corner × Corner) := boxFaces.flatMap fun f => [(f.1, f.2.1), (f.2.1, f.2.2), (f.2.2, f.1)]

theorem box_edges (p q : R3) : dirEdges (brick p q) = boxEdges.map (Prod.map (cornerAt p q) (cornerAt p q)) := rfl

theorem box_verts (p q : R3) : allVerts (brick p q) = (boxFaces.flatMap fun f => [f.1, f.2.1, f.2.2]).map (cornerAt p q) := rfl

/-- `p` is below `q` in every coordinate -/
def Below3 (p q : R3) : Prop := p.x < q.x ∧ p.y < q.y ∧ p.z < q.z

theorem cornerAt_inj {p q : R3} (h : Below3 p q) : Function.Injective (cornerAt p q) := by
  rintro ⟨a, b, c⟩ ⟨a', b', c'⟩ e
  obtain ⟨hx, hy, hz⟩ := h
  have ex := congrArg R3.x e
  have ey := congrArg R3.y e
  have ez := congrArg R3.z e
  simp only [cornerAt] at ex ey ez
  have : ∀ {u v : ℝ} {s t : Bool}, u < v → (bif s then v else u) = (bif t then v else u) → s = t := by
    intro u v s t h e
    cases s <;> cases t <;> simp at e ⊢ <;> linarith
  rw [this hx ex, this hy ey, this hz ez]

theorem boxEdges_nodup : boxEdges.Nodup := by decide
theorem boxEdges_swap : ∀ e ∈ boxEdges, e.swap ∈ boxEdges := by decide

theorem box_watertight {p q : R3} (h : Below3 p q) : Watertight (brick p q) := by
  have inj := cornerAt_inj h
  constructor
  · rw [box_edges]
    exact boxEdges_nodup.map (inj.prodMap inj)
  · intro e he
    rw [box_edges] at he ⊢
    obtain ⟨f, hf, rfl⟩ := List.mem_map.1 he
    exact List.mem_map.2 ⟨f.swap, boxEdges_swap f hf, rfl⟩

/-- two edges of the same kind: along each axis both constant with the same value or both not constant -/
def sameKind (e f : Corner × Corner) : Bool :=
  let c := fun (a b u v : Bool) => (a == b) == (u == v) && (a != b || a == u)
  c e.1.1 e.2.1 f.1.1 f.2.1 && c e.1.2.1 e.2.2.1 f.1.2.1 f.2.2.1 && c e.1.2.2 e.2.2.2 f.1.2.2 f.2.2.2

set_option maxRecDepth 8192 in
theorem boxEdges_kind : ∀ e ∈ boxEdges, ∀ f ∈ boxEdges, sameKind e f = true → e = f ∨ e = f.swap := by decide

theorem same_coord {u v s t : ℝ} {a b c d : Bool} (h : u < v) (s0 : 0 < s) (s1 : s < 1) (t0 : 0 < t) (t1 : t < 1)
    (e : (bif a then v else u) + s * ((bif b then v else u) - (bif a then v else u)) =
      (bif c then v else u) + t * ((bif d then v else u) - (bif c then v else u))) :
    ((a == b) == (c == d) && (a != b || a == c)) = true := by
  cases a <;> cases b <;> cases c <;> cases d <;> simp at e ⊢ <;> first
    | nlinarith
    | (rcases e with e | e <;> linarith)

theorem box_apart {p q : R3} (h : Below3 p q) : EdgesApart (brick p q) := by
  intro e he f hf x ⟨s, s0, s1, hs⟩ ⟨t, t0, t1, ht⟩
  rw [box_edges] at he hf
  obtain ⟨e, he', rfl⟩ := List.mem_map.1 he
  obtain ⟨f, hf', rfl⟩ := List.mem_map.1 hf
  rw [hs] at ht
  have kx := same_coord h.1 s0 s1 t0 t1 (congrArg R3.x ht)
  have ky := same_coord h.2.1 s0 s1 t0 t1 (congrArg R3.y ht)
  have kz := same_coord h.2.2 s0 s1 t0 t1 (congrArg R3.z ht)
  have k : sameKind e f = true := by
    unfold sameKind
    simp only [Bool.and_eq_true] at kx ky kz ⊢
    exact ⟨⟨kx, ky⟩, kz⟩
  rcases boxEdges_kind e he' f hf' k with rfl | rfl
  · exact Or.inl rfl
  · exact Or.inr rfl

theorem box_solid {p q : R3} (h : Below3 p q) : ∀ t ∈ brick p q, t.nrm ≠ 0 := by
  obtain ⟨hx, hy, hz⟩ := h
  have a := (sub_pos.2 hx).ne'
  have b := (sub_pos.2 hy).ne'
  have c := (sub_pos.2 hz).ne'
  intro t ht h0
  have ex := congrArg R3.x h0
  have ey := congrArg R3.y h0
  have ez := congrArg R3.z h0
  obtain ⟨f, hf, rfl⟩ := List.mem_map.1 ht
  simp only [boxFaces, List.mem_cons, List.not_mem_nil, or_false] at hf
  rcases hf with rfl | rfl | rfl | rfl | rfl | rfl | rfl | rfl | rfl | rfl | rfl | rfl <;>
    simp [RTri.nrm, R3.cross, cornerAt, a, b, c] at ex ey ez

/-! ## it is a model on a grid -/

/-- the box has whole coordinates of at most a metre, and `2^k` times its height is at most 500 -/
structure GoodBox (k : ℕ) (p q : R3) : Prop where
  below : Below3 p q
  coarse : k ≤ 8
  px : Dyadic 0 p.x
  py : Dyadic 0 p.y
  pz : Dyadic 0 p.z
  qx : Dyadic 0 q.x
  qy : Dyadic 0 q.y
  qz : Dyadic 0 q.z
  pr : p.inRange
  qr : q.inRange
  high : 2 ^ k * (q.z - p.z) ≤ 500

theorem box_vert {p q w : R3} (h : w ∈ allVerts (brick p q)) :
    (w.x = p.x ∨ w.x = q.x) ∧ (w.y = p.y ∨ w.y = q.y) ∧ (w.z = p.z ∨ w.z = q.z) := by
  rw [box_verts] at h
  obtain ⟨⟨a, b, c⟩, -, rfl⟩ := List.mem_map.1 h
  simp only [cornerAt]
  refine ⟨?_, ?_, ?_⟩
  · cases a <;> simp
  · cases b <;> simp
  · cases c <;> simp

theorem box_grid {k : ℕ} {p q : R3} (H : GoodBox k p q) : GridModel 0 k (brick p q) where
  fine := Nat.zero_le k
  coarse := H.coarse
  grid w hw := by
    obtain ⟨hx, hy, hz⟩ := box_vert hw
    refine ⟨?_, ?_, ?_⟩
    · rcases hx with e | e <;> rw [e]; exacts [H.px, H.qx]
    · rcases hy with e | e <;> rw [e]; exacts [H.py, H.qy]
    · rcases hz with e | e <;> rw [e]; exacts [H.pz, H.qz]
  range w hw := by
    obtain ⟨hx, hy, hz⟩ := box_vert hw
    refine ⟨?_, ?_, ?_⟩
    · rcases hx with e | e <;> rw [e]; exacts [H.pr.1, H.qr.1]
    · rcases hy with e | e <;> rw [e]; exacts [H.pr.2.1, H.qr.2.1]
    · rcases hz with e | e <;> rw [e]; exacts [H.pr.2.2, H.qr.2.2]
  short e he := by
    have h := H.below.2.2
    have hh := H.high
    have k0 : (0 : ℝ) < 2 ^ k := by positivity
    have hz : |e.1.z - e.2.z| ≤ q.z - p.z := by
      rcases (box_vert (edge_mem_verts he).1).2.2 with e1 | e1 <;> rcases (box_vert (edge_mem_verts he).2).2.2 with e2 | e2 <;>
        rw [e1, e2, abs_le] <;> constructor <;> linarith
    rw [pow_zero, one_mul]
    exact (mul_le_mul_of_nonneg_left hz k0.le).trans hh
  solid := box_solid H.below
  apart := box_apart H.below

theorem box_extent {p q : R3} (h : Below3 p q) : Extent (brick p q) zUp p.z q.z := by
  have hd : ∀ w : R3, w.dot zUp = w.z := by intro w; simp [R3.dot, zUp]
  refine ⟨⟨⟨cornerAt p q (false, false, false), ?_, ?_⟩, ?_⟩, ⟨cornerAt p q (true, true, true), ?_, ?_⟩, ?_⟩
  · rw [box_verts]; exact List.mem_map.2 ⟨_, by decide, rfl⟩
  · rw [hd]; rfl
  · rintro x ⟨w, hw, rfl⟩
    rw [hd]
    rcases (box_vert hw).2.2 with e | e <;> rw [e]
    exact h.2.2.le
  · rw [box_verts]; exact List.mem_map.2 ⟨_, by decide, rfl⟩
  · rw [hd]; rfl
  · rintro x ⟨w, hw, rfl⟩
    rw [hd]
    rcases (box_vert hw).2.2 with e | e <;> rw [e]
    exact h.2.2.le

/-! ## its cross-section -/

/-- the number of a choice -/
def bit (b : Bool) : ℤ := bif b then 1 else 0

/-- the edges that go up: the lower and the upper corner -/
def risingEdges : List (Corner × Corner) := boxEdges.filter fun e => !e.1.2.2 && e.2.2.2

/-- how far up the level is, as a share of the height -/
noncomputable def share (p q : R3) (h : ℝ) : ℝ := (h - p.z) / (q.z - p.z)

/-- a coordinate of the crossing point of the edge, as a share of the width -/
noncomputable def along (τ : ℝ) (a b : Bool) : ℝ := (1 - τ) * bit a + τ * bit b

theorem share_mem {p q : R3} {h : ℝ} (h0 : p.z < h) (h1 : h < q.z) : 0 < share p q h ∧ share p q h < 1 := by
  have hz : 0 < q.z - p.z := by linarith
  exact ⟨div_pos (by linarith) hz, by unfold share; rw [div_lt_one hz]; linarith⟩

theorem boxEdges_dir : ∀ e ∈ boxEdges, e.1.2.2 ≠ e.2.2.2 → e ∈ risingEdges ∨ e.swap ∈ risingEdges := by decide

theorem along_eq {u v τ : ℝ} {a b : Bool} : (bif a then v else u) + τ * ((bif b then v else u) - (bif a then v else u)) = u + (v - u) * along τ a b := by
  unfold along
  cases a <;> cases b <;> simp [bit] <;> ring

/-- the crossing points of a level with the edges of the box -/
theorem box_cross {p q : R3} {h : ℝ} {w : R3} (h0 : p.z < h) (h1 : h < q.z) (hc : CrossPoint (lvl h) zUp (brick p q) w) :
    w.z = h ∧ ∃ e ∈ risingEdges, w.x = p.x + (q.x - p.x) * along (share p q h) e.1.1 e.2.1 ∧
      w.y = p.y + (q.y - p.y) * along (share p q h) e.1.2.1 e.2.2.1 := by
  have hz : q.z - p.z ≠ 0 := by linarith [h0, h1] |> fun (h : 0 < q.z - p.z) => h.ne'
  obtain ⟨e, he, hc, rfl⟩ := hc
  obtain ⟨g1, g2, g3, g4⟩ := crossAt_lvl hc
  refine ⟨g2, ?_⟩
  rw [box_edges] at he
  obtain ⟨⟨i, j⟩, he', rfl⟩ := List.mem_map.1 he
  have hne : i.2.2 ≠ j.2.2 := by
    intro hh
    simp only [Prod.map, cornerAt, hh] at g1
    rcases g1 with ⟨a, b⟩ | ⟨a, b⟩ <;> linarith
  have hd := boxEdges_dir (i, j) he' hne
  rw [g3, g4]
  simp only [Prod.map, cornerAt] at g1 ⊢
  rcases hij : i.2.2 <;> rcases hjj : j.2.2
  · rw [hij, hjj] at hne; exact absurd rfl hne
  · refine ⟨(i, j), ?_, ?_, ?_⟩
    · rcases hd with hd | hd
      · exact hd
      · have := (List.mem_filter.1 hd).2
        simp [hij, hjj] at this
    · simp only [cond_true, cond_false]
      exact along_eq
    · simp only [cond_true, cond_false]
      exact along_eq
  · have es : (h - q.z) / (p.z - q.z) = 1 - share p q h := by
      unfold share
      have : p.z - q.z ≠ 0 := fun e => hz (by linarith)
      field_simp
      ring
    have al : ∀ a b : Bool, along (1 - share p q h) a b = along (share p q h) b a := by
      intro a b; unfold along; ring
    refine ⟨(j, i), ?_, ?_, ?_⟩
    · rcases hd with hd | hd
      · have := (List.mem_filter.1 hd).2
        simp [hij, hjj] at this
      · exact hd
    · simp only [cond_true, cond_false]
      rw [es, along_eq, al]
    · simp only [cond_true, cond_false]
      rw [es, along_eq, al]
  · rw [hij, hjj] at hne; exact absurd rfl hne

end Goosli
