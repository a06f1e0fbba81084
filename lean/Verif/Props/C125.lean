import Verif.Props.C21
import Verif.Props.C15
/-!
# C125: cutting opens a closed surface only along the cut
-/
set_option autoImplicit false
namespace Goosli
open Flt

/-! ## edges of pieces -/

/-- the pieces `q` of the triangle `r` on the side `W` of a cut; `X a b` is where the edge from `a` to `b` is cut -/
def CutPiece (W : R3 → Prop) (X : R3 → R3 → R3) (r : RTri) (q : List RTri) : Prop :=
  ((∀ v ∈ r.verts, W v) ∧ q = [r]) ∨ ((∀ v ∈ r.verts, ¬ W v) ∧ q = []) ∨
    (∃ s ∈ r.rots, W s.a ∧ ¬ W s.b ∧ ¬ W s.c ∧ q = [⟨s.a, X s.a s.b, X s.a s.c⟩]) ∨
    ∃ s ∈ r.rots, ¬ W s.a ∧ W s.b ∧ W s.c ∧ q = [⟨X s.a s.b, s.b, s.c⟩, ⟨s.c, X s.a s.c, X s.a s.b⟩]

theorem edges_iff (t : RTri) (e : R3 × R3) : e ∈ t.edges ↔ e = (t.a, t.b) ∨ e = (t.b, t.c) ∨ e = (t.c, t.a) := by
  simp [RTri.edges]

theorem rots_edges {r s : RTri} (h : s ∈ r.rots) (e : R3 × R3) : e ∈ s.edges ↔ e ∈ r.edges := by
  simp only [RTri.rots, List.mem_cons, List.not_mem_nil, or_false] at h
  rcases h with rfl | rfl | rfl <;> simp only [edges_iff, RTri.rot] <;> tauto

theorem edge_ends {r : RTri} {x y : R3} (h : (x, y) ∈ r.edges) : x ∈ r.verts ∧ y ∈ r.verts := by
  rw [edges_iff] at h
  simp only [Prod.mk.injEq] at h
  simp only [RTri.verts, List.mem_cons, List.not_mem_nil, or_false]
  tauto

/-- what is left on the side of an edge -/
theorem CutPiece.keeps {W : R3 → Prop} {X : R3 → R3 → R3} (hX : ∀ a b, X a b = X b a) {r : RTri} {q : List RTri} (h : CutPiece W X r q) {x y : R3}
    (he : (x, y) ∈ r.edges) :
    (W x → W y → (x, y) ∈ dirEdges q) ∧ (W x → ¬ W y → (x, X x y) ∈ dirEdges q) ∧ (¬ W x → W y → (X x y, y) ∈ dirEdges q) := by
  obtain ⟨vx, vy⟩ := edge_ends he
  rcases h with ⟨h, rfl⟩ | ⟨h, rfl⟩ | ⟨s, hs, ha, hb, hc, rfl⟩ | ⟨s, hs, ha, hb, hc, rfl⟩
  · refine ⟨fun _ _ => by simpa [dirEdges] using he, fun _ n => absurd (h y vy) n, fun n _ => absurd (h x vx) n⟩
  · exact ⟨fun w _ => absurd w (h x vx), fun w _ => absurd w (h x vx), fun _ w => absurd w (h y vy)⟩
  · rw [← rots_edges hs, edges_iff] at he
    simp only [dirEdges, List.flatMap_cons, List.flatMap_nil, List.append_nil, edges_iff]
    simp only [Prod.mk.injEq] at he
    rcases he with ⟨rfl, rfl⟩ | ⟨rfl, rfl⟩ | ⟨rfl, rfl⟩
    · exact ⟨fun _ w => absurd w hb, fun _ _ => Or.inl rfl, fun n _ => absurd ha n⟩
    · exact ⟨fun w _ => absurd w hb, fun w _ => absurd w hb, fun _ w => absurd w hc⟩
    · exact ⟨fun w _ => absurd w hc, fun w _ => absurd w hc, fun _ _ => Or.inr (Or.inr (by rw [hX]))⟩
  · rw [← rots_edges hs, edges_iff] at he
    simp only [dirEdges, List.flatMap_cons, List.flatMap_nil, List.append_nil, List.mem_append, edges_iff]
    simp only [Prod.mk.injEq] at he
    rcases he with ⟨rfl, rfl⟩ | ⟨rfl, rfl⟩ | ⟨rfl, rfl⟩
    · exact ⟨fun w _ => absurd w ha, fun w _ => absurd w ha, fun _ _ => Or.inl (Or.inl rfl)⟩
    · exact ⟨fun _ _ => Or.inl (Or.inr (Or.inl rfl)), fun _ n => absurd hc n, fun n _ => absurd hb n⟩
    · exact ⟨fun _ w => absurd w ha, fun _ _ => Or.inr (Or.inl (by rw [hX])), fun n _ => absurd hc n⟩

/-- where the edges of the pieces come from -/
theorem CutPiece.from {W : R3 → Prop} {X : R3 → R3 → R3} (hX : ∀ a b, X a b = X b a) {r : RTri} {q : List RTri} (h : CutPiece W X r q) {e : R3 × R3}
    (he : e ∈ dirEdges q) :
    (∃ x y, (x, y) ∈ r.edges ∧ ((W x ∧ W y ∧ e = (x, y)) ∨ (W x ∧ ¬ W y ∧ e = (x, X x y)) ∨ (¬ W x ∧ W y ∧ e = (X x y, y)))) ∨
      e.swap ∈ dirEdges q ∨ ∃ a b c d, ¬ (W a ↔ W b) ∧ ¬ (W c ↔ W d) ∧ e = (X a b, X c d) := by
  rcases h with ⟨h, rfl⟩ | ⟨h, rfl⟩ | ⟨s, hs, ha, hb, hc, rfl⟩ | ⟨s, hs, ha, hb, hc, rfl⟩
  · have he : e ∈ r.edges := by simpa [dirEdges] using he
    obtain ⟨x, y⟩ := e
    obtain ⟨vx, vy⟩ := edge_ends he
    exact Or.inl ⟨x, y, he, Or.inl ⟨h x vx, h y vy, rfl⟩⟩
  · simp [dirEdges] at he
  · have e1 : (s.a, s.b) ∈ r.edges := by rw [← rots_edges hs, edges_iff]; exact Or.inl rfl
    have e3 : (s.c, s.a) ∈ r.edges := by rw [← rots_edges hs, edges_iff]; exact Or.inr (Or.inr rfl)
    simp only [dirEdges, List.flatMap_cons, List.flatMap_nil, List.append_nil, edges_iff] at he
    rcases he with rfl | rfl | rfl
    · exact Or.inl ⟨_, _, e1, Or.inr (Or.inl ⟨ha, hb, rfl⟩)⟩
    · exact Or.inr (Or.inr ⟨s.a, s.b, s.a, s.c, by tauto, by tauto, rfl⟩)
    · exact Or.inl ⟨_, _, e3, Or.inr (Or.inr ⟨hc, ha, by rw [hX s.c]⟩)⟩
  · have e1 : (s.a, s.b) ∈ r.edges := by rw [← rots_edges hs, edges_iff]; exact Or.inl rfl
    have e2 : (s.b, s.c) ∈ r.edges := by rw [← rots_edges hs, edges_iff]; exact Or.inr (Or.inl rfl)
    have e3 : (s.c, s.a) ∈ r.edges := by rw [← rots_edges hs, edges_iff]; exact Or.inr (Or.inr rfl)
    simp only [dirEdges, List.flatMap_cons, List.flatMap_nil, List.append_nil, List.mem_append, edges_iff ⟨X s.a s.b, _, _⟩, edges_iff ⟨s.c, X s.a s.c, _⟩] at he ⊢
    rcases he with (rfl | rfl | rfl) | (rfl | rfl | rfl)
    · exact Or.inl ⟨_, _, e1, Or.inr (Or.inr ⟨ha, hb, rfl⟩)⟩
    · exact Or.inl ⟨_, _, e2, Or.inl ⟨hb, hc, rfl⟩⟩
    · exact Or.inr (Or.inl (Or.inr (Or.inr (Or.inr rfl))))
    · exact Or.inl ⟨_, _, e3, Or.inr (Or.inl ⟨hc, ha, by rw [hX s.c]⟩)⟩
    · exact Or.inr (Or.inr ⟨s.a, s.c, s.a, s.b, by tauto, by tauto, rfl⟩)
    · exact Or.inr (Or.inl (Or.inl (Or.inr (Or.inr rfl))))

theorem forall2_left {β γ : Type} {R : β → γ → Prop} {l : List β} {m : List γ} (h : List.Forall₂ R l m) {x : β} (hx : x ∈ l) : ∃ y ∈ m, R x y := by
  induction h with
  | nil => simp at hx
  | cons h _ ih =>
    rcases List.mem_cons.1 hx with rfl | hx
    · exact ⟨_, List.mem_cons_self, h⟩
    · obtain ⟨y, hy, hr⟩ := ih hx
      exact ⟨y, List.mem_cons_of_mem _ hy, hr⟩

theorem forall2_right {β γ : Type} {R : β → γ → Prop} {l : List β} {m : List γ} (h : List.Forall₂ R l m) {y : γ} (hy : y ∈ m) : ∃ x ∈ l, R x y := by
  induction h with
  | nil => simp at hy
  | cons h _ ih =>
    rcases List.mem_cons.1 hy with rfl | hy
    · exact ⟨_, List.mem_cons_self, h⟩
    · obtain ⟨x, hx, hr⟩ := ih hy
      exact ⟨x, List.mem_cons_of_mem _ hx, hr⟩

/-- the pieces of a closed surface are open only along the cut -/
theorem open_edges {W : R3 → Prop} {X : R3 → R3 → R3} (hX : ∀ a b, X a b = X b a) {ts : List RTri} (hw : ∀ e ∈ dirEdges ts, e.swap ∈ dirEdges ts)
    {qs : List (List RTri)} (h : List.Forall₂ (CutPiece W X) ts qs) {e : R3 × R3} (he : e ∈ dirEdges qs.flatten) :
    e.swap ∈ dirEdges qs.flatten ∨ ∃ a b c d, ¬ (W a ↔ W b) ∧ ¬ (W c ↔ W d) ∧ e = (X a b, X c d) := by
  have up : ∀ {q e}, q ∈ qs → e ∈ dirEdges q → e ∈ dirEdges qs.flatten := fun {q e} hq he => by
    simp only [dirEdges, List.mem_flatMap, List.mem_flatten] at he ⊢
    obtain ⟨t, ht, he⟩ := he
    exact ⟨t, ⟨q, hq, ht⟩, he⟩
  have here : ∀ {r x y}, r ∈ ts → (x, y) ∈ r.edges → (x, y) ∈ dirEdges ts := fun {r x y} hr he => List.mem_flatMap.2 ⟨r, hr, he⟩
  obtain ⟨q, hq, he⟩ : ∃ q ∈ qs, e ∈ dirEdges q := by
    simp only [dirEdges, List.mem_flatMap, List.mem_flatten] at he ⊢
    obtain ⟨t, ⟨q, hq, ht⟩, he⟩ := he
    exact ⟨q, hq, t, ht, he⟩
  obtain ⟨r, hr, hp⟩ := forall2_right h hq
  rcases hp.from hX he with ⟨x, y, hxy, hc⟩ | hs | ⟨a, b, c, d, h1, h2, rfl⟩
  · obtain ⟨r', hr', hyx⟩ := List.mem_flatMap.1 (hw _ (here hr hxy))
    obtain ⟨q', hq', hp'⟩ := forall2_left h hr'
    obtain ⟨k1, k2, k3⟩ := hp'.keeps hX (x := y) (y := x) hyx
    left
    rcases hc with ⟨wx, wy, rfl⟩ | ⟨wx, wy, rfl⟩ | ⟨wx, wy, rfl⟩
    · exact up hq' (k1 wy wx)
    · have := up hq' (k3 wy wx)
      rwa [hX] at this
    · have := up hq' (k2 wy wx)
      rwa [hX] at this
  · exact Or.inl (up hq hs)
  · exact Or.inr ⟨a, b, c, d, h1, h2, rfl⟩

/-! ## the pieces made by `CutMesh` -/

/-- the rounded point where the plane cuts the edge -/
private noncomputable def cutPoint (P N a b : R3) : R3 :=
  open Classical in if R3.height P N a = R3.height P N b then 0 else (crossAt P N (a, b)).round8

private theorem cutPoint_symm (P N a b : R3) : cutPoint P N a b = cutPoint P N b a := by
  unfold cutPoint
  by_cases h : R3.height P N a = R3.height P N b
  · rw [if_pos h, if_pos h.symm]
  · rw [if_neg h, if_neg (Ne.symm h)]
    exact congrArg _ (crossAt_swap (e := (b, a)) (Ne.symm h))

/-- the line through an edge that is not parallel to the plane meets it at `crossAt` -/
theorem crossAt_onPlane {P N a b : R3} (h : R3.height P N a ≠ R3.height P N b) : R3.onPlane P N (crossAt P N (a, b)) := by
  have h1 : R3.height P N a - R3.height P N b ≠ 0 := sub_ne_zero.2 h
  have e : R3.height P N (crossAt P N (a, b)) =
      R3.height P N a - (R3.height P N a / (R3.height P N a - R3.height P N b)) * (R3.height P N a - R3.height P N b) := by
    simp only [crossAt, R3.height, R3.dot]
    simp
    ring
  unfold R3.onPlane
  rw [e, div_mul_cancel₀ _ h1, sub_self]

/-- a point of the plane on the edge is that point -/
private theorem cutPoint_eq {P N a b u : R3} (h : R3.height P N a ≠ R3.height P N b) (h1 : R3.onSegment a b u) (h2 : R3.onPlane P N u) :
    u.round8 = cutPoint P N a b := by
  unfold cutPoint
  rw [if_neg h]
  obtain ⟨t, _, _, rfl⟩ := h1
  have h3 : R3.height P N a - R3.height P N b ≠ 0 := sub_ne_zero.2 h
  have e : R3.height P N a = t * (R3.height P N a - R3.height P N b) := by
    have h2' : R3.height P N (a + t • (b - a)) = 0 := h2
    simp only [R3.height, R3.dot] at h2' ⊢
    simp at h2' ⊢
    linarith
  have : t = R3.height P N a / (R3.height P N a - R3.height P N b) := by rw [eq_div_iff h3]; exact e.symm
  unfold crossAt
  simp only
  rw [← this]

/-- `v` is a point of the plane, up to the rounding of cut points -/
def atPlane (P N v : R3) : Prop := ∃ u, R3.onPlane P N u ∧ v.within8 u

private theorem cutPoint_at {P N a b : R3} (h : R3.height P N a ≠ R3.height P N b) : atPlane P N (cutPoint P N a b) := by
  unfold cutPoint
  rw [if_neg h]
  exact ⟨_, crossAt_onPlane h, round8_within _⟩

/-- the pieces of one triangle on both sides -/
private theorem cut_piece (P N : R3) (r : RTri) (hr : r.small) (hk : CutKind P N r) :
    ∃ up down : List RTri, (cutTriangle ⟨P.pt, N.vec⟩ r.tri).up = up.map RTri.tri ∧
      (cutTriangle ⟨P.pt, N.vec⟩ r.tri).down = down.map RTri.tri ∧
      CutPiece (fun v => 0 ≤ R3.height P N v) (cutPoint P N) r up ∧ CutPiece (fun v => R3.height P N v < 0) (cutPoint P N) r down := by
  rcases hk with h | h | ⟨hd, s, hs, U, V, h⟩
  · have ha := h r.a (by simp [RTri.verts])
    refine ⟨[r], [], ?_, ?_, Or.inl ⟨h, rfl⟩, Or.inr (Or.inl ⟨fun v hv => not_lt.2 (h v hv), rfl⟩)⟩
    all_goals
      rcases cut_cases P N r with ⟨_, _, _, e⟩ | ⟨h', _⟩ | ⟨s, hs, _, h', _, _⟩ | ⟨s, hs, h', _⟩
      · rw [e]; rfl
      · linarith
      · exact absurd (h _ (verts_rots hs).2.1) (by linarith)
      · exact absurd (h _ (verts_rots hs).1) (by linarith)
  · have ha := h r.a (by simp [RTri.verts])
    refine ⟨[], [r], ?_, ?_, Or.inr (Or.inl ⟨fun v hv => not_le.2 (h v hv), rfl⟩), Or.inl ⟨h, rfl⟩⟩
    all_goals
      rcases cut_cases P N r with ⟨h', _⟩ | ⟨_, _, _, e⟩ | ⟨s, hs, h', _⟩ | ⟨s, hs, _, h', _⟩
      · linarith
      · rw [e]; rfl
      · exact absurd (h _ (verts_rots hs).1) (by linarith)
      · exact absurd (h _ (verts_rots hs).2.1) (by linarith)
  · obtain ⟨k1, k2⟩ := clean_pieces P N r hr hd s hs U V h
    have nb : R3.height P N s.a ≠ R3.height P N s.b := by rcases h.side with h | h <;> intro e <;> linarith [h.1, h.2.1, h.2.2]
    have nc : R3.height P N s.a ≠ R3.height P N s.c := by rcases h.side with h | h <;> intro e <;> linarith [h.1, h.2.1, h.2.2]
    rw [cutPoint_eq nb h.onU.1 h.onU.2, cutPoint_eq nc h.onV.1 h.onV.2] at k1 k2
    rcases h.side with hh | hh
    · obtain ⟨e1, e2⟩ := k1 hh.1
      refine ⟨[_], [_, _], e1, e2, Or.inr (Or.inr (Or.inl ⟨s, hs, hh.1.le, not_le.2 hh.2.1, not_le.2 hh.2.2, rfl⟩)),
        Or.inr (Or.inr (Or.inr ⟨s, hs, not_lt.2 hh.1.le, hh.2.1, hh.2.2, rfl⟩))⟩
    · obtain ⟨e1, e2⟩ := k2 hh.1
      refine ⟨[_, _], [_], e2, e1, Or.inr (Or.inr (Or.inr ⟨s, hs, not_le.2 hh.1, hh.2.1, hh.2.2, rfl⟩)),
        Or.inr (Or.inr (Or.inl ⟨s, hs, hh.1, not_lt.2 hh.2.1, not_lt.2 hh.2.2, rfl⟩))⟩

/-- every open edge has both ends at the plane -/
def OpenOnlyAt (P N : R3) (half : List RTri) : Prop :=
  ∀ e ∈ dirEdges half, e.swap ∈ dirEdges half ∨ (atPlane P N e.1 ∧ atPlane P N e.2)

/-- **C125 (what holds for cleanly cut triangles).** If every triangle of a closed surface is on one side of the plane or
cleanly cut, the two halves are open, if at all, only in the cutting plane: an edge of a half, caps included, that no
triangle of the half runs through backwards has both ends in the plane, up to the rounding of the cut points.  Missing to
the full property: the caps closing the halves (they leave out the cut points on straight parts of the contour), and
triangles touching the plane with a vertex from behind (`C125_violated`). -/
theorem C125_open_partial (S : Sorter) (P N : R3) (ts : List RTri) (hs : ∀ r ∈ ts, r.small) (hk : ∀ r ∈ ts, CutKind P N r)
    (hw : Watertight ts) :
    ∃ up down : List RTri, cutMesh S (some (rmesh ts)) ⟨P.pt, N.vec⟩ = .ok (rmesh up, rmesh down) ∧
      OpenOnlyAt P N up ∧ OpenOnlyAt P N down := by
  obtain ⟨_, caps, h0, h1, _, h3⟩ := cutMesh_shape S P N ts hs
  obtain ⟨us, ds, e1, e2, pu, pd⟩ : ∃ us ds : List (List RTri),
      ts.flatMap (fun r => (cutTriangle ⟨P.pt, N.vec⟩ r.tri).up) = us.flatten.map RTri.tri ∧
      ts.flatMap (fun r => (cutTriangle ⟨P.pt, N.vec⟩ r.tri).down) = ds.flatten.map RTri.tri ∧
      List.Forall₂ (CutPiece (fun v => 0 ≤ R3.height P N v) (cutPoint P N)) ts us ∧
      List.Forall₂ (CutPiece (fun v => R3.height P N v < 0) (cutPoint P N)) ts ds := by
    clear h0 h1 hw
    induction ts with
    | nil => exact ⟨[], [], rfl, rfl, .nil, .nil⟩
    | cons r ts ih =>
      obtain ⟨us, ds, e1, e2, h, h'⟩ := ih (fun x hx => hs x (by simp [hx])) (fun x hx => hk x (by simp [hx]))
      obtain ⟨up, down, f1, f2, f3, f4⟩ := cut_piece P N r (hs r (by simp)) (hk r (by simp))
      exact ⟨up :: us, down :: ds, by simp [e1, f1], by simp [e2, f2], .cons f3 h, .cons f4 h'⟩
  have app : ∀ x y : List RTri, dirEdges (x ++ y) = dirEdges x ++ dirEdges y := fun x y => by simp [dirEdges]
  have close : ∀ (ps cs : List RTri), (∀ c ∈ cs, ∀ v ∈ c.verts, atPlane P N v) →
      (∀ e ∈ dirEdges ps, e.swap ∈ dirEdges ps ∨ (atPlane P N e.1 ∧ atPlane P N e.2)) → OpenOnlyAt P N (ps ++ cs) := by
    intro ps cs hc hp e he
    rw [app, List.mem_append] at he ⊢
    rcases he with he | he
    · rcases hp e he with h | h
      · exact Or.inl (Or.inl h)
      · exact Or.inr h
    · obtain ⟨c, hcc, he⟩ := List.mem_flatMap.1 he
      obtain ⟨x, y⟩ := e
      obtain ⟨vx, vy⟩ := edge_ends he
      exact Or.inr ⟨hc c hcc x vx, hc c hcc y vy⟩
  refine ⟨us.flatten ++ caps, ds.flatten ++ caps.map RTri.flip, ?_, ?_, ?_⟩
  · rw [h1, e1, e2]; simp [rmesh, List.map_append]
  · refine close _ _ (fun c hc => (h3 c hc).2) fun e he => ?_
    rcases open_edges (cutPoint_symm P N) hw.2 pu he with h | ⟨a, b, c, d, h1, h2, rfl⟩
    · exact Or.inl h
    · exact Or.inr ⟨cutPoint_at fun h => h1 (by simp only [h]), cutPoint_at fun h => h2 (by simp only [h])⟩
  · refine close _ _ (fun c hc v hv => ?_) fun e he => ?_
    · obtain ⟨c, hm, rfl⟩ := List.mem_map.1 hc
      refine (h3 c hm).2 v ?_
      simp only [RTri.verts, RTri.flip, List.mem_cons, List.not_mem_nil, or_false] at hv ⊢
      tauto
    rcases open_edges (cutPoint_symm P N) hw.2 pd he with h | ⟨a, b, c, d, h1, h2, rfl⟩
    · exact Or.inl h
    · exact Or.inr ⟨cutPoint_at fun h => h1 (by simp only [h]), cutPoint_at fun h => h2 (by simp only [h])⟩

theorem exTetra_small : ∀ r ∈ exTetra, r.small := fun r hr => by
  have : ∀ v ∈ r.verts, v.small := fun v hv => exTetra_ok.2.2.1 v (List.mem_flatMap.2 ⟨r, hr, hv⟩)
  exact ⟨this _ (by simp [RTri.verts]), this _ (by simp [RTri.verts]), this _ (by simp [RTri.verts])⟩

/-- **C125 (violated when a vertex touches the plane from behind).** The tetrahedron `exTetra` is closed and lies below the
plane through its top; cutting it there leaves nothing above and, below, only its base: the other faces touch the plane
with a vertex and are dropped. The half below is open along the edges of the base, far from the plane. -/
theorem C125_violated (S : Sorter) :
    Watertight exTetra ∧ (∀ r ∈ exTetra, r.small) ∧
    cutMesh S (some (rmesh exTetra)) ⟨(R3.mk 0 0 4).pt, (R3.mk 0 0 1).vec⟩ =
      .ok (rmesh [], rmesh [⟨⟨0, 0, 0⟩, ⟨0, 4, 0⟩, ⟨4, 0, 0⟩⟩]) ∧
    ¬ OpenOnlyAt ⟨0, 0, 4⟩ ⟨0, 0, 1⟩ [⟨⟨0, 0, 0⟩, ⟨0, 4, 0⟩, ⟨4, 0, 0⟩⟩] := by
  refine ⟨exTetra_ok.1, exTetra_small, ?_, ?_⟩
  · have top : ∀ r s : RTri, s ∈ r.rots → s.a = ⟨0, 0, 4⟩ → s.b.z = 0 → s.c.z = 0 →
        cutTriangle ⟨(R3.mk 0 0 4).pt, (R3.mk 0 0 1).vec⟩ r.tri = ⟨[], [], []⟩ := fun r s hs h0 h1 h2 =>
      C21_touching_dropped _ _ r s hs (by simp [R3.height, R3.dot, h0]) (by simp [R3.height, R3.dot, h1])
        (by simp [R3.height, R3.dot, h2])
    have t1 := top ⟨⟨0, 0, 0⟩, ⟨4, 0, 0⟩, ⟨0, 0, 4⟩⟩ ⟨⟨0, 0, 4⟩, ⟨0, 0, 0⟩, ⟨4, 0, 0⟩⟩ (by simp [RTri.rots, RTri.rot]) rfl rfl rfl
    have t2 := top ⟨⟨4, 0, 0⟩, ⟨0, 4, 0⟩, ⟨0, 0, 4⟩⟩ ⟨⟨0, 0, 4⟩, ⟨4, 0, 0⟩, ⟨0, 4, 0⟩⟩ (by simp [RTri.rots, RTri.rot]) rfl rfl rfl
    have t3 := top ⟨⟨0, 4, 0⟩, ⟨0, 0, 0⟩, ⟨0, 0, 4⟩⟩ ⟨⟨0, 0, 4⟩, ⟨0, 4, 0⟩, ⟨0, 0, 0⟩⟩ (by simp [RTri.rots, RTri.rot]) rfl rfl rfl
    have b : cutTriangle ⟨(R3.mk 0 0 4).pt, (R3.mk 0 0 1).vec⟩ (RTri.mk ⟨0, 0, 0⟩ ⟨0, 4, 0⟩ ⟨4, 0, 0⟩).tri =
        ⟨[], [(RTri.mk ⟨0, 0, 0⟩ ⟨0, 4, 0⟩ ⟨4, 0, 0⟩).tri], []⟩ := by
      have hz : ∀ x y : ℝ, R3.height ⟨0, 0, 4⟩ ⟨0, 0, 1⟩ ⟨x, y, 0⟩ = -4 := fun x y => by simp [R3.height, R3.dot]
      rcases cut_cases ⟨0, 0, 4⟩ ⟨0, 0, 1⟩ (RTri.mk ⟨0, 0, 0⟩ ⟨0, 4, 0⟩ ⟨4, 0, 0⟩) with ⟨h, _⟩ | ⟨_, _, _, e⟩ | ⟨s, hs, h', _⟩ | ⟨s, hs, _, h', _⟩
      · rw [hz] at h; norm_num at h
      · exact e
      · simp only [RTri.rots, List.mem_cons, List.not_mem_nil, or_false] at hs
        rcases hs with rfl | rfl | rfl <;> simp only [RTri.rot] at h' <;> rw [hz] at h' <;> norm_num at h'
      · simp only [RTri.rots, List.mem_cons, List.not_mem_nil, or_false] at hs
        rcases hs with rfl | rfl | rfl <;> simp only [RTri.rot] at h' <;> rw [hz] at h' <;> norm_num at h'
    obtain ⟨contours, caps, h0, h1, h2, _⟩ := cutMesh_shape S ⟨0, 0, 4⟩ ⟨0, 0, 1⟩ exTetra exTetra_small
    have e : cutSections ⟨0, 0, 4⟩ ⟨0, 0, 1⟩ exTetra = [] := by
      simp only [cutSections, exTetra, List.flatMap_cons, List.flatMap_nil, t1, t2, t3, b, List.append_nil]
    rw [e] at h0
    have hc : contours = [] := by
      have : joinPaths3AndMinimize S ([] : List (Path XR)) = .ok [] := by
        have : S.run (joinLess (α := XR)) [] = [] := List.perm_nil.1 (S.perm joinLess [])
        simp [joinPaths3AndMinimize, joinPaths3, sortPs, this, joinLoop, joinCollect, bind, Except.bind, pure, Except.pure]
      rw [this] at h0
      cases contours
      · rfl
      · simp at h0
    subst hc
    have : caps = [] := by simpa using h2
    subst this
    rw [h1]
    simp only [exTetra, List.flatMap_cons, List.flatMap_nil, t1, t2, t3, b, List.append_nil, List.nil_append, List.map_nil]
    rfl
  · intro h
    rcases h (⟨0, 0, 0⟩, ⟨0, 4, 0⟩) (by simp [dirEdges, RTri.edges]) with h | ⟨⟨u, hu, hw⟩, _⟩
    · simp [dirEdges, RTri.edges] at h
    · have h1 : u.z = 4 := by
        have : R3.height ⟨0, 0, 4⟩ ⟨0, 0, 1⟩ u = 0 := hu
        simp [R3.height, R3.dot] at this
        linarith
      have h2 := hw.2.2
      rw [h1] at h2
      norm_num at h2

/-- the tetrahedron is cleanly cut at a quarter of its height -/
example : Watertight exTetra ∧ (∀ r ∈ exTetra, r.small) ∧ ∀ r ∈ exTetra, CutKind ⟨0, 0, 1⟩ ⟨0, 0, 1⟩ r := by
  refine ⟨exTetra_ok.1, exTetra_small, fun r hr => ?_⟩
  simp only [exTetra, List.mem_cons, List.not_mem_nil, or_false] at hr
  have cut : ∀ b c U V : R3, R3.onSegment ⟨0, 0, 4⟩ b U → R3.onSegment ⟨0, 0, 4⟩ c V → b.z = 0 → c.z = 0 → U.z = 1 → V.z = 1 →
      U.apart V → (b - ⟨0, 0, 4⟩).normSq ≤ 100 * 100 → 1 ≤ ((b - ⟨0, 0, 4⟩).cross (V - ⟨0, 0, 4⟩)).normSq →
      CleanCut ⟨0, 0, 1⟩ ⟨0, 0, 1⟩ ⟨⟨0, 0, 4⟩, b, c⟩ U V := by
    intro b c U V hU hV hb hc hu hv hap h1 h2
    refine ⟨Or.inl ⟨?_, ?_, ?_⟩, ⟨hU, ?_⟩, ⟨hV, ?_⟩, hap, R3.norm_le_of_sq (by norm_num) h1, ?_⟩
    · simp [R3.height, R3.dot]
    · simp [R3.height, R3.dot, hb]
    · simp [R3.height, R3.dot, hc]
    · simp [R3.onPlane, R3.height, R3.dot, hu]
    · simp [R3.onPlane, R3.height, R3.dot, hv]
    · unfold R3.norm
      refine Real.le_sqrt_of_sq_le (le_trans ?_ h2)
      norm_num
  have seg : ∀ x y : ℝ, R3.onSegment ⟨0, 0, 4⟩ ⟨x, y, 0⟩ ⟨3 / 4 * x, 3 / 4 * y, 1⟩ := fun x y =>
    ⟨3 / 4, by norm_num, by norm_num, by apply R3.ext <;> simp <;> norm_num⟩
  rcases hr with rfl | rfl | rfl | rfl
  · right; left
    intro v hv
    simp only [RTri.verts, List.mem_cons, List.not_mem_nil, or_false] at hv
    rcases hv with rfl | rfl | rfl <;> simp [R3.height, R3.dot]
  · refine Or.inr (Or.inr ⟨⟨?_, ?_, ?_⟩, ⟨⟨0, 0, 4⟩, ⟨0, 0, 0⟩, ⟨4, 0, 0⟩⟩, by simp [RTri.rots, RTri.rot], _, _,
      cut _ _ _ _ (seg 0 0) (seg 4 0) rfl rfl rfl rfl ?_ ?_ ?_⟩) <;>
      simp [R3.near, R3.apart, tol, R3.normSq, R3.cross, R3.dot] <;> norm_num
  · refine Or.inr (Or.inr ⟨⟨?_, ?_, ?_⟩, ⟨⟨0, 0, 4⟩, ⟨4, 0, 0⟩, ⟨0, 4, 0⟩⟩, by simp [RTri.rots, RTri.rot], _, _,
      cut _ _ _ _ (seg 4 0) (seg 0 4) rfl rfl rfl rfl ?_ ?_ ?_⟩) <;>
      simp [R3.near, R3.apart, tol, R3.normSq, R3.cross, R3.dot] <;> norm_num
  · refine Or.inr (Or.inr ⟨⟨?_, ?_, ?_⟩, ⟨⟨0, 0, 4⟩, ⟨0, 4, 0⟩, ⟨0, 0, 0⟩⟩, by simp [RTri.rots, RTri.rot], _, _,
      cut _ _ _ _ (seg 0 4) (seg 0 0) rfl rfl rfl rfl ?_ ?_ ?_⟩) <;>
      simp [R3.near, R3.apart, tol, R3.normSq, R3.cross, R3.dot] <;> norm_num

end Goosli
