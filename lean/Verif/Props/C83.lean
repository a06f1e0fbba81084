import Verif.Spec.RaySolid
import Verif.Props.C15
import Verif.Props.C77
/-!
# C83: the contours of a layer bound the cross-section of the model
-/
set_option autoImplicit false
namespace Goosli
open Flt R3

/-! ## One triangle -/

/-- the exact section of a triangle: from where its border goes up through the plane to where it comes down -/
noncomputable def secOf (P N : R3) (t : RTri) : Option (R3 × R3) :=
  match ups P N t.edges, downs P N t.edges with
  | [e], [f] => some (crossAt P N e, crossAt P N f)
  | _, _ => none

/-- the corners of the section as the code stores them -/
noncomputable def storedSeg (s : R3 × R3) : Path XR := ⟨[s.1.round8.pt, s.2.round8.pt]⟩

theorem section_secOf {P N : R3} {ts : List RTri} {t : RTri} (ht : t ∈ ts) (hsm : ∀ w ∈ allVerts ts, w.small)
    (hoff : ∀ w ∈ allVerts ts, R3.height P N w ≠ 0) (hdeg : t.nrm ≠ 0) (hsep : WellSeparated P N ts) :
    ((Plane.mk P.pt N.vec).intersectTriangle t.tri).map (fun l => (⟨[l.p1, l.p2]⟩ : Path XR)) = (secOf P N t).map storedSeg := by
  rcases triangle_section ht hsm hoff hdeg hsep with ⟨h1, h2, h3⟩ | ⟨e, f, h1, h2, h3⟩
  · rw [h1]; unfold secOf; rw [h2, h3]; rfl
  · rw [h1]; unfold secOf; rw [h2, h3]; rfl

theorem sectionPaths_secOf {P N : R3} {all : List RTri} (hsm : ∀ w ∈ allVerts all, w.small)
    (hoff : ∀ w ∈ allVerts all, R3.height P N w ≠ 0) (hdeg : ∀ t ∈ all, t.nrm ≠ 0) (hsep : WellSeparated P N all) :
    ∀ ts, (∀ t ∈ ts, t ∈ all) → sectionPaths (Plane.mk P.pt N.vec) (rmesh ts).triangles = (ts.filterMap (secOf P N)).map storedSeg := by
  intro ts
  induction ts with
  | nil => intro _; rfl
  | cons t ts ih =>
    intro hsub
    have := section_secOf (hsub t (by simp)) hsm hoff (hdeg t (hsub t (by simp))) hsep
    have ih := ih fun t ht => hsub t (by simp [ht])
    unfold sectionPaths rmesh at ih ⊢
    simp only [List.map_cons, List.filterMap_cons, this]
    cases h : secOf P N t with
    | none => simpa using ih
    | some s => simpa using ih

theorem height_comb (P N a b c : R3) {u v w : ℝ} (h : u + v + w = 1) :
    R3.height P N (u • a + v • b + w • c) = u * R3.height P N a + v * R3.height P N b + w * R3.height P N c := by
  have hu : u = 1 - v - w := by linarith
  subst hu
  simp [R3.height, R3.dot]; ring

/-- the part of a triangle in the plane, if `a` is alone on its side -/
theorem apex_seg (P N a b c x : R3) (hab : R3.height P N a * R3.height P N b < 0) (hac : R3.height P N a * R3.height P N c < 0)
    (hx : R3.height P N x = 0) :
    OnTri ⟨a, b, c⟩ x ↔ onSegment (crossAt P N (a, b)) (crossAt P N (a, c)) x := by
  unfold crossAt OnTri onSegment
  obtain ⟨A, hA⟩ : ∃ A, A = R3.height P N a := ⟨_, rfl⟩
  obtain ⟨B, hB⟩ : ∃ B, B = R3.height P N b := ⟨_, rfl⟩
  obtain ⟨C, hC⟩ : ∃ C, C = R3.height P N c := ⟨_, rfl⟩
  simp only [← hA, ← hB, ← hC] at hab hac ⊢
  have hA0 : A ≠ 0 := by rintro h; rw [h] at hab; simp at hab
  have frac : ∀ {B : ℝ}, A * B < 0 → A - B ≠ 0 ∧ 0 ≤ (A - B) / A ∧ 0 ≤ A / (A - B) ∧ A / (A - B) ≤ 1 := by
    intro B h
    have hs : 0 < A ^ 2 := by positivity
    have h1 : 0 < A * (A - B) := by nlinarith
    have hne : A - B ≠ 0 := by intro h0; rw [h0] at h1; simp at h1
    refine ⟨hne, ?_, ?_, ?_⟩
    · have : (A - B) / A = A * (A - B) / A ^ 2 := by field_simp
      rw [this]; positivity
    · have : A / (A - B) = A * (A - B) / (A - B) ^ 2 := by field_simp
      rw [this]; positivity
    · have : A / (A - B) = 1 - (-(B * (A - B))) / (A - B) ^ 2 := by field_simp; ring
      rw [this]
      have : 0 ≤ (-(B * (A - B))) / (A - B) ^ 2 := by
        apply div_nonneg
        · nlinarith [sq_nonneg B]
        · positivity
      linarith
  obtain ⟨nb, pb, qb, rb⟩ := frac hab
  obtain ⟨nc, pc, qc, rc⟩ := frac hac
  constructor
  · rintro ⟨u, v, w, hu, hv, hw, hs, rfl⟩
    rw [height_comb P N a b c hs, ← hA, ← hB, ← hC] at hx
    have e1 : 1 - w * ((A - C) / A) = v * ((A - B) / A) := by
      field_simp; linear_combination hx - A * hs
    refine ⟨w * ((A - C) / A), mul_nonneg hw pc, by nlinarith [mul_nonneg hv pb], ?_⟩
    have hu' : u = 1 - v - w := by linarith
    have k1 : (1 - w * ((A - C) / A)) * (A / (A - B)) = v := by rw [e1]; field_simp
    have k2 : w * ((A - C) / A) * (A / (A - C)) = w := by field_simp
    subst hu'
    apply R3.ext
    · simp; linear_combination (b.x - a.x) * (-k1) + (c.x - a.x) * (-k2)
    · simp; linear_combination (b.y - a.y) * (-k1) + (c.y - a.y) * (-k2)
    · simp; linear_combination (b.z - a.z) * (-k1) + (c.z - a.z) * (-k2)
  · rintro ⟨t, t0, t1, rfl⟩
    refine ⟨1 - (1 - t) * (A / (A - B)) - t * (A / (A - C)), (1 - t) * (A / (A - B)), t * (A / (A - C)), ?_,
      mul_nonneg (by linarith) qb, mul_nonneg t0 qc, by ring, ?_⟩
    · nlinarith [mul_nonneg t0 (sub_nonneg.2 rc), mul_nonneg (sub_nonneg.2 t1) (sub_nonneg.2 rb)]
    · apply R3.ext <;> simp <;> ring

theorem onTri_rot (t : RTri) (x : R3) : OnTri ⟨t.b, t.c, t.a⟩ x ↔ OnTri t x := by
  constructor
  · rintro ⟨u, v, w, hu, hv, hw, hs, rfl⟩
    exact ⟨w, u, v, hw, hu, hv, by linarith, by apply R3.ext <;> simp <;> ring⟩
  · rintro ⟨u, v, w, hu, hv, hw, hs, rfl⟩
    exact ⟨v, w, u, hv, hw, hu, by linarith, by apply R3.ext <;> simp <;> ring⟩

theorem onSegment_comm (a b x : R3) : onSegment a b x ↔ onSegment b a x := by
  have : ∀ a b, onSegment a b x → onSegment b a x := by
    rintro a b ⟨t, t0, t1, rfl⟩
    exact ⟨1 - t, by linarith, by linarith, by apply R3.ext <;> simp <;> ring⟩
  exact ⟨this a b, this b a⟩

theorem comb_neg {u v w A B C : ℝ} (hu : 0 ≤ u) (hv : 0 ≤ v) (hw : 0 ≤ w) (hs : u + v + w = 1) (hA : A < 0) (hB : B < 0) (hC : C < 0) :
    u * A + v * B + w * C < 0 := by
  have h1 := mul_nonneg hu (neg_nonneg.2 hA.le)
  have h2 := mul_nonneg hv (neg_nonneg.2 hB.le)
  have h3 := mul_nonneg hw (neg_nonneg.2 hC.le)
  rcases eq_or_lt_of_le hu with h | h
  · rcases eq_or_lt_of_le hv with h' | h'
    · have : w = 1 := by linarith
      subst this; linarith
    · have := mul_pos h' (neg_pos.2 hB); linarith
  · have := mul_pos h (neg_pos.2 hA); linarith

/-- the part of a triangle in the plane is its section -/
theorem onTri_secOf (P N : R3) (t : RTri) (ha : R3.height P N t.a ≠ 0) (hb : R3.height P N t.b ≠ 0) (hc : R3.height P N t.c ≠ 0)
    (x : R3) (hx : R3.height P N x = 0) : OnTri t x ↔ ∃ s, secOf P N t = some s ∧ onSegment s.1 s.2 x := by
  have sw : ∀ {u v : R3}, R3.height P N u * R3.height P N v < 0 → crossAt P N (u, v) = crossAt P N (v, u) := by
    intro u v h
    have := crossAt_swap (P := P) (N := N) (e := (v, u)) (by intro h0; simp only at h0; rw [h0] at h; nlinarith [mul_self_nonneg (R3.height P N u)])
    exact this
  have A := apex_seg P N t.a t.b t.c x
  have B := apex_seg P N t.b t.c t.a x
  have C := apex_seg P N t.c t.a t.b x
  rw [onTri_rot t x] at B
  rw [show (RTri.mk t.c t.a t.b) = (RTri.mk (RTri.mk t.b t.c t.a).b (RTri.mk t.b t.c t.a).c (RTri.mk t.b t.c t.a).a) from rfl,
    onTri_rot, onTri_rot t x] at C
  have sgn : ∀ {h : ℝ}, h ≠ 0 → h < 0 ∨ 0 < h := fun h => lt_or_gt_of_ne h
  have up : ∀ {u v : R3}, R3.height P N u < 0 → 0 < R3.height P N v → ascends P N (u, v) := fun h1 h2 => ⟨h1, h2⟩
  have dn : ∀ {u v : R3}, 0 < R3.height P N u → R3.height P N v < 0 → descends P N (u, v) := fun h1 h2 => ⟨h2, h1⟩
  have nu1 : ∀ {u v : R3}, 0 < R3.height P N u → ¬ ascends P N (u, v) := fun h1 h2 => absurd h2.1 (not_lt.2 h1.le)
  have nu2 : ∀ {u v : R3}, R3.height P N v < 0 → ¬ ascends P N (u, v) := fun h1 h2 => absurd h2.2 (not_lt.2 h1.le)
  have nd1 : ∀ {u v : R3}, R3.height P N u < 0 → ¬ descends P N (u, v) := fun h1 h2 => absurd h2.2 (not_lt.2 h1.le)
  have nd2 : ∀ {u v : R3}, 0 < R3.height P N v → ¬ descends P N (u, v) := fun h1 h2 => absurd h2.1 (not_lt.2 h1.le)
  have nilu : ups P N [] = [] := rfl
  have nild : downs P N [] = [] := rfl
  have off : (∀ u v w : ℝ, 0 ≤ u → 0 ≤ v → 0 ≤ w → u + v + w = 1 → u * R3.height P N t.a + v * R3.height P N t.b + w * R3.height P N t.c ≠ 0) →
      ¬ OnTri t x := by
    rintro h ⟨u, v, w, hu, hv, hw, hs, rfl⟩
    apply h u v w hu hv hw hs
    rw [← height_comb P N t.a t.b t.c hs, hx]
  unfold secOf RTri.edges
  rcases sgn ha with ha | ha <;> rcases sgn hb with hb | hb <;> rcases sgn hc with hc | hc
  · -- all below
    rw [ups_cons_neg (nu2 hb), ups_cons_neg (nu2 hc), ups_cons_neg (nu2 ha), nilu]
    simp only [reduceCtorEq, false_and, exists_false, iff_false]
    apply off; intro u v w hu hv hw hs h0
    exact absurd h0 (comb_neg hu hv hw hs ha hb hc).ne
  · -- `c` above
    rw [ups_cons_neg (nu2 hb), ups_cons_pos (up hb hc), ups_cons_neg (nu1 hc), nilu, downs_cons_neg (nd1 ha), downs_cons_neg (nd1 hb),
      downs_cons_pos (dn hc ha), nild]
    have k1 := mul_neg_of_pos_of_neg hc ha
    have k2 := mul_neg_of_pos_of_neg hc hb
    rw [C k1 k2 hx, onSegment_comm, sw k2]
    simp
  · -- `b` above
    rw [ups_cons_pos (up ha hb), ups_cons_neg (nu1 hb), ups_cons_neg (nu2 ha), nilu, downs_cons_neg (nd1 ha), downs_cons_pos (dn hb hc),
      downs_cons_neg (nd1 hc), nild]
    have k1 := mul_neg_of_pos_of_neg hb hc
    have k2 := mul_neg_of_pos_of_neg hb ha
    rw [B k1 k2 hx, onSegment_comm, sw k2]
    simp
  · -- `a` below
    rw [ups_cons_pos (up ha hb), ups_cons_neg (nu1 hb), ups_cons_neg (nu1 hc), nilu, downs_cons_neg (nd1 ha), downs_cons_neg (nd2 hc),
      downs_cons_pos (dn hc ha), nild]
    have k1 := mul_neg_of_neg_of_pos ha hb
    have k2 := mul_neg_of_neg_of_pos ha hc
    rw [A k1 k2 hx, sw k2]
    simp
  · -- `a` above
    rw [ups_cons_neg (nu1 ha), ups_cons_neg (nu2 hc), ups_cons_pos (up hc ha), nilu, downs_cons_pos (dn ha hb), downs_cons_neg (nd1 hb),
      downs_cons_neg (nd1 hc), nild]
    have k1 := mul_neg_of_pos_of_neg ha hb
    have k2 := mul_neg_of_pos_of_neg ha hc
    rw [A k1 k2 hx, onSegment_comm, sw k2]
    simp
  · -- `b` below
    rw [ups_cons_neg (nu1 ha), ups_cons_pos (up hb hc), ups_cons_neg (nu1 hc), nilu, downs_cons_pos (dn ha hb), downs_cons_neg (nd1 hb),
      downs_cons_neg (nd2 ha), nild]
    have k1 := mul_neg_of_neg_of_pos hb hc
    have k2 := mul_neg_of_neg_of_pos hb ha
    rw [B k1 k2 hx, sw k2]
    simp
  · -- `c` below
    rw [ups_cons_neg (nu1 ha), ups_cons_neg (nu1 hb), ups_cons_pos (up hc ha), nilu, downs_cons_neg (nd2 hb), downs_cons_pos (dn hb hc),
      downs_cons_neg (nd1 hc), nild]
    have k1 := mul_neg_of_neg_of_pos hc ha
    have k2 := mul_neg_of_neg_of_pos hc hb
    rw [C k1 k2 hx, sw k2]
    simp
  · -- all above
    rw [ups_cons_neg (nu1 ha), ups_cons_neg (nu1 hb), ups_cons_neg (nu1 hc), nilu]
    simp only [reduceCtorEq, false_and, exists_false, iff_false]
    apply off; intro u v w hu hv hw hs h0
    have := comb_neg hu hv hw hs (neg_lt_zero.2 ha) (neg_lt_zero.2 hb) (neg_lt_zero.2 hc)
    linarith

/-! ## The exact contours -/

/-- where an edge of the mesh goes through the plane -/
def CrossPoint (P N : R3) (ts : List RTri) (x : R3) : Prop := ∃ e ∈ dirEdges ts, (ascends P N e ∨ descends P N e) ∧ crossAt P N e = x

theorem secOf_cross {P N : R3} {ts : List RTri} {t : RTri} (ht : t ∈ ts) {s : R3 × R3} (h : secOf P N t = some s) :
    CrossPoint P N ts s.1 ∧ CrossPoint P N ts s.2 := by
  unfold secOf at h
  split at h
  · rename_i e f he hf
    have me : e ∈ ups P N t.edges := by rw [he]; simp
    have mf : f ∈ downs P N t.edges := by rw [hf]; simp
    obtain ⟨e1, e2⟩ := mem_ups.1 me
    obtain ⟨f1, f2⟩ := mem_downs.1 mf
    injection h with h
    rw [← h]
    exact ⟨⟨e, mem_edges ht e1, Or.inl e2, rfl⟩, ⟨f, mem_edges ht f1, Or.inr f2, rfl⟩⟩
  · cases h

theorem crossPoint_near {P N : R3} {ts : List RTri} (hsep : WellSeparated P N ts) {u v : R3} (hu : CrossPoint P N ts u)
    (hv : CrossPoint P N ts v) (h : u.round8.near v.round8) : u = v := by
  obtain ⟨e, he, ce, rfl⟩ := hu
  obtain ⟨f, hf, cf, rfl⟩ := hv
  obtain ⟨hx, hy, hz, _⟩ := hsep e he f hf ce cf
  by_contra hne
  exact (not_near_of_apart hx hy hz hne).2 h

theorem crossPoint_pt {P N : R3} {ts : List RTri} (hsep : WellSeparated P N ts) {u v : R3} (hu : CrossPoint P N ts u)
    (hv : CrossPoint P N ts v) (h : u.round8.pt = v.round8.pt) : u = v :=
  crossPoint_near hsep hu hv (by rw [R3.pt_inj h]; exact R3.near_refl _)

/-- pull a grouping back along a map that is injective on the list -/
theorem pull_groups {β γ : Type} [Nonempty β] (F : β → γ) (E : List β) (inj : ∀ a ∈ E, ∀ b ∈ E, F a = F b → a = b) (groups : List (List γ))
    (h : groups.flatten.Perm (E.map F)) : ∃ gs : List (List β), gs.flatten.Perm E ∧ groups = gs.map (List.map F) := by
  have gi : ∀ a ∈ E, Function.invFunOn F {a | a ∈ E} (F a) = a := by
    intro a ha
    have hm : F a ∈ F '' {a | a ∈ E} := ⟨a, ha, rfl⟩
    exact inj _ (Function.invFunOn_mem hm) _ ha (Function.invFunOn_eq hm)
  have fi : ∀ q ∈ groups.flatten, F (Function.invFunOn F {a | a ∈ E} q) = q := by
    intro q hq
    obtain ⟨a, ha, rfl⟩ := List.mem_map.1 (h.mem_iff.1 hq)
    rw [gi a ha]
  refine ⟨groups.map (List.map (Function.invFunOn F {a | a ∈ E})), ?_, ?_⟩
  · rw [← List.map_flatten]
    refine (h.map _).trans ?_
    rw [List.map_map]
    have : E.map (Function.invFunOn F {a | a ∈ E} ∘ F) = E := by
      conv_rhs => rw [← List.map_id E]
      exact List.map_congr_left fun a ha => gi a ha
    rw [this]
  · rw [List.map_map]
    conv_lhs => rw [← List.map_id groups]
    refine List.map_congr_left fun g hg => ?_
    simp only [id, Function.comp, List.map_map]
    conv_lhs => rw [← List.map_id g]
    exact List.map_congr_left fun q hq => (fi q (List.mem_flatten.2 ⟨g, hg, hq⟩)).symm

/-- the contour that runs through a chain of segments -/
def contourOf : List (R3 × R3) → List R3
  | [] => []
  | s :: t => s.1 :: (s :: t).map Prod.snd

theorem concat_stored (es : List (R3 × R3)) : concatPath (es.map storedSeg) = ⟨(contourOf es).map fun w => w.round8.pt⟩ := by
  cases es with
  | nil => rfl
  | cons s t =>
    have : ∀ t : List (R3 × R3), (t.map storedSeg).flatMap (fun q => q.points.tail) = t.map fun s => s.2.round8.pt := by
      intro t
      induction t with
      | nil => rfl
      | cons a t ih => simp only [List.map_cons, List.flatMap_cons, ih]; rfl
    simp only [List.map_cons, concatPath, contourOf, this]
    simp [storedSeg, List.map_map, Function.comp_def]

theorem sides_contourOf : ∀ es : List (R3 × R3), es.IsChain (fun a b => a.2 = b.1) → sides (contourOf es) = es
  | [], _ => rfl
  | [s], _ => rfl
  | s :: r :: t, h => by
    have ih := sides_contourOf (r :: t) h.tail
    have h1 : s.2 = r.1 := by cases h with | cons_cons h _ => exact h
    have e : sides (contourOf (s :: r :: t)) = (s.1, s.2) :: sides (s.2 :: (r :: t).map Prod.snd) := rfl
    rw [e, h1]
    have e2 : sides (r.1 :: (r :: t).map Prod.snd) = sides (contourOf (r :: t)) := rfl
    rw [e2, ih, ← h1]

/-- **C83, contours.** Under the hypotheses of `C15_closed` the contours that are assembled are, up to the rounding of their corners to
eight decimals, closed contours the sides of which are the exact sections of the triangles, each used once. -/
theorem C83_contours (S : Sorter) (ts : List RTri) (P N : R3) (hw : Watertight ts) (hdeg : ∀ t ∈ ts, t.nrm ≠ 0)
    (hsm : ∀ w ∈ allVerts ts, w.small) (hoff : ∀ w ∈ allVerts ts, R3.height P N w ≠ 0) (hsep : WellSeparated P N ts)
    (p : List (Path XR)) (hp : p.Perm (sectionPaths (Plane.mk P.pt N.vec) (rmesh ts).triangles)) :
    ∃ cs : List (List R3), joinPaths3 S p = .ok (cs.map fun c => ⟨c.map fun w => w.round8.pt⟩) ∧
      (∀ c ∈ cs, 2 ≤ c.length ∧ c.head? = c.getLast?) ∧ (cs.flatMap sides).Perm (ts.filterMap (secOf P N)) := by
  rw [sectionPaths_secOf hsm hoff hdeg hsep ts (fun t h => h)] at hp
  set E := ts.filterMap (secOf P N) with hE
  have hX : ∀ s ∈ E, CrossPoint P N ts s.1 ∧ CrossPoint P N ts s.2 := by
    intro s hs
    obtain ⟨t, ht, h⟩ := List.mem_filterMap.1 hs
    exact secOf_cross ht h
  have inj : ∀ a ∈ E, ∀ b ∈ E, storedSeg a = storedSeg b → a = b := by
    intro a ha b hb h
    simp only [storedSeg, Path.mk.injEq, List.cons.injEq, and_true] at h
    exact Prod.ext (crossPoint_pt hsep (hX a ha).1 (hX b hb).1 h.1) (crossPoint_pt hsep (hX a ha).2 (hX b hb).2 h.2)
  have two : ∀ q ∈ p, q.points.length = 2 := by
    intro q hq
    obtain ⟨s, _, rfl⟩ := List.mem_map.1 (hp.mem_iff.1 hq)
    rfl
  obtain ⟨out, groups, ho, hgp, hne, hog, _, hch⟩ := C13_join_conserves S p (by
    intro q hq h; have := two q hq; rw [h] at this; cases this)
  have hch := hch fun q hq => (two q hq).ge
  obtain ⟨out', ho', hcl⟩ := C15_closed S ts P N hw hdeg hsm hoff hsep p (by
    rw [sectionPaths_secOf hsm hoff hdeg hsep ts (fun t h => h)]; exact hp)
  rw [ho] at ho'
  injection ho' with ho'
  subst ho'
  obtain ⟨gs, hgs, hgr⟩ := pull_groups storedSeg E inj groups (hgp.trans hp)
  have hmem : ∀ g ∈ gs, ∀ s ∈ g, s ∈ E := fun g hg s hs => hgs.mem_iff.1 (List.mem_flatten.2 ⟨g, hg, hs⟩)
  have hchain : ∀ g ∈ gs, g.IsChain (fun a b => a.2 = b.1) := by
    intro g hg
    have hc := hch (g.map storedSeg) (by rw [hgr]; exact List.mem_map_of_mem hg)
    rw [List.isChain_map] at hc
    have hm := hmem g hg
    clear hg
    induction g with
    | nil => exact .nil
    | cons a t ih =>
      cases t with
      | nil => exact .singleton _
      | cons b t =>
        cases hc with
        | cons_cons h1 h2 =>
          refine .cons_cons ?_ (ih h2 fun s hs => hm s (by simp [hs]))
          obtain ⟨x, y, hx, hy, hxy⟩ := h1
          simp [storedSeg] at hx hy
          subst hx; subst hy
          exact crossPoint_near hsep (hX a (hm a (by simp))).2 (hX b (hm b (by simp))).1 ((equal_pt _ _).1 hxy)
  refine ⟨gs.map contourOf, ?_, ?_, ?_⟩
  · rw [ho, hog, hgr, List.map_map, List.map_map]
    congr 1
    exact List.map_congr_left fun g _ => concat_stored g
  · intro c hc
    obtain ⟨g, hg, rfl⟩ := List.mem_map.1 hc
    have hgne : g ≠ [] := by
      rintro rfl
      exact hne [] (by rw [hgr]; exact List.mem_map.2 ⟨[], hg, rfl⟩) rfl
    obtain ⟨_, hl, hh⟩ := hcl (concatPath (g.map storedSeg)) (by
      rw [hog, hgr]; exact List.mem_map_of_mem (List.mem_map_of_mem hg))
    rw [concat_stored] at hl hh
    simp only [List.length_map, List.head?_map, List.getLast?_map] at hl hh
    refine ⟨hl, ?_⟩
    have hcp : ∀ w ∈ contourOf g, CrossPoint P N ts w := by
      intro w hw
      cases g with
      | nil => exact absurd rfl hgne
      | cons s t =>
        simp only [contourOf, List.mem_cons, List.mem_map] at hw
        rcases hw with rfl | ⟨r, hr, rfl⟩
        · exact (hX s (hmem _ hg s (by simp))).1
        · exact (hX r (hmem _ hg r (by simpa using hr))).2
    cases h1 : (contourOf g).head? with
    | none => rw [List.head?_eq_none_iff] at h1; rw [h1] at hl; simp at hl
    | some a =>
      cases h2 : (contourOf g).getLast? with
      | none => rw [List.getLast?_eq_none_iff] at h2; rw [h2] at hl; simp at hl
      | some b =>
        rw [h1, h2] at hh
        simp only [Option.map_some, Option.some.injEq] at hh
        rw [crossPoint_pt hsep (hcp a (List.mem_of_mem_head? h1)) (hcp b (List.mem_of_mem_getLast? h2)) hh]
  · have : (gs.map contourOf).flatMap sides = gs.flatten := by
      rw [List.flatMap_map, ← List.flatMap_id']
      exact List.flatMap_congr fun g hg => sides_contourOf g (hchain g hg)
    rw [this]; exact hgs

/-! ## Rays in a plane that is not vertical -/

theorem crossPoint_height {P N : R3} {ts : List RTri} {x : R3} (h : CrossPoint P N ts x) : R3.height P N x = 0 := by
  obtain ⟨e, _, he, rfl⟩ := h
  have hne : R3.height P N e.1 - R3.height P N e.2 ≠ 0 := by
    rcases he with ⟨h1, h2⟩ | ⟨h1, h2⟩ <;> intro h <;> linarith
  have : R3.height P N (crossAt P N e) = R3.height P N e.1 +
      R3.height P N e.1 / (R3.height P N e.1 - R3.height P N e.2) * (R3.height P N e.2 - R3.height P N e.1) := by
    simp only [crossAt]
    generalize R3.height P N e.1 / (R3.height P N e.1 - R3.height P N e.2) = r
    simp [R3.height, R3.dot]; ring
  rw [this]
  field_simp
  ring

/-- points of a plane that is not vertical agree if they do seen from above -/
theorem plane_ext {P N u v : R3} (hN : N.z ≠ 0) (hu : R3.height P N u = 0) (hv : R3.height P N v = 0) (hx : u.x = v.x) (hy : u.y = v.y) : u = v := by
  refine R3.ext hx hy (mul_right_cancel₀ hN ?_)
  simp [R3.height, R3.dot] at hu hv
  rw [hx, hy] at hu
  linarith

theorem height_between {P N a b : R3} (ha : R3.height P N a = 0) (hb : R3.height P N b = 0) (r : ℝ) : R3.height P N (a + r • (b - a)) = 0 := by
  have : R3.height P N (a + r • (b - a)) = R3.height P N a + r * (R3.height P N b - R3.height P N a) := by
    simp [R3.height, R3.dot]; ring
  rw [this, ha, hb]; ring

theorem rayMeets_secOf {P N : R3} (hN : N.z ≠ 0) {ts : List RTri} (hoff : ∀ w ∈ allVerts ts, R3.height P N w ≠ 0) {t : RTri} (ht : t ∈ ts) {x d : R3}
    (hx : R3.height P N x = 0) (hd : d.dot N = 0) :
    RayMeets x d t ↔ ∃ s, secOf P N t = some s ∧ RayHits x d s := by
  have hv : ∀ w ∈ t.verts, R3.height P N w ≠ 0 := fun w hw => hoff w (List.mem_flatMap.2 ⟨t, ht, hw⟩)
  have key := onTri_secOf P N t (hv _ (by simp [RTri.verts])) (hv _ (by simp [RTri.verts])) (hv _ (by simp [RTri.verts]))
  have hz : ∀ s : ℝ, R3.height P N (x + s • d) = 0 := by
    intro s
    have : R3.height P N (x + s • d) = R3.height P N x + s * d.dot N := by simp [R3.height, R3.dot]; ring
    rw [this, hx, hd]; ring
  constructor
  · rintro ⟨s, hs, h⟩
    obtain ⟨q, hq, r, h0, h1, he⟩ := (key _ (hz s)).1 h
    refine ⟨q, hq, s, r, hs, h0, h1, ?_, ?_⟩
    · have := congrArg R3.x he; simp at this; linarith
    · have := congrArg R3.y he; simp at this; linarith
  · rintro ⟨q, hq, s, r, hs, h0, h1, ex, ey⟩
    refine ⟨s, hs, (key _ (hz s)).2 ⟨q, hq, r, h0, h1, ?_⟩⟩
    obtain ⟨c1, c2⟩ := secOf_cross ht hq
    refine plane_ext hN (hz s) (height_between (crossPoint_height c1) (crossPoint_height c2) r) ?_ ?_ <;> simp <;> linarith

theorem corner_side : ∀ {c : List R3} {w : R3}, 2 ≤ c.length → w ∈ c → ∃ q ∈ sides c, w = q.1 ∨ w = q.2
  | [], _, h, _ => by simp at h
  | [_], _, h, _ => by simp at h
  | [a, b], w, _, hw => ⟨(a, b), by simp [sides], by simpa using hw⟩
  | a :: b :: e :: t, w, _, hw => by
    rcases List.mem_cons.1 hw with rfl | hw
    · exact ⟨(w, b), by simp [sides], Or.inl rfl⟩
    · obtain ⟨q, hq, h⟩ := corner_side (c := b :: e :: t) (by simp) hw
      exact ⟨q, List.mem_cons_of_mem _ hq, h⟩

open Classical in
theorem odd_sum (f : List R3 → Nat) (W : List R3 → Prop) : ∀ cs : List (List R3), (∀ c ∈ cs, W c ↔ f c % 2 = 1) →
    cs.countP (fun c => decide (W c)) % 2 = (cs.map f).sum % 2
  | [], _ => rfl
  | c :: cs, h => by
    have ih := odd_sum f W cs fun c hc => h c (List.mem_cons_of_mem _ hc)
    have hc := h c (by simp)
    rw [List.countP_cons, List.map_cons, List.sum_cons]
    by_cases hW : W c
    · have := hc.1 hW; simp only [hW, decide_true, if_true]; omega
    · have : f c % 2 ≠ 1 := fun h => hW (hc.2 h)
      simp only [hW, decide_false, Bool.false_eq_true, if_false]; omega

open Classical in
theorem count_secOf {P N x d : R3} : ∀ ts : List RTri, (∀ t ∈ ts, RayMeets x d t ↔ ∃ s, secOf P N t = some s ∧ RayHits x d s) →
    ts.countP (fun t => decide (RayMeets x d t)) = (ts.filterMap (secOf P N)).countP (fun s => decide (RayHits x d s))
  | [], _ => rfl
  | t :: ts, h => by
    have ih := count_secOf ts fun t ht => h t (List.mem_cons_of_mem _ ht)
    have ht := h t (by simp)
    rw [List.countP_cons, ih]
    cases hs : secOf P N t with
    | none =>
      rw [List.filterMap_cons_none hs]
      have : ¬ RayMeets x d t := by rw [ht, hs]; simp
      simp [this]
    | some s =>
      rw [List.filterMap_cons_some hs, List.countP_cons]
      have : RayMeets x d t ↔ RayHits x d s := by rw [ht, hs]; simp
      simp only [this]

/-- The contours in a plane bound the cross-section: contours with these sides contain, counted with holes, the points from which a
ray in the plane meets the surface an odd number of times. -/
theorem contours_bound {P N : R3} (hN : N.z ≠ 0) {ts : List RTri} (hoff : ∀ w ∈ allVerts ts, R3.height P N w ≠ 0) {cs : List (List R3)}
    (hcs : ∀ c ∈ cs, 2 ≤ c.length ∧ c.head? = c.getLast?) (hp : (cs.flatMap sides).Perm (ts.filterMap (secOf P N)))
    {x d : R3} (hx : R3.height P N x = 0) (hon : ∀ t ∈ ts, ¬ OnTri t x) (hd : d.dot N = 0)
    (hg : ∀ w, CrossPoint P N ts w → d.cross2 (w - x) ≠ 0) : InsideOdd x cs ↔ OddTris x d ts := by
  have hside : ∀ c ∈ cs, ∀ q ∈ sides c, ∃ t ∈ ts, secOf P N t = some q := fun c hc q hq =>
    List.mem_filterMap.1 (hp.mem_iff.1 (List.mem_flatMap.2 ⟨c, hc, hq⟩))
  have hW : ∀ c ∈ cs, Within x c ↔ OddHits x d c := by
    intro c hc
    refine C77_ray x d c (hcs c hc).1 (hcs c hc).2 ?_ ?_
    · rintro ⟨q, hq, r, h0, h1, ex, ey⟩
      obtain ⟨t, ht, hs⟩ := hside c hc q hq
      have hv : ∀ w ∈ t.verts, R3.height P N w ≠ 0 := fun w hw => hoff w (List.mem_flatMap.2 ⟨t, ht, hw⟩)
      refine hon t ht ((onTri_secOf P N t (hv _ (by simp [RTri.verts])) (hv _ (by simp [RTri.verts])) (hv _ (by simp [RTri.verts]))
        x hx).2 ⟨q, hs, r, h0, h1, ?_⟩)
      obtain ⟨c1, c2⟩ := secOf_cross ht hs
      refine plane_ext hN hx (height_between (crossPoint_height c1) (crossPoint_height c2) r) ?_ ?_ <;> simp <;> linarith
    · intro w hw
      obtain ⟨q, hq, h⟩ := corner_side (hcs c hc).1 hw
      obtain ⟨t, ht, hs⟩ := hside c hc q hq
      obtain ⟨c1, c2⟩ := secOf_cross ht hs
      rcases h with rfl | rfl
      · exact hg _ c1
      · exact hg _ c2
  unfold InsideOdd OddTris
  rw [odd_sum _ _ cs hW, count_secOf ts fun t ht => rayMeets_secOf hN hoff ht hx hd, ← hp.countP_eq, List.countP_flatMap]
  rfl

/-- **C83.** The mesh is watertight and without degenerate triangles, its coordinates are small, the plane is not vertical, no vertex is
on the plane and the places where edges go through the plane are equal or clearly apart. Then the sections are assembled without failure
into contours that are, up to rounding of their corners to eight decimals, closed contours in the plane, and a point of the plane off the
surface is inside an odd number of them exactly if a ray in the plane from it that avoids the corners meets the surface of the model an
odd number of times: the contours enclose the material of the model in the plane and leave out its holes. -/
theorem C83_cross_section (S : Sorter) (ts : List RTri) (P N : R3) (hN : N.z ≠ 0) (hw : Watertight ts) (hdeg : ∀ t ∈ ts, t.nrm ≠ 0)
    (hsm : ∀ w ∈ allVerts ts, w.small) (hoff : ∀ w ∈ allVerts ts, R3.height P N w ≠ 0) (hsep : WellSeparated P N ts)
    (p : List (Path XR)) (hp : p.Perm (sectionPaths (Plane.mk P.pt N.vec) (rmesh ts).triangles)) :
    ∃ cs : List (List R3), joinPaths3 S p = .ok (cs.map fun c => ⟨c.map fun w => w.round8.pt⟩) ∧
      (∀ c ∈ cs, 2 ≤ c.length ∧ c.head? = c.getLast? ∧ ∀ w ∈ c, R3.height P N w = 0) ∧
      ∀ x : R3, R3.height P N x = 0 → (∀ t ∈ ts, ¬ OnTri t x) → ∀ d : R3, d.dot N = 0 →
        (∀ w, CrossPoint P N ts w → d.cross2 (w - x) ≠ 0) → (InsideOdd x cs ↔ OddTris x d ts) := by
  obtain ⟨cs, ho, hc, hperm⟩ := C83_contours S ts P N hw hdeg hsm hoff hsep p hp
  refine ⟨cs, ho, fun c h => ⟨(hc c h).1, (hc c h).2, fun w hw => ?_⟩, fun x hx hon d hd hg => contours_bound hN hoff hc hperm hx hon hd hg⟩
  obtain ⟨q, hq, hwq⟩ := corner_side (hc c h).1 hw
  obtain ⟨t, ht, hs⟩ := List.mem_filterMap.1 (hperm.mem_iff.1 (List.mem_flatMap.2 ⟨c, h, hq⟩))
  obtain ⟨c1, c2⟩ := secOf_cross ht hs
  rcases hwq with rfl | rfl
  · exact crossPoint_height c1
  · exact crossPoint_height c2

/-- **C83, rays.** Which ray in the plane is used does not matter. -/
theorem C83_any_ray (ts : List RTri) (P N : R3) (hN : N.z ≠ 0) (hw : Watertight ts) (hdeg : ∀ t ∈ ts, t.nrm ≠ 0)
    (hsm : ∀ w ∈ allVerts ts, w.small) (hoff : ∀ w ∈ allVerts ts, R3.height P N w ≠ 0) (hsep : WellSeparated P N ts)
    (x : R3) (hx : R3.height P N x = 0) (hon : ∀ t ∈ ts, ¬ OnTri t x) (d e : R3) (hd : d.dot N = 0) (he : e.dot N = 0)
    (hgd : ∀ w, CrossPoint P N ts w → d.cross2 (w - x) ≠ 0) (hge : ∀ w, CrossPoint P N ts w → e.cross2 (w - x) ≠ 0) :
    OddTris x d ts ↔ OddTris x e ts := by
  obtain ⟨cs, _, _, h⟩ := C83_cross_section Sorter.insertion ts P N hN hw hdeg hsm hoff hsep _ (List.Perm.refl _)
  rw [← h x hx hon d hd hgd, h x hx hon e he hge]

/-- **C83, slicing.** The layer that `SliceByVector` computes for a job (supports off, slicing direction not level) consists of such
contours, from which collinear points have been removed (C17). -/
theorem C83_layer (S : Sorter) (ts : List RTri) (hne : ts ≠ []) (d : R3) (hN : d.unit.z ≠ 0) (sett : Settings XR)
    (hs : sett.supportsOn = false) (hr : ∀ w ∈ allVerts ts, |w.dot d.unit| ≤ XR.maxF64R) (hw : Watertight ts) (hdeg : ∀ t ∈ ts, t.nrm ≠ 0)
    (hsm : ∀ w ∈ allVerts ts, w.small) (jobs : List (Job XR)) (hj : sliceJobs S (rmesh ts) d.vec.normalize sett = .ok jobs)
    (j : Job XR) (hm : j ∈ jobs) (Q : R3) (hQ : j.plane = ⟨Q.pt, d.unit.vec⟩)
    (hoff : ∀ w ∈ allVerts ts, R3.height Q d.unit w ≠ 0) (hsep : WellSeparated Q d.unit ts) :
    ∃ (l : Layer XR) (cs : List (List R3)), runJob S j = .ok l ∧
      l.paths = cs.map (fun c => Path.minimizeLines ⟨c.map fun w => w.round8.pt⟩) ∧
      (∀ c ∈ cs, 2 ≤ c.length ∧ c.head? = c.getLast? ∧ ∀ w ∈ c, R3.height Q d.unit w = 0) ∧
      ∀ x : R3, R3.height Q d.unit x = 0 → (∀ t ∈ ts, ¬ OnTri t x) → ∀ e : R3, e.dot d.unit = 0 →
        (∀ w, CrossPoint Q d.unit ts w → e.cross2 (w - x) ≠ 0) → (InsideOdd x cs ↔ OddTris x e ts) := by
  obtain ⟨sup, h1, h2⟩ := C10_sweep S ts hne d sett hr (fun h => by rw [hs] at h; cases h) jobs hj
  have hsup : sup = [] := by
    unfold supportsOf at h1
    rw [if_neg (by rw [hs]; simp)] at h1
    injection h1 with h1
    exact h1.symm
  have hperm := h2 j hm
  rw [hsup, List.nil_append, hQ] at hperm
  obtain ⟨cs, ho, hc, hx⟩ := C83_cross_section S ts Q d.unit hN hw hdeg hsm hoff hsep (jobPaths j) hperm
  refine ⟨⟨j.order, j.plane.n, (cs.map fun c => (⟨c.map fun w => w.round8.pt⟩ : Path XR)).map Path.minimizeLines, [], [], []⟩, cs, ?_, ?_, hc, hx⟩
  · unfold runJob joinPaths3AndMinimize
    rw [ho]; rfl
  · simp [List.map_map, Function.comp_def]

/-! ## A concrete case: a tetrahedron cut at height 1 -/

theorem exTetra_cross {w : R3} (h : CrossPoint ⟨0, 0, 1⟩ ⟨0, 0, 1⟩ exTetra w) : w.y = 0 ∨ w.y = 3 := by
  obtain ⟨e, he, hc, rfl⟩ := h
  rw [exTetra_edges] at he
  simp only [List.mem_cons, List.not_mem_nil, or_false] at he
  rcases he with h | h | h | h | h | h | h | h | h | h | h | h <;> subst h <;>
    simp [ascends, descends, crossAt, R3.height, R3.dot] at hc ⊢ <;> first | done | linarith | norm_num

theorem exTetra_inner : (∀ t ∈ exTetra, ¬ OnTri t ⟨1, 1 / 2, 1⟩) ∧ OddTris ⟨1, 1 / 2, 1⟩ ⟨1, 0, 0⟩ exTetra := by
  constructor
  · intro t ht
    simp only [exTetra, List.mem_cons, List.not_mem_nil, or_false] at ht
    rcases ht with rfl | rfl | rfl | rfl <;> rintro ⟨u, v, w, hu, hv, hw, hs, he⟩ <;> have ex := congrArg R3.x he <;>
      have ey := congrArg R3.y he <;> have ez := congrArg R3.z he <;> simp at ex ey ez <;> (try linarith)
  · have m : RayMeets ⟨1, 1 / 2, 1⟩ ⟨1, 0, 0⟩ ⟨⟨4, 0, 0⟩, ⟨0, 4, 0⟩, ⟨0, 0, 4⟩⟩ := by
      refine ⟨3 / 2, by norm_num, 5 / 8, 1 / 8, 1 / 4, by norm_num, by norm_num, by norm_num, by norm_num, ?_⟩
      apply R3.ext <;> simp <;> norm_num
    have n1 : ¬ RayMeets ⟨1, 1 / 2, 1⟩ ⟨1, 0, 0⟩ ⟨⟨0, 0, 0⟩, ⟨0, 4, 0⟩, ⟨4, 0, 0⟩⟩ := by
      rintro ⟨s, hs, u, v, w, hu, hv, hw, h1, he⟩
      have ez := congrArg R3.z he; simp at ez
    have n2 : ¬ RayMeets ⟨1, 1 / 2, 1⟩ ⟨1, 0, 0⟩ ⟨⟨0, 0, 0⟩, ⟨4, 0, 0⟩, ⟨0, 0, 4⟩⟩ := by
      rintro ⟨s, hs, u, v, w, hu, hv, hw, h1, he⟩
      have ey := congrArg R3.y he; simp at ey
    have n3 : ¬ RayMeets ⟨1, 1 / 2, 1⟩ ⟨1, 0, 0⟩ ⟨⟨0, 4, 0⟩, ⟨0, 0, 0⟩, ⟨0, 0, 4⟩⟩ := by
      rintro ⟨s, hs, u, v, w, hu, hv, hw, h1, he⟩
      have ex := congrArg R3.x he; simp at ex; linarith
    unfold OddTris exTetra
    rw [List.countP_cons_of_neg (by simpa only [decide_eq_true_eq] using n1), List.countP_cons_of_neg (by simpa only [decide_eq_true_eq] using n2),
      List.countP_cons_of_pos (by simpa only [decide_eq_true_eq] using m), List.countP_cons_of_neg (by simpa only [decide_eq_true_eq] using n3)]
    rfl

theorem exTetra_outer : (∀ t ∈ exTetra, ¬ OnTri t ⟨5, 1 / 2, 1⟩) ∧ ¬ OddTris ⟨5, 1 / 2, 1⟩ ⟨1, 0, 0⟩ exTetra := by
  have n : ∀ t ∈ exTetra, ¬ RayMeets ⟨5, 1 / 2, 1⟩ ⟨1, 0, 0⟩ t := by
    intro t ht
    simp only [exTetra, List.mem_cons, List.not_mem_nil, or_false] at ht
    rcases ht with rfl | rfl | rfl | rfl <;> rintro ⟨s, hs, u, v, w, hu, hv, hw, h1, he⟩ <;> have ex := congrArg R3.x he <;>
      simp at ex <;> linarith
  refine ⟨fun t ht h => n t ht ⟨0, le_refl _, ?_⟩, ?_⟩
  · have : (⟨5, 1 / 2, 1⟩ : R3) + (0 : ℝ) • (⟨1, 0, 0⟩ : R3) = ⟨5, 1 / 2, 1⟩ := by apply R3.ext <;> simp
    rw [this]; exact h
  · unfold OddTris
    rw [List.countP_eq_zero.2 fun t ht => by simpa using n t ht]
    simp

/-- the hypotheses are met by a tetrahedron at height 1; one point of the plane is inside its contours and another is not -/
example (S : Sorter) : ∃ cs : List (List R3),
    joinPaths3 S (sectionPaths (Plane.mk (R3.mk 0 0 1).pt (R3.mk 0 0 1).vec) (rmesh exTetra).triangles) =
      .ok (cs.map fun c => ⟨c.map fun w => w.round8.pt⟩) ∧ InsideOdd ⟨1, 1 / 2, 1⟩ cs ∧ ¬ InsideOdd ⟨5, 1 / 2, 1⟩ cs := by
  obtain ⟨hw, hdeg, hsm, hoff, hsep⟩ := exTetra_ok
  obtain ⟨cs, ho, _, h⟩ := C83_cross_section S exTetra ⟨0, 0, 1⟩ ⟨0, 0, 1⟩ (by simp) hw hdeg hsm hoff hsep _
    (List.Perm.refl _)
  have g : ∀ a w, CrossPoint ⟨0, 0, 1⟩ ⟨0, 0, 1⟩ exTetra w → (⟨1, 0, 0⟩ : R3).cross2 (w - ⟨a, 1 / 2, 1⟩) ≠ 0 := by
    intro a w hw
    rcases exTetra_cross hw with h | h <;> simp [R3.cross2, h] <;> norm_num
  exact ⟨cs, ho, (h ⟨1, 1 / 2, 1⟩ (by simp [R3.height, R3.dot]) exTetra_inner.1 ⟨1, 0, 0⟩ (by simp [R3.dot]) (g 1)).2 exTetra_inner.2,
    fun hi => exTetra_outer.2 ((h ⟨5, 1 / 2, 1⟩ (by simp [R3.height, R3.dot]) exTetra_outer.1 ⟨1, 0, 0⟩ (by simp [R3.dot]) (g 5)).1 hi)⟩

end Goosli
