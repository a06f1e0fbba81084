import Verif.Props.C90
/-!
# C130: the order of the facets and of their vertices
-/
set_option autoImplicit false
namespace Goosli
open Flt

/-! ## Spec -/

/-- the same facet, its vertices in another order -/
def RTri.SameAs (r t : RTri) : Prop :=
  r = ⟨t.a, t.b, t.c⟩ ∨ r = ⟨t.b, t.c, t.a⟩ ∨ r = ⟨t.c, t.a, t.b⟩ ∨ r = ⟨t.b, t.a, t.c⟩ ∨ r = ⟨t.a, t.c, t.b⟩ ∨ r = ⟨t.c, t.b, t.a⟩

/-- the same facets in another order, with the vertices of each in another order -/
def SameFacets (ts' ts : List RTri) : Prop := ∃ m : List RTri, m.Perm ts ∧ List.Forall₂ RTri.SameAs ts' m

/-- layer number `m` has contours, and `x` is inside an odd number of them -/
def PrintedAt (layers : List (Layer XR)) (m : ℤ) (x : R3) : Prop :=
  ∃ l ∈ layers, l.order = m ∧ ∃ cs : List (List R3), l.paths = cs.map rpath ∧ InsideOdd x cs

/-! ## The model is the same -/

theorem SameFacets.left {ts' ts : List RTri} (h : SameFacets ts' ts) {r : RTri} (hr : r ∈ ts') : ∃ t ∈ ts, r.SameAs t := by
  obtain ⟨m, hp, hf⟩ := h
  obtain ⟨i, hi⟩ := List.mem_iff_getElem?.1 hr
  obtain ⟨t, ht, hs⟩ := forall₂_get hf i r hi
  exact ⟨t, hp.mem_iff.1 (List.mem_of_getElem? ht), hs⟩

theorem SameFacets.right {ts' ts : List RTri} (h : SameFacets ts' ts) {t : RTri} (ht : t ∈ ts) : ∃ r ∈ ts', r.SameAs t := by
  obtain ⟨m, hp, hf⟩ := h
  obtain ⟨i, hi⟩ := List.mem_iff_getElem?.1 (hp.mem_iff.2 ht)
  obtain ⟨r, hr, hs⟩ := forall₂_get hf.flip i t hi
  exact ⟨r, List.mem_of_getElem? hr, hs⟩

theorem sameAs_verts {r t : RTri} (h : r.SameAs t) : ∀ w, w ∈ r.verts ↔ w ∈ t.verts := by
  intro w
  rcases h with rfl | rfl | rfl | rfl | rfl | rfl <;> simp only [RTri.verts, List.mem_cons, List.not_mem_nil, or_false] <;> tauto

theorem same_verts {ts' ts : List RTri} (h : SameFacets ts' ts) : ∀ w, w ∈ allVerts ts' ↔ w ∈ allVerts ts := by
  intro w
  unfold allVerts
  simp only [List.mem_flatMap]
  constructor
  · rintro ⟨r, hr, hw⟩
    obtain ⟨t, ht, hs⟩ := h.left hr
    exact ⟨t, ht, (sameAs_verts hs w).1 hw⟩
  · rintro ⟨t, ht, hw⟩
    obtain ⟨r, hr, hs⟩ := h.right ht
    exact ⟨r, hr, (sameAs_verts hs w).2 hw⟩

theorem sameAs_edges {r t : RTri} (h : r.SameAs t) : (∀ e ∈ r.edges, e ∈ t.edges ∨ e.swap ∈ t.edges) ∧ ∀ e ∈ t.edges, e ∈ r.edges ∨ e.swap ∈ r.edges := by
  constructor <;> intro e he <;> rcases h with rfl | rfl | rfl | rfl | rfl | rfl <;>
    simp only [RTri.edges, List.mem_cons, List.not_mem_nil, or_false] at he ⊢ <;>
    rcases he with rfl | rfl | rfl <;> simp

theorem same_edges {ts' ts : List RTri} (h : SameFacets ts' ts) (hw : Watertight ts) (hw' : Watertight ts') : ∀ e, e ∈ dirEdges ts' ↔ e ∈ dirEdges ts := by
  intro e
  constructor
  · intro he
    obtain ⟨r, hr, he⟩ := List.mem_flatMap.1 he
    obtain ⟨t, ht, hs⟩ := h.left hr
    rcases (sameAs_edges hs).1 e he with h | h
    · exact List.mem_flatMap.2 ⟨t, ht, h⟩
    · have := hw.2 _ (List.mem_flatMap.2 ⟨t, ht, h⟩)
      rwa [Prod.swap_swap] at this
  · intro he
    obtain ⟨t, ht, he⟩ := List.mem_flatMap.1 he
    obtain ⟨r, hr, hs⟩ := h.right ht
    rcases (sameAs_edges hs).2 e he with h | h
    · exact List.mem_flatMap.2 ⟨r, hr, h⟩
    · have := hw'.2 _ (List.mem_flatMap.2 ⟨r, hr, h⟩)
      rwa [Prod.swap_swap] at this

theorem sameAs_nrm {r t : RTri} (h : r.SameAs t) (ht : t.nrm ≠ 0) : r.nrm ≠ 0 := by
  have : r.nrm = t.nrm ∨ r.nrm = (-1 : ℝ) • t.nrm := by
    rcases h with rfl | rfl | rfl | rfl | rfl | rfl
    · left; rfl
    · left; apply R3.ext <;> simp [RTri.nrm, R3.cross] <;> ring
    · left; apply R3.ext <;> simp [RTri.nrm, R3.cross] <;> ring
    · right; apply R3.ext <;> simp [RTri.nrm, R3.cross] <;> ring
    · right; apply R3.ext <;> simp [RTri.nrm, R3.cross] <;> ring
    · right; apply R3.ext <;> simp [RTri.nrm, R3.cross] <;> ring
  rcases this with e | e
  · rw [e]; exact ht
  · rw [e]
    intro h0
    apply ht
    have hx := congrArg R3.x h0; have hy := congrArg R3.y h0; have hz := congrArg R3.z h0
    apply R3.ext <;> simp at hx hy hz ⊢ <;> assumption

theorem sameAs_on {r t : RTri} (h : r.SameAs t) (x : R3) : OnTri r x ↔ OnTri t x := by
  unfold OnTri
  rcases h with rfl | rfl | rfl | rfl | rfl | rfl
  · rfl
  · constructor
    · rintro ⟨u, v, w, h1, h2, h3, h4, rfl⟩
      exact ⟨w, u, v, h3, h1, h2, by linarith, by apply R3.ext <;> simp <;> ring⟩
    · rintro ⟨u, v, w, h1, h2, h3, h4, rfl⟩
      exact ⟨v, w, u, h2, h3, h1, by linarith, by apply R3.ext <;> simp <;> ring⟩
  · constructor
    · rintro ⟨u, v, w, h1, h2, h3, h4, rfl⟩
      exact ⟨v, w, u, h2, h3, h1, by linarith, by apply R3.ext <;> simp <;> ring⟩
    · rintro ⟨u, v, w, h1, h2, h3, h4, rfl⟩
      exact ⟨w, u, v, h3, h1, h2, by linarith, by apply R3.ext <;> simp <;> ring⟩
  · constructor <;>
    · rintro ⟨u, v, w, h1, h2, h3, h4, rfl⟩
      exact ⟨v, u, w, h2, h1, h3, by linarith, by apply R3.ext <;> simp <;> ring⟩
  · constructor <;>
    · rintro ⟨u, v, w, h1, h2, h3, h4, rfl⟩
      exact ⟨u, w, v, h1, h3, h2, by linarith, by apply R3.ext <;> simp <;> ring⟩
  · constructor <;>
    · rintro ⟨u, v, w, h1, h2, h3, h4, rfl⟩
      exact ⟨w, v, u, h3, h2, h1, by linarith, by apply R3.ext <;> simp <;> ring⟩

theorem same_odd {ts' ts : List RTri} (h : SameFacets ts' ts) (x d : R3) : OddTris x d ts' ↔ OddTris x d ts := by
  obtain ⟨m, hp, hf⟩ := h
  have e : ts'.countP (fun t => @decide (RayMeets x d t) (Classical.propDecidable _)) = m.countP (fun t => @decide (RayMeets x d t) (Classical.propDecidable _)) := by
    clear hp
    induction hf with
    | nil => rfl
    | @cons r t _ _ hs _ ih =>
      have : RayMeets x d r ↔ RayMeets x d t := exists_congr fun s => and_congr_right fun _ => sameAs_on hs _
      rw [List.countP_cons, List.countP_cons, ih]
      by_cases h : RayMeets x d t
      · simp [h, this.2 h]
      · simp [h, mt this.1 h]
  unfold OddTris
  rw [e, hp.countP_eq]

theorem same_cross {ts' ts : List RTri} (h : SameFacets ts' ts) (hw : Watertight ts) (hw' : Watertight ts') (P N w : R3) :
    CrossPoint P N ts' w ↔ CrossPoint P N ts w := by
  unfold CrossPoint
  simp only [same_edges h hw hw']

theorem same_material {ts' ts : List RTri} (h : SameFacets ts' ts) (hw : Watertight ts) (hw' : Watertight ts') (P N x : R3) :
    InMaterial P N ts' x ↔ InMaterial P N ts x := by
  unfold InMaterial
  simp only [same_cross h hw hw', same_odd h]

theorem same_far {ts' ts : List RTri} (h : SameFacets ts' ts) (ε : ℝ) (P N x : R3) : FarFromSurface ε P N ts x → FarFromSurface ε P N ts' x := by
  intro hf r hr y hy
  obtain ⟨t, ht, hs⟩ := h.left hr
  exact hf t ht y ((sameAs_on hs y).1 hy)

theorem same_slim {ts' ts : List RTri} (h : SameFacets ts' ts) (hw : Watertight ts) (hw' : Watertight ts') (P N x : R3) :
    OffSlimCuts P N ts x → OffSlimCuts P N ts' x := by
  unfold OffSlimCuts
  simp only [same_cross h hw hw']
  exact id

/-- at every good level the points inside the contours of a run are the points of the material -/
theorem printed_material (S : Sorter) (A : Arrival XR) (ts : List RTri) (sett : Settings XR) (hs : sett.supportsOn = false)
    (hw : Watertight ts) (hdeg : ∀ t ∈ ts, t.nrm ≠ 0) (hsm : ∀ w ∈ allVerts ts, w.small) (lo hi t lw M : ℝ)
    (he : Extent ts ⟨0, 0, 1⟩ lo hi) (hh : sett.layerHeight = XR.fin t) (ht : 0 < t) (htl : t < hi - lo) (hb : ⌈(hi - lo) / t⌉ < 2 ^ 63)
    (hlw : sett.gs.lineWidth = XR.fin lw) (hd : patternDensity sett ≠ 0)
    (hsp : FillBounds ts (100 / (patternDensity sett : ℝ) * lw) M) (hfp : FillBounds ts lw M) :
    ∃ (layers : List (Layer XR)) (n : ℕ), sliceByVectorToGcode S A (rmesh ts) (R3.mk 0 0 1).vec sett = .ok ((Gcode.new sett.gs).addLayers layers) ∧
      (n : ℤ) = ⌈(hi - lo) / t⌉ ∧
      ∀ m < n, GoodLevel ts (lo + ((m : ℝ) + 1 / 2) * ((hi - lo) / n)) → ∀ x : R3, x.z = lo + ((m : ℝ) + 1 / 2) * ((hi - lo) / n) →
        FarFromSurface (1 / 10 ^ 8) ⟨0, 0, lo + ((m : ℝ) + 1 / 2) * ((hi - lo) / n)⟩ ⟨0, 0, 1⟩ ts x →
        OffSlimCuts ⟨0, 0, lo + ((m : ℝ) + 1 / 2) * ((hi - lo) / n)⟩ ⟨0, 0, 1⟩ ts x →
        (PrintedAt layers m x ↔ InMaterial ⟨0, 0, lo + ((m : ℝ) + 1 / 2) * ((hi - lo) / n)⟩ ⟨0, 0, 1⟩ ts x) := by
  obtain ⟨layers, sp, fu, n, g1, -, -, g2, ⟨k, -, ord, -⟩, g3⟩ := C90_print_partial S A ts sett hs hw hdeg hsm lo hi t lw M he hh ht htl hb hlw hd hsp hfp
  refine ⟨layers, n, g1, g2, fun m hm good x hx far slim => ?_⟩
  have rpath_inj : ∀ a b : List R3, rpath a = rpath b → a = b := by
    intro a b h
    have := congrArg Path.points h
    exact (List.map_injective_iff.2 fun u v h => R3.pt_inj h) this
  have unique : ∀ l ∈ layers, ∀ l' ∈ layers, l.order = l'.order → l = l' := by
    intro l hl l' hl' e
    have nd : (layers.map Layer.order).Nodup := by
      rw [ord]
      exact (List.nodup_range').map fun a b h => by exact_mod_cast h
    exact List.inj_on_of_nodup_map nd hl hl' e
  rcases g3 m hm good with ⟨i, l, hi', hl, cs, segs, hp, -, -, -, hbm, -⟩ | ⟨-, hno, hnm⟩
  · have lm := List.mem_of_getElem? hi'
    have key := (hbm.2 x (by simp [R3.height, R3.dot, hx]) far slim).2
    constructor
    · rintro ⟨l', lm', ho, cs', hc', hin⟩
      obtain rfl := unique l lm l' lm' (hl.trans ho.symm)
      rw [hp] at hc'
      obtain rfl : cs = cs' := (List.map_injective_iff.2 fun a b h => rpath_inj a b h) hc'
      exact key.1 hin
    · exact fun h => ⟨l, lm, hl, cs, hp, key.2 h⟩
  · constructor
    · rintro ⟨l', lm', ho, -⟩
      exact absurd ho (hno l' lm')
    · exact fun h => absurd h (hnm x hx far slim)

/-- **C130.** Two files describe the same model if they have the same facets, in any order and with the vertices of each facet in any order, as long as both are consistently oriented
(so also if all facets are turned over). Slicing and filling them vertically (supports off) then prints the same part: both succeed with the same
numbers of levels, and at every good level the same points are inside the contours (the material of the model), except closer than `1e-8` to the surface and in slim triangles. This holds
whatever the orders of the unstable sorts and of the arrival of the layers are in the two runs. -/
theorem C130_same_part (S S' : Sorter) (A A' : Arrival XR) (ts ts' : List RTri) (hsame : SameFacets ts' ts) (sett : Settings XR) (hs : sett.supportsOn = false)
    (hw : Watertight ts) (hw' : Watertight ts') (hdeg : ∀ t ∈ ts, t.nrm ≠ 0) (hsm : ∀ w ∈ allVerts ts, w.small) (lo hi t lw M : ℝ)
    (he : Extent ts ⟨0, 0, 1⟩ lo hi) (hh : sett.layerHeight = XR.fin t) (ht : 0 < t) (htl : t < hi - lo) (hb : ⌈(hi - lo) / t⌉ < 2 ^ 63)
    (hlw : sett.gs.lineWidth = XR.fin lw) (hd : patternDensity sett ≠ 0)
    (hsp : FillBounds ts (100 / (patternDensity sett : ℝ) * lw) M) (hfp : FillBounds ts lw M) :
    ∃ (layers layers' : List (Layer XR)) (n : ℕ),
      sliceByVectorToGcode S A (rmesh ts) (R3.mk 0 0 1).vec sett = .ok ((Gcode.new sett.gs).addLayers layers) ∧
      sliceByVectorToGcode S' A' (rmesh ts') (R3.mk 0 0 1).vec sett = .ok ((Gcode.new sett.gs).addLayers layers') ∧
      (n : ℤ) = ⌈(hi - lo) / t⌉ ∧
      ∀ m < n, GoodLevel ts (lo + ((m : ℝ) + 1 / 2) * ((hi - lo) / n)) → ∀ x : R3, x.z = lo + ((m : ℝ) + 1 / 2) * ((hi - lo) / n) →
        FarFromSurface (1 / 10 ^ 8) ⟨0, 0, lo + ((m : ℝ) + 1 / 2) * ((hi - lo) / n)⟩ ⟨0, 0, 1⟩ ts x →
        OffSlimCuts ⟨0, 0, lo + ((m : ℝ) + 1 / 2) * ((hi - lo) / n)⟩ ⟨0, 0, 1⟩ ts x →
        (PrintedAt layers m x ↔ PrintedAt layers' m x) ∧
        (PrintedAt layers m x ↔ InMaterial ⟨0, 0, lo + ((m : ℝ) + 1 / 2) * ((hi - lo) / n)⟩ ⟨0, 0, 1⟩ ts x) := by
  have vs := same_verts hsame
  have hdeg' : ∀ t ∈ ts', t.nrm ≠ 0 := fun r hr => by
    obtain ⟨t, ht, h⟩ := hsame.left hr
    exact sameAs_nrm h (hdeg t ht)
  have hsm' : ∀ w ∈ allVerts ts', w.small := fun w h => hsm w ((vs w).1 h)
  have he' : Extent ts' ⟨0, 0, 1⟩ lo hi := by
    unfold Extent at he ⊢
    simp only [vs]
    exact he
  have ne' : ts' ≠ [] := by
    rintro rfl
    obtain ⟨r, hr⟩ := List.exists_mem_of_ne_nil _ hfp.ne
    obtain ⟨_, h, _⟩ := hsame.right hr
    cases h
  have hsp' : FillBounds ts' (100 / (patternDensity sett : ℝ) * lw) M := ⟨ne', fun w h => hsp.abs w ((vs w).1 h), hsp.fits, hsp.step, hsp.count⟩
  have hfp' : FillBounds ts' lw M := ⟨ne', fun w h => hfp.abs w ((vs w).1 h), hfp.fits, hfp.step, hfp.count⟩
  obtain ⟨layers, n, g1, g2, g3⟩ := printed_material S A ts sett hs hw hdeg hsm lo hi t lw M he hh ht htl hb hlw hd hsp hfp
  obtain ⟨layers', n', k1, k2, k3⟩ := printed_material S' A' ts' sett hs hw' hdeg' hsm' lo hi t lw M he' hh ht htl hb hlw hd hsp' hfp'
  obtain rfl : n = n' := by exact_mod_cast g2.trans k2.symm
  refine ⟨layers, layers', n, g1, k1, g2, fun m hm good x hx far slim => ?_⟩
  have good' : GoodLevel ts' (lo + ((m : ℝ) + 1 / 2) * ((hi - lo) / n)) :=
    ⟨fun w h => good.1 w ((vs w).1 h), fun e he f hf => good.2 e ((same_edges hsame hw hw' e).1 he) f ((same_edges hsame hw hw' f).1 hf)⟩
  rw [g3 m hm good x hx far slim, k3 m hm good' x hx (same_far hsame _ _ _ _ far) (same_slim hsame hw hw' _ _ _ slim), same_material hsame hw hw']
  exact ⟨Iff.rfl, Iff.rfl⟩

/-! ## The tetrahedron written differently -/

/-- the tetrahedron with its facets in the opposite order and turned over -/
def outTetra : List RTri :=
  [⟨⟨0, 0, 0⟩, ⟨0, 4, 0⟩, ⟨0, 0, 4⟩⟩, ⟨⟨0, 4, 0⟩, ⟨4, 0, 0⟩, ⟨0, 0, 4⟩⟩, ⟨⟨4, 0, 0⟩, ⟨0, 0, 0⟩, ⟨0, 0, 4⟩⟩, ⟨⟨0, 4, 0⟩, ⟨0, 0, 0⟩, ⟨4, 0, 0⟩⟩]

theorem outTetra_same : SameFacets outTetra exTetra := by
  refine ⟨exTetra.reverse, List.reverse_perm _, ?_⟩
  have e : outTetra = exTetra.reverse.map fun t => ⟨t.b, t.a, t.c⟩ := rfl
  rw [e, List.forall₂_map_left_iff]
  exact List.forall₂_same.2 fun t _ => Or.inr (Or.inr (Or.inr (Or.inl rfl)))

theorem outTetra_watertight : Watertight outTetra := by
  have ext_iff : ∀ a b c x y z : ℝ, ((⟨a, b, c⟩ : R3) = ⟨x, y, z⟩) ↔ a = x ∧ b = y ∧ c = z := by
    intro a b c x y z; exact R3.mk.injEq .. ▸ Iff.rfl
  have e : dirEdges outTetra =
    [(⟨0, 0, 0⟩, ⟨0, 4, 0⟩), (⟨0, 4, 0⟩, ⟨0, 0, 4⟩), (⟨0, 0, 4⟩, ⟨0, 0, 0⟩),
     (⟨0, 4, 0⟩, ⟨4, 0, 0⟩), (⟨4, 0, 0⟩, ⟨0, 0, 4⟩), (⟨0, 0, 4⟩, ⟨0, 4, 0⟩),
     (⟨4, 0, 0⟩, ⟨0, 0, 0⟩), (⟨0, 0, 0⟩, ⟨0, 0, 4⟩), (⟨0, 0, 4⟩, ⟨4, 0, 0⟩),
     (⟨0, 4, 0⟩, ⟨0, 0, 0⟩), (⟨0, 0, 0⟩, ⟨4, 0, 0⟩), (⟨4, 0, 0⟩, ⟨0, 4, 0⟩)] := rfl
  constructor
  · rw [e]; simp [ext_iff]
  · rw [e]
    intro f hf
    simp only [List.mem_cons, List.not_mem_nil, or_false] at hf
    rcases hf with rfl | rfl | rfl | rfl | rfl | rfl | rfl | rfl | rfl | rfl | rfl | rfl <;> simp [ext_iff]

/-- the tetrahedron and the same written in the opposite order with all facets turned over, in layers of at most 3: the point `(1, 1/2, 1)` is in the printed
part of both -/
example (S S' : Sorter) (A A' : Arrival XR) :
    ∃ layers layers' : List (Layer XR), sliceByVectorToGcode S A (rmesh exTetra) (R3.mk 0 0 1).vec (exampleSettings 3) =
        .ok ((Gcode.new (exampleSettings 3).gs).addLayers layers) ∧
      sliceByVectorToGcode S' A' (rmesh outTetra) (R3.mk 0 0 1).vec (exampleSettings 3) = .ok ((Gcode.new (exampleSettings 3).gs).addLayers layers') ∧
      PrintedAt layers 0 ⟨1, 1 / 2, 1⟩ ∧ PrintedAt layers' 0 ⟨1, 1 / 2, 1⟩ := by
  obtain ⟨h1, h2, h3, -, -⟩ := exTetra_ok
  have hn : ⌈((4 : ℝ) - 0) / 3⌉ = 2 := by rw [Int.ceil_eq_iff]; norm_num
  obtain ⟨layers, layers', n, g1, g1', g2, g3⟩ := C130_same_part S S' A A' exTetra outTetra outTetra_same (exampleSettings 3) rfl h1 outTetra_watertight h2 h3
    0 4 3 1 4 exTetra_extent rfl (by norm_num) (by norm_num) (by rw [hn]; norm_num) rfl (by unfold patternDensity exampleSettings; decide)
    (exTetra_fill _ (by unfold patternDensity exampleSettings; simp; norm_num)) (exTetra_fill _ le_rfl)
  rw [hn] at g2
  have : n = 2 := by exact_mod_cast g2
  subst this
  have e : (0 : ℝ) + (((0 : ℕ) : ℝ) + 1 / 2) * ((4 - 0) / ((2 : ℕ) : ℝ)) = 1 := by norm_num
  have := g3 0 (by norm_num)
  rw [e] at this
  obtain ⟨k1, k2⟩ := this (exTetra_good (by norm_num) (by norm_num)) _ rfl exTetra_material.1 exTetra_material.2.1
  have k := k2.2 exTetra_material.2.2.1
  exact ⟨layers, layers', g1, g1', k, k1.1 k⟩

end Goosli
