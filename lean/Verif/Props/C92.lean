import Mathlib.Data.Sym.Sym2
import Verif.Props.C16
import Verif.Props.C29
import Verif.Props.C78
import Verif.Props.C89
/-!
# C92: the section of a mesh by a plane (IntersectMesh)
-/
set_option autoImplicit false
namespace Goosli
open Flt R3

/-- **C92, every arithmetic.** `IntersectMesh` does not fail, and its layer (number 0, with the normal of the plane) is assembled from the
sections of the triangles, each used exactly once, for every iteration order of the map. -/
theorem C92_sections {α : Type} [Flt α] (ord : MapOrder (Path α)) (p : Plane α) (ts : List (Triangle α)) :
    ∃ out, p.intersectMesh ord ts = .ok out ∧ out.order = 0 ∧ out.norm = p.n ∧
      ∃ ls : List (Line α), List.Forall₂ (fun t l => p.intersectTriangle t = some l) (ts.filter fun t => (p.intersectTriangle t).isSome) ls ∧
        Assembled (ls.map fun l => ⟨[l.p1, l.p2]⟩) out.paths := by
  have hls : ∀ ts : List (Triangle α), ∃ ls : List (Line α),
      List.Forall₂ (fun t l => p.intersectTriangle t = some l) (ts.filter fun t => (p.intersectTriangle t).isSome) ls ∧
      ts.filterMap (fun t => (p.intersectTriangle t).map fun l => (⟨[l.p1, l.p2]⟩ : Path α)) = ls.map fun l => ⟨[l.p1, l.p2]⟩ := by
    intro ts
    induction ts with
    | nil => exact ⟨[], .nil, rfl⟩
    | cons t ts ih =>
      obtain ⟨ls, h1, h2⟩ := ih
      cases h : p.intersectTriangle t with
      | none => exact ⟨ls, by simpa [List.filter_cons, h] using h1, by simpa [List.filterMap_cons, h] using h2⟩
      | some l => exact ⟨l :: ls, by simpa [List.filter_cons, h] using h1, by simpa [List.filterMap_cons, h] using h2⟩
  obtain ⟨ls, h1, h2⟩ := hls ts
  obtain ⟨out, ho, ha, -, -⟩ := C16_join2_partial ord (ls.map fun l => (⟨[l.p1, l.p2]⟩ : Path α)) (by simp)
  refine ⟨{ order := 0, norm := p.n, paths := out }, ?_, rfl, rfl, ls, h1, ha⟩
  unfold Plane.intersectMesh
  simp only [h2, ho, bind, Except.bind]
  rfl

/-! ## Contours -/

/-- a contour as it is stored -/
noncomputable def storedPath (c : List R3) : Path XR := ⟨c.map fun w => w.round8.pt⟩

theorem sides_join : ∀ {a b : List R3} {w : R3}, a.getLast? = some w → b.head? = some w → sides (a ++ b.tail) = sides a ++ sides b
  | [], _, _, h, _ => by simp at h
  | [x], b, w, h, h' => by
    cases b with
    | nil => simp at h'
    | cons y t =>
      simp at h h'
      subst h; subst h'
      rfl
  | x :: y :: a, b, w, h, h' => by
    have ih := sides_join (a := y :: a) (b := b) (by simpa [List.getLast?_cons_cons] using h) h'
    have e : sides (x :: y :: a ++ b.tail) = (x, y) :: sides (y :: a ++ b.tail) := rfl
    rw [e, ih]
    rfl

theorem sides_rev (c : List R3) : sides c.reverse = ((sides c).map Prod.swap).reverse := adjPairs_reverse c

theorem r8_idem (x : ℝ) : r8 (r8 x) = r8 x := by
  obtain ⟨k, hk⟩ : ∃ k : ℤ, r8 x = (k : ℝ) / 10 ^ 8 := by
    unfold r8
    split_ifs
    · exact ⟨_, rfl⟩
    · exact ⟨_, rfl⟩
  rw [hk, r8_grid]

theorem small_round8 {w : R3} (h : w.small) : w.round8.small := by
  have hl : r8 roundLimit = roundLimit := by
    have := r8_int 90000000000
    unfold roundLimit
    norm_num at this ⊢
    exact this
  have hl' : r8 (-roundLimit) = -roundLimit := by
    have := r8_int (-90000000000)
    unfold roundLimit
    norm_num at this ⊢
    exact this
  have key : ∀ x : ℝ, |x| ≤ roundLimit → |r8 x| ≤ roundLimit := by
    intro x hx
    obtain ⟨h1, h2⟩ := abs_le.1 hx
    have := r8_mono h1
    have := r8_mono h2
    rw [abs_le]
    constructor <;> linarith
  exact ⟨key _ h.1, key _ h.2.1, key _ h.2.2⟩

theorem mapKey_stored {w : R3} (h : w.small) : w.round8.pt.mapKey = w.round8.pt := by
  rw [mapKey_pt _ (small_round8 h)]
  simp [R3.round8, r8_idem]

theorem crossPoint_small {P N : R3} {ts : List RTri} (hsm : ∀ w ∈ allVerts ts, w.small) {w : R3} (h : CrossPoint P N ts w) : w.small := by
  obtain ⟨e, he, hc, rfl⟩ := h
  obtain ⟨t, ht, he⟩ := List.mem_flatMap.1 he
  have hv : (e.1 = t.a ∨ e.1 = t.b ∨ e.1 = t.c) ∧ (e.2 = t.a ∨ e.2 = t.b ∨ e.2 = t.c) := by
    simp [RTri.edges] at he
    rcases he with rfl | rfl | rfl <;> simp
  exact small_of_onSegment (crosses_crossAt hc).2.1 (hsm _ (vert_mem ht hv.1)) (hsm _ (vert_mem ht hv.2))

section
variable {P N : R3} {ts : List RTri}

/-- a list of at least two crossing points -/
def CrossPath (P N : R3) (ts : List RTri) (c : List R3) : Prop := 2 ≤ c.length ∧ ∀ w ∈ c, CrossPoint P N ts w

theorem Rw.contours (hsm : ∀ w ∈ allVerts ts, w.small) (hsep : WellSeparated P N ts) {l l' : List (Path XR)} (h : Rw l l') :
    ∀ cs : List (List R3), l = cs.map storedPath → (∀ c ∈ cs, CrossPath P N ts c) →
    ∃ cs' : List (List R3), l' = cs'.map storedPath ∧ (∀ c ∈ cs', CrossPath P N ts c) ∧
      ((cs'.flatMap sides).map fun q => s(q.1, q.2)).Perm ((cs.flatMap sides).map fun q => s(q.1, q.2)) := by
  induction h with
  | perm h =>
    intro cs hl hc
    obtain ⟨m, hm, he⟩ := perm_map_exists h.symm hl
    exact ⟨m, he, fun c h => hc c (hm.mem_iff.1 h), (hm.flatMap_right sides).map _⟩
  | @join a b r h =>
    intro cs hl hc
    obtain ⟨A, cs, rfl, rfl, hl'⟩ := List.map_eq_cons_iff.1 hl.symm
    obtain ⟨B, cs, rfl, rfl, hl''⟩ := List.map_eq_cons_iff.1 hl'
    obtain ⟨u, v, hu, hv, huv⟩ := h
    have hA := hc A (by simp)
    have hB := hc B (by simp)
    simp only [storedPath, List.getLast?_map, List.head?_map, Option.map_eq_some_iff] at hu hv
    obtain ⟨w, hw, rfl⟩ := hu
    obtain ⟨w', hw', rfl⟩ := hv
    have cw := hA.2 w (List.mem_of_getLast? hw)
    have cw' := hB.2 w' (List.mem_of_mem_head? hw')
    have : w' = w := by
      have := (keyEq_iff _ _).1 huv
      rw [mapKey_stored (crossPoint_small hsm cw), mapKey_stored (crossPoint_small hsm cw')] at this
      exact crossPoint_pt hsep cw' cw this
    subst this
    refine ⟨(A ++ B.tail) :: cs, ?_, ?_, ?_⟩
    · rw [← hl'']; simp [storedPath, List.map_tail]
    · intro c h
      rcases List.mem_cons.1 h with rfl | h
      · refine ⟨by have := hA.1; simp; omega, fun w h => ?_⟩
        rcases List.mem_append.1 h with h | h
        · exact hA.2 w h
        · exact hB.2 w (List.mem_of_mem_tail h)
      · exact hc c (by simp [h])
    · simp only [List.flatMap_cons, sides_join hw hw', List.append_assoc]
      exact List.Perm.refl _
  | @rev a r =>
    intro cs hl hc
    obtain ⟨A, cs, rfl, rfl, hl'⟩ := List.map_eq_cons_iff.1 hl.symm
    refine ⟨A.reverse :: cs, ?_, ?_, ?_⟩
    · rw [← hl']; simp [storedPath, Path.reverse, List.map_reverse]
    · intro c h
      rcases List.mem_cons.1 h with rfl | h
      · have := hc A (by simp)
        exact ⟨by simpa using this.1, fun w h => this.2 w (by simpa using h)⟩
      · exact hc c (by simp [h])
    · simp only [List.flatMap_cons, List.map_append, sides_rev]
      refine List.Perm.append_right _ ?_
      refine ((List.reverse_perm _).map _).trans ?_
      rw [List.map_map]
      have : ((fun q : R3 × R3 => s(q.1, q.2)) ∘ Prod.swap) = fun q => s(q.1, q.2) := by
        funext q; simp [Sym2.eq_swap]
      rw [this]
  | trans _ _ ih1 ih2 =>
    intro cs hl hc
    obtain ⟨cs', h1, h2, h3⟩ := ih1 cs hl hc
    obtain ⟨cs'', h4, h5, h6⟩ := ih2 cs' h1 h2
    exact ⟨cs'', h4, h5, h6.trans h3⟩

open Classical in
/-- `contours_bound` for contours the sides of which are the sections in either direction -/
theorem contours_bound_either (hN : N.z ≠ 0) (hoff : ∀ w ∈ allVerts ts, R3.height P N w ≠ 0) {cs : List (List R3)}
    (hcs : ∀ c ∈ cs, 2 ≤ c.length ∧ c.head? = c.getLast?)
    (hp : ((cs.flatMap sides).map fun q => s(q.1, q.2)).Perm ((ts.filterMap (secOf P N)).map fun q => s(q.1, q.2)))
    {x d : R3} (hx : R3.height P N x = 0) (hon : ∀ t ∈ ts, ¬ OnTri t x) (hd : d.dot N = 0)
    (hg : ∀ w, CrossPoint P N ts w → d.cross2 (w - x) ≠ 0) : InsideOdd x cs ↔ OddTris x d ts := by
  have hside : ∀ c ∈ cs, ∀ q ∈ sides c, ∃ t ∈ ts, secOf P N t = some q ∨ secOf P N t = some q.swap := by
    intro c hc q hq
    obtain ⟨r, hr, he⟩ := List.mem_map.1 (hp.mem_iff.1 (List.mem_map_of_mem (f := fun q : R3 × R3 => s(q.1, q.2)) (List.mem_flatMap.2 ⟨c, hc, hq⟩)))
    obtain ⟨t, ht, hs⟩ := List.mem_filterMap.1 hr
    refine ⟨t, ht, ?_⟩
    rw [hs]
    rcases Sym2.eq_iff.1 he with ⟨h1, h2⟩ | ⟨h1, h2⟩
    · left; rw [show r = q from Prod.ext h1 h2]
    · right; rw [show r = q.swap from Prod.ext h1 h2]
  have hW : ∀ c ∈ cs, Within x c ↔ OddHits x d c := by
    intro c hc
    refine C77_ray x d c (hcs c hc).1 (hcs c hc).2 ?_ ?_
    · rintro ⟨q, hq, r, h0, h1, ex, ey⟩
      obtain ⟨t, ht, hs⟩ := hside c hc q hq
      have hv : ∀ w ∈ t.verts, R3.height P N w ≠ 0 := fun w hw => hoff w (List.mem_flatMap.2 ⟨t, ht, hw⟩)
      have hq' : CrossPoint P N ts q.1 ∧ CrossPoint P N ts q.2 := by
        rcases hs with hs | hs
        · exact secOf_cross ht hs
        · exact (secOf_cross ht hs).symm
      have hseg : onSegment q.1 q.2 x := by
        refine ⟨r, h0, h1, ?_⟩
        refine plane_ext hN hx (height_between (crossPoint_height hq'.1) (crossPoint_height hq'.2) r) ?_ ?_ <;> simp <;> linarith
      refine hon t ht ((onTri_secOf P N t (hv _ (by simp [RTri.verts])) (hv _ (by simp [RTri.verts])) (hv _ (by simp [RTri.verts]))
        x hx).2 ?_)
      rcases hs with hs | hs
      · exact ⟨q, hs, hseg⟩
      · exact ⟨q.swap, hs, (onSegment_comm _ _ _).1 hseg⟩
    · intro w hw
      obtain ⟨q, hq, h⟩ := corner_side (hcs c hc).1 hw
      obtain ⟨t, ht, hs⟩ := hside c hc q hq
      have hq' : CrossPoint P N ts q.1 ∧ CrossPoint P N ts q.2 := by
        rcases hs with hs | hs
        · exact secOf_cross ht hs
        · exact (secOf_cross ht hs).symm
      rcases h with rfl | rfl
      · exact hg _ hq'.1
      · exact hg _ hq'.2
  have hcount : ∀ l : List (R3 × R3), l.countP (fun q => decide (RayHits x d q)) =
      (l.map fun q => s(q.1, q.2)).countP (fun e => decide (Sym2.lift ⟨fun a b => RayHits x d (a, b), fun a b => propext rayHits_swap⟩ e)) := by
    intro l
    rw [List.countP_map]
    rfl
  unfold InsideOdd OddTris
  rw [odd_sum _ _ cs hW, count_secOf ts fun t ht => rayMeets_secOf hN hoff ht hx hd, hcount (ts.filterMap (secOf P N)), ← hp.countP_eq, ← hcount,
    List.countP_flatMap]
  rfl

theorem closed_ends {c : List R3} (h : c.head? = c.getLast?) : ((sides c).map Prod.fst).Perm ((sides c).map Prod.snd) := by
  have h1 : (sides c).map Prod.fst = c.dropLast := by
    unfold sides
    apply List.ext_getElem
    · simp
    · intro i _ _; simp
  have h2 : (sides c).map Prod.snd = c.tail := by
    unfold sides
    exact List.map_snd_zip (by simp)
  rw [h1, h2]
  cases c with
  | nil => exact .refl _
  | cons a t =>
    rw [List.head?_cons] at h
    have hl := List.dropLast_append_getLast? a (by rw [← h]; rfl)
    rw [List.tail_cons]
    have : (a :: (a :: t).dropLast).Perm (a :: t) := by
      conv_rhs => rw [← hl]
      exact (List.perm_append_singleton _ _).symm
    exact this.cons_inv
end

/-- **C92, the section of a model.** For a watertight mesh without degenerate triangles and with small coordinates and a plane that is not
vertical, passes through no vertex and crosses the edges at well separated points, `IntersectMesh` returns, up to rounding of the corners
to eight decimals, closed contours in the plane that enclose the material of the model and leave out its holes, for every iteration
order of the map. -/
theorem C92_cross_section (ord : MapOrder (Path XR)) (ts : List RTri) (P N : R3) (hN : N.z ≠ 0) (hw : Watertight ts)
    (hdeg : ∀ t ∈ ts, t.nrm ≠ 0) (hsm : ∀ w ∈ allVerts ts, w.small) (hoff : ∀ w ∈ allVerts ts, R3.height P N w ≠ 0)
    (hsep : WellSeparated P N ts) :
    ∃ (out : Layer XR) (cs : List (List R3)), (Plane.mk P.pt N.vec).intersectMesh ord (rmesh ts).triangles = .ok out ∧
      out.paths = cs.map storedPath ∧
      (∀ c ∈ cs, 2 ≤ c.length ∧ c.head? = c.getLast? ∧ ∀ w ∈ c, R3.height P N w = 0) ∧
      ∀ x : R3, R3.height P N x = 0 → (∀ t ∈ ts, ¬ OnTri t x) → ∀ d : R3, d.dot N = 0 →
        (∀ w, CrossPoint P N ts w → d.cross2 (w - x) ≠ 0) → (InsideOdd x cs ↔ OddTris x d ts) := by
  classical
  obtain ⟨E, hE⟩ : ∃ E, E = ts.filterMap (secOf P N) := ⟨_, rfl⟩
  have hsec := sectionPaths_secOf hsm hoff hdeg hsep ts (fun t h => h)
  rw [← hE] at hsec
  have hX : ∀ s ∈ E, CrossPoint P N ts s.1 ∧ CrossPoint P N ts s.2 := by
    intro s hs
    rw [hE] at hs
    obtain ⟨t, ht, h⟩ := List.mem_filterMap.1 hs
    exact secOf_cross ht h
  obtain ⟨cs₀, -, hc₀, hp₀⟩ := C83_contours Sorter.insertion ts P N hw hdeg hsm hoff hsep _ (List.Perm.refl _)
  rw [← hE] at hp₀
  have hends : (E.map Prod.fst).Perm (E.map Prod.snd) := by
    refine ((hp₀.map Prod.fst).symm.trans ?_).trans (hp₀.map Prod.snd)
    rw [List.map_flatMap, List.map_flatMap]
    clear hp₀
    induction cs₀ with
    | nil => exact .refl _
    | cons c cs ih =>
      rw [List.flatMap_cons, List.flatMap_cons]
      exact (closed_ends (hc₀ c (by simp)).2).append (ih fun c h => hc₀ c (by simp [h]))
  have hkeys : ∀ l : List (R3 × R3), ∀ k, ((l.map storedSeg).flatMap endKeys).count k =
      ((l.map Prod.fst).map fun w => w.round8.pt.mapKey).count k + ((l.map Prod.snd).map fun w => w.round8.pt.mapKey).count k := by
    intro l k
    induction l with
    | nil => rfl
    | cons s l ih =>
      simp only [List.map_cons, List.flatMap_cons, List.count_append, ih, endKeys, storedSeg, List.head?_cons, List.getLast?_cons_cons,
        List.getLast?_singleton, Option.toList_some, List.map_nil, List.count_cons, List.count_nil, List.cons_append, List.nil_append]
      omega
  have hne : ∀ q ∈ E.map storedSeg, q.points ≠ [] := by
    intro q hq
    obtain ⟨s, -, rfl⟩ := List.mem_map.1 hq
    simp [storedSeg]
  obtain ⟨out, ho, hcl⟩ := C16_join2_loops ord (E.map storedSeg) hne (by
    intro k _
    rw [hkeys, (hends.map fun w => w.round8.pt.mapKey).count_eq k]
    exact ⟨_, rfl⟩)
  obtain ⟨out', l, h1, h2, -, -⟩ := joinPaths2Loop_spec ord ((E.map storedSeg).length + 1) 0 (E.map storedSeg) hne (by omega)
  have hoo : out' = out := by
    have : joinPaths2 ord (E.map storedSeg) = .ok out' := h1
    rw [ho] at this
    injection this with this
    exact this.symm
  subst hoo
  have hEs : E.map storedSeg = (E.map fun s => [s.1, s.2]).map storedPath := by
    rw [List.map_map]; rfl
  obtain ⟨cs, g1, g2, g3⟩ := Rw.contours hsm hsep h2 (E.map fun s => [s.1, s.2]) hEs (by
    intro c hc
    obtain ⟨s, hs, rfl⟩ := List.mem_map.1 hc
    refine ⟨le_rfl, fun w hw => ?_⟩
    simp at hw
    rcases hw with rfl | rfl
    · exact (hX s hs).1
    · exact (hX s hs).2)
  have hEE : (E.map fun s => [s.1, s.2]).flatMap sides = E := by
    rw [List.flatMap_map]
    have : (fun s : R3 × R3 => sides [s.1, s.2]) = fun s => [s] := by funext s; rfl
    rw [this, List.flatMap_singleton']
  rw [hEE] at g3
  have hclosed : ∀ c ∈ cs, 2 ≤ c.length ∧ c.head? = c.getLast? := by
    intro c hc
    refine ⟨(g2 c hc).1, ?_⟩
    obtain ⟨f, l, e1, e2, e3⟩ := hcl (storedPath c) (by rw [g1]; exact List.mem_map_of_mem hc)
    simp only [storedPath, List.getLast?_map, List.head?_map, Option.map_eq_some_iff] at e1 e2
    obtain ⟨a, ha, rfl⟩ := e1
    obtain ⟨b, hb, rfl⟩ := e2
    have ca := (g2 c hc).2 a (List.mem_of_mem_head? ha)
    have cb := (g2 c hc).2 b (List.mem_of_getLast? hb)
    rw [mapKey_stored (crossPoint_small hsm ca), mapKey_stored (crossPoint_small hsm cb)] at e3
    rw [ha, hb, crossPoint_pt hsep ca cb e3]
  refine ⟨{ order := 0, norm := N.vec, paths := out' }, cs, ?_, g1, fun c hc => ⟨(hclosed c hc).1, (hclosed c hc).2, fun w hw =>
    crossPoint_height ((g2 c hc).2 w hw)⟩, fun x hx hon d hd hg => contours_bound_either hN hoff hclosed (by rw [← hE]; exact g3) hx hon hd hg⟩
  unfold sectionPaths at hsec
  unfold Plane.intersectMesh
  simp only [hsec, ho, bind, Except.bind]
  rfl

/-- the tetrahedron cut at height 1: a point of the plane inside the contours and one outside -/
example (ord : MapOrder (Path XR)) : ∃ (out : Layer XR) (cs : List (List R3)),
    (Plane.mk (R3.mk 0 0 1).pt (R3.mk 0 0 1).vec).intersectMesh ord (rmesh exTetra).triangles = .ok out ∧
    out.paths = cs.map storedPath ∧ InsideOdd ⟨1, 1 / 2, 1⟩ cs ∧ ¬ InsideOdd ⟨5, 1 / 2, 1⟩ cs := by
  obtain ⟨h1, h2, h3, h4, h5⟩ := exTetra_ok
  obtain ⟨out, cs, e1, e2, -, e3⟩ := C92_cross_section ord exTetra ⟨0, 0, 1⟩ ⟨0, 0, 1⟩ (by norm_num) h1 h2 h3 h4 h5
  have hg : ∀ p : ℝ, ∀ w, CrossPoint ⟨0, 0, 1⟩ ⟨0, 0, 1⟩ exTetra w → (R3.mk 1 0 0).cross2 (w - ⟨p, 1 / 2, 1⟩) ≠ 0 := by
    intro p w hw
    rcases exTetra_cross hw with h | h <;> simp [R3.cross2, h] <;> norm_num
  refine ⟨out, cs, e1, e2, ?_, ?_⟩
  · exact (e3 ⟨1, 1 / 2, 1⟩ (by simp [R3.height, R3.dot]) exTetra_inner.1 ⟨1, 0, 0⟩ (by simp [R3.dot]) (hg 1)).2 exTetra_inner.2
  · rw [e3 ⟨5, 1 / 2, 1⟩ (by simp [R3.height, R3.dot]) exTetra_outer.1 ⟨1, 0, 0⟩ (by simp [R3.dot]) (hg 5)]
    exact exTetra_outer.2

end Goosli
