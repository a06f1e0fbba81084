import Verif.Props.C144
/-!
# C145: a layer depends only on the facets that reach its level
-/
set_option autoImplicit false
namespace Goosli
open Flt

open Classical in
/-- spec: the facets that reach the level `z`, not those wholly above or below it -/
noncomputable def facetsAt (z : ℝ) (ts : List RTri) : List RTri := ts.filter fun t => decide (¬ LevelMisses z [t])

theorem mem_facetsAt {z : ℝ} {ts : List RTri} {t : RTri} : t ∈ facetsAt z ts ↔ t ∈ ts ∧ ¬ LevelMisses z [t] := by
  simp [facetsAt]

/-- a facet with a point at the level reaches it -/
theorem onTri_reaches {z : ℝ} {t : RTri} {y : R3} (ho : OnTri t y) (hy : y.z = z) : ¬ LevelMisses z [t] := by
  have du : ∀ w : R3, w.dot ⟨0, 0, 1⟩ = w.z := fun w => by simp [R3.dot]
  have dd : ∀ w : R3, w.dot ⟨0, 0, -1⟩ = -w.z := fun w => by simp [R3.dot]
  have mem : ∀ w ∈ t.verts, w ∈ allVerts [t] := fun w hw => List.mem_flatMap.2 ⟨t, by simp, hw⟩
  rintro (h | h)
  · have := onTri_dot (g := ⟨0, 0, 1⟩) (c := z) (fun w hw => by rw [du]; exact h w (mem w hw)) ho
    rw [du, hy] at this
    exact lt_irrefl _ this
  · have := onTri_dot (g := ⟨0, 0, -1⟩) (c := -z) (fun w hw => by rw [dd]; exact neg_lt_neg (h w (mem w hw))) ho
    rw [dd, hy] at this
    exact lt_irrefl _ this

/-- an edge that crosses the level is an edge of a facet that reaches it -/
theorem cross_reaches {z : ℝ} {ts : List RTri} {e : R3 × R3} (he : e ∈ dirEdges ts) (hc : ascends ⟨0, 0, z⟩ ⟨0, 0, 1⟩ e ∨ descends ⟨0, 0, z⟩ ⟨0, 0, 1⟩ e) :
    e ∈ dirEdges (facetsAt z ts) := by
  obtain ⟨t, ht, hv⟩ := List.mem_flatMap.1 he
  have m : e ∈ dirEdges [t] := List.mem_flatMap.2 ⟨t, by simp, hv⟩
  obtain ⟨a, b⟩ := edge_mem_verts m
  refine List.mem_flatMap.2 ⟨t, mem_facetsAt.2 ⟨ht, ?_⟩, hv⟩
  simp only [ascends, descends, R3.height, R3.dot] at hc
  rintro (h | h)
  · have h1 := h _ a
    have h2 := h _ b
    rcases hc with ⟨c, d⟩ | ⟨c, d⟩ <;> simp at c d <;> linarith
  · have h1 := h _ a
    have h2 := h _ b
    rcases hc with ⟨c, d⟩ | ⟨c, d⟩ <;> simp at c d <;> linarith

/-- spec: the same facets reach the level `z`, in any order -/
def SameAt (z : ℝ) (ts ts' : List RTri) : Prop := (facetsAt z ts).Perm (facetsAt z ts')

theorem SameAt.symm {z : ℝ} {ts ts' : List RTri} (h : SameAt z ts ts') : SameAt z ts' ts := List.Perm.symm h

theorem SameAt.edge {z : ℝ} {ts ts' : List RTri} (h : SameAt z ts ts') {e : R3 × R3} (he : e ∈ dirEdges ts)
    (hc : ascends ⟨0, 0, z⟩ ⟨0, 0, 1⟩ e ∨ descends ⟨0, 0, z⟩ ⟨0, 0, 1⟩ e) : e ∈ dirEdges ts' := by
  obtain ⟨t, ht, hv⟩ := List.mem_flatMap.1 (cross_reaches he hc)
  exact List.mem_flatMap.2 ⟨t, (mem_facetsAt.1 ((List.Perm.mem_iff h).1 ht)).1, hv⟩

theorem SameAt.cross {z : ℝ} {ts ts' : List RTri} (h : SameAt z ts ts') {w : R3} (hc : CrossPoint ⟨0, 0, z⟩ ⟨0, 0, 1⟩ ts w) : CrossPoint ⟨0, 0, z⟩ ⟨0, 0, 1⟩ ts' w := by
  obtain ⟨e, he, hc, hw⟩ := hc
  exact ⟨e, h.edge he hc, hc, hw⟩

theorem SameAt.far {z ε : ℝ} {ts ts' : List RTri} (h : SameAt z ts ts') {x : R3} (hf : FarFromSurface ε ⟨0, 0, z⟩ ⟨0, 0, 1⟩ ts x) :
    FarFromSurface ε ⟨0, 0, z⟩ ⟨0, 0, 1⟩ ts' x := by
  intro t ht y ho hy
  have hz : y.z = z := by
    simp [R3.height, R3.dot] at hy; linarith
  exact hf t (mem_facetsAt.1 ((List.Perm.mem_iff h.symm).1 (mem_facetsAt.2 ⟨ht, onTri_reaches ho hz⟩))).1 y ho hy

theorem SameAt.slim {z : ℝ} {ts ts' : List RTri} (h : SameAt z ts ts') {x : R3} (hf : OffSlimCuts ⟨0, 0, z⟩ ⟨0, 0, 1⟩ ts x) : OffSlimCuts ⟨0, 0, z⟩ ⟨0, 0, 1⟩ ts' x :=
  fun a b c ha hb hc => hf a b c (h.symm.cross ha) (h.symm.cross hb) (h.symm.cross hc)

theorem SameAt.thin {z : ℝ} {ts ts' : List RTri} (h : SameAt z ts ts') {x : R3} (hf : OffThinCuts z ts x) : OffThinCuts z ts' x :=
  fun a b c ha hb hc => hf a b c (h.symm.cross ha) (h.symm.cross hb) (h.symm.cross hc)

theorem SameAt.good {z : ℝ} {ts ts' : List RTri} (h : SameAt z ts ts') (hg : GoodLevel ts z) : GoodLevel ts' z := by
  refine ⟨fun w hw hz => ?_, fun e he f hf h1 h2 => hg.2 e (h.symm.edge he h1) f (h.symm.edge hf h2) h1 h2⟩
  obtain ⟨t, ht, hv⟩ := List.mem_flatMap.1 hw
  have m : w ∈ allVerts [t] := List.mem_flatMap.2 ⟨t, by simp, hv⟩
  have r : t ∈ facetsAt z ts' := mem_facetsAt.2 ⟨ht, by
    rintro (k | k)
    · exact (k w m).ne hz
    · exact (k w m).ne' hz⟩
  exact hg.1 w (List.mem_flatMap.2 ⟨t, (mem_facetsAt.1 ((List.Perm.mem_iff h.symm).1 r)).1, hv⟩) hz

theorem facetsAt_odd {z : ℝ} (ts : List RTri) {x d : R3} (hx : x.z = z) (hd : d.z = 0) : OddTris x d (facetsAt z ts) ↔ OddTris x d ts := by
  classical
  unfold OddTris facetsAt
  rw [List.countP_filter, List.countP_congr (q := fun t => decide (RayMeets x d t)) fun t _ => ?_]
  simp only [Bool.and_eq_true, decide_eq_true_eq]
  refine ⟨fun h => h.1, fun h => ⟨h, ?_⟩⟩
  obtain ⟨s, _, ho⟩ := h
  exact onTri_reaches ho (by simp [hd, hx])

/-- the material at a level depends only on the facets that reach it -/
theorem SameAt.material {z : ℝ} {ts ts' : List RTri} (h : SameAt z ts ts') {x : R3} (hx : x.z = z) (hm : InMaterial ⟨0, 0, z⟩ ⟨0, 0, 1⟩ ts x) :
    InMaterial ⟨0, 0, z⟩ ⟨0, 0, 1⟩ ts' x := by
  obtain ⟨d, hd, hg, ho⟩ := hm
  have dz : d.z = 0 := by simpa [R3.dot] using hd
  refine ⟨d, hd, fun w hw => hg w (h.symm.cross hw), ?_⟩
  rw [← facetsAt_odd ts' hx dz]
  rw [← facetsAt_odd ts hx dz] at ho
  unfold OddTris at ho ⊢
  rwa [← List.Perm.countP_eq _ h]

/-- **C145.** Two watertight models of the same extent in height, sliced and filled vertically in exact arithmetic with the rounding of sections (supports off): at every good level
that is reached by the same facets of both the same points are printed. The conditions on the level and on the points are those of one of the models. Settings other than the layer
height, the orders of the sorts and of the arrival of layers may be different. -/
theorem C145_level (S S' : Sorter) (A A' : Arrival XR) (ts ts' : List RTri) (sett sett' : Settings XR)
    (hs : sett.supportsOn = false) (hs' : sett'.supportsOn = false) (hw : Watertight ts) (hw' : Watertight ts')
    (hdeg : ∀ t ∈ ts, t.nrm ≠ 0) (hdeg' : ∀ t ∈ ts', t.nrm ≠ 0) (hsm : ∀ w ∈ allVerts ts, w.small) (hsm' : ∀ w ∈ allVerts ts', w.small)
    (lo hi t lw M lw' M' : ℝ) (he : Extent ts ⟨0, 0, 1⟩ lo hi) (he' : Extent ts' ⟨0, 0, 1⟩ lo hi)
    (hh : sett.layerHeight = XR.fin t) (hh' : sett'.layerHeight = XR.fin t) (ht : 0 < t) (htl : t < hi - lo) (hb : ⌈(hi - lo) / t⌉ < 2 ^ 63)
    (hlw : sett.gs.lineWidth = XR.fin lw) (hd : patternDensity sett ≠ 0) (hlw' : sett'.gs.lineWidth = XR.fin lw') (hd' : patternDensity sett' ≠ 0)
    (hsp : FillBounds ts (100 / (patternDensity sett : ℝ) * lw) M) (hfp : FillBounds ts lw M)
    (hsp' : FillBounds ts' (100 / (patternDensity sett' : ℝ) * lw') M') (hfp' : FillBounds ts' lw' M') :
    ∃ (layers layers' : List (Layer XR)) (n : ℕ), sliceByVectorToGcode S A (rmesh ts) (R3.mk 0 0 1).vec sett = .ok ((Gcode.new sett.gs).addLayers layers) ∧
      sliceByVectorToGcode S' A' (rmesh ts') (R3.mk 0 0 1).vec sett' = .ok ((Gcode.new sett'.gs).addLayers layers') ∧ (n : ℤ) = ⌈(hi - lo) / t⌉ ∧
      ∀ m < n, ∀ z : ℝ, z = lo + ((m : ℝ) + 1 / 2) * ((hi - lo) / n) → SameAt z ts ts' → GoodLevel ts z → ∀ x : R3, x.z = z →
        FarFromSurface (1 / 10 ^ 8) ⟨0, 0, z⟩ ⟨0, 0, 1⟩ ts x → OffSlimCuts ⟨0, 0, z⟩ ⟨0, 0, 1⟩ ts x → (PrintedAt layers' m x ↔ PrintedAt layers m x) := by
  obtain ⟨layers, n, g1, g2, g3⟩ := printed_material S A _ sett hs hw hdeg hsm lo hi t lw M he hh ht htl hb hlw hd hsp hfp
  obtain ⟨layers', n', k1, k2, k3⟩ := printed_material S' A' _ sett' hs' hw' hdeg' hsm' lo hi t lw' M' he' hh' ht htl hb hlw' hd' hsp' hfp'
  have : n' = n := by rw [← g2] at k2; exact_mod_cast k2
  subst this
  refine ⟨layers, layers', n', g1, k1, g2, fun m hm z hz same good x hx far slim => ?_⟩
  subst hz
  rw [g3 m hm good x hx far slim, k3 m hm (same.good good) x hx (same.far far) (same.slim slim)]
  exact ⟨same.symm.material hx, same.material hx⟩

/-- **C145, float64.** The same in the arithmetic of the program, under the conditions of C103. -/
theorem C145_float (S S' : Sorter) (A A' : Arrival B64) (ts ts' : List RTri) (lo hi t lw lw' : ℝ) (hw : Watertight ts) (hw' : Watertight ts')
    (hdeg : ∀ t ∈ ts, t.nrm ≠ 0) (hdeg' : ∀ t ∈ ts', t.nrm ≠ 0)
    (he : Extent ts zUp lo hi) (he' : Extent ts' zUp lo hi) (hh : 1 / 10 ^ 6 ≤ hi - lo) (tF : IsF t) (t0 : 1 / 1000 ≤ t) (t1 : t ≤ 1000)
    (sett sett' : Settings B64) (ht : sett.layerHeight = B64.of t) (ht' : sett'.layerHeight = B64.of t) (hs : sett.supportsOn = false) (hs' : sett'.supportsOn = false)
    (hF : ∀ w ∈ allVerts ts, w.isF) (hR : ∀ w ∈ allVerts ts, w.inRange) (hF' : ∀ w ∈ allVerts ts', w.isF) (hR' : ∀ w ∈ allVerts ts', w.inRange)
    (hsafe : ∀ m : ℕ, (m : ℤ) < floatCount lo hi t → FloatSafe (floatLevel lo hi t m) ts)
    (hsafe' : ∀ m : ℕ, (m : ℤ) < floatCount lo hi t → FloatSafe (floatLevel lo hi t m) ts') (h2 : 2 ≤ floatCount lo hi t)
    (hlw : sett.gs.lineWidth = B64.of lw) (Flw : IsF lw) (l0 : 1 / 50 ≤ lw) (l1 : lw ≤ 10)
    (hlw' : sett'.gs.lineWidth = B64.of lw') (Flw' : IsF lw') (l0' : 1 / 50 ≤ lw') (l1' : lw' ≤ 10)
    (hd0 : 1 ≤ densityShare sett.fillingType sett.fillDensity) (hd1 : densityShare sett.fillingType sett.fillDensity ≤ 100)
    (hd0' : 1 ≤ densityShare sett'.fillingType sett'.fillDensity) (hd1' : densityShare sett'.fillingType sett'.fillDensity ≤ 100) :
    ∃ layers layers' : List (Layer B64), sliceByVectorToGcode S A (fmesh ts) zUp.f64v sett = .ok ((Gcode.new sett.gs).addLayers layers) ∧
      sliceByVectorToGcode S' A' (fmesh ts') zUp.f64v sett' = .ok ((Gcode.new sett'.gs).addLayers layers') ∧
      ∀ m : ℕ, (m : ℤ) < floatCount lo hi t → ∀ z : ℝ, z = floatLevel lo hi t m → SameAt z ts ts' → ∀ x : R3, x.z = z →
        FarFromSurface (1 / 10 ^ 8) (lvl z) zUp ts x → OffThinCuts z ts x → (PrintedAtF layers' m x ↔ PrintedAtF layers m x) := by
  obtain ⟨layers, g1, g3⟩ := printed_materialF S A _ lo hi t lw hw hdeg he hh tF t0 t1 sett ht hs hF hR hsafe h2 hlw Flw l0 l1 hd0 hd1
  obtain ⟨layers', k1, k3⟩ := printed_materialF S' A' _ lo hi t lw' hw' hdeg' he' hh tF t0 t1 sett' ht' hs' hF' hR' hsafe' h2 hlw' Flw' l0' l1' hd0' hd1'
  refine ⟨layers, layers', g1, k1, fun m hm z hz same x hx far thin => ?_⟩
  subst hz
  rw [g3 m hm x hx far thin, k3 m hm x hx (same.far far) (same.thin thin)]
  exact ⟨same.symm.material hx, same.material hx⟩

/-- the lids of the frustum of C144 do not reach the level 3 -/
theorem frustum_same : SameAt 3 (openFrustum ++ flatLid) (openFrustum ++ pointedLid) := by
  have e : ∀ {us vs : List RTri}, (∀ t ∈ vs, LevelMisses 3 [t]) → facetsAt 3 (us ++ vs) = facetsAt 3 us := by
    intro us vs h
    unfold facetsAt
    rw [List.filter_append]
    exact (congrArg _ (List.filter_eq_nil_iff.2 fun t ht => by simpa using h t ht)).trans (List.append_nil _)
  have a : ∀ t ∈ flatLid, LevelMisses 3 [t] := by
    intro t ht
    left
    revert t
    norm_num [flatLid, allVerts, RTri.verts]
  have b : ∀ t ∈ pointedLid, LevelMisses 3 [t] := by
    intro t ht
    left
    revert t
    norm_num [pointedLid, allVerts, RTri.verts]
  unfold SameAt
  rw [e a, e b]

/-- the edges of the frustum that cross the level 3, and where -/
noncomputable def frustumTop : List ((R3 × R3) × R3) :=
  [((⟨0, 0, 0⟩, ⟨0, 0, 4⟩), ⟨0, 0, 3⟩), ((⟨0, 4, 0⟩, ⟨0, 0, 4⟩), ⟨0, 1, 3⟩), ((⟨2, 0, 0⟩, ⟨0, 0, 4⟩), ⟨1 / 2, 0, 3⟩), ((⟨2, 0, 2⟩, ⟨0, 0, 4⟩), ⟨1, 0, 3⟩)]

private theorem mk_iff' (a b c x y z : ℝ) : ((⟨a, b, c⟩ : R3) = ⟨x, y, z⟩) ↔ a = x ∧ b = y ∧ c = z := R3.mk.injEq .. ▸ Iff.rfl

theorem frustum_top {e : R3 × R3} (he : e ∈ dirEdges (openFrustum ++ flatLid)) (hc : ascends ⟨0, 0, 3⟩ ⟨0, 0, 1⟩ e ∨ descends ⟨0, 0, 3⟩ ⟨0, 0, 1⟩ e) :
    ∃ k ∈ frustumTop, (e = k.1 ∨ e = k.1.swap) ∧ crossAt ⟨0, 0, 3⟩ ⟨0, 0, 1⟩ e = k.2 := by
  simp only [dirEdges, RTri.edges, openFrustum, flatLid, List.cons_append, List.nil_append, List.flatMap_cons, List.flatMap_nil, List.mem_cons,
    List.not_mem_nil, or_false] at he
  rcases he with h | h | h | h | h | h | h | h | h | h | h | h | h | h | h | h | h | h | h | h | h | h | h | h <;> subst h <;>
    norm_num [ascends, descends, R3.height, R3.dot] at hc <;>
    norm_num [frustumTop, crossAt, R3.height, R3.dot, mk_iff', R3.ext_iff]

theorem frustum_topApart : ∀ k ∈ frustumTop, ∀ l ∈ frustumTop, clearlyApart k.2.x l.2.x ∧ clearlyApart k.2.y l.2.y ∧ clearlyApart k.2.z l.2.z ∧ (k.2 = l.2 → k.1 = l.1) := by
  norm_num [frustumTop, clearlyApart, mk_iff', abs_of_pos, abs_of_neg]

theorem frustum_topGood : GoodLevel (openFrustum ++ flatLid) 3 := by
  constructor
  · norm_num [allVerts, RTri.verts, openFrustum, flatLid]
  · intro e he f hf h1 h2
    obtain ⟨k, hk, ek, ck⟩ := frustum_top he h1
    obtain ⟨l, hl, el, cl⟩ := frustum_top hf h2
    obtain ⟨a, b, c, d⟩ := frustum_topApart k hk l hl
    rw [ck, cl]
    refine ⟨a, b, c, fun q => ?_⟩
    have := d q
    rcases ek with rfl | rfl <;> rcases el with rfl | rfl <;> rw [this] <;> simp

/-- Non-vacuity: a frustum closed by a flat and by a pointed lid; the level 3 is good, is reached by the same facets of both, and the models are different. -/
example : SameAt 3 (openFrustum ++ flatLid) (openFrustum ++ pointedLid) ∧ openFrustum ++ flatLid ≠ openFrustum ++ pointedLid ∧
    Watertight (openFrustum ++ flatLid) ∧ Watertight (openFrustum ++ pointedLid) ∧ (∃ t ∈ openFrustum, t ∈ facetsAt 3 openFrustum) ∧
    GoodLevel (openFrustum ++ flatLid) 3 := by
  refine ⟨frustum_same, fun h => by simpa [openFrustum, flatLid, pointedLid] using congrArg List.length h, frustum_watertight.1, frustum_watertight.2,
    ⟨⟨⟨0, 0, 0⟩, ⟨0, 0, 4⟩, ⟨0, 4, 0⟩⟩, by simp [openFrustum], mem_facetsAt.2 ⟨by simp [openFrustum], ?_⟩⟩, frustum_topGood⟩
  · rintro (h | h) <;> norm_num [allVerts, RTri.verts] at h

end Goosli
