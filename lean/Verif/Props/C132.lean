import Verif.Props.C131
import Verif.Props.C103
/-!
# C132: the order of the facets, turning and mirroring in `float64`
-/
set_option autoImplicit false
namespace Goosli
open Flt

/-- layer number `m` has contours of `float64` numbers, and `x` is inside an odd number of them -/
def PrintedAtF (layers : List (Layer B64)) (m : ℤ) (x : R3) : Prop :=
  ∃ l ∈ layers, l.order = m ∧ ∃ cs : List (List R3), l.paths = cs.map fpath ∧ (∀ c ∈ cs, ∀ w ∈ c, w.isF) ∧ InsideOdd x cs

theorem fpath_list_inj : ∀ {as bs : List (List R3)}, (∀ c ∈ as, ∀ w ∈ c, w.isF) → (∀ c ∈ bs, ∀ w ∈ c, w.isF) → as.map fpath = bs.map fpath → as = bs := by
  have pts : ∀ {a b : List R3}, (∀ w ∈ a, w.isF) → (∀ w ∈ b, w.isF) → a.map R3.f64 = b.map R3.f64 → a = b := by
    intro a
    induction a with
    | nil => intro b _ _ h; exact (List.map_eq_nil_iff.1 h.symm).symm
    | cons u a ih =>
      intro b ha hb h
      cases b with
      | nil => cases h
      | cons v b =>
        simp only [List.map_cons, List.cons.injEq] at h
        rw [f64_inj (ha u (by simp)) (hb v (by simp)) h.1, ih (fun w hw => ha w (by simp [hw])) (fun w hw => hb w (by simp [hw])) h.2]
  intro as
  induction as with
  | nil => intro bs _ _ h; exact (List.map_eq_nil_iff.1 h.symm).symm
  | cons u a ih =>
    intro b ha hb h
    cases b with
    | nil => cases h
    | cons v b =>
      simp only [List.map_cons, List.cons.injEq] at h
      rw [pts (ha u (by simp)) (hb v (by simp)) (congrArg Path.points h.1), ih (fun w hw => ha w (by simp [hw])) (fun w hw => hb w (by simp [hw])) h.2]

/-- at every level the points inside the contours of a run are the points of the material -/
theorem printed_materialF (S : Sorter) (A : Arrival B64) (ts : List RTri) (lo hi t lw : ℝ) (hw : Watertight ts) (hdeg : ∀ t ∈ ts, t.nrm ≠ 0)
    (he : Extent ts zUp lo hi) (hh : 1 / 10 ^ 6 ≤ hi - lo) (tF : IsF t) (t0 : 1 / 1000 ≤ t) (t1 : t ≤ 1000)
    (sett : Settings B64) (ht : sett.layerHeight = B64.of t) (hs : sett.supportsOn = false)
    (hF : ∀ w ∈ allVerts ts, w.isF) (hR : ∀ w ∈ allVerts ts, w.inRange)
    (hsafe : ∀ m : ℕ, (m : ℤ) < floatCount lo hi t → FloatSafe (floatLevel lo hi t m) ts) (h2 : 2 ≤ floatCount lo hi t)
    (hlw : sett.gs.lineWidth = B64.of lw) (Flw : IsF lw) (l0 : 1 / 50 ≤ lw) (l1 : lw ≤ 10)
    (hd0 : 1 ≤ densityShare sett.fillingType sett.fillDensity) (hd1 : densityShare sett.fillingType sett.fillDensity ≤ 100) :
    ∃ layers : List (Layer B64), sliceByVectorToGcode S A (fmesh ts) zUp.f64v sett = .ok ((Gcode.new sett.gs).addLayers layers) ∧
      ∀ m : ℕ, (m : ℤ) < floatCount lo hi t → ∀ x : R3, x.z = floatLevel lo hi t m →
        FarFromSurface (1 / 10 ^ 8) (lvl (floatLevel lo hi t m)) zUp ts x → OffThinCuts (floatLevel lo hi t m) ts x →
        (PrintedAtF layers m x ↔ InMaterial (lvl (floatLevel lo hi t m)) zUp ts x) := by
  obtain ⟨layers, sp, fu, n, g1, -, -, g2, ⟨k, -, ord, -⟩, g3⟩ :=
    C103_slice S A ts lo hi t lw hw hdeg he hh tF t0 t1 sett ht hs hF hR hsafe h2 hlw Flw l0 l1 hd0 hd1
  refine ⟨layers, g1, fun m hm x hx far thin => ?_⟩
  have unique : ∀ l ∈ layers, ∀ l' ∈ layers, l.order = l'.order → l = l' := by
    intro l hl l' hl' e
    have nd : (layers.map Layer.order).Nodup := by
      rw [ord]
      exact (List.nodup_range').map fun a b h => by exact_mod_cast h
    exact List.inj_on_of_nodup_map nd hl hl' e
  rcases g3 m (by omega) with ⟨i, l, hi', hl, cs, segs, hp, -, -, -, -, hbm, -⟩ | ⟨-, hno, hnm⟩
  · have lm := List.mem_of_getElem? hi'
    have key := (hbm.2 x hx far thin).2
    have csF : ∀ c ∈ cs, ∀ w ∈ c, w.isF := by
      intro c hc w hwc
      obtain ⟨a, ha, rfl⟩ := (hbm.1 c hc).2.2 w hwc
      exact (storedAt_isF ((hsafe m hm).crossPoint ha).1).1
    constructor
    · rintro ⟨l', lm', ho, cs', hc', hF', hin⟩
      obtain rfl := unique l lm l' lm' (hl.trans ho.symm)
      rw [hp] at hc'
      obtain rfl := fpath_list_inj csF hF' hc'
      exact key.1 hin
    · exact fun h => ⟨l, lm, hl, cs, hp, csF, key.2 h⟩
  · constructor
    · rintro ⟨l', lm', ho, -⟩
      exact absurd ho (hno l' lm')
    · exact fun h => absurd h (hnm x hx far thin)

theorem same_safe {ts' ts : List RTri} (h : SameFacets ts' ts) (hw : Watertight ts) (hw' : Watertight ts') {z : ℝ} (H : FloatSafe z ts) : FloatSafe z ts' := by
  have vs := same_verts h
  have es := same_edges h hw hw'
  refine ⟨fun w hx => H.isF w ((vs w).1 hx), fun w hx => H.range w ((vs w).1 hx), H.heightF, H.heightR, fun w hx => H.off w ((vs w).1 hx), ?_,
    fun e he => H.half e ((es e).1 he), H.heightHalf, fun e he f hf => H.apart e ((es e).1 he) f ((es f).1 hf)⟩
  rintro r hr ⟨e, he, hc⟩
  obtain ⟨t, ht, hs⟩ := h.left hr
  have cr : ∃ e ∈ t.edges, crossesAt z e := by
    rcases (sameAs_edges hs).1 e he with h | h
    · exact ⟨e, h, hc⟩
    · exact ⟨e.swap, h, hc.symm⟩
  have nn : |r.nrm.x| = |t.nrm.x| ∧ |r.nrm.y| = |t.nrm.y| := by
    have pm : (r.nrm.x = t.nrm.x ∧ r.nrm.y = t.nrm.y) ∨ (r.nrm.x = -t.nrm.x ∧ r.nrm.y = -t.nrm.y) := by
      rcases hs with rfl | rfl | rfl | rfl | rfl | rfl
      · left; exact ⟨rfl, rfl⟩
      · left; constructor <;> simp [RTri.nrm, R3.cross] <;> ring
      · left; constructor <;> simp [RTri.nrm, R3.cross] <;> ring
      · right; constructor <;> simp [RTri.nrm, R3.cross] <;> ring
      · right; constructor <;> simp [RTri.nrm, R3.cross] <;> ring
      · right; constructor <;> simp [RTri.nrm, R3.cross] <;> ring
    rcases pm with ⟨h1, h2⟩ | ⟨h1, h2⟩ <;> rw [h1, h2] <;> simp
  rw [nn.1, nn.2]
  exact H.steep t ht cr

theorem same_extent {ts' ts : List RTri} (h : SameFacets ts' ts) {u : R3} {lo hi : ℝ} (he : Extent ts u lo hi) : Extent ts' u lo hi := by
  unfold Extent at he ⊢
  simp only [same_verts h]
  exact he

theorem same_thin {ts' ts : List RTri} (h : SameFacets ts' ts) (hw : Watertight ts) (hw' : Watertight ts') {z : ℝ} {x : R3} :
    OffThinCuts z ts x → OffThinCuts z ts' x := by
  unfold OffThinCuts
  simp only [same_cross h hw hw']
  exact id

/-- **C132, order.** Two files with the same facets, in any order and with the vertices of every facet in any order, both consistently oriented, give the same printed
part with the arithmetic of the program: both runs succeed, and at every level the same points are inside the contours, namely the points of the material. -/
theorem C132_same_part (S S' : Sorter) (A A' : Arrival B64) (ts ts' : List RTri) (hsame : SameFacets ts' ts) (lo hi t lw : ℝ) (hw : Watertight ts)
    (hw' : Watertight ts') (hdeg : ∀ t ∈ ts, t.nrm ≠ 0)
    (he : Extent ts zUp lo hi) (hh : 1 / 10 ^ 6 ≤ hi - lo) (tF : IsF t) (t0 : 1 / 1000 ≤ t) (t1 : t ≤ 1000)
    (sett : Settings B64) (ht : sett.layerHeight = B64.of t) (hs : sett.supportsOn = false)
    (hF : ∀ w ∈ allVerts ts, w.isF) (hR : ∀ w ∈ allVerts ts, w.inRange)
    (hsafe : ∀ m : ℕ, (m : ℤ) < floatCount lo hi t → FloatSafe (floatLevel lo hi t m) ts) (h2 : 2 ≤ floatCount lo hi t)
    (hlw : sett.gs.lineWidth = B64.of lw) (Flw : IsF lw) (l0 : 1 / 50 ≤ lw) (l1 : lw ≤ 10)
    (hd0 : 1 ≤ densityShare sett.fillingType sett.fillDensity) (hd1 : densityShare sett.fillingType sett.fillDensity ≤ 100) :
    ∃ layers layers' : List (Layer B64), sliceByVectorToGcode S A (fmesh ts) zUp.f64v sett = .ok ((Gcode.new sett.gs).addLayers layers) ∧
      sliceByVectorToGcode S' A' (fmesh ts') zUp.f64v sett = .ok ((Gcode.new sett.gs).addLayers layers') ∧
      ∀ m : ℕ, (m : ℤ) < floatCount lo hi t → ∀ x : R3, x.z = floatLevel lo hi t m →
        FarFromSurface (1 / 10 ^ 8) (lvl (floatLevel lo hi t m)) zUp ts x → OffThinCuts (floatLevel lo hi t m) ts x →
        (PrintedAtF layers m x ↔ PrintedAtF layers' m x) ∧ (PrintedAtF layers m x ↔ InMaterial (lvl (floatLevel lo hi t m)) zUp ts x) := by
  have vs := same_verts hsame
  have hdeg' : ∀ t ∈ ts', t.nrm ≠ 0 := fun r hr => by
    obtain ⟨t, ht, h⟩ := hsame.left hr
    exact sameAs_nrm h (hdeg t ht)
  obtain ⟨layers, g1, g3⟩ := printed_materialF S A ts lo hi t lw hw hdeg he hh tF t0 t1 sett ht hs hF hR hsafe h2 hlw Flw l0 l1 hd0 hd1
  obtain ⟨layers', k1, k3⟩ := printed_materialF S' A' ts' lo hi t lw hw' hdeg' (same_extent hsame he) hh tF t0 t1 sett ht hs (fun w h => hF w ((vs w).1 h))
    (fun w h => hR w ((vs w).1 h)) (fun m hm => same_safe hsame hw hw' (hsafe m hm)) h2 hlw Flw l0 l1 hd0 hd1
  refine ⟨layers, layers', g1, k1, fun m hm x hx far thin => ?_⟩
  rw [g3 m hm x hx far thin, k3 m hm x hx (same_far hsame _ _ _ _ far) (same_thin hsame hw hw' thin), same_material hsame hw hw']
  exact ⟨Iff.rfl, Iff.rfl⟩

/-- **C132, maps.** The same for the image of the model under a map that keeps heights: the printed part is the image of the printed part. (That the image has coordinates of
`float64` numbers is a hypothesis: the file of the turned model contains rounded numbers, and describes a slightly different model.) -/
theorem C132_mapped_part (F : LevelMap) (S S' : Sorter) (A A' : Arrival B64) (ts : List RTri) (lo hi t lw : ℝ) (hw : Watertight ts) (hdeg : ∀ t ∈ ts, t.nrm ≠ 0)
    (he : Extent ts zUp lo hi) (hh : 1 / 10 ^ 6 ≤ hi - lo) (tF : IsF t) (t0 : 1 / 1000 ≤ t) (t1 : t ≤ 1000)
    (sett : Settings B64) (ht : sett.layerHeight = B64.of t) (hs : sett.supportsOn = false)
    (hF : ∀ w ∈ allVerts ts, w.isF ∧ (F.app w).isF) (hR : ∀ w ∈ allVerts ts, w.inRange ∧ (F.app w).inRange)
    (hsafe : ∀ m : ℕ, (m : ℤ) < floatCount lo hi t → FloatSafe (floatLevel lo hi t m) ts ∧ FloatSafe (floatLevel lo hi t m) (F.model ts))
    (h2 : 2 ≤ floatCount lo hi t) (hlw : sett.gs.lineWidth = B64.of lw) (Flw : IsF lw) (l0 : 1 / 50 ≤ lw) (l1 : lw ≤ 10)
    (hd0 : 1 ≤ densityShare sett.fillingType sett.fillDensity) (hd1 : densityShare sett.fillingType sett.fillDensity ≤ 100) :
    ∃ layers layers' : List (Layer B64), sliceByVectorToGcode S A (fmesh ts) zUp.f64v sett = .ok ((Gcode.new sett.gs).addLayers layers) ∧
      sliceByVectorToGcode S' A' (fmesh (F.model ts)) zUp.f64v sett = .ok ((Gcode.new sett.gs).addLayers layers') ∧
      ∀ m : ℕ, (m : ℤ) < floatCount lo hi t → ∀ x : R3, x.z = floatLevel lo hi t m →
        FarFromSurface (1 / 10 ^ 8) (lvl (floatLevel lo hi t m)) zUp ts x → OffThinCuts (floatLevel lo hi t m) ts x →
        FarFromSurface (1 / 10 ^ 8) (lvl (floatLevel lo hi t m)) zUp (F.model ts) (F.app x) → OffThinCuts (floatLevel lo hi t m) (F.model ts) (F.app x) →
        (PrintedAtF layers m x ↔ PrintedAtF layers' m (F.app x)) ∧ (PrintedAtF layers m x ↔ InMaterial (lvl (floatLevel lo hi t m)) zUp ts x) := by
  have hdeg' : ∀ t ∈ F.model ts, t.nrm ≠ 0 := fun r hr => by
    obtain ⟨t, ht, rfl⟩ := List.mem_map.1 hr
    exact F.nrm (hdeg t ht)
  obtain ⟨layers, g1, g3⟩ := printed_materialF S A ts lo hi t lw hw hdeg he hh tF t0 t1 sett ht hs (fun w h => (hF w h).1) (fun w h => (hR w h).1)
    (fun m hm => (hsafe m hm).1) h2 hlw Flw l0 l1 hd0 hd1
  obtain ⟨layers', k1, k3⟩ := printed_materialF S' A' (F.model ts) lo hi t lw (F.watertight hw) hdeg' (F.extent he) hh tF t0 t1 sett ht hs
    (fun w h => by obtain ⟨u, hu, rfl⟩ := (F.verts ts w).1 h; exact (hF u hu).2)
    (fun w h => by obtain ⟨u, hu, rfl⟩ := (F.verts ts w).1 h; exact (hR u hu).2)
    (fun m hm => (hsafe m hm).2) h2 hlw Flw l0 l1 hd0 hd1
  refine ⟨layers, layers', g1, k1, fun m hm x hx far thin far' thin' => ?_⟩
  rw [g3 m hm x hx far thin, k3 m hm (F.app x) hx far' thin']
  have := F.material ts hx
  exact ⟨this.symm, Iff.rfl⟩

/-! ## Non-vacuity -/

/-- the hypotheses of `C132_same_part` on the models are met by the tetrahedron in four layers and the same written inside out -/
example : SameFacets outTetra exTetra ∧ Watertight exTetra ∧ Watertight outTetra ∧ (∀ t ∈ exTetra, t.nrm ≠ 0) ∧ Extent exTetra zUp 0 4 ∧ IsF 1 ∧ 2 ≤ floatCount 0 4 1 ∧
    (∀ w ∈ allVerts exTetra, w.isF) ∧ (∀ w ∈ allVerts exTetra, w.inRange) ∧
    (∀ m : ℕ, (m : ℤ) < floatCount 0 4 1 → FloatSafe (floatLevel 0 4 1 m) exTetra) :=
  ⟨outTetra_same, exTetra_ok.1, outTetra_watertight, exTetra_ok.2.1, exTetra_extentF, isF_one, by rw [exFloat_count]; norm_num, exTetra_safe.isF, exTetra_safe.range,
    exFloat_safe⟩

/-- those of `C132_mapped_part` are met by the tetrahedron and its leaning mirror image -/
example : (∀ w ∈ allVerts exTetra, w.isF ∧ (leanMap.app w).isF) ∧ (∀ w ∈ allVerts exTetra, w.inRange ∧ (leanMap.app w).inRange) ∧
    ∀ m : ℕ, (m : ℤ) < floatCount 0 4 1 → FloatSafe (floatLevel 0 4 1 m) exTetra ∧ FloatSafe (floatLevel 0 4 1 m) (leanMap.model exTetra) := by
  have vs := same_verts lean_same
  have im : ∀ w ∈ allVerts exTetra, leanMap.app w ∈ allVerts exTetra := fun w h => (vs _).1 ((leanMap.verts _ _).2 ⟨w, h, rfl⟩)
  exact ⟨fun w h => ⟨exTetra_safe.isF w h, exTetra_safe.isF _ (im w h)⟩, fun w h => ⟨exTetra_safe.range w h, exTetra_safe.range _ (im w h)⟩,
    fun m hm => ⟨exFloat_safe m hm, same_safe lean_same exTetra_ok.1 (leanMap.watertight exTetra_ok.1) (exFloat_safe m hm)⟩⟩

end Goosli
