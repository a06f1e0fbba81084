import Verif.Props.C130
/-!
# C131: turning, mirroring, stretching or leaning the model
-/
set_option autoImplicit false
namespace Goosli
open Flt

/-! ## Spec -/

/-- the map of space `(x, y, z) ↦ (a x + b y + e z + p, c x + d y + f z + q, z)`: it keeps heights, and can be undone if `a d - b c ≠ 0`. Turning about a
vertical axis, mirroring at a vertical plane, moving sideways, stretching sideways and leaning are of this form. -/
structure LevelMap where
  (a b c d e f p q : ℝ)
  det : a * d - b * c ≠ 0

/-- the image of a point -/
noncomputable def LevelMap.app (F : LevelMap) (w : R3) : R3 :=
  ⟨F.a * w.x + F.b * w.y + F.e * w.z + F.p, F.c * w.x + F.d * w.y + F.f * w.z + F.q, w.z⟩

/-- the image of a direction -/
noncomputable def LevelMap.dir (F : LevelMap) (w : R3) : R3 := ⟨F.a * w.x + F.b * w.y + F.e * w.z, F.c * w.x + F.d * w.y + F.f * w.z, w.z⟩

/-- the image of a model -/
noncomputable def LevelMap.model (F : LevelMap) (ts : List RTri) : List RTri := ts.map (RTri.map F.app)

/-! ## The material is mapped with the model -/

namespace LevelMap
variable (F : LevelMap)

theorem solve {u v : ℝ} (h1 : F.a * u + F.b * v = 0) (h2 : F.c * u + F.d * v = 0) : u = 0 ∧ v = 0 := by
  have hu : (F.a * F.d - F.b * F.c) * u = 0 := by linear_combination F.d * h1 - F.b * h2
  have hv : (F.a * F.d - F.b * F.c) * v = 0 := by linear_combination F.a * h2 - F.c * h1
  exact ⟨(mul_eq_zero.1 hu).resolve_left F.det, (mul_eq_zero.1 hv).resolve_left F.det⟩

theorem inj {u v : R3} (h : F.app u = F.app v) : u = v := by
  have hx := congrArg R3.x h; have hy := congrArg R3.y h; have hz := congrArg R3.z h
  simp only [app] at hx hy hz
  rw [hz] at hx hy
  obtain ⟨h1, h2⟩ := F.solve (u := u.x - v.x) (v := u.y - v.y) (by linarith) (by linarith)
  exact R3.ext (by linarith) (by linarith) hz

theorem verts (ts : List RTri) (w : R3) : w ∈ allVerts (F.model ts) ↔ ∃ u ∈ allVerts ts, w = F.app u := by
  have e : allVerts (F.model ts) = (allVerts ts).map F.app := by
    unfold allVerts model
    rw [List.flatMap_map, List.map_flatMap]
    rfl
  rw [e, List.mem_map]
  exact exists_congr fun u => and_congr_right fun _ => eq_comm

theorem edges (ts : List RTri) : dirEdges (F.model ts) = (dirEdges ts).map (Prod.map F.app F.app) := by
  unfold dirEdges model
  rw [List.flatMap_map, List.map_flatMap]
  rfl

theorem watertight {ts : List RTri} (h : Watertight ts) : Watertight (F.model ts) := by
  unfold Watertight
  rw [F.edges]
  refine ⟨h.1.map fun e f he => ?_, fun e he => ?_⟩
  · exact Prod.ext (F.inj (congrArg Prod.fst he)) (F.inj (congrArg Prod.snd he))
  · obtain ⟨f, hf, rfl⟩ := List.mem_map.1 he
    exact List.mem_map.2 ⟨f.swap, h.2 f hf, rfl⟩

theorem nrm {t : RTri} (h : t.nrm ≠ 0) : (t.map F.app).nrm ≠ 0 := by
  intro h0
  apply h
  have hx := congrArg R3.x h0; have hy := congrArg R3.y h0; have hz := congrArg R3.z h0
  obtain ⟨n1, n2⟩ := F.solve (u := t.nrm.y) (v := -t.nrm.x) (by
      simp [RTri.nrm, RTri.map, app, R3.cross] at hy ⊢
      linarith) (by
      simp [RTri.nrm, RTri.map, app, R3.cross] at hx ⊢
      linarith)
  have n2 : t.nrm.x = 0 := by linarith
  have n3 : (F.a * F.d - F.b * F.c) * t.nrm.z = 0 := by
    simp [RTri.nrm, RTri.map, app, R3.cross, -mul_eq_zero] at n1 n2 hz ⊢
    linear_combination hz - (F.b * F.f - F.d * F.e) * n2 + (F.a * F.f - F.c * F.e) * n1
  exact R3.ext n2 n1 ((mul_eq_zero.1 n3).resolve_left F.det)

theorem on (t : RTri) (y : R3) : OnTri (t.map F.app) (F.app y) ↔ OnTri t y := by
  have e : ∀ u v w : ℝ, u + v + w = 1 → u • F.app t.a + v • F.app t.b + w • F.app t.c = F.app (u • t.a + v • t.b + w • t.c) := by
    intro u v w h
    have hu : u = 1 - v - w := by linarith
    subst hu
    apply R3.ext <;> simp [app] <;> ring
  constructor
  · rintro ⟨u, v, w, h1, h2, h3, h4, h⟩
    exact ⟨u, v, w, h1, h2, h3, h4, F.inj (h.trans (e u v w h4))⟩
  · rintro ⟨u, v, w, h1, h2, h3, h4, h⟩
    exact ⟨u, v, w, h1, h2, h3, h4, (congrArg F.app h).trans (e u v w h4).symm⟩

theorem odd (ts : List RTri) (x d : R3) : OddTris (F.app x) (F.dir d) (F.model ts) ↔ OddTris x d ts := by
  have k : ∀ t : RTri, RayMeets (F.app x) (F.dir d) (t.map F.app) ↔ RayMeets x d t := by
    intro t
    refine exists_congr fun s => and_congr_right fun _ => ?_
    have e : F.app x + s • F.dir d = F.app (x + s • d) := by apply R3.ext <;> simp [app, dir] <;> ring
    rw [e]
    exact F.on t _
  unfold OddTris model
  rw [List.countP_map]
  have : ((fun t => @decide (RayMeets (F.app x) (F.dir d) t) (Classical.propDecidable _)) ∘ RTri.map F.app) =
      fun t => @decide (RayMeets x d t) (Classical.propDecidable _) := by
    funext t
    exact decide_eq_decide.2 (k t)
  rw [this]

theorem height (z : ℝ) (w : R3) : R3.height ⟨0, 0, z⟩ ⟨0, 0, 1⟩ (F.app w) = R3.height ⟨0, 0, z⟩ ⟨0, 0, 1⟩ w := by
  simp [R3.height, R3.dot, app]

theorem cross (z : ℝ) (ts : List RTri) (w : R3) :
    CrossPoint ⟨0, 0, z⟩ ⟨0, 0, 1⟩ (F.model ts) w ↔ ∃ u, CrossPoint ⟨0, 0, z⟩ ⟨0, 0, 1⟩ ts u ∧ w = F.app u := by
  have ec : ∀ e : R3 × R3, crossAt ⟨0, 0, z⟩ ⟨0, 0, 1⟩ (Prod.map F.app F.app e) = F.app (crossAt ⟨0, 0, z⟩ ⟨0, 0, 1⟩ e) := by
    intro e
    unfold crossAt
    simp only [Prod.map_fst, Prod.map_snd, F.height]
    apply R3.ext <;> simp [app] <;> ring
  have es : ∀ e : R3 × R3, (ascends ⟨0, 0, z⟩ ⟨0, 0, 1⟩ (Prod.map F.app F.app e) ∨ descends ⟨0, 0, z⟩ ⟨0, 0, 1⟩ (Prod.map F.app F.app e)) ↔
      (ascends ⟨0, 0, z⟩ ⟨0, 0, 1⟩ e ∨ descends ⟨0, 0, z⟩ ⟨0, 0, 1⟩ e) := by
    intro e
    simp only [ascends, descends, Prod.map_fst, Prod.map_snd, F.height]
  unfold CrossPoint
  rw [F.edges]
  constructor
  · rintro ⟨e, he, hc, rfl⟩
    obtain ⟨f, hf, rfl⟩ := List.mem_map.1 he
    exact ⟨_, ⟨f, hf, (es f).1 hc, rfl⟩, ec f⟩
  · rintro ⟨_, ⟨f, hf, hc, rfl⟩, rfl⟩
    exact ⟨_, List.mem_map.2 ⟨f, hf, rfl⟩, (es f).2 hc, ec f⟩

theorem cross2 (d u : R3) (hd : d.z = 0) (hu : u.z = 0) : (F.dir d).cross2 (F.dir u) = (F.a * F.d - F.b * F.c) * d.cross2 u := by
  simp [R3.cross2, dir, hd, hu]; ring

theorem undir (d : R3) : ∃ g : R3, F.dir g = d := by
  have hD := F.det
  obtain ⟨u, hu⟩ : ∃ u, (F.a * F.d - F.b * F.c) * u = F.d * (d.x - F.e * d.z) - F.b * (d.y - F.f * d.z) := ⟨_, mul_div_cancel₀ _ hD⟩
  obtain ⟨v, hv⟩ : ∃ v, (F.a * F.d - F.b * F.c) * v = F.a * (d.y - F.f * d.z) - F.c * (d.x - F.e * d.z) := ⟨_, mul_div_cancel₀ _ hD⟩
  refine ⟨⟨u, v, d.z⟩, R3.ext ?_ ?_ rfl⟩ <;> simp only [dir] <;> apply mul_left_cancel₀ hD
  · linear_combination F.a * hu + F.b * hv
  · linear_combination F.c * hu + F.d * hv

theorem material {z : ℝ} (ts : List RTri) {x : R3} (hx : x.z = z) :
    InMaterial ⟨0, 0, z⟩ ⟨0, 0, 1⟩ (F.model ts) (F.app x) ↔ InMaterial ⟨0, 0, z⟩ ⟨0, 0, 1⟩ ts x := by
  have sub : ∀ u : R3, F.app u - F.app x = F.dir (u - x) := by intro u; apply R3.ext <;> simp [app, dir] <;> ring
  have flat : ∀ u, CrossPoint ⟨0, 0, z⟩ ⟨0, 0, 1⟩ ts u → (u - x).z = 0 := by
    intro u hu
    have := crossPoint_height hu
    simp [R3.height, R3.dot] at this
    simp [hx]; linarith
  have zero : ∀ g : R3, g.dot ⟨0, 0, 1⟩ = g.z := fun g => by simp [R3.dot]
  have gen : ∀ g : R3, g.z = 0 → ((∀ w, CrossPoint ⟨0, 0, z⟩ ⟨0, 0, 1⟩ (F.model ts) w → (F.dir g).cross2 (w - F.app x) ≠ 0) ↔
      ∀ w, CrossPoint ⟨0, 0, z⟩ ⟨0, 0, 1⟩ ts w → g.cross2 (w - x) ≠ 0) := by
    intro g hg
    constructor
    · intro h w hw
      have := h _ ((F.cross z ts _).2 ⟨w, hw, rfl⟩)
      rw [sub, F.cross2 _ _ hg (flat w hw)] at this
      exact right_ne_zero_of_mul this
    · intro h w hw
      obtain ⟨u, hu, rfl⟩ := (F.cross z ts _).1 hw
      rw [sub, F.cross2 _ _ hg (flat u hu)]
      exact mul_ne_zero F.det (h u hu)
  constructor
  · rintro ⟨d, h1, h2, h3⟩
    obtain ⟨g, rfl⟩ := F.undir d
    have hg : g.z = 0 := by rw [zero] at h1; exact h1
    exact ⟨g, by rw [zero]; exact hg, (gen g hg).1 h2, (F.odd ts x g).1 h3⟩
  · rintro ⟨g, h1, h2, h3⟩
    have hg : g.z = 0 := by rw [zero] at h1; exact h1
    exact ⟨F.dir g, by rw [zero]; exact hg, (gen g hg).2 h2, (F.odd ts x g).2 h3⟩

theorem extent {ts : List RTri} {lo hi : ℝ} (h : Extent ts ⟨0, 0, 1⟩ lo hi) : Extent (F.model ts) ⟨0, 0, 1⟩ lo hi := by
  have e : {x | ∃ w ∈ allVerts (F.model ts), w.dot ⟨0, 0, 1⟩ = x} = {x | ∃ w ∈ allVerts ts, w.dot ⟨0, 0, 1⟩ = x} := by
    ext x
    simp only [Set.mem_setOf_eq, F.verts]
    constructor
    · rintro ⟨_, ⟨u, hu, rfl⟩, h⟩
      exact ⟨u, hu, by simpa [R3.dot, app] using h⟩
    · rintro ⟨u, hu, h⟩
      exact ⟨_, ⟨u, hu, rfl⟩, by simpa [R3.dot, app] using h⟩
  unfold Extent
  rw [e]
  exact h

end LevelMap

/-- **C131.** Turning the model about a vertical axis, mirroring it at a vertical plane, moving or stretching it sideways or leaning it does the same to the printed
part: the run for the image of the model has the same levels, and at every level that is good for both a point `x` is inside the contours of the one exactly if the image
of `x` is inside the contours of the other (vertical slicing, supports off; `x` and its image not closer than `1e-8` to the surface nor in slim triangles). -/
theorem C131_mapped_part (F : LevelMap) (S S' : Sorter) (A A' : Arrival XR) (ts : List RTri) (sett : Settings XR) (hs : sett.supportsOn = false)
    (hw : Watertight ts) (hdeg : ∀ t ∈ ts, t.nrm ≠ 0) (hsm : ∀ w ∈ allVerts ts, w.small) (hsm' : ∀ w ∈ allVerts (F.model ts), w.small) (lo hi t lw M M' : ℝ)
    (he : Extent ts ⟨0, 0, 1⟩ lo hi) (hh : sett.layerHeight = XR.fin t) (ht : 0 < t) (htl : t < hi - lo) (hb : ⌈(hi - lo) / t⌉ < 2 ^ 63)
    (hlw : sett.gs.lineWidth = XR.fin lw) (hd : patternDensity sett ≠ 0)
    (hsp : FillBounds ts (100 / (patternDensity sett : ℝ) * lw) M) (hfp : FillBounds ts lw M)
    (hsp' : FillBounds (F.model ts) (100 / (patternDensity sett : ℝ) * lw) M') (hfp' : FillBounds (F.model ts) lw M') :
    ∃ (layers layers' : List (Layer XR)) (n : ℕ),
      sliceByVectorToGcode S A (rmesh ts) (R3.mk 0 0 1).vec sett = .ok ((Gcode.new sett.gs).addLayers layers) ∧
      sliceByVectorToGcode S' A' (rmesh (F.model ts)) (R3.mk 0 0 1).vec sett = .ok ((Gcode.new sett.gs).addLayers layers') ∧
      (n : ℤ) = ⌈(hi - lo) / t⌉ ∧
      ∀ m < n, ∀ z : ℝ, z = lo + ((m : ℝ) + 1 / 2) * ((hi - lo) / n) → GoodLevel ts z → GoodLevel (F.model ts) z → ∀ x : R3, x.z = z →
        FarFromSurface (1 / 10 ^ 8) ⟨0, 0, z⟩ ⟨0, 0, 1⟩ ts x → OffSlimCuts ⟨0, 0, z⟩ ⟨0, 0, 1⟩ ts x →
        FarFromSurface (1 / 10 ^ 8) ⟨0, 0, z⟩ ⟨0, 0, 1⟩ (F.model ts) (F.app x) → OffSlimCuts ⟨0, 0, z⟩ ⟨0, 0, 1⟩ (F.model ts) (F.app x) →
        (PrintedAt layers m x ↔ PrintedAt layers' m (F.app x)) ∧ (PrintedAt layers m x ↔ InMaterial ⟨0, 0, z⟩ ⟨0, 0, 1⟩ ts x) := by
  have hdeg' : ∀ t ∈ F.model ts, t.nrm ≠ 0 := fun r hr => by
    obtain ⟨t, ht, rfl⟩ := List.mem_map.1 hr
    exact F.nrm (hdeg t ht)
  obtain ⟨layers, n, g1, g2, g3⟩ := printed_material S A ts sett hs hw hdeg hsm lo hi t lw M he hh ht htl hb hlw hd hsp hfp
  obtain ⟨layers', n', k1, k2, k3⟩ := printed_material S' A' (F.model ts) sett hs (F.watertight hw) hdeg' hsm' lo hi t lw M' (F.extent he) hh ht htl hb hlw hd hsp' hfp'
  obtain rfl : n = n' := by exact_mod_cast g2.trans k2.symm
  refine ⟨layers, layers', n, g1, k1, g2, fun m hm z hz good good' x hx far slim far' slim' => ?_⟩
  subst hz
  rw [g3 m hm good x hx far slim, k3 m hm good' (F.app x) hx far' slim', F.material ts hx]
  exact ⟨Iff.rfl, Iff.rfl⟩

/-! ## Instances -/

/-- turning by an angle about the vertical line through `(u, v)` -/
noncomputable def turnMap (φ u v : ℝ) : LevelMap :=
  ⟨Real.cos φ, -Real.sin φ, Real.sin φ, Real.cos φ, 0, 0, u - Real.cos φ * u + Real.sin φ * v, v - Real.sin φ * u - Real.cos φ * v, by
    have := Real.sin_sq_add_cos_sq φ
    nlinarith⟩

/-- turning keeps the axis and all distances -/
theorem turnMap_rigid (φ u v : ℝ) (a b : R3) : (∀ z, (turnMap φ u v).app ⟨u, v, z⟩ = ⟨u, v, z⟩) ∧
    ((turnMap φ u v).app a - (turnMap φ u v).app b).normSq = (a - b).normSq := by
  constructor
  · intro z
    apply R3.ext <;> simp [LevelMap.app, turnMap] <;> ring
  · have := Real.sin_sq_add_cos_sq φ
    simp [R3.normSq, R3.dot, LevelMap.app, turnMap]
    linear_combination ((a.x - b.x) ^ 2 + (a.y - b.y) ^ 2) * this

/-- mirroring at the vertical plane `x = u` -/
noncomputable def mirrorMap (u : ℝ) : LevelMap := ⟨-1, 0, 0, 1, 0, 0, 2 * u, 0, by norm_num⟩

/-- leaning and mirroring: swaps two corners of the tetrahedron and keeps the others -/
noncomputable def leanMap : LevelMap := ⟨-1, -1, 0, 1, -1, 0, 4, 0, by norm_num⟩

theorem lean_same : SameFacets (leanMap.model exTetra) exTetra := by
  refine ⟨[⟨⟨0, 0, 0⟩, ⟨0, 4, 0⟩, ⟨4, 0, 0⟩⟩, ⟨⟨0, 0, 0⟩, ⟨4, 0, 0⟩, ⟨0, 0, 4⟩⟩, ⟨⟨0, 4, 0⟩, ⟨0, 0, 0⟩, ⟨0, 0, 4⟩⟩, ⟨⟨4, 0, 0⟩, ⟨0, 4, 0⟩, ⟨0, 0, 4⟩⟩], ?_, ?_⟩
  · unfold exTetra
    exact ((List.Perm.swap _ _ _).cons _).cons _
  · unfold exTetra LevelMap.model
    simp only [List.map_cons, List.map_nil, RTri.map, LevelMap.app, leanMap]
    norm_num
    unfold RTri.SameAs
    norm_num

theorem exTetra_slim (x : R3) : OffSlimCuts ⟨0, 0, 1⟩ ⟨0, 0, 1⟩ exTetra x := by
  intro a b c ha hb hc n1 n2 n3 hn hx
  have ka := exTetra_cuts ha
  have kb := exTetra_cuts hb
  have kc := exTetra_cuts hc
  have e : (((b.round8 - a.round8).cross (c.round8 - b.round8)).norm) = 9 := by
    have : ((b.round8 - a.round8).cross (c.round8 - b.round8)).norm = √(9 * 9) := by
      unfold R3.norm
      congr 1
      rcases ka with h1 | h1 | h1 <;> rcases kb with h2 | h2 | h2 <;> rcases kc with h3 | h3 | h3 <;>
        first | exact absurd (h1.trans h2.symm) n1 | exact absurd (h2.trans h3.symm) n2 | exact absurd (h1.trans h3.symm) n3 |
          rw [h1, h2, h3] <;> norm_num [R3.normSq, R3.dot, R3.cross]
    rw [this, Real.sqrt_mul_self (by norm_num)]
  rw [e] at hn
  norm_num at hn

theorem exTetra_far' : FarFromSurface (1 / 10 ^ 8) ⟨0, 0, 1⟩ ⟨0, 0, 1⟩ exTetra ⟨3 / 2, 1 / 2, 1⟩ := by
  intro t ht y hy hz
  simp only [exTetra, List.mem_cons, List.not_mem_nil, or_false] at ht
  simp [R3.height, R3.dot] at hz
  rcases ht with rfl | rfl | rfl | rfl <;> obtain ⟨u, v, w, hu, hv, hw, hs, rfl⟩ := hy <;> simp [R3.distSq2] at hz ⊢
  · norm_num; nlinarith [sq_nonneg (v * 4 - 3 / 2)]
  · have e1 : w = 1 / 4 := by linarith
    have e2 : v = 3 / 4 - u := by linarith
    rw [e2]; norm_num; nlinarith [sq_nonneg (u - 1 / 2)]
  · norm_num; nlinarith [sq_nonneg (u * 4 - 1 / 2)]

/-- the tetrahedron and its image in layers of at most 3: the point `(1, 1/2, 1)` is in the printed part of the first, its image `(3/2, 1/2, 1)` in that of the second -/
example (S S' : Sorter) (A A' : Arrival XR) :
    ∃ layers layers' : List (Layer XR), sliceByVectorToGcode S A (rmesh exTetra) (R3.mk 0 0 1).vec (exampleSettings 3) =
        .ok ((Gcode.new (exampleSettings 3).gs).addLayers layers) ∧
      sliceByVectorToGcode S' A' (rmesh (leanMap.model exTetra)) (R3.mk 0 0 1).vec (exampleSettings 3) =
        .ok ((Gcode.new (exampleSettings 3).gs).addLayers layers') ∧
      PrintedAt layers 0 ⟨1, 1 / 2, 1⟩ ∧ PrintedAt layers' 0 ⟨3 / 2, 1 / 2, 1⟩ := by
  obtain ⟨h1, h2, h3, -, -⟩ := exTetra_ok
  have hn : ⌈((4 : ℝ) - 0) / 3⌉ = 2 := by rw [Int.ceil_eq_iff]; norm_num
  have vs := same_verts lean_same
  have hw' := leanMap.watertight h1
  have fill : ∀ s : ℝ, 1 ≤ s → FillBounds (leanMap.model exTetra) s 4 := by
    intro s hs
    have := exTetra_fill s hs
    exact ⟨by simp [LevelMap.model, exTetra], fun w h => this.abs w ((vs w).1 h), this.fits, this.step, this.count⟩
  obtain ⟨layers, layers', n, g1, g1', g2, g3⟩ := C131_mapped_part leanMap S S' A A' exTetra (exampleSettings 3) rfl h1 h2 h3 (fun w h => h3 w ((vs w).1 h))
    0 4 3 1 4 4 exTetra_extent rfl (by norm_num) (by norm_num) (by rw [hn]; norm_num) rfl (by unfold patternDensity exampleSettings; decide)
    (exTetra_fill _ (by unfold patternDensity exampleSettings; simp; norm_num)) (exTetra_fill _ le_rfl)
    (fill _ (by unfold patternDensity exampleSettings; simp; norm_num)) (fill _ le_rfl)
  rw [hn] at g2
  have : n = 2 := by exact_mod_cast g2
  subst this
  have good : GoodLevel exTetra 1 := exTetra_good (by norm_num) (by norm_num)
  have ed := same_edges lean_same h1 hw'
  have good' : GoodLevel (leanMap.model exTetra) 1 := ⟨fun w h => good.1 w ((vs w).1 h), fun e he f hf => good.2 e ((ed e).1 he) f ((ed f).1 hf)⟩
  have im : leanMap.app ⟨1, 1 / 2, 1⟩ = ⟨3 / 2, 1 / 2, 1⟩ := by apply R3.ext <;> simp [LevelMap.app, leanMap]; norm_num
  have := g3 0 (by norm_num) 1 (by norm_num) good good' ⟨1, 1 / 2, 1⟩ rfl exTetra_material.1 exTetra_material.2.1
  rw [im] at this
  obtain ⟨k1, k2⟩ := this (same_far lean_same _ _ _ _ exTetra_far') (same_slim lean_same h1 hw' _ _ _ (exTetra_slim _))
  have k := k2.2 exTetra_material.2.2.1
  exact ⟨layers, layers', g1, g1', k, k1.1 k⟩

end Goosli
