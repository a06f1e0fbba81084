import Verif.Props.C132
/-!
# C135: two bodies in one file
-/
set_option autoImplicit false
namespace Goosli
open Flt

/-! ## The material of two bodies -/

theorem odd_append (x d : R3) (us vs : List RTri) : OddTris x d (us ++ vs) ↔ ¬ (OddTris x d us ↔ OddTris x d vs) := by
  unfold OddTris
  rw [List.countP_append]
  omega

theorem cross_append (P N w : R3) (us vs : List RTri) : CrossPoint P N (us ++ vs) w ↔ CrossPoint P N us w ∨ CrossPoint P N vs w := by
  unfold CrossPoint dirEdges
  simp only [List.flatMap_append, List.mem_append, or_and_right, exists_or]

/-- in a good level every ray in the plane that avoids the crossing points tells whether a point is in the material -/
theorem material_ray {ts : List RTri} {z : ℝ} (hw : Watertight ts) (hdeg : ∀ t ∈ ts, t.nrm ≠ 0) (hsm : ∀ w ∈ allVerts ts, w.small) (hg : GoodLevel ts z)
    {x : R3} (hx : x.z = z) (hon : ∀ t ∈ ts, ¬ OnTri t x) {d : R3} (hd : d.z = 0)
    (hgd : ∀ w, CrossPoint ⟨0, 0, z⟩ ⟨0, 0, 1⟩ ts w → d.cross2 (w - x) ≠ 0) : InMaterial ⟨0, 0, z⟩ ⟨0, 0, 1⟩ ts x ↔ OddTris x d ts := by
  have zero : ∀ g : R3, g.dot ⟨0, 0, 1⟩ = g.z := fun g => by simp [R3.dot]
  have hh : ∀ w : R3, R3.height ⟨0, 0, z⟩ ⟨0, 0, 1⟩ w = w.z - z := fun w => by simp [R3.height, R3.dot]
  constructor
  · rintro ⟨e, he, hge, ho⟩
    exact (C83_any_ray ts ⟨0, 0, z⟩ ⟨0, 0, 1⟩ (by norm_num) hw hdeg hsm (fun w h => by rw [hh]; exact sub_ne_zero.2 (hg.1 w h)) hg.2 x (by rw [hh]; linarith) hon
      e d he (by rw [zero]; exact hd) hge hgd).1 ho
  · exact fun h => ⟨d, by rw [zero]; exact hd, hgd, h⟩

/-- a direction in the plane that avoids the crossing points, seen from a point that is away from the surface -/
theorem ray_exists {ts : List RTri} {z ε : ℝ} {x : R3} (far : FarFromSurface ε ⟨0, 0, z⟩ ⟨0, 0, 1⟩ ts x) :
    ∃ d : R3, d.z = 0 ∧ ∀ w, CrossPoint ⟨0, 0, z⟩ ⟨0, 0, 1⟩ ts w → d.cross2 (w - x) ≠ 0 := by
  classical
  obtain ⟨d, hd, -⟩ := exists_generic x (((dirEdges ts).filter fun e => decide (ascends ⟨0, 0, z⟩ ⟨0, 0, 1⟩ e ∨ descends ⟨0, 0, z⟩ ⟨0, 0, 1⟩ e)).map
    (crossAt ⟨0, 0, z⟩ ⟨0, 0, 1⟩)) (by
      intro w hw
      obtain ⟨e, he, rfl⟩ := List.mem_map.1 hw
      obtain ⟨he, hc⟩ := List.mem_filter.1 he
      have cp : CrossPoint ⟨0, 0, z⟩ ⟨0, 0, 1⟩ ts (crossAt ⟨0, 0, z⟩ ⟨0, 0, 1⟩ e) := ⟨e, he, of_decide_eq_true hc, rfl⟩
      obtain ⟨t, ht, hon⟩ := crossPoint_onTri cp
      have := far t ht _ hon (crossPoint_height cp)
      by_contra hcon
      push Not at hcon
      unfold R3.distSq2 at this
      rw [hcon.1, hcon.2] at this
      simp only [sub_self] at this
      nlinarith [sq_nonneg ε]) [] (by simp)
  refine ⟨⟨d.x, d.y, 0⟩, rfl, ?_⟩
  rintro w ⟨e, he, hc, rfl⟩
  exact hd _ (List.mem_map.2 ⟨e, List.mem_filter.2 ⟨he, decide_eq_true hc⟩, rfl⟩)

theorem good_left {us vs : List RTri} {z : ℝ} (h : GoodLevel (us ++ vs) z) : GoodLevel us z ∧ GoodLevel vs z := by
  have e : ∀ e, e ∈ dirEdges (us ++ vs) ↔ e ∈ dirEdges us ∨ e ∈ dirEdges vs := fun e => by simp [dirEdges]
  have v : ∀ e, e ∈ allVerts (us ++ vs) ↔ e ∈ allVerts us ∨ e ∈ allVerts vs := fun e => by simp [allVerts]
  exact ⟨⟨fun w hw => h.1 w ((v w).2 (Or.inl hw)), fun a ha b hb => h.2 a ((e a).2 (Or.inl ha)) b ((e b).2 (Or.inl hb))⟩,
    ⟨fun w hw => h.1 w ((v w).2 (Or.inr hw)), fun a ha b hb => h.2 a ((e a).2 (Or.inr ha)) b ((e b).2 (Or.inr hb))⟩⟩

/-- a point is in the material of two bodies together if it is in the material of exactly one of them -/
theorem material_append {us vs : List RTri} {z ε : ℝ} (hu : Watertight us) (hv : Watertight vs) (hw : Watertight (us ++ vs)) (hdeg : ∀ t ∈ us ++ vs, t.nrm ≠ 0)
    (hsm : ∀ w ∈ allVerts (us ++ vs), w.small) (hg : GoodLevel (us ++ vs) z) {x : R3} (hx : x.z = z)
    (far : FarFromSurface ε ⟨0, 0, z⟩ ⟨0, 0, 1⟩ (us ++ vs) x) :
    InMaterial ⟨0, 0, z⟩ ⟨0, 0, 1⟩ (us ++ vs) x ↔ ¬ (InMaterial ⟨0, 0, z⟩ ⟨0, 0, 1⟩ us x ↔ InMaterial ⟨0, 0, z⟩ ⟨0, 0, 1⟩ vs x) := by
  have v : ∀ e, e ∈ allVerts (us ++ vs) ↔ e ∈ allVerts us ∨ e ∈ allVerts vs := fun e => by simp [allVerts]
  have hon : ∀ t ∈ us ++ vs, ¬ OnTri t x := by
    intro t ht h
    have := far t ht x h (by simp [R3.height, R3.dot, hx])
    simp only [R3.distSq2, sub_self] at this
    nlinarith [sq_nonneg ε]
  obtain ⟨d, hd, hgd⟩ := ray_exists far
  obtain ⟨g1, g2⟩ := good_left hg
  rw [material_ray hw hdeg hsm hg hx hon hd hgd, odd_append,
    material_ray hu (fun t ht => hdeg t (by simp [ht])) (fun w h => hsm w ((v w).2 (Or.inl h))) g1 hx (fun t ht => hon t (by simp [ht])) hd
      (fun w h => hgd w ((cross_append _ _ _ _ _).2 (Or.inl h))),
    material_ray hv (fun t ht => hdeg t (by simp [ht])) (fun w h => hsm w ((v w).2 (Or.inr h))) g2 hx (fun t ht => hon t (by simp [ht])) hd
      (fun w h => hgd w ((cross_append _ _ _ _ _).2 (Or.inr h)))]

/-- **C135.** Two closed bodies `us` and `vs` in one file, sliced and filled vertically in exact arithmetic with the rounding of sections (supports off): at every good level
a point is inside the contours exactly if it is in the material of exactly one of the bodies. So bodies that do not overlap are both printed (last part);
where they overlap, nothing is printed. -/
theorem C135_two_bodies_partial (S : Sorter) (A : Arrival XR) (us vs : List RTri) (sett : Settings XR) (hs : sett.supportsOn = false)
    (hu : Watertight us) (hv : Watertight vs) (hw : Watertight (us ++ vs)) (hdeg : ∀ t ∈ us ++ vs, t.nrm ≠ 0) (hsm : ∀ w ∈ allVerts (us ++ vs), w.small)
    (lo hi t lw M : ℝ) (he : Extent (us ++ vs) ⟨0, 0, 1⟩ lo hi) (hh : sett.layerHeight = XR.fin t) (ht : 0 < t) (htl : t < hi - lo) (hb : ⌈(hi - lo) / t⌉ < 2 ^ 63)
    (hlw : sett.gs.lineWidth = XR.fin lw) (hd : patternDensity sett ≠ 0)
    (hsp : FillBounds (us ++ vs) (100 / (patternDensity sett : ℝ) * lw) M) (hfp : FillBounds (us ++ vs) lw M) :
    ∃ (layers : List (Layer XR)) (n : ℕ), sliceByVectorToGcode S A (rmesh (us ++ vs)) (R3.mk 0 0 1).vec sett = .ok ((Gcode.new sett.gs).addLayers layers) ∧
      (n : ℤ) = ⌈(hi - lo) / t⌉ ∧
      ∀ m < n, ∀ z : ℝ, z = lo + ((m : ℝ) + 1 / 2) * ((hi - lo) / n) → GoodLevel (us ++ vs) z → ∀ x : R3, x.z = z →
        FarFromSurface (1 / 10 ^ 8) ⟨0, 0, z⟩ ⟨0, 0, 1⟩ (us ++ vs) x → OffSlimCuts ⟨0, 0, z⟩ ⟨0, 0, 1⟩ (us ++ vs) x →
        (PrintedAt layers m x ↔ ¬ (InMaterial ⟨0, 0, z⟩ ⟨0, 0, 1⟩ us x ↔ InMaterial ⟨0, 0, z⟩ ⟨0, 0, 1⟩ vs x)) ∧
        (¬ (InMaterial ⟨0, 0, z⟩ ⟨0, 0, 1⟩ us x ∧ InMaterial ⟨0, 0, z⟩ ⟨0, 0, 1⟩ vs x) →
          (PrintedAt layers m x ↔ InMaterial ⟨0, 0, z⟩ ⟨0, 0, 1⟩ us x ∨ InMaterial ⟨0, 0, z⟩ ⟨0, 0, 1⟩ vs x)) := by
  obtain ⟨layers, n, g1, g2, g3⟩ := printed_material S A (us ++ vs) sett hs hw hdeg hsm lo hi t lw M he hh ht htl hb hlw hd hsp hfp
  refine ⟨layers, n, g1, g2, fun m hm z hz good x hx far slim => ?_⟩
  subst hz
  have := (g3 m hm good x hx far slim).trans (material_append hu hv hw hdeg hsm good hx far)
  exact ⟨this, fun h => by rw [this]; tauto⟩

/-- the same in `float64` -/
theorem C135_float_partial (S : Sorter) (A : Arrival B64) (us vs : List RTri) (lo hi t lw : ℝ) (hu : Watertight us) (hv : Watertight vs) (hw : Watertight (us ++ vs))
    (hdeg : ∀ t ∈ us ++ vs, t.nrm ≠ 0) (he : Extent (us ++ vs) zUp lo hi) (hh : 1 / 10 ^ 6 ≤ hi - lo) (tF : IsF t) (t0 : 1 / 1000 ≤ t) (t1 : t ≤ 1000)
    (sett : Settings B64) (ht : sett.layerHeight = B64.of t) (hs : sett.supportsOn = false)
    (hF : ∀ w ∈ allVerts (us ++ vs), w.isF) (hR : ∀ w ∈ allVerts (us ++ vs), w.inRange)
    (hsafe : ∀ m : ℕ, (m : ℤ) < floatCount lo hi t → FloatSafe (floatLevel lo hi t m) (us ++ vs)) (h2 : 2 ≤ floatCount lo hi t)
    (hlw : sett.gs.lineWidth = B64.of lw) (Flw : IsF lw) (l0 : 1 / 50 ≤ lw) (l1 : lw ≤ 10)
    (hd0 : 1 ≤ densityShare sett.fillingType sett.fillDensity) (hd1 : densityShare sett.fillingType sett.fillDensity ≤ 100) :
    ∃ layers : List (Layer B64), sliceByVectorToGcode S A (fmesh (us ++ vs)) zUp.f64v sett = .ok ((Gcode.new sett.gs).addLayers layers) ∧
      ∀ m : ℕ, (m : ℤ) < floatCount lo hi t → ∀ z : ℝ, z = floatLevel lo hi t m → ∀ x : R3, x.z = z →
        FarFromSurface (1 / 10 ^ 8) (lvl z) zUp (us ++ vs) x → OffThinCuts z (us ++ vs) x →
        (PrintedAtF layers m x ↔ ¬ (InMaterial (lvl z) zUp us x ↔ InMaterial (lvl z) zUp vs x)) ∧
        (¬ (InMaterial (lvl z) zUp us x ∧ InMaterial (lvl z) zUp vs x) → (PrintedAtF layers m x ↔ InMaterial (lvl z) zUp us x ∨ InMaterial (lvl z) zUp vs x)) := by
  obtain ⟨layers, g1, g3⟩ := printed_materialF S A (us ++ vs) lo hi t lw hw hdeg he hh tF t0 t1 sett ht hs hF hR hsafe h2 hlw Flw l0 l1 hd0 hd1
  refine ⟨layers, g1, fun m hm z hz x hx far thin => ?_⟩
  subst hz
  have H := hsafe m hm
  have good : GoodLevel (us ++ vs) (floatLevel lo hi t m) := ⟨fun w h hc => H.offPlane w h (by rw [height_lvl]; linarith), H.wellSep⟩
  have : PrintedAtF layers m x ↔ ¬ (InMaterial (lvl (floatLevel lo hi t m)) zUp us x ↔ InMaterial (lvl (floatLevel lo hi t m)) zUp vs x) :=
    (g3 m hm x hx far thin).trans (material_append hu hv hw hdeg H.small good hx far)
  exact ⟨this, fun h => by rw [this]; tauto⟩

namespace LevelMap
variable (F : LevelMap)

theorem crossAt_map (z : ℝ) (e : R3 × R3) : Goosli.crossAt ⟨0, 0, z⟩ ⟨0, 0, 1⟩ (Prod.map F.app F.app e) = F.app (Goosli.crossAt ⟨0, 0, z⟩ ⟨0, 0, 1⟩ e) := by
  unfold Goosli.crossAt
  simp only [Prod.map_fst, Prod.map_snd, F.height]
  apply R3.ext <;> simp [app] <;> ring

theorem crosses_map (z : ℝ) (e : R3 × R3) :
    (ascends ⟨0, 0, z⟩ ⟨0, 0, 1⟩ (Prod.map F.app F.app e) ∨ descends ⟨0, 0, z⟩ ⟨0, 0, 1⟩ (Prod.map F.app F.app e)) ↔
      (ascends ⟨0, 0, z⟩ ⟨0, 0, 1⟩ e ∨ descends ⟨0, 0, z⟩ ⟨0, 0, 1⟩ e) := by
  simp only [ascends, descends, Prod.map_fst, Prod.map_snd, F.height]

end LevelMap

/-! ## Bodies without common vertices -/

theorem watertight_append {us vs : List RTri} (hu : Watertight us) (hv : Watertight vs) (hd : ∀ w ∈ allVerts us, w ∉ allVerts vs) : Watertight (us ++ vs) := by
  have e : dirEdges (us ++ vs) = dirEdges us ++ dirEdges vs := by simp [dirEdges]
  unfold Watertight
  rw [e]
  refine ⟨List.nodup_append.2 ⟨hu.1, hv.1, fun a ha b hb hab => ?_⟩, fun a ha => ?_⟩
  · subst hab
    exact hd _ (edge_verts ha).1 (edge_verts hb).1
  · rcases List.mem_append.1 ha with h | h
    · exact List.mem_append.2 (Or.inl (hu.2 a h))
    · exact List.mem_append.2 (Or.inr (hv.2 a h))

/-! ## Two tetrahedra that overlap -/

/-- moving by half a millimetre in X -/
noncomputable def halfMap : LevelMap := ⟨1, 0, 0, 1, 0, 0, 1 / 2, 0, by norm_num⟩

/-- the tetrahedron, and the tetrahedron moved by half a millimetre -/
noncomputable def twoTetra : List RTri := exTetra ++ halfMap.model exTetra

theorem twoTetra_verts : ∀ w ∈ allVerts (halfMap.model exTetra), w = ⟨1 / 2, 0, 0⟩ ∨ w = ⟨9 / 2, 0, 0⟩ ∨ w = ⟨1 / 2, 4, 0⟩ ∨ w = ⟨1 / 2, 0, 4⟩ := by
  intro w hw
  obtain ⟨u, hu, rfl⟩ := (halfMap.verts exTetra w).1 hw
  rcases exTetra_verts u hu with rfl | rfl | rfl | rfl
  · left; apply R3.ext <;> simp [LevelMap.app, halfMap]
  · right; left; apply R3.ext <;> simp [LevelMap.app, halfMap]; norm_num
  · right; right; left; apply R3.ext <;> simp [LevelMap.app, halfMap]
  · right; right; right; apply R3.ext <;> simp [LevelMap.app, halfMap]

theorem twoTetra_watertight : Watertight twoTetra := by
  refine watertight_append exTetra_ok.1 (halfMap.watertight exTetra_ok.1) fun w hw hw' => ?_
  rcases exTetra_verts w hw with rfl | rfl | rfl | rfl <;> rcases twoTetra_verts _ hw' with h | h | h | h <;> have := congrArg R3.x h <;> norm_num at this

theorem exTetra_cuts' {w : R3} (h : CrossPoint ⟨0, 0, 1⟩ ⟨0, 0, 1⟩ exTetra w) : w = ⟨0, 0, 1⟩ ∨ w = ⟨3, 0, 1⟩ ∨ w = ⟨0, 3, 1⟩ := by
  obtain ⟨e, he, hc, rfl⟩ := h
  rw [exTetra_edges] at he
  simp only [List.mem_cons, List.not_mem_nil, or_false] at he
  rcases he with h | h | h | h | h | h | h | h | h | h | h | h <;> subst h <;>
    simp [ascends, descends, crossAt, R3.height, R3.dot] at hc ⊢ <;> (try linarith) <;>
    norm_num [R3.ext_iff]

theorem twoTetra_cuts {w : R3} (h : CrossPoint ⟨0, 0, 1⟩ ⟨0, 0, 1⟩ twoTetra w) :
    w = ⟨0, 0, 1⟩ ∨ w = ⟨3, 0, 1⟩ ∨ w = ⟨0, 3, 1⟩ ∨ w = ⟨1 / 2, 0, 1⟩ ∨ w = ⟨7 / 2, 0, 1⟩ ∨ w = ⟨1 / 2, 3, 1⟩ := by
  rcases (cross_append _ _ _ _ _).1 h with h | h
  · rcases exTetra_cuts' h with h | h | h <;> simp [h]
  · obtain ⟨u, hu, rfl⟩ := (halfMap.cross 1 exTetra w).1 h
    rcases exTetra_cuts' hu with rfl | rfl | rfl <;> norm_num [LevelMap.app, halfMap, R3.ext_iff]

theorem twoTetra_good : GoodLevel twoTetra 1 := by
  have g := exTetra_good (z := 1) (by norm_num) (by norm_num)
  refine ⟨fun w hw => ?_, ?_⟩
  · rcases (by simpa [twoTetra, allVerts] using hw : w ∈ allVerts exTetra ∨ w ∈ allVerts (halfMap.model exTetra)) with h | h
    · exact g.1 w h
    · rcases twoTetra_verts w h with rfl | rfl | rfl | rfl <;> norm_num
  · intro e he f hf ce cf
    have ke := twoTetra_cuts ⟨e, he, ce, rfl⟩
    have kf := twoTetra_cuts ⟨f, hf, cf, rfl⟩
    have me : ∀ {e : R3 × R3}, e ∈ dirEdges twoTetra → e ∈ dirEdges exTetra ∨ e ∈ dirEdges (halfMap.model exTetra) := fun h => by
      simpa [twoTetra, dirEdges] using h
    refine ⟨?_, ?_, ?_, fun hq => ?_⟩
    · rcases ke with h | h | h | h | h | h <;> rcases kf with h' | h' | h' | h' | h' | h' <;> rw [h, h'] <;> unfold clearlyApart <;> norm_num [abs_of_pos, abs_of_neg]
    · rcases ke with h | h | h | h | h | h <;> rcases kf with h' | h' | h' | h' | h' | h' <;> rw [h, h'] <;> unfold clearlyApart <;> norm_num [abs_of_pos, abs_of_neg]
    · rcases ke with h | h | h | h | h | h <;> rcases kf with h' | h' | h' | h' | h' | h' <;> rw [h, h'] <;> left <;> rfl
    · have lev : ∀ {e f : R3 × R3}, e ∈ dirEdges exTetra → f ∈ dirEdges (halfMap.model exTetra) → (ascends ⟨0, 0, 1⟩ ⟨0, 0, 1⟩ e ∨ descends ⟨0, 0, 1⟩ ⟨0, 0, 1⟩ e) →
          (ascends ⟨0, 0, 1⟩ ⟨0, 0, 1⟩ f ∨ descends ⟨0, 0, 1⟩ ⟨0, 0, 1⟩ f) → crossAt ⟨0, 0, 1⟩ ⟨0, 0, 1⟩ e ≠ crossAt ⟨0, 0, 1⟩ ⟨0, 0, 1⟩ f := by
        intro e f he hf ce cf hq
        obtain ⟨u, hu, hq'⟩ := (halfMap.cross 1 exTetra _).1 ⟨f, hf, cf, rfl⟩
        rw [hq'] at hq
        have hq := congrArg R3.x hq
        rcases exTetra_cuts' ⟨e, he, ce, rfl⟩ with h | h | h <;> rcases exTetra_cuts' hu with h' | h' | h' <;> rw [h, h'] at hq <;>
          norm_num [LevelMap.app, halfMap] at hq
      rcases me he with h | h <;> rcases me hf with h' | h'
      · exact (g.2 e h f h' ce cf).2.2.2 hq
      · exact absurd hq (lev h h' ce cf)
      · exact absurd hq.symm (lev h' h cf ce)
      · rw [halfMap.edges] at h h'
        obtain ⟨e, h1, rfl⟩ := List.mem_map.1 h
        obtain ⟨f, h2, rfl⟩ := List.mem_map.1 h'
        rw [halfMap.crossAt_map, halfMap.crossAt_map] at hq
        rcases (g.2 e h1 f h2 ((halfMap.crosses_map 1 e).1 ce) ((halfMap.crosses_map 1 f).1 cf)).2.2.2 (halfMap.inj hq) with rfl | rfl
        · exact Or.inl rfl
        · exact Or.inr rfl

theorem twoTetra_far : FarFromSurface (1 / 10 ^ 8) ⟨0, 0, 1⟩ ⟨0, 0, 1⟩ twoTetra ⟨3 / 2, 1 / 2, 1⟩ := by
  intro t ht y hy hz
  rcases List.mem_append.1 ht with ht | ht
  · exact exTetra_far' t ht y hy hz
  · obtain ⟨u, hu, rfl⟩ := List.mem_map.1 ht
    obtain ⟨y', rfl⟩ : ∃ y', halfMap.app y' = y := ⟨⟨y.x - 1 / 2, y.y, y.z⟩, by apply R3.ext <;> simp [LevelMap.app, halfMap]⟩
    have := exTetra_far u hu y' ((halfMap.on u y').1 hy) (by rw [← halfMap.height]; exact hz)
    have e : R3.distSq2 (halfMap.app y') ⟨3 / 2, 1 / 2, 1⟩ = R3.distSq2 y' ⟨1, 1 / 2, 1⟩ := by
      simp [R3.distSq2, LevelMap.app, halfMap]; ring
    rw [e]; exact this

theorem twoTetra_slim : OffSlimCuts ⟨0, 0, 1⟩ ⟨0, 0, 1⟩ twoTetra ⟨3 / 2, 1 / 2, 1⟩ := by
  -- the crossing points are multiples of a half, on the lines `y = 0` and `y = 3`
  have key : ∀ w, CrossPoint ⟨0, 0, 1⟩ ⟨0, 0, 1⟩ twoTetra w → ∃ k : ℤ, w.round8.x = k / 2 ∧ (w.round8.y = 0 ∨ w.round8.y = 3 ∧ (k = 0 ∨ k = 1)) ∧ w.round8.z = 1 := by
    have r0 : r8 0 = 0 := by simpa using r8_int 0
    have r1 : r8 1 = 1 := by simpa using r8_int 1
    have r3 : r8 3 = 3 := by simpa using r8_int 3
    have h1 : r8 (1 / 2) = 1 / 2 := by
      have := r8_grid (50000000)
      norm_num at this ⊢; exact this
    have h7 : r8 (7 / 2) = 7 / 2 := by
      have := r8_grid (350000000)
      norm_num at this ⊢; exact this
    intro w hw
    rcases twoTetra_cuts hw with rfl | rfl | rfl | rfl | rfl | rfl <;> simp only [R3.round8, r0, r1, r3, h1, h7]
    · exact ⟨0, by norm_num, by simp, trivial⟩
    · exact ⟨6, by norm_num, by simp, trivial⟩
    · exact ⟨0, by norm_num, by simp, trivial⟩
    · exact ⟨1, by norm_num, by simp, trivial⟩
    · exact ⟨7, by norm_num, by simp, trivial⟩
    · exact ⟨1, by norm_num, by simp, trivial⟩
  intro a b c ha hb hc n1 n2 n3 hn hx
  obtain ⟨ka, xa, ya, za⟩ := key a ha
  obtain ⟨kb, xb, yb, zb⟩ := key b hb
  obtain ⟨kc, xc, yc, zc⟩ := key c hc
  have ne : ∀ {u v : R3} {k l : ℤ}, u ≠ v → u.x = k / 2 → v.x = l / 2 → u.y = v.y → u.z = 1 → v.z = 1 → 1 ≤ |(k : ℝ) - l| := by
    intro u v k l hne hu hv hy z1 z2
    have : k ≠ l := by
      rintro rfl
      exact hne (R3.ext (hu.trans hv.symm) hy (z1.trans z2.symm))
    have : 1 ≤ |k - l| := Int.one_le_abs (sub_ne_zero.2 this)
    exact_mod_cast this
  have big : |((b.round8 - a.round8).cross (c.round8 - b.round8)).z| < 1 / 10 ^ 6 := by
    refine lt_of_le_of_lt ?_ hn
    unfold R3.norm
    refine Real.abs_le_sqrt ?_
    unfold R3.normSq R3.dot
    nlinarith [mul_self_nonneg ((b.round8 - a.round8).cross (c.round8 - b.round8)).x, mul_self_nonneg ((b.round8 - a.round8).cross (c.round8 - b.round8)).y]
  have ez : ((b.round8 - a.round8).cross (c.round8 - b.round8)).z =
      (b.round8.x - a.round8.x) * (c.round8.y - b.round8.y) - (b.round8.y - a.round8.y) * (c.round8.x - b.round8.x) := by
    simp [R3.cross]
  rw [ez, xa, xb, xc] at big
  obtain ⟨α, β, γ, p1, p2, p3, p4, p5, p6⟩ := hx
  simp only at p6
  rcases ya with ya | ⟨ya, sa⟩ <;> rcases yb with yb | ⟨yb, sb⟩ <;> rcases yc with yc | ⟨yc, sc⟩ <;> rw [ya, yb, yc] at big p6
  · norm_num at p6
  · have := ne n1 xa xb (ya.trans yb.symm) za zb
    have e : ((kb : ℝ) / 2 - ka / 2) * (3 - 0) - (0 - 0) * ((kc : ℝ) / 2 - kb / 2) = -(3 / 2) * (ka - kb) := by ring
    rw [e, abs_mul] at big
    norm_num at big; linarith
  · have := ne n3 xa xc (ya.trans yc.symm) za zc
    have e : ((kb : ℝ) / 2 - ka / 2) * (0 - 3) - (3 - 0) * ((kc : ℝ) / 2 - kb / 2) = (3 / 2) * (ka - kc) := by ring
    rw [e, abs_mul] at big
    norm_num at big; linarith
  · have := ne n2 xb xc (yb.trans yc.symm) zb zc
    have e : ((kb : ℝ) / 2 - ka / 2) * (3 - 3) - (3 - 0) * ((kc : ℝ) / 2 - kb / 2) = (3 / 2) * (kb - kc) := by ring
    rw [e, abs_mul] at big
    norm_num at big; linarith
  · have := ne n2 xb xc (yb.trans yc.symm) zb zc
    have e : ((kb : ℝ) / 2 - ka / 2) * (0 - 0) - (0 - 3) * ((kc : ℝ) / 2 - kb / 2) = -(3 / 2) * (kb - kc) := by ring
    rw [e, abs_mul] at big
    norm_num at big; linarith
  · have := ne n3 xa xc (ya.trans yc.symm) za zc
    have e : ((kb : ℝ) / 2 - ka / 2) * (3 - 0) - (0 - 3) * ((kc : ℝ) / 2 - kb / 2) = -(3 / 2) * (ka - kc) := by ring
    rw [e, abs_mul] at big
    norm_num at big; linarith
  · have := ne n1 xa xb (ya.trans yb.symm) za zb
    have e : ((kb : ℝ) / 2 - ka / 2) * (0 - 3) - (3 - 3) * ((kc : ℝ) / 2 - kb / 2) = (3 / 2) * (ka - kb) := by ring
    rw [e, abs_mul] at big
    norm_num at big; linarith
  · have : (α + β + γ) * 3 = 1 / 2 := by linarith
    rw [p4] at this; norm_num at this

theorem twoTetra_extent : Extent twoTetra ⟨0, 0, 1⟩ 0 4 := by
  have z : ∀ w ∈ allVerts twoTetra, 0 ≤ w.z ∧ w.z ≤ 4 := by
    intro w hw
    rcases (by simpa [twoTetra, allVerts] using hw : w ∈ allVerts exTetra ∨ w ∈ allVerts (halfMap.model exTetra)) with h | h
    · rcases exTetra_verts w h with rfl | rfl | rfl | rfl <;> norm_num
    · rcases twoTetra_verts w h with rfl | rfl | rfl | rfl <;> norm_num
  have dz : ∀ w : R3, w.dot ⟨0, 0, 1⟩ = w.z := fun w => by simp [R3.dot]
  unfold Extent
  simp only [dz]
  refine ⟨⟨⟨⟨0, 0, 0⟩, by simp [twoTetra, exTetra, allVerts, RTri.verts], rfl⟩, ?_⟩, ⟨⟨⟨0, 0, 4⟩, by simp [twoTetra, exTetra, allVerts, RTri.verts], rfl⟩, ?_⟩⟩
  · rintro _ ⟨w, hw, rfl⟩; exact (z w hw).1
  · rintro _ ⟨w, hw, rfl⟩; exact (z w hw).2

theorem twoTetra_in : InMaterial ⟨0, 0, 1⟩ ⟨0, 0, 1⟩ exTetra ⟨3 / 2, 1 / 2, 1⟩ ∧ InMaterial ⟨0, 0, 1⟩ ⟨0, 0, 1⟩ (halfMap.model exTetra) ⟨3 / 2, 1 / 2, 1⟩ := by
  constructor
  · have im : leanMap.app ⟨1, 1 / 2, 1⟩ = ⟨3 / 2, 1 / 2, 1⟩ := by apply R3.ext <;> simp [LevelMap.app, leanMap]; norm_num
    rw [← same_material lean_same exTetra_ok.1 (leanMap.watertight exTetra_ok.1), ← im, leanMap.material (z := 1) exTetra rfl]
    exact exTetra_material.2.2.1
  · have im : halfMap.app ⟨1, 1 / 2, 1⟩ = ⟨3 / 2, 1 / 2, 1⟩ := by apply R3.ext <;> simp [LevelMap.app, halfMap]; norm_num
    rw [← im, halfMap.material (z := 1) exTetra rfl]
    exact exTetra_material.2.2.1

/-- **C135.** Overlapping bodies are not printed as their union: of the tetrahedron and its copy moved by half a millimetre in one file, in layers of at most 3, the point
`(3/2, 1/2, 1)` is in the material of both, and it is outside of the contours of the first layer. -/
theorem C135_violated (S : Sorter) (A : Arrival XR) : Watertight exTetra ∧ Watertight (halfMap.model exTetra) ∧ Watertight (exTetra ++ halfMap.model exTetra) ∧
    InMaterial ⟨0, 0, 1⟩ ⟨0, 0, 1⟩ exTetra ⟨3 / 2, 1 / 2, 1⟩ ∧ InMaterial ⟨0, 0, 1⟩ ⟨0, 0, 1⟩ (halfMap.model exTetra) ⟨3 / 2, 1 / 2, 1⟩ ∧
    ∃ layers : List (Layer XR), sliceByVectorToGcode S A (rmesh (exTetra ++ halfMap.model exTetra)) (R3.mk 0 0 1).vec (exampleSettings 3) =
        .ok ((Gcode.new (exampleSettings 3).gs).addLayers layers) ∧ ¬ PrintedAt layers 0 ⟨3 / 2, 1 / 2, 1⟩ := by
  obtain ⟨h1, h2, h3, -, -⟩ := exTetra_ok
  have hn : ⌈((4 : ℝ) - 0) / 3⌉ = 2 := by rw [Int.ceil_eq_iff]; norm_num
  have vs : ∀ w ∈ allVerts (exTetra ++ halfMap.model exTetra), |w.x| ≤ 5 ∧ |w.y| ≤ 5 ∧ |w.z| ≤ 5 := by
    intro w hw
    rcases (by simpa [allVerts] using hw : w ∈ allVerts exTetra ∨ w ∈ allVerts (halfMap.model exTetra)) with h | h
    · rcases exTetra_verts w h with rfl | rfl | rfl | rfl <;> norm_num
    · rcases twoTetra_verts w h with rfl | rfl | rfl | rfl <;> norm_num [abs_of_pos]
  have fill : ∀ s : ℝ, 1 ≤ s → FillBounds (exTetra ++ halfMap.model exTetra) s 5 := by
    intro s hs
    exact ⟨by simp [exTetra], fun w h => ⟨(vs w h).1, (vs w h).2.1⟩, le_trans (by norm_num) million_le_maxF64R, by linarith, by norm_num; linarith⟩
  obtain ⟨layers, n, g1, g2, g3⟩ := C135_two_bodies_partial S A exTetra (halfMap.model exTetra) (exampleSettings 3) rfl h1 (halfMap.watertight h1) twoTetra_watertight
    (fun t ht => by
      rcases List.mem_append.1 ht with h | h
      · exact h2 t h
      · obtain ⟨u, hu, rfl⟩ := List.mem_map.1 h
        exact halfMap.nrm (h2 u hu))
    (fun w h => by
      obtain ⟨k1, k2, k3⟩ := vs w h
      have : (5 : ℝ) ≤ roundLimit := by unfold roundLimit; norm_num
      exact ⟨k1.trans this, k2.trans this, k3.trans this⟩)
    0 4 3 1 5 twoTetra_extent rfl (by norm_num) (by norm_num) (by rw [hn]; norm_num) rfl (by unfold patternDensity exampleSettings; decide)
    (fill _ (by unfold patternDensity exampleSettings; simp; norm_num)) (fill _ le_rfl)
  rw [hn] at g2
  have : n = 2 := by exact_mod_cast g2
  subst this
  have k := (g3 0 (by norm_num) 1 (by norm_num) twoTetra_good ⟨3 / 2, 1 / 2, 1⟩ rfl twoTetra_far twoTetra_slim).1
  refine ⟨h1, halfMap.watertight h1, twoTetra_watertight, twoTetra_in.1, twoTetra_in.2, layers, g1, fun h => ?_⟩
  exact k.1 h ⟨fun _ => twoTetra_in.2, fun _ => twoTetra_in.1⟩

end Goosli
