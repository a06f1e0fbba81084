import Verif.Props.C131
/-!
# C134: stretching the model upwards, and upside down
-/
set_option autoImplicit false
namespace Goosli
open Flt

/-! ## Spec -/

/-- stretching the heights by `s` and moving upwards by `r`; for negative `s` also mirroring upside down -/
noncomputable def zStretch (s r : ℝ) (w : R3) : R3 := ⟨w.x, w.y, s * w.z + r⟩

/-- the image of a model -/
noncomputable def zModel (s r : ℝ) (ts : List RTri) : List RTri := ts.map (RTri.map (zStretch s r))

/-- the number of the layer of the stretched model for layer `m` of `n`: upside down they are counted from the other end -/
noncomputable def zLayer (s : ℝ) (n m : ℕ) : ℕ := open Classical in if 0 < s then m else n - 1 - m

/-! ## The material is mapped with the model -/

section
variable {s : ℝ} (s0 : s ≠ 0) (r : ℝ)

include s0 in
theorem zStretch_inj {u v : R3} (h : zStretch s r u = zStretch s r v) : u = v := by
  have hx := congrArg R3.x h; have hy := congrArg R3.y h; have hz := congrArg R3.z h
  simp only [zStretch] at hx hy hz
  exact R3.ext hx hy (mul_left_cancel₀ s0 (by linarith))

theorem zModel_verts (ts : List RTri) (w : R3) : w ∈ allVerts (zModel s r ts) ↔ ∃ u ∈ allVerts ts, w = zStretch s r u := by
  have e : allVerts (zModel s r ts) = (allVerts ts).map (zStretch s r) := by
    unfold allVerts zModel
    rw [List.flatMap_map, List.map_flatMap]
    rfl
  rw [e, List.mem_map]
  exact exists_congr fun u => and_congr_right fun _ => eq_comm

theorem zModel_edges (ts : List RTri) : dirEdges (zModel s r ts) = (dirEdges ts).map (Prod.map (zStretch s r) (zStretch s r)) := by
  unfold dirEdges zModel
  rw [List.flatMap_map, List.map_flatMap]
  rfl

include s0 in
theorem zModel_watertight {ts : List RTri} (h : Watertight ts) : Watertight (zModel s r ts) := by
  unfold Watertight
  rw [zModel_edges]
  refine ⟨h.1.map fun e f he => ?_, fun e he => ?_⟩
  · exact Prod.ext (zStretch_inj s0 r (congrArg Prod.fst he)) (zStretch_inj s0 r (congrArg Prod.snd he))
  · obtain ⟨f, hf, rfl⟩ := List.mem_map.1 he
    exact List.mem_map.2 ⟨f.swap, h.2 f hf, rfl⟩

include s0 in
theorem zModel_nrm {t : RTri} (h : t.nrm ≠ 0) : (t.map (zStretch s r)).nrm ≠ 0 := by
  intro h0
  apply h
  have hx := congrArg R3.x h0; have hy := congrArg R3.y h0; have hz := congrArg R3.z h0
  have k1 : s * t.nrm.x = 0 := by
    simp [RTri.nrm, RTri.map, zStretch, R3.cross, -mul_eq_zero] at hx ⊢
    linarith
  have k2 : s * t.nrm.y = 0 := by
    simp [RTri.nrm, RTri.map, zStretch, R3.cross, -mul_eq_zero] at hy ⊢
    linarith
  exact R3.ext ((mul_eq_zero.1 k1).resolve_left s0) ((mul_eq_zero.1 k2).resolve_left s0) hz

include s0 in
theorem zStretch_on (t : RTri) (y : R3) : OnTri (t.map (zStretch s r)) (zStretch s r y) ↔ OnTri t y := by
  have e : ∀ u v w : ℝ, u + v + w = 1 → u • zStretch s r t.a + v • zStretch s r t.b + w • zStretch s r t.c = zStretch s r (u • t.a + v • t.b + w • t.c) := by
    intro u v w h
    have hu : u = 1 - v - w := by linarith
    subst hu
    apply R3.ext <;> simp [zStretch] <;> ring
  constructor
  · rintro ⟨u, v, w, h1, h2, h3, h4, h⟩
    exact ⟨u, v, w, h1, h2, h3, h4, zStretch_inj s0 r (h.trans (e u v w h4))⟩
  · rintro ⟨u, v, w, h1, h2, h3, h4, h⟩
    exact ⟨u, v, w, h1, h2, h3, h4, (congrArg (zStretch s r) h).trans (e u v w h4).symm⟩

include s0 in
theorem zStretch_odd (ts : List RTri) (x : R3) {d : R3} (hd : d.z = 0) : OddTris (zStretch s r x) d (zModel s r ts) ↔ OddTris x d ts := by
  have k : ∀ t : RTri, RayMeets (zStretch s r x) d (t.map (zStretch s r)) ↔ RayMeets x d t := by
    intro t
    refine exists_congr fun q => and_congr_right fun _ => ?_
    have e : zStretch s r x + q • d = zStretch s r (x + q • d) := by apply R3.ext <;> simp [zStretch, hd]
    rw [e]
    exact zStretch_on s0 r t _
  unfold OddTris zModel
  rw [List.countP_map]
  have : ((fun t => @decide (RayMeets (zStretch s r x) d t) (Classical.propDecidable _)) ∘ RTri.map (zStretch s r)) =
      fun t => @decide (RayMeets x d t) (Classical.propDecidable _) := by
    funext t
    exact decide_eq_decide.2 (k t)
  rw [this]

theorem zStretch_height (z : ℝ) (w : R3) : R3.height ⟨0, 0, s * z + r⟩ ⟨0, 0, 1⟩ (zStretch s r w) = s * R3.height ⟨0, 0, z⟩ ⟨0, 0, 1⟩ w := by
  simp [R3.height, R3.dot, zStretch]; ring

include s0 in
theorem zStretch_crossAt (z : ℝ) (e : R3 × R3) :
    crossAt ⟨0, 0, s * z + r⟩ ⟨0, 0, 1⟩ (Prod.map (zStretch s r) (zStretch s r) e) = zStretch s r (crossAt ⟨0, 0, z⟩ ⟨0, 0, 1⟩ e) := by
  unfold crossAt
  simp only [Prod.map_fst, Prod.map_snd, zStretch_height]
  rw [← mul_sub, mul_div_mul_left _ _ s0]
  apply R3.ext <;> simp [zStretch] <;> ring

include s0 in
theorem zStretch_crosses (z : ℝ) (e : R3 × R3) : (ascends ⟨0, 0, s * z + r⟩ ⟨0, 0, 1⟩ (Prod.map (zStretch s r) (zStretch s r) e) ∨
      descends ⟨0, 0, s * z + r⟩ ⟨0, 0, 1⟩ (Prod.map (zStretch s r) (zStretch s r) e)) ↔ (ascends ⟨0, 0, z⟩ ⟨0, 0, 1⟩ e ∨ descends ⟨0, 0, z⟩ ⟨0, 0, 1⟩ e) := by
  simp only [ascends, descends, Prod.map_fst, Prod.map_snd, zStretch_height]
  rcases lt_or_gt_of_ne s0 with h | h
  · simp only [mul_pos_iff, mul_neg_iff, h, not_lt_of_gt h, false_and, true_and, false_or]
    tauto
  · simp only [mul_pos_iff, mul_neg_iff, h, not_lt_of_gt h, false_and, true_and, or_false]

include s0 in
theorem zStretch_cross (z : ℝ) (ts : List RTri) (w : R3) :
    CrossPoint ⟨0, 0, s * z + r⟩ ⟨0, 0, 1⟩ (zModel s r ts) w ↔ ∃ u, CrossPoint ⟨0, 0, z⟩ ⟨0, 0, 1⟩ ts u ∧ w = zStretch s r u := by
  unfold CrossPoint
  rw [zModel_edges]
  constructor
  · rintro ⟨e, he, hc, rfl⟩
    obtain ⟨f, hf, rfl⟩ := List.mem_map.1 he
    exact ⟨_, ⟨f, hf, (zStretch_crosses s0 r z f).1 hc, rfl⟩, zStretch_crossAt s0 r z f⟩
  · rintro ⟨_, ⟨f, hf, hc, rfl⟩, rfl⟩
    exact ⟨_, List.mem_map.2 ⟨f, hf, rfl⟩, (zStretch_crosses s0 r z f).2 hc, zStretch_crossAt s0 r z f⟩

include s0 in
theorem zStretch_material (z : ℝ) (ts : List RTri) (x : R3) :
    InMaterial ⟨0, 0, s * z + r⟩ ⟨0, 0, 1⟩ (zModel s r ts) (zStretch s r x) ↔ InMaterial ⟨0, 0, z⟩ ⟨0, 0, 1⟩ ts x := by
  have zero : ∀ g : R3, g.dot ⟨0, 0, 1⟩ = g.z := fun g => by simp [R3.dot]
  unfold InMaterial
  refine exists_congr fun d => and_congr_right fun hd => ?_
  rw [zero] at hd
  rw [zStretch_odd s0 r ts x hd]
  refine and_congr_left fun _ => ?_
  constructor
  · intro h w hw
    have := h (zStretch s r w) ((zStretch_cross s0 r z ts _).2 ⟨w, hw, rfl⟩)
    simpa [R3.cross2, zStretch] using this
  · intro h w hw
    obtain ⟨u, hu, rfl⟩ := (zStretch_cross s0 r z ts _).1 hw
    have := h u hu
    simpa [R3.cross2, zStretch] using this

include s0 in
theorem zStretch_far {ε z : ℝ} {ts : List RTri} {x : R3} (h : FarFromSurface ε ⟨0, 0, z⟩ ⟨0, 0, 1⟩ ts x) :
    FarFromSurface ε ⟨0, 0, s * z + r⟩ ⟨0, 0, 1⟩ (zModel s r ts) (zStretch s r x) := by
  intro q hq y hy hz
  obtain ⟨t, ht, rfl⟩ := List.mem_map.1 hq
  obtain ⟨y', rfl⟩ : ∃ y', zStretch s r y' = y := ⟨⟨y.x, y.y, (y.z - r) / s⟩, by apply R3.ext <;> simp [zStretch]; field_simp; ring⟩
  rw [zStretch_height] at hz
  have := h t ht y' ((zStretch_on s0 r t y').1 hy) ((mul_eq_zero.1 hz).resolve_left s0)
  simpa [R3.distSq2, zStretch] using this

include s0 in
theorem zStretch_good {z : ℝ} {ts : List RTri} (h : GoodLevel ts z) : GoodLevel (zModel s r ts) (s * z + r) := by
  refine ⟨fun w hw hz => ?_, ?_⟩
  · obtain ⟨u, hu, rfl⟩ := (zModel_verts r ts w).1 hw
    simp only [zStretch, add_left_inj] at hz
    exact h.1 u hu (mul_left_cancel₀ s0 hz)
  · intro e he f hf hce hcf
    rw [zModel_edges] at he hf
    obtain ⟨e, me, rfl⟩ := List.mem_map.1 he
    obtain ⟨f, mf, rfl⟩ := List.mem_map.1 hf
    have ce := (zStretch_crosses s0 r z e).1 hce
    have cf := (zStretch_crosses s0 r z f).1 hcf
    obtain ⟨h1, h2, h3, h4⟩ := h.2 e me f mf ce cf
    rw [zStretch_crossAt s0, zStretch_crossAt s0]
    have zz : (crossAt ⟨0, 0, z⟩ ⟨0, 0, 1⟩ e).z = (crossAt ⟨0, 0, z⟩ ⟨0, 0, 1⟩ f).z := by
      have a := crossPoint_height (⟨e, me, ce, rfl⟩ : CrossPoint ⟨0, 0, z⟩ ⟨0, 0, 1⟩ ts _)
      have b := crossPoint_height (⟨f, mf, cf, rfl⟩ : CrossPoint ⟨0, 0, z⟩ ⟨0, 0, 1⟩ ts _)
      simp [R3.height, R3.dot] at a b
      linarith
    refine ⟨h1, h2, Or.inl (by simp only [zStretch, zz]), fun hq => ?_⟩
    rcases h4 (zStretch_inj s0 r hq) with rfl | rfl
    · exact Or.inl rfl
    · exact Or.inr rfl

include s0 in
theorem zStretch_slim {z : ℝ} {ts : List RTri} {x : R3} (h : OffSlimCuts ⟨0, 0, z⟩ ⟨0, 0, 1⟩ ts x) :
    OffSlimCuts ⟨0, 0, s * z + r⟩ ⟨0, 0, 1⟩ (zModel s r ts) (zStretch s r x) := by
  intro a b c ha hb hc n1 n2 n3 hn hx
  obtain ⟨a, ka, rfl⟩ := (zStretch_cross s0 r z ts _).1 ha
  obtain ⟨b, kb, rfl⟩ := (zStretch_cross s0 r z ts _).1 hb
  obtain ⟨c, kc, rfl⟩ := (zStretch_cross s0 r z ts _).1 hc
  have lev : ∀ {u}, CrossPoint ⟨0, 0, z⟩ ⟨0, 0, 1⟩ ts u → u.z = z := by
    intro u hu
    have := crossPoint_height hu
    simp [R3.height, R3.dot] at this
    linarith
  have za := lev ka; have zb := lev kb; have zc := lev kc
  have ne : ∀ {u v : R3}, u.z = z → v.z = z → (zStretch s r u).round8 ≠ (zStretch s r v).round8 → u.round8 ≠ v.round8 := by
    intro u v hu hv hne he
    apply hne
    have e1 := congrArg R3.x he; have e2 := congrArg R3.y he
    apply R3.ext
    · exact e1
    · exact e2
    · simp [R3.round8, zStretch, hu, hv]
  refine h a b c ka kb kc (ne za zb n1) (ne zb zc n2) (ne za zc n3) ?_ ?_
  · convert hn using 2
    apply R3.ext <;> simp [R3.cross, R3.round8, zStretch, za, zb, zc]
  · simpa [InTri2, R3.cross2, R3.round8, zStretch] using hx

theorem zModel_extent {ts : List RTri} {lo hi : ℝ} (h : Extent ts ⟨0, 0, 1⟩ lo hi) :
    Extent (zModel s r ts) ⟨0, 0, 1⟩ (min (s * lo) (s * hi) + r) (max (s * lo) (s * hi) + r) := by
  have dz : ∀ w : R3, w.dot ⟨0, 0, 1⟩ = w.z := fun w => by simp [R3.dot]
  unfold Extent at h ⊢
  simp only [dz] at h ⊢
  obtain ⟨⟨⟨a, ha, ea⟩, h1⟩, ⟨⟨b, hb, eb⟩, h2⟩⟩ := h
  have im : ∀ u ∈ allVerts ts, zStretch s r u ∈ allVerts (zModel s r ts) := fun u hu => (zModel_verts r ts _).2 ⟨u, hu, rfl⟩
  have bd : ∀ u ∈ allVerts ts, lo ≤ u.z ∧ u.z ≤ hi := fun u hu => ⟨h1 ⟨u, hu, rfl⟩, h2 ⟨u, hu, rfl⟩⟩
  have lh : lo ≤ hi := by have := bd a ha; linarith
  rcases le_total 0 s with hs | hs
  · have e : s * lo ≤ s * hi := mul_le_mul_of_nonneg_left lh hs
    rw [min_eq_left e, max_eq_right e]
    refine ⟨⟨⟨_, im a ha, by simp [zStretch, ea]⟩, ?_⟩, ⟨⟨_, im b hb, by simp [zStretch, eb]⟩, ?_⟩⟩
    · rintro _ ⟨w, hw, rfl⟩
      obtain ⟨u, hu, rfl⟩ := (zModel_verts r ts w).1 hw
      have := mul_le_mul_of_nonneg_left (bd u hu).1 hs
      simp only [zStretch]; linarith
    · rintro _ ⟨w, hw, rfl⟩
      obtain ⟨u, hu, rfl⟩ := (zModel_verts r ts w).1 hw
      have := mul_le_mul_of_nonneg_left (bd u hu).2 hs
      simp only [zStretch]; linarith
  · have e : s * hi ≤ s * lo := mul_le_mul_of_nonpos_left lh hs
    rw [min_eq_right e, max_eq_left e]
    refine ⟨⟨⟨_, im b hb, by simp [zStretch, eb]⟩, ?_⟩, ⟨⟨_, im a ha, by simp [zStretch, ea]⟩, ?_⟩⟩
    · rintro _ ⟨w, hw, rfl⟩
      obtain ⟨u, hu, rfl⟩ := (zModel_verts r ts w).1 hw
      have := mul_le_mul_of_nonpos_left (bd u hu).2 hs
      simp only [zStretch]; linarith
    · rintro _ ⟨w, hw, rfl⟩
      obtain ⟨u, hu, rfl⟩ := (zModel_verts r ts w).1 hw
      have := mul_le_mul_of_nonpos_left (bd u hu).1 hs
      simp only [zStretch]; linarith

end

theorem zLayer_level {s : ℝ} (s0 : s ≠ 0) (r : ℝ) {lo hi : ℝ} (lh : lo ≤ hi) {n m : ℕ} (hm : m < n) :
    zLayer s n m < n ∧ (min (s * lo) (s * hi) + r) + ((zLayer s n m : ℝ) + 1 / 2) * (((max (s * lo) (s * hi) + r) - (min (s * lo) (s * hi) + r)) / n) =
      s * (lo + ((m : ℝ) + 1 / 2) * ((hi - lo) / n)) + r := by
  have hn : (n : ℝ) ≠ 0 := by exact_mod_cast (by omega : n ≠ 0)
  unfold zLayer
  rcases lt_or_gt_of_ne s0 with h | h
  · rw [if_neg (not_lt.2 h.le)]
    have e : s * hi ≤ s * lo := mul_le_mul_of_nonpos_left lh h.le
    rw [min_eq_right e, max_eq_left e]
    have c : ((n - 1 - m : ℕ) : ℝ) = n - 1 - m := by
      rw [Nat.cast_sub (by omega), Nat.cast_sub (by omega)]; norm_num
    refine ⟨by omega, ?_⟩
    rw [c]
    field_simp
    ring
  · rw [if_pos h]
    have e : s * lo ≤ s * hi := mul_le_mul_of_nonneg_left lh h.le
    rw [min_eq_left e, max_eq_right e]
    exact ⟨hm, by ring⟩

/-- **C134.** Stretch the heights of the model by `s ≠ 0` (negative: upside down), move it upwards by `r`, and slice it with layers of height `|s| t` instead of `t`
(vertical slicing, supports off). Then the run has the same number of levels, and the printed part is the image of the printed part: at a good level, `x` is
inside the contours of layer `m` exactly if its image is inside the contours of layer `m`, or `n - 1 - m` for negative `s`, of the other run. -/
theorem C134_stretched_part (s : ℝ) (s0 : s ≠ 0) (r : ℝ) (S S' : Sorter) (A A' : Arrival XR) (ts : List RTri) (sett sett' : Settings XR)
    (hs : sett.supportsOn = false) (hs' : sett'.supportsOn = false) (hw : Watertight ts) (hdeg : ∀ t ∈ ts, t.nrm ≠ 0) (hsm : ∀ w ∈ allVerts ts, w.small)
    (hsm' : ∀ w ∈ allVerts (zModel s r ts), w.small) (lo hi t lw lw' M M' : ℝ) (he : Extent ts ⟨0, 0, 1⟩ lo hi)
    (hh : sett.layerHeight = XR.fin t) (hh' : sett'.layerHeight = XR.fin (|s| * t)) (ht : 0 < t) (htl : t < hi - lo) (hb : ⌈(hi - lo) / t⌉ < 2 ^ 63)
    (hlw : sett.gs.lineWidth = XR.fin lw) (hd : patternDensity sett ≠ 0) (hlw' : sett'.gs.lineWidth = XR.fin lw') (hd' : patternDensity sett' ≠ 0)
    (hsp : FillBounds ts (100 / (patternDensity sett : ℝ) * lw) M) (hfp : FillBounds ts lw M)
    (hsp' : FillBounds (zModel s r ts) (100 / (patternDensity sett' : ℝ) * lw') M') (hfp' : FillBounds (zModel s r ts) lw' M') :
    ∃ (layers layers' : List (Layer XR)) (n : ℕ),
      sliceByVectorToGcode S A (rmesh ts) (R3.mk 0 0 1).vec sett = .ok ((Gcode.new sett.gs).addLayers layers) ∧
      sliceByVectorToGcode S' A' (rmesh (zModel s r ts)) (R3.mk 0 0 1).vec sett' = .ok ((Gcode.new sett'.gs).addLayers layers') ∧
      (n : ℤ) = ⌈(hi - lo) / t⌉ ∧
      ∀ m < n, ∀ z : ℝ, z = lo + ((m : ℝ) + 1 / 2) * ((hi - lo) / n) → GoodLevel ts z → ∀ x : R3, x.z = z →
        FarFromSurface (1 / 10 ^ 8) ⟨0, 0, z⟩ ⟨0, 0, 1⟩ ts x → OffSlimCuts ⟨0, 0, z⟩ ⟨0, 0, 1⟩ ts x →
        (PrintedAt layers m x ↔ PrintedAt layers' (zLayer s n m) (zStretch s r x)) ∧ (PrintedAt layers m x ↔ InMaterial ⟨0, 0, z⟩ ⟨0, 0, 1⟩ ts x) := by
  have hdeg' : ∀ t ∈ zModel s r ts, t.nrm ≠ 0 := fun q hq => by
    obtain ⟨t, ht, rfl⟩ := List.mem_map.1 hq
    exact zModel_nrm s0 r (hdeg t ht)
  have lh := he.le
  have sp : 0 < |s| := abs_pos.2 s0
  have ext : (max (s * lo) (s * hi) + r) - (min (s * lo) (s * hi) + r) = |s| * (hi - lo) := by
    have := max_sub_min_eq_abs (s * lo) (s * hi)
    rw [add_sub_add_right_eq_sub, this, ← mul_sub, abs_mul, abs_of_nonneg (by linarith : 0 ≤ hi - lo)]
  have quo : |s| * (hi - lo) / (|s| * t) = (hi - lo) / t := mul_div_mul_left _ _ sp.ne'
  obtain ⟨layers, n, g1, g2, g3⟩ := printed_material S A ts sett hs hw hdeg hsm lo hi t lw M he hh ht htl hb hlw hd hsp hfp
  obtain ⟨layers', n', k1, k2, k3⟩ := printed_material S' A' (zModel s r ts) sett' hs' (zModel_watertight s0 r hw) hdeg' hsm' _ _ (|s| * t) lw' M' (zModel_extent r he) hh'
    (by positivity) (by rw [ext]; exact mul_lt_mul_of_pos_left htl sp) (by rw [ext, quo]; exact hb) hlw' hd' hsp' hfp'
  rw [ext, quo] at k2
  obtain rfl : n = n' := by exact_mod_cast g2.trans k2.symm
  refine ⟨layers, layers', n, g1, k1, g2, fun m hm z hz good x hx far slim => ?_⟩
  obtain ⟨q1, q2⟩ := zLayer_level s0 r lh hm
  rw [← hz] at q2
  have := k3 (zLayer s n m) q1
  rw [q2] at this
  have g := g3 m hm
  rw [← hz] at g
  rw [g good x hx far slim, this (zStretch_good s0 r good) (zStretch s r x) (by simp [zStretch, hx]) (zStretch_far s0 r far) (zStretch_slim s0 r slim), zStretch_material s0 r z ts x]
  exact ⟨Iff.rfl, Iff.rfl⟩

/-- the tetrahedron in layers of at most 3, and upside down and twice as high in layers of at most 6: the point `(1, 1/2, 1)` is in layer 0 of the one,
its image `(1, 1/2, 6)` in layer 1 of the other -/
example (S S' : Sorter) (A A' : Arrival XR) :
    ∃ layers layers' : List (Layer XR), sliceByVectorToGcode S A (rmesh exTetra) (R3.mk 0 0 1).vec (exampleSettings 3) =
        .ok ((Gcode.new (exampleSettings 3).gs).addLayers layers) ∧
      sliceByVectorToGcode S' A' (rmesh (zModel (-2) 8 exTetra)) (R3.mk 0 0 1).vec (exampleSettings 6) =
        .ok ((Gcode.new (exampleSettings 6).gs).addLayers layers') ∧
      PrintedAt layers 0 ⟨1, 1 / 2, 1⟩ ∧ PrintedAt layers' 1 ⟨1, 1 / 2, 6⟩ := by
  obtain ⟨h1, h2, h3, -, -⟩ := exTetra_ok
  have hn : ⌈((4 : ℝ) - 0) / 3⌉ = 2 := by rw [Int.ceil_eq_iff]; norm_num
  have vs : ∀ w ∈ allVerts (zModel (-2) 8 exTetra), |w.x| ≤ 8 ∧ |w.y| ≤ 8 ∧ |w.z| ≤ 8 := by
    intro w hw
    obtain ⟨u, hu, rfl⟩ := (zModel_verts 8 exTetra w).1 hw
    rcases exTetra_verts u hu with rfl | rfl | rfl | rfl <;> simp only [zStretch] <;> norm_num
  have fill : ∀ s : ℝ, 1 ≤ s → FillBounds (zModel (-2) 8 exTetra) s 8 := by
    intro s hs
    exact ⟨by simp [zModel, exTetra], fun w h => ⟨(vs w h).1, (vs w h).2.1⟩, le_trans (by norm_num) million_le_maxF64R, by linarith, by norm_num; linarith⟩
  obtain ⟨layers, layers', n, g1, g1', g2, g3⟩ := C134_stretched_part (-2) (by norm_num) 8 S S' A A' exTetra (exampleSettings 3) (exampleSettings 6) rfl rfl h1 h2 h3
    (fun w h => by
      obtain ⟨k1, k2, k3⟩ := vs w h
      have : (8 : ℝ) ≤ roundLimit := by unfold roundLimit; norm_num
      exact ⟨k1.trans this, k2.trans this, k3.trans this⟩)
    0 4 3 1 1 4 8 exTetra_extent rfl (by rw [abs_of_neg (by norm_num)]; norm_num; rfl) (by norm_num) (by norm_num) (by rw [hn]; norm_num) rfl
    (by unfold patternDensity exampleSettings; decide) rfl (by unfold patternDensity exampleSettings; decide)
    (exTetra_fill _ (by unfold patternDensity exampleSettings; simp; norm_num)) (exTetra_fill _ le_rfl)
    (fill _ (by unfold patternDensity exampleSettings; simp; norm_num)) (fill _ le_rfl)
  rw [hn] at g2
  have : n = 2 := by exact_mod_cast g2
  subst this
  have im : zStretch (-2) 8 ⟨1, 1 / 2, 1⟩ = ⟨1, 1 / 2, 6⟩ := by apply R3.ext <;> simp [zStretch]; norm_num
  have zl : zLayer (-2) 2 0 = 1 := by unfold zLayer; rw [if_neg (by norm_num)]
  obtain ⟨k1, k2⟩ := g3 0 (by norm_num) 1 (by norm_num) (exTetra_good (by norm_num) (by norm_num)) ⟨1, 1 / 2, 1⟩ rfl exTetra_material.1 exTetra_material.2.1
  rw [im, zl] at k1
  have k := k2.2 exTetra_material.2.2.1
  exact ⟨layers, layers', g1, g1', k, k1.1 k⟩

end Goosli
