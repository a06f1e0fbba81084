import Verif.Props.C137
/-!
# C138: any number of bodies in one file

The rule for a file with any number of closed bodies: printed is what is in an odd number of them.
-/
set_option autoImplicit false
namespace Goosli
open Flt

open Classical in
/-- spec: the point is in the material of an odd number of the bodies -/
def InOddBodies (z : ℝ) (bodies : List (List RTri)) (x : R3) : Prop :=
  bodies.countP (fun b => decide (InMaterial ⟨0, 0, z⟩ ⟨0, 0, 1⟩ b x)) % 2 = 1

open Classical in
theorem odd_flatten (x d : R3) : ∀ bodies : List (List RTri), OddTris x d bodies.flatten ↔ bodies.countP (fun b => decide (OddTris x d b)) % 2 = 1
  | [] => by simp [OddTris]
  | b :: bs => by
    rw [List.flatten_cons, odd_append, odd_flatten x d bs, List.countP_cons]
    by_cases h : OddTris x d b <;> simp only [h, decide_true, decide_false, if_true, Bool.false_eq_true, if_false, true_iff, false_iff] <;> omega

theorem mem_flatten_verts {bodies : List (List RTri)} {b : List RTri} (hb : b ∈ bodies) {w : R3} (h : w ∈ allVerts b) : w ∈ allVerts bodies.flatten := by
  obtain ⟨t, ht, hw⟩ := List.mem_flatMap.1 h
  exact List.mem_flatMap.2 ⟨t, List.mem_flatten.2 ⟨b, hb, ht⟩, hw⟩

theorem mem_flatten_edges {bodies : List (List RTri)} {b : List RTri} (hb : b ∈ bodies) {e : R3 × R3} (h : e ∈ dirEdges b) : e ∈ dirEdges bodies.flatten := by
  obtain ⟨t, ht, hw⟩ := List.mem_flatMap.1 h
  exact List.mem_flatMap.2 ⟨t, List.mem_flatten.2 ⟨b, hb, ht⟩, hw⟩

/-- a point is in the material of the bodies together if it is in the material of an odd number of them -/
theorem material_flatten {bodies : List (List RTri)} {z ε : ℝ} (hb : ∀ b ∈ bodies, Watertight b) (hw : Watertight bodies.flatten)
    (hdeg : ∀ t ∈ bodies.flatten, t.nrm ≠ 0) (hsm : ∀ w ∈ allVerts bodies.flatten, w.small) (hg : GoodLevel bodies.flatten z) {x : R3} (hx : x.z = z)
    (far : FarFromSurface ε ⟨0, 0, z⟩ ⟨0, 0, 1⟩ bodies.flatten x) : InMaterial ⟨0, 0, z⟩ ⟨0, 0, 1⟩ bodies.flatten x ↔ InOddBodies z bodies x := by
  have hon : ∀ t ∈ bodies.flatten, ¬ OnTri t x := by
    intro t ht h
    have := far t ht x h (by simp [R3.height, R3.dot, hx])
    simp only [R3.distSq2, sub_self] at this
    nlinarith [sq_nonneg ε]
  obtain ⟨d, hd, hgd⟩ := ray_exists far
  rw [material_ray hw hdeg hsm hg hx hon hd hgd, odd_flatten]
  unfold InOddBodies
  have e : ∀ b ∈ bodies, (OddTris x d b ↔ InMaterial ⟨0, 0, z⟩ ⟨0, 0, 1⟩ b x) := by
    intro b h
    have me : ∀ {t : RTri}, t ∈ b → t ∈ bodies.flatten := fun ht => List.mem_flatten.2 ⟨b, h, ht⟩
    refine (material_ray (hb b h) (fun t ht => hdeg t (me ht)) (fun w k => hsm w (mem_flatten_verts h k)) ⟨fun w k => hg.1 w (mem_flatten_verts h k),
      fun e he f hf => hg.2 e (mem_flatten_edges h he) f (mem_flatten_edges h hf)⟩ hx (fun t ht => hon t (me ht)) hd ?_).symm
    rintro w ⟨e, he, hc, rfl⟩
    exact hgd _ ⟨e, mem_flatten_edges h he, hc, rfl⟩
  classical
  have k : bodies.countP (fun b => decide (OddTris x d b)) = bodies.countP (fun b => decide (InMaterial ⟨0, 0, z⟩ ⟨0, 0, 1⟩ b x)) :=
    List.countP_congr fun b h => by simpa using e b h
  have c1 : bodies.countP (fun b => @decide (OddTris x d b) (Classical.propDecidable _)) = bodies.countP (fun b => decide (OddTris x d b)) := by congr
  have c2 : bodies.countP (fun b => @decide (InMaterial ⟨0, 0, z⟩ ⟨0, 0, 1⟩ b x) (Classical.propDecidable _)) =
      bodies.countP (fun b => decide (InMaterial ⟨0, 0, z⟩ ⟨0, 0, 1⟩ b x)) := by congr
  rw [c1, c2, k]

theorem oddBodies_pair (z : ℝ) (b c : List RTri) (x : R3) :
    InOddBodies z [b, c] x ↔ ¬ (InMaterial ⟨0, 0, z⟩ ⟨0, 0, 1⟩ b x ↔ InMaterial ⟨0, 0, z⟩ ⟨0, 0, 1⟩ c x) := by
  unfold InOddBodies
  by_cases h : InMaterial ⟨0, 0, z⟩ ⟨0, 0, 1⟩ b x <;> by_cases k : InMaterial ⟨0, 0, z⟩ ⟨0, 0, 1⟩ c x <;> simp [h, k]

/-- if no point is in two bodies, an odd number of bodies is some body -/
theorem oddBodies_disjoint {z : ℝ} {x : R3} : ∀ {bodies : List (List RTri)},
    bodies.Pairwise (fun b c => ¬ (InMaterial ⟨0, 0, z⟩ ⟨0, 0, 1⟩ b x ∧ InMaterial ⟨0, 0, z⟩ ⟨0, 0, 1⟩ c x)) →
      (InOddBodies z bodies x ↔ ∃ b ∈ bodies, InMaterial ⟨0, 0, z⟩ ⟨0, 0, 1⟩ b x)
  | [], _ => by simp [InOddBodies]
  | b :: bs, h => by
    obtain ⟨h1, h2⟩ := List.pairwise_cons.1 h
    have ih := oddBodies_disjoint h2
    unfold InOddBodies at ih ⊢
    rw [List.countP_cons]
    by_cases hb : InMaterial ⟨0, 0, z⟩ ⟨0, 0, 1⟩ b x
    · have no : ∀ c ∈ bs, ¬ InMaterial ⟨0, 0, z⟩ ⟨0, 0, 1⟩ c x := fun c hc hm => h1 c hc ⟨hb, hm⟩
      rw [List.countP_eq_zero.2 fun c hc => by simpa using no c hc]
      simp [hb]
    · simp only [hb, decide_false, Bool.false_eq_true, if_false, add_zero, List.mem_cons, exists_eq_or_imp, false_or]
      exact ih

/-- **C138.** A file with any number of closed bodies, sliced and filled vertically in exact arithmetic with the rounding of sections (supports off): at every good level a
point is inside the contours exactly if it is in the material of an odd number of the bodies. If no two bodies overlap there, these are the points of all bodies. -/
theorem C138_bodies (S : Sorter) (A : Arrival XR) (bodies : List (List RTri)) (sett : Settings XR) (hs : sett.supportsOn = false)
    (hbw : ∀ b ∈ bodies, Watertight b) (hw : Watertight bodies.flatten) (hdeg : ∀ t ∈ bodies.flatten, t.nrm ≠ 0) (hsm : ∀ w ∈ allVerts bodies.flatten, w.small)
    (lo hi t lw M : ℝ) (he : Extent bodies.flatten ⟨0, 0, 1⟩ lo hi) (hh : sett.layerHeight = XR.fin t) (ht : 0 < t) (htl : t < hi - lo) (hb : ⌈(hi - lo) / t⌉ < 2 ^ 63)
    (hlw : sett.gs.lineWidth = XR.fin lw) (hd : patternDensity sett ≠ 0)
    (hsp : FillBounds bodies.flatten (100 / (patternDensity sett : ℝ) * lw) M) (hfp : FillBounds bodies.flatten lw M) :
    ∃ (layers : List (Layer XR)) (n : ℕ), sliceByVectorToGcode S A (rmesh bodies.flatten) (R3.mk 0 0 1).vec sett = .ok ((Gcode.new sett.gs).addLayers layers) ∧
      (n : ℤ) = ⌈(hi - lo) / t⌉ ∧
      ∀ m < n, ∀ z : ℝ, z = lo + ((m : ℝ) + 1 / 2) * ((hi - lo) / n) → GoodLevel bodies.flatten z → ∀ x : R3, x.z = z →
        FarFromSurface (1 / 10 ^ 8) ⟨0, 0, z⟩ ⟨0, 0, 1⟩ bodies.flatten x → OffSlimCuts ⟨0, 0, z⟩ ⟨0, 0, 1⟩ bodies.flatten x →
        (PrintedAt layers m x ↔ InOddBodies z bodies x) ∧
        (bodies.Pairwise (fun b c => ¬ (InMaterial ⟨0, 0, z⟩ ⟨0, 0, 1⟩ b x ∧ InMaterial ⟨0, 0, z⟩ ⟨0, 0, 1⟩ c x)) →
          (PrintedAt layers m x ↔ ∃ b ∈ bodies, InMaterial ⟨0, 0, z⟩ ⟨0, 0, 1⟩ b x)) := by
  obtain ⟨layers, n, g1, g2, g3⟩ := printed_material S A bodies.flatten sett hs hw hdeg hsm lo hi t lw M he hh ht htl hb hlw hd hsp hfp
  refine ⟨layers, n, g1, g2, fun m hm z hz good x hx far slim => ?_⟩
  subst hz
  have := (g3 m hm good x hx far slim).trans (material_flatten hbw hw hdeg hsm good hx far)
  exact ⟨this, fun h => this.trans (oddBodies_disjoint h)⟩

/-- the same in `float64` -/
theorem C138_float (S : Sorter) (A : Arrival B64) (bodies : List (List RTri)) (lo hi t lw : ℝ) (hbw : ∀ b ∈ bodies, Watertight b) (hw : Watertight bodies.flatten)
    (hdeg : ∀ t ∈ bodies.flatten, t.nrm ≠ 0) (he : Extent bodies.flatten zUp lo hi) (hh : 1 / 10 ^ 6 ≤ hi - lo) (tF : IsF t) (t0 : 1 / 1000 ≤ t) (t1 : t ≤ 1000)
    (sett : Settings B64) (ht : sett.layerHeight = B64.of t) (hs : sett.supportsOn = false)
    (hF : ∀ w ∈ allVerts bodies.flatten, w.isF) (hR : ∀ w ∈ allVerts bodies.flatten, w.inRange)
    (hsafe : ∀ m : ℕ, (m : ℤ) < floatCount lo hi t → FloatSafe (floatLevel lo hi t m) bodies.flatten) (h2 : 2 ≤ floatCount lo hi t)
    (hlw : sett.gs.lineWidth = B64.of lw) (Flw : IsF lw) (l0 : 1 / 50 ≤ lw) (l1 : lw ≤ 10)
    (hd0 : 1 ≤ densityShare sett.fillingType sett.fillDensity) (hd1 : densityShare sett.fillingType sett.fillDensity ≤ 100) :
    ∃ layers : List (Layer B64), sliceByVectorToGcode S A (fmesh bodies.flatten) zUp.f64v sett = .ok ((Gcode.new sett.gs).addLayers layers) ∧
      ∀ m : ℕ, (m : ℤ) < floatCount lo hi t → ∀ z : ℝ, z = floatLevel lo hi t m → ∀ x : R3, x.z = z →
        FarFromSurface (1 / 10 ^ 8) (lvl z) zUp bodies.flatten x → OffThinCuts z bodies.flatten x →
        (PrintedAtF layers m x ↔ InOddBodies z bodies x) ∧
        (bodies.Pairwise (fun b c => ¬ (InMaterial (lvl z) zUp b x ∧ InMaterial (lvl z) zUp c x)) → (PrintedAtF layers m x ↔ ∃ b ∈ bodies, InMaterial (lvl z) zUp b x)) := by
  obtain ⟨layers, g1, g3⟩ := printed_materialF S A bodies.flatten lo hi t lw hw hdeg he hh tF t0 t1 sett ht hs hF hR hsafe h2 hlw Flw l0 l1 hd0 hd1
  refine ⟨layers, g1, fun m hm z hz x hx far thin => ?_⟩
  subst hz
  have H := hsafe m hm
  have good : GoodLevel bodies.flatten (floatLevel lo hi t m) := ⟨fun w h hc => H.offPlane w h (by rw [height_lvl]; linarith), H.wellSep⟩
  have : PrintedAtF layers m x ↔ InOddBodies (floatLevel lo hi t m) bodies x := (g3 m hm x hx far thin).trans (material_flatten hbw hw hdeg H.small good hx far)
  exact ⟨this, fun h => this.trans (oddBodies_disjoint h)⟩

/-- Non-vacuity: a box in a box meets the hypotheses at every level of the grid between the bottom and the top of the inner one; in an odd number of the two is the rectangle without the inner rectangle. -/
example {k : ℕ} {p q p' q' : R3} (H : GoodBox k p q) (H' : GoodBox k p' q') (I : Inside3 p q p' q') {h : ℝ} (hg : Dyadic k h) (h0 : p'.z < h) (h1 : h < q'.z) :
    (∀ b ∈ [brick p q, brick p' q'], Watertight b) ∧ Watertight [brick p q, brick p' q'].flatten ∧ FloatSafe h [brick p q, brick p' q'].flatten ∧
      ∀ x : R3, x.z = h → OffOutline p q x → OffOutline p' q' x → (InOddBodies h [brick p q, brick p' q'] x ↔ InRectangle p q x ∧ ¬ InRectangle p' q' x) := by
  obtain ⟨W, G, -⟩ := hollow_box H H' I
  obtain ⟨i1, i2, i3, i4, i5, i6⟩ := I
  have e : [brick p q, brick p' q'].flatten = brick p q ++ brick p' q' := by simp
  rw [e]
  refine ⟨fun b hb => ?_, W, C109_safe G hg ?_ (fun w hw hc => ?_), fun x hx off off' => ?_⟩
  · rcases List.mem_pair.1 hb with rfl | rfl
    · exact box_watertight H.below
    · exact box_watertight H'.below
  · have a := abs_le.1 H.pr.2.2; have b := abs_le.1 H.qr.2.2
    rw [abs_le]; constructor <;> linarith
  · rcases (by simpa [allVerts] using hw : w ∈ allVerts (brick p q) ∨ w ∈ allVerts (brick p' q')) with h | h <;> rcases (box_vert h).2.2 with f | f <;> linarith
  · have m1 := box_material H hg (by linarith) (by linarith) hx off
    have m2 := box_material H' hg h0 h1 hx off'
    have sub : InRectangle p' q' x → InRectangle p q x := fun ⟨r1, r2, r3, r4⟩ => ⟨by linarith, by linarith, by linarith, by linarith⟩
    change InMaterial ⟨0, 0, h⟩ ⟨0, 0, 1⟩ _ x ↔ _ at m1
    change InMaterial ⟨0, 0, h⟩ ⟨0, 0, 1⟩ _ x ↔ _ at m2
    rw [oddBodies_pair, m1, m2]
    tauto

end Goosli
