import Verif.Props.C140
/-!
# C141: bodies above each other
-/
set_option autoImplicit false
namespace Goosli
open Flt

/-- spec: the level `z` goes above or below the whole body -/
def LevelMisses (z : ℝ) (ts : List RTri) : Prop := (∀ w ∈ allVerts ts, w.z < z) ∨ ∀ w ∈ allVerts ts, z < w.z

/-- a body has no material at levels above and below it -/
theorem material_misses {z : ℝ} {ts : List RTri} (h : LevelMisses z ts) {x : R3} (hx : x.z = z) : ¬ InMaterial ⟨0, 0, z⟩ ⟨0, 0, 1⟩ ts x := by
  rintro ⟨d, hd, -, odd⟩
  have dz : d.z = 0 := by simpa [R3.dot] using hd
  have du : ∀ w : R3, w.dot ⟨0, 0, 1⟩ = w.z := fun w => by simp [R3.dot]
  have dd : ∀ w : R3, w.dot ⟨0, 0, -1⟩ = -w.z := fun w => by simp [R3.dot]
  refine none_odd (fun t ht ⟨s, _, hon⟩ => ?_) odd
  have hz : (x + s • d).z = z := by simp [dz, hx]
  have mem : ∀ w ∈ t.verts, w ∈ allVerts ts := fun w hw => List.mem_flatMap.2 ⟨t, ht, hw⟩
  rcases h with h | h
  · have := onTri_dot (g := ⟨0, 0, 1⟩) (c := z) (fun w hw => by rw [du]; exact h w (mem w hw)) hon
    rw [du, hz] at this
    exact lt_irrefl _ this
  · have := onTri_dot (g := ⟨0, 0, -1⟩) (c := -z) (fun w hw => by rw [dd]; exact neg_lt_neg (h w (mem w hw))) hon
    rw [dd, hz] at this
    exact lt_irrefl _ this

open Classical in
/-- bodies that miss the level do not count -/
theorem oddBodies_misses {z : ℝ} {x : R3} (hx : x.z = z) (bodies : List (List RTri)) :
    InOddBodies z bodies x ↔ InOddBodies z (bodies.filter fun b => decide (¬ LevelMisses z b)) x := by
  unfold InOddBodies
  rw [List.countP_filter]
  have : bodies.countP (fun b => decide (InMaterial ⟨0, 0, z⟩ ⟨0, 0, 1⟩ b x)) =
      bodies.countP (fun b => decide (InMaterial ⟨0, 0, z⟩ ⟨0, 0, 1⟩ b x) && decide (¬ LevelMisses z b)) := by
    refine List.countP_congr fun b _ => ?_
    simp only [decide_eq_true_eq, Bool.and_eq_true]
    exact ⟨fun h => ⟨h, fun hm => material_misses hm hx h⟩, fun h => h.1⟩
  rw [this]

open Classical in
/-- **C141.** A file with any number of closed bodies, sliced and filled vertically in exact arithmetic with the rounding of sections (supports off): what is printed at a good
level depends only on the bodies that reach it. Where only one body reaches it the layer is that of this body, and in a gap between bodies above each other nothing is printed. -/
theorem C141_stacked (S : Sorter) (A : Arrival XR) (bodies : List (List RTri)) (sett : Settings XR) (hs : sett.supportsOn = false)
    (hbw : ∀ b ∈ bodies, Watertight b) (hw : Watertight bodies.flatten) (hdeg : ∀ t ∈ bodies.flatten, t.nrm ≠ 0) (hsm : ∀ w ∈ allVerts bodies.flatten, w.small)
    (lo hi t lw M : ℝ) (he : Extent bodies.flatten ⟨0, 0, 1⟩ lo hi) (hh : sett.layerHeight = XR.fin t) (ht : 0 < t) (htl : t < hi - lo) (hb : ⌈(hi - lo) / t⌉ < 2 ^ 63)
    (hlw : sett.gs.lineWidth = XR.fin lw) (hd : patternDensity sett ≠ 0)
    (hsp : FillBounds bodies.flatten (100 / (patternDensity sett : ℝ) * lw) M) (hfp : FillBounds bodies.flatten lw M) :
    ∃ (layers : List (Layer XR)) (n : ℕ), sliceByVectorToGcode S A (rmesh bodies.flatten) (R3.mk 0 0 1).vec sett = .ok ((Gcode.new sett.gs).addLayers layers) ∧
      (n : ℤ) = ⌈(hi - lo) / t⌉ ∧
      ∀ m < n, ∀ z : ℝ, z = lo + ((m : ℝ) + 1 / 2) * ((hi - lo) / n) → GoodLevel bodies.flatten z → ∀ x : R3, x.z = z →
        FarFromSurface (1 / 10 ^ 8) ⟨0, 0, z⟩ ⟨0, 0, 1⟩ bodies.flatten x → OffSlimCuts ⟨0, 0, z⟩ ⟨0, 0, 1⟩ bodies.flatten x →
        (PrintedAt layers m x ↔ InOddBodies z (bodies.filter fun b => decide (¬ LevelMisses z b)) x) ∧
        (∀ b, bodies.filter (fun b => decide (¬ LevelMisses z b)) = [b] → (PrintedAt layers m x ↔ InMaterial ⟨0, 0, z⟩ ⟨0, 0, 1⟩ b x)) ∧
        ((∀ b ∈ bodies, LevelMisses z b) → ¬ PrintedAt layers m x) := by
  obtain ⟨layers, n, g1, g2, g3⟩ := C138_bodies S A bodies sett hs hbw hw hdeg hsm lo hi t lw M he hh ht htl hb hlw hd hsp hfp
  refine ⟨layers, n, g1, g2, fun m hm z hz good x hx far slim => ?_⟩
  have k := (g3 m hm z hz good x hx far slim).1.trans (oddBodies_misses hx bodies)
  refine ⟨k, fun b hb => ?_, fun h => ?_⟩
  · rw [k, hb, oddBodies_disjoint (List.pairwise_singleton _ _)]
    simp
  · rw [k, List.filter_eq_nil_iff.2 fun b hb => by simpa using h b hb]
    simp [InOddBodies]

open Classical in
/-- the same in `float64` -/
theorem C141_float (S : Sorter) (A : Arrival B64) (bodies : List (List RTri)) (lo hi t lw : ℝ) (hbw : ∀ b ∈ bodies, Watertight b) (hw : Watertight bodies.flatten)
    (hdeg : ∀ t ∈ bodies.flatten, t.nrm ≠ 0) (he : Extent bodies.flatten zUp lo hi) (hh : 1 / 10 ^ 6 ≤ hi - lo) (tF : IsF t) (t0 : 1 / 1000 ≤ t) (t1 : t ≤ 1000)
    (sett : Settings B64) (ht : sett.layerHeight = B64.of t) (hs : sett.supportsOn = false)
    (hF : ∀ w ∈ allVerts bodies.flatten, w.isF) (hR : ∀ w ∈ allVerts bodies.flatten, w.inRange)
    (hsafe : ∀ m : ℕ, (m : ℤ) < floatCount lo hi t → FloatSafe (floatLevel lo hi t m) bodies.flatten) (h2 : 2 ≤ floatCount lo hi t)
    (hlw : sett.gs.lineWidth = B64.of lw) (Flw : IsF lw) (l0 : 1 / 50 ≤ lw) (l1 : lw ≤ 10)
    (hd0 : 1 ≤ densityShare sett.fillingType sett.fillDensity) (hd1 : densityShare sett.fillingType sett.fillDensity ≤ 100) :
    ∃ layers : List (Layer B64), sliceByVectorToGcode S A (fmesh bodies.flatten) zUp.f64v sett = .ok ((Gcode.new sett.gs).addLayers layers) ∧
      ∀ m : ℕ, (m : ℤ) < floatCount lo hi t → ∀ z : ℝ, z = floatLevel lo hi t m → ∀ x : R3, x.z = z →
        FarFromSurface (1 / 10 ^ 8) (lvl z) zUp bodies.flatten x → OffThinCuts z bodies.flatten x →
        (PrintedAtF layers m x ↔ InOddBodies z (bodies.filter fun b => decide (¬ LevelMisses z b)) x) ∧
        (∀ b, bodies.filter (fun b => decide (¬ LevelMisses z b)) = [b] → (PrintedAtF layers m x ↔ InMaterial (lvl z) zUp b x)) ∧
        ((∀ b ∈ bodies, LevelMisses z b) → ¬ PrintedAtF layers m x) := by
  obtain ⟨layers, g1, g3⟩ := C138_float S A bodies lo hi t lw hbw hw hdeg he hh tF t0 t1 sett ht hs hF hR hsafe h2 hlw Flw l0 l1 hd0 hd1
  refine ⟨layers, g1, fun m hm z hz x hx far thin => ?_⟩
  have k := (g3 m hm z hz x hx far thin).1.trans (oddBodies_misses hx bodies)
  refine ⟨k, fun b hb => ?_, fun h => ?_⟩
  · rw [k, hb, oddBodies_disjoint (List.pairwise_singleton _ _)]
    simp only [List.mem_singleton, exists_eq_left]
    exact Iff.rfl
  · rw [k, List.filter_eq_nil_iff.2 fun b hb => by simpa using h b hb]
    simp [InOddBodies]

/-- Non-vacuity: two boxes above each other are watertight together and on the grid; a level in the gap misses both, a level through the lower one misses the upper one only. -/
example {k : ℕ} {p q p' q' : R3} (H : GoodBox k p q) (H' : GoodBox k p' q') (hz : q.z < p'.z) {z : ℝ} :
    Watertight (brick p q ++ brick p' q') ∧ (q.z < z → z < p'.z → LevelMisses z (brick p q) ∧ LevelMisses z (brick p' q')) ∧
      (p.z < z → z < q.z → ¬ LevelMisses z (brick p q) ∧ LevelMisses z (brick p' q')) := by
  have b := H.below.2.2
  have b' := H'.below.2.2
  have up : z < p'.z → LevelMisses z (brick p' q') := fun h => Or.inr fun w hw => by rcases (box_vert hw).2.2 with e | e <;> linarith
  refine ⟨watertight_append (box_watertight H.below) (box_watertight H'.below) (fun w h h' => ?_), fun h h' => ⟨Or.inl fun w hw => ?_, up h'⟩, fun h h' => ⟨?_, up (by linarith)⟩⟩
  · rcases (box_vert h).2.2 with e | e <;> rcases (box_vert h').2.2 with e' | e' <;> linarith
  · rcases (box_vert hw).2.2 with e | e <;> linarith
  · have c0 : cornerAt p q (false, false, false) ∈ allVerts (brick p q) := by
      rw [box_verts]; exact List.mem_map.2 ⟨_, by decide, rfl⟩
    have c1 : cornerAt p q (true, true, true) ∈ allVerts (brick p q) := by
      rw [box_verts]; exact List.mem_map.2 ⟨_, by decide, rfl⟩
    rintro (m | m)
    · have := m _ c1
      simp [cornerAt] at this
      linarith
    · have := m _ c0
      simp [cornerAt] at this
      linarith

end Goosli
