import Verif.Props.C142
/-!
# C143: finer layers contain the coarser ones
-/
set_option autoImplicit false
namespace Goosli
open Flt

/-- the level in the middle of layer `m` of `k` is the level in the middle of layer `(2j+1)m + j` of `(2j+1)k` -/
theorem finer_level (lo H : ℝ) (j k m : ℕ) (hk : 0 < k) :
    lo + ((((2 * j + 1) * m + j : ℕ) : ℝ) + 1 / 2) * (H / ((2 * j + 1) * k : ℕ)) = lo + ((m : ℝ) + 1 / 2) * (H / k) := by
  have k0 : (k : ℝ) ≠ 0 := by exact_mod_cast hk.ne'
  have j0 : (2 * (j : ℝ) + 1) ≠ 0 := by positivity
  push_cast
  field_simp
  ring

/-- **C143.** A watertight model whose height is `k` layer heights, sliced and filled vertically in exact arithmetic with the rounding of sections (supports off), and sliced again
with layers of a third, a fifth, ... of the height: the layers of the coarse print are found in the fine print, layer `m` as layer `(2j+1)m + j`. The other settings, the
orders of the sorts and of the arrival of layers may be different. -/
theorem C143_finer (S S' : Sorter) (A A' : Arrival XR) (ts : List RTri) (sett sett' : Settings XR) (hs : sett.supportsOn = false) (hs' : sett'.supportsOn = false)
    (hw : Watertight ts) (hdeg : ∀ t ∈ ts, t.nrm ≠ 0) (hsm : ∀ w ∈ allVerts ts, w.small) (lo hi t lw M lw' M' : ℝ) (j k : ℕ)
    (he : Extent ts ⟨0, 0, 1⟩ lo hi) (hh : sett.layerHeight = XR.fin t) (hh' : sett'.layerHeight = XR.fin (t / (2 * j + 1))) (ht : 0 < t) (hk : 2 ≤ k) (hkt : hi - lo = k * t)
    (hb : (2 * j + 1) * k < 2 ^ 63) (hlw : sett.gs.lineWidth = XR.fin lw) (hd : patternDensity sett ≠ 0) (hlw' : sett'.gs.lineWidth = XR.fin lw') (hd' : patternDensity sett' ≠ 0)
    (hsp : FillBounds ts (100 / (patternDensity sett : ℝ) * lw) M) (hfp : FillBounds ts lw M)
    (hsp' : FillBounds ts (100 / (patternDensity sett' : ℝ) * lw') M') (hfp' : FillBounds ts lw' M') :
    ∃ layers layers' : List (Layer XR), sliceByVectorToGcode S A (rmesh ts) (R3.mk 0 0 1).vec sett = .ok ((Gcode.new sett.gs).addLayers layers) ∧
      sliceByVectorToGcode S' A' (rmesh ts) (R3.mk 0 0 1).vec sett' = .ok ((Gcode.new sett'.gs).addLayers layers') ∧
      ∀ m < k, ∀ z : ℝ, z = lo + ((m : ℝ) + 1 / 2) * t → GoodLevel ts z → ∀ x : R3, x.z = z →
        FarFromSurface (1 / 10 ^ 8) ⟨0, 0, z⟩ ⟨0, 0, 1⟩ ts x → OffSlimCuts ⟨0, 0, z⟩ ⟨0, 0, 1⟩ ts x →
        (PrintedAt layers' ((2 * j + 1) * m + j) x ↔ PrintedAt layers m x) := by
  have j0 : (0 : ℝ) < 2 * j + 1 := by positivity
  have k2 : (2 : ℝ) ≤ k := by exact_mod_cast hk
  have c1 : ⌈(hi - lo) / t⌉ = (k : ℤ) := by
    rw [hkt, mul_div_assoc, div_self ht.ne', mul_one]
    exact Int.ceil_natCast k
  have c2 : ⌈(hi - lo) / (t / (2 * j + 1))⌉ = (((2 * j + 1) * k : ℕ) : ℤ) := by
    have : (hi - lo) / (t / (2 * j + 1)) = (((2 * j + 1) * k : ℕ) : ℝ) := by
      rw [hkt]; push_cast; field_simp
    rw [this]
    exact Int.ceil_natCast _
  have tl : t / (2 * j + 1) ≤ t := by
    rw [div_le_iff₀ j0]
    have : (0 : ℝ) ≤ j := by positivity
    nlinarith
  obtain ⟨layers, n, g1, g2, g3⟩ := printed_material S A ts sett hs hw hdeg hsm lo hi t lw M he hh ht (by rw [hkt]; nlinarith) (by rw [c1]; norm_cast; nlinarith) hlw hd hsp hfp
  obtain ⟨layers', n', l1, l2, l3⟩ := printed_material S' A' ts sett' hs' hw hdeg hsm lo hi (t / (2 * j + 1)) lw' M' he hh' (div_pos ht j0) (by rw [hkt]; nlinarith)
    (by rw [c2]; exact_mod_cast hb) hlw' hd' hsp' hfp'
  rw [c1] at g2
  rw [c2] at l2
  have e1 : n = k := by exact_mod_cast g2
  have e2 : n' = (2 * j + 1) * k := by exact_mod_cast l2
  subst e1; subst e2
  refine ⟨layers, layers', g1, l1, fun m hm z hz good x hx far slim => ?_⟩
  have n0 : (n : ℝ) ≠ 0 := by positivity
  have ez : z = lo + ((m : ℝ) + 1 / 2) * ((hi - lo) / n) := by rw [hz, hkt]; field_simp
  have ez' : z = lo + ((((2 * j + 1) * m + j : ℕ) : ℝ) + 1 / 2) * ((hi - lo) / ((2 * j + 1) * n : ℕ)) := by rw [finer_level lo (hi - lo) j n m (by omega), ← ez]
  have hm' : (2 * j + 1) * m + j < (2 * j + 1) * n := by
    have : (2 * j + 1) * (m + 1) ≤ (2 * j + 1) * n := Nat.mul_le_mul_left _ hm
    rw [Nat.mul_add] at this
    omega
  have a : PrintedAt layers m x ↔ InMaterial ⟨0, 0, z⟩ ⟨0, 0, 1⟩ ts x := by
    have := g3 m hm
    rw [← ez] at this
    exact this good x hx far slim
  have b : PrintedAt layers' ((2 * j + 1) * m + j) x ↔ InMaterial ⟨0, 0, z⟩ ⟨0, 0, 1⟩ ts x := by
    have := l3 _ hm'
    rw [← ez'] at this
    exact_mod_cast this good x hx far slim
  rw [a, b]

/-- **C143, float64.** The same in the arithmetic of the program, for models on a grid (C109) that are cut into `n` and into `(2j+1)n` even layers, no vertex being in the middle
of a layer. -/
theorem C143_float (S S' : Sorter) (A A' : Arrival B64) (ts : List RTri) (i k n j : ℕ) (G : GridModel i k ts) (hw : Watertight ts) (lo hi t t' lw lw' : ℝ)
    (he : Extent ts zUp lo hi) (E : EvenLayers k n lo hi t) (E' : EvenLayers k ((2 * j + 1) * n) lo hi t') (hn : 2 ≤ n)
    (hoff : ∀ w ∈ allVerts ts, ∀ m < (2 * j + 1) * n, w.z ≠ lo + (2 * m + 1 : ℕ) * (t' / 2))
    (sett sett' : Settings B64) (ht : sett.layerHeight = B64.of t) (ht' : sett'.layerHeight = B64.of t') (hs : sett.supportsOn = false) (hs' : sett'.supportsOn = false)
    (hlw : sett.gs.lineWidth = B64.of lw) (Flw : IsF lw) (l0 : 1 / 50 ≤ lw) (l1 : lw ≤ 10)
    (hlw' : sett'.gs.lineWidth = B64.of lw') (Flw' : IsF lw') (l0' : 1 / 50 ≤ lw') (l1' : lw' ≤ 10)
    (hd0 : 1 ≤ densityShare sett.fillingType sett.fillDensity) (hd1 : densityShare sett.fillingType sett.fillDensity ≤ 100)
    (hd0' : 1 ≤ densityShare sett'.fillingType sett'.fillDensity) (hd1' : densityShare sett'.fillingType sett'.fillDensity ≤ 100) :
    ∃ layers layers' : List (Layer B64), sliceByVectorToGcode S A (fmesh ts) zUp.f64v sett = .ok ((Gcode.new sett.gs).addLayers layers) ∧
      sliceByVectorToGcode S' A' (fmesh ts) zUp.f64v sett' = .ok ((Gcode.new sett'.gs).addLayers layers') ∧
      ∀ m < n, ∀ x : R3, x.z = lo + (m + 1 / 2) * t → FarFromSurface (1 / 10 ^ 8) (lvl x.z) zUp ts x → OffThinCuts x.z ts x →
        (PrintedAtF layers' ((2 * j + 1) * m + j : ℕ) x ↔ PrintedAtF layers m x) := by
  have n0 : (0 : ℝ) < n := by exact_mod_cast (by omega : 0 < n)
  have tt : t = (2 * j + 1) * t' := by
    have h1 := E.height
    have h2 := E'.height
    rw [h1] at h2
    push_cast at h2
    have : (n : ℝ) * (t - (2 * j + 1) * t') = 0 := by linarith
    rcases mul_eq_zero.1 this with h | h
    · exact absurd h n0.ne'
    · linarith
  have less : ∀ m < n, (2 * j + 1) * m + j < (2 * j + 1) * n := by
    intro m hm
    have : (2 * j + 1) * (m + 1) ≤ (2 * j + 1) * n := Nat.mul_le_mul_left _ hm
    rw [Nat.mul_add] at this
    omega
  have n2 : 2 ≤ (2 * j + 1) * n := by nlinarith
  have Gn : GridModel i k [] := ⟨G.fine, G.coarse, by simp [allVerts], by simp [allVerts], by simp [dirEdges], by simp, by simp [EdgesApart, dirEdges]⟩
  obtain ⟨B, hB⟩ : ∃ B, ∀ w ∈ allVerts ts, w.dot ⟨1, 0, 0⟩ < B := ⟨1001, fun w h => by
    have := (abs_le.1 (G.range w h).1).2
    simp [R3.dot]; linarith⟩
  have D : SideBySide ⟨1, 0, 0⟩ B ts [] := ⟨rfl, hB, by simp [allVerts]⟩
  have an : ts ++ [] = ts := List.append_nil ts
  obtain ⟨layers, g1, g2⟩ := C136_float S A ts [] ⟨1, 0, 0⟩ B D i k n G Gn hw watertight_nil lo hi t lw (by rw [an]; exact he) E hn
    (fun w hv m hm e => by
      rw [an] at hv
      refine hoff w hv _ (less m hm) ?_
      rw [e, tt]; push_cast; ring) sett ht hs hlw Flw l0 l1 hd0 hd1
  obtain ⟨layers', k1, k2⟩ := C136_float S' A' ts [] ⟨1, 0, 0⟩ B D i k _ G Gn hw watertight_nil lo hi t' lw' (by rw [an]; exact he) E' n2
    (by rw [an]; exact hoff) sett' ht' hs' hlw' Flw' l0' l1' hd0' hd1'
  rw [an] at g1 k1
  simp only [an] at g2 k2
  refine ⟨layers, layers', g1, k1, fun m hm x hx far thin => ?_⟩
  rw [k2 _ (less m hm) x.z (by rw [hx, tt]; push_cast; ring) x rfl far thin, g2 m hm x.z hx x rfl far thin]

/-- Non-vacuity: a box with a height of 3 mm, in layers of 3/4 and of 1/4 mm. -/
example {p q : R3} (H : GoodBox 3 p q) (hz : q.z - p.z = 3) : EvenLayers 3 4 p.z q.z (3 / 4) ∧ EvenLayers 3 ((2 * 1 + 1) * 4) p.z q.z (1 / 4) ∧
    ∀ w ∈ allVerts (brick p q), ∀ m < (2 * 1 + 1) * 4, w.z ≠ p.z + (2 * m + 1 : ℕ) * ((1 / 4 : ℝ) / 2) := by
  have s1 : rd (((4 : ℕ) : ℝ) * (3 / 4) * rd (1 / ((4 : ℕ) : ℝ))) = 3 / 4 := by
    have := even_pow2 (t := 3 / 4) ⟨3, -2, by norm_num, by norm_num, by norm_num⟩ 2 (by norm_num)
    norm_num at this ⊢
    exact this
  have s2 : rd (((12 : ℕ) : ℝ) * (1 / 4) * rd (1 / ((12 : ℕ) : ℝ))) = 1 / 4 := by
    have := even_upto48 (n := 12) (by omega) (by omega) (b := -2) (by norm_num)
    have e : (2 : ℝ) ^ (-2 : ℤ) = 1 / 4 := by norm_num
    rwa [e] at this
  refine ⟨⟨H.pz.mono (by norm_num), ⟨3, by norm_num⟩, by norm_num, by rw [hz]; norm_num, H.pr.2.2, H.qr.2.2, s1⟩,
    ⟨H.pz.mono (by norm_num), ⟨1, by norm_num⟩, by norm_num, by rw [hz]; norm_num, H.pr.2.2, H.qr.2.2, s2⟩, fun w hw m hm => ?_⟩
  have m0 : (0 : ℝ) < (2 * m + 1 : ℕ) := by positivity
  rcases (box_vert hw).2.2 with e | e <;> rw [e] <;> intro h
  · linarith
  · have : ((2 * m + 1 : ℕ) : ℝ) = ((24 : ℕ) : ℝ) := by push_cast at h ⊢; linarith
    have : 2 * m + 1 = 24 := by exact_mod_cast this
    omega

end Goosli
