import Verif.Props.C95
/-!
# C96: the number of layers of a model that is a whole number of layers high

Binary STL files hold `float32` numbers, the layer height is a `float64` parsed from the command line. So the height of a model
is a multiple of the layer height only up to the precision of these numbers, and `math.Ceil` makes a difference of it.
-/
set_option linter.unusedSectionVars false
set_option autoImplicit false
namespace Goosli
open Flt

/-- **C96 (exact).** If the height is exactly `k` layer heights and is itself a `float64`, there are `k` planes. -/
theorem C96_exact (S : Sorter) (ts : List RTri) (lo hi t : ℝ) (k : ℕ) (hF : ∀ w ∈ allVerts ts, w.isF)
    (hR : ∀ w ∈ allVerts ts, w.inRange) (he : Extent ts zUp lo hi) (hh : 1 / 10 ^ 6 ≤ hi - lo) (tF : IsF t) (t0 : 1 / 1000 ≤ t)
    (t1 : t ≤ 1000) (hk : hi - lo = k * t) (hrep : Rep (hi - lo)) (sett : Settings B64) (ht : sett.layerHeight = B64.of t)
    (hs : sett.supportsOn = false) :
    ∃ jobs, sliceJobs S (fmesh ts) zUp.f64v.normalize sett = .ok jobs ∧ jobs.length = k := by
  obtain ⟨wl, mwl, ewl⟩ := he.1.1
  obtain ⟨wh, mwh, ewh⟩ := he.2.1
  rw [dot_zUp] at ewl ewh
  have H : FloatSizes lo hi t := ⟨ewl ▸ (hF wl mwl).2.2, ewh ▸ (hF wh mwh).2.2, tF, ewl ▸ (hR wl mwl).2.2, ewh ▸ (hR wh mwh).2.2,
    t0, t1, hh⟩
  obtain ⟨jobs, hj, hlen, _⟩ := jobs_f64 S hF hR he H sett ht hs
  rw [normalize_up]
  refine ⟨jobs, hj, ?_⟩
  have tp : 0 < t := by linarith
  have hkb : (k : ℝ) ≤ 2000000 := by
    have := H.diff
    rw [hk] at this
    by_contra hc
    push Not at hc
    nlinarith
  have hkn : k ≤ 2000000 := by exact_mod_cast hkb
  have : floatCount lo hi t = k := by
    unfold floatCount
    rw [rd_of_rep hrep, hk, mul_div_assoc, div_self tp.ne', mul_one]
    have hb : (2 : ℤ) ^ 53 = 9007199254740992 := by norm_num
    have r : Rep ((k : ℤ) : ℝ) := rep_int (by rw [abs_of_nonneg (by omega)]; omega)
    have r' : Rep (k : ℝ) := by simpa using r
    rw [rd_of_rep r', Int.ceil_natCast]
  rw [this] at hlen
  exact_mod_cast hlen

/-- **C96 (in general).** If the height is `k` layer heights up to one part in a million of a layer, there are `k` or `k + 1`
planes. Missing from the property: that there are `k`. -/
theorem C96_layers_partial (S : Sorter) (ts : List RTri) (lo hi t : ℝ) (k : ℕ) (hF : ∀ w ∈ allVerts ts, w.isF)
    (hR : ∀ w ∈ allVerts ts, w.inRange) (he : Extent ts zUp lo hi) (hh : 1 / 10 ^ 6 ≤ hi - lo) (tF : IsF t) (t0 : 1 / 1000 ≤ t)
    (t1 : t ≤ 1000) (hk : |hi - lo - k * t| ≤ t / 10 ^ 6) (sett : Settings B64) (ht : sett.layerHeight = B64.of t)
    (hs : sett.supportsOn = false) :
    ∃ jobs, sliceJobs S (fmesh ts) zUp.f64v.normalize sett = .ok jobs ∧ (jobs.length = k ∨ jobs.length = k + 1) := by
  obtain ⟨jobs, hj, _, h1, h2, _⟩ := C95_planes S ts lo hi t hF hR he hh tF t0 t1 sett ht hs
  refine ⟨jobs, hj, ?_⟩
  have tp : 0 < t := by linarith
  have a := abs_le.1 hk
  obtain ⟨wl, mwl, ewl⟩ := he.1.1
  obtain ⟨wh, mwh, ewh⟩ := he.2.1
  rw [dot_zUp] at ewl ewh
  have b1 := abs_le.1 (ewl ▸ (hR wl mwl).2.2)
  have b2 := abs_le.1 (ewh ▸ (hR wh mwh).2.2)
  have hkb : (k : ℝ) * t ≤ 2001 := by linarith [a.2, b1.1, b2.2]
  have hkn : (k : ℝ) ≤ 2001000 := by
    by_contra hc
    push Not at hc
    nlinarith
  have hk0 : (0 : ℝ) ≤ k := Nat.cast_nonneg k
  have u : (jobs.length : ℝ) < k + 2 := by
    have h3 : ((jobs.length : ℝ) - 1) * t < (k + 1 / 10 ^ 6) * t * (1 + 3 / 10 ^ 16) := by nlinarith [a.2]
    have h4 : (jobs.length : ℝ) - 1 < (k + 1 / 10 ^ 6) * (1 + 3 / 10 ^ 16) := by
      by_contra hc
      push Not at hc
      nlinarith [mul_le_mul_of_nonneg_right hc tp.le]
    nlinarith
  have l : (k : ℝ) < jobs.length + 1 := by
    by_contra hc
    push Not at hc
    have h3 : (k - 1 / 10 ^ 6) * t ≤ jobs.length * t * (1 + 3 / 10 ^ 16) := by nlinarith [a.1]
    have h4 : (k : ℝ) - 1 / 10 ^ 6 ≤ jobs.length * (1 + 3 / 10 ^ 16) := by
      by_contra hd
      push Not at hd
      nlinarith [mul_lt_mul_of_pos_right hd tp]
    have h5 : (0 : ℝ) ≤ jobs.length := Nat.cast_nonneg _
    nlinarith
  have u' : jobs.length < k + 2 := by exact_mod_cast u
  have l' : k < jobs.length + 1 := by exact_mod_cast l
  omega

/-- the `float32` nearest to three tenths, as it is stored in an STL file: `10066330 / 2^25` -/
noncomputable def f32_03 : ℝ := ((10066330 : ℤ) : ℝ) * 2 ^ (-25 : ℤ)

/-- a tetrahedron with this height -/
noncomputable def lowTetra : List RTri :=
  [⟨⟨0, 0, 0⟩, ⟨0, 4, 0⟩, ⟨4, 0, 0⟩⟩, ⟨⟨0, 0, 0⟩, ⟨4, 0, 0⟩, ⟨0, 0, f32_03⟩⟩, ⟨⟨4, 0, 0⟩, ⟨0, 4, 0⟩, ⟨0, 0, f32_03⟩⟩,
    ⟨⟨0, 4, 0⟩, ⟨0, 0, 0⟩, ⟨0, 0, f32_03⟩⟩]

theorem f32_03_val : f32_03 = 10066330 / 33554432 := by
  unfold f32_03
  rw [zpow_neg]
  norm_num

theorem f32_03_near : |f32_03 - 3 / 10| ≤ 12 / 10 ^ 9 := by
  rw [f32_03_val, abs_le]; constructor <;> norm_num

theorem lowTetra_verts : ∀ w ∈ allVerts lowTetra, w = ⟨0, 0, 0⟩ ∨ w = ⟨4, 0, 0⟩ ∨ w = ⟨0, 4, 0⟩ ∨ w = ⟨0, 0, f32_03⟩ := by
  intro w hw
  simp only [allVerts, RTri.verts, lowTetra, List.flatMap_cons, List.flatMap_nil, List.append_nil, List.mem_cons, List.cons_append,
    List.nil_append, List.not_mem_nil, or_false] at hw
  rcases hw with h | h | h | h | h | h | h | h | h | h | h | h <;> simp [h]

theorem lowTetra_facts : (∀ w ∈ allVerts lowTetra, w.isF) ∧ (∀ w ∈ allVerts lowTetra, w.inRange) ∧ Extent lowTetra zUp 0 f32_03 := by
  have F4 : IsF 4 := by simpa using isF_int (n := 4) (by norm_num)
  have F0 := isF_zero
  have hv := f32_03_val
  have FZ : IsF f32_03 := isF_rep ⟨10066330, -25, by norm_num, by norm_num, rfl⟩ (by
    rw [hv, abs_of_pos (by norm_num)]; norm_num)
  have p : 0 ≤ f32_03 := by rw [hv]; norm_num
  refine ⟨?_, ?_, ⟨⟨⟨0, 0, 0⟩, by simp [lowTetra, allVerts, RTri.verts], by simp [R3.dot, zUp]⟩, ?_⟩,
    ⟨⟨⟨0, 0, f32_03⟩, by simp [lowTetra, allVerts, RTri.verts], by simp [R3.dot, zUp]⟩, ?_⟩⟩
  · intro w hw
    rcases lowTetra_verts w hw with rfl | rfl | rfl | rfl
    · exact ⟨F0, F0, F0⟩
    · exact ⟨F4, F0, F0⟩
    · exact ⟨F0, F4, F0⟩
    · exact ⟨F0, F0, FZ⟩
  · intro w hw
    rcases lowTetra_verts w hw with rfl | rfl | rfl | rfl
    · simp [R3.inRange]
    · simp [R3.inRange]; norm_num
    · simp [R3.inRange]; norm_num
    · refine ⟨by simp, by simp, ?_⟩
      show |f32_03| ≤ 1000
      rw [abs_of_nonneg p, hv]; norm_num
  · rintro x ⟨w, hw, rfl⟩
    rcases lowTetra_verts w hw with rfl | rfl | rfl | rfl <;> simp [R3.dot, zUp, p]
  · rintro x ⟨w, hw, rfl⟩
    rcases lowTetra_verts w hw with rfl | rfl | rfl | rfl <;> simp [R3.dot, zUp, p]

/-- **C96 (violated).** A model of height 0.3, written to an STL file, is sliced with layer height 0.1 into four layers, not
three. -/
theorem C96_violated (S : Sorter) (sett : Settings B64) (ht : sett.layerHeight = Flt.lit 1 1) (hs : sett.supportsOn = false) :
    Watertight lowTetra ∧ Extent lowTetra zUp 0 f32_03 ∧ |f32_03 - 3 * (1 / 10)| ≤ 12 / 10 ^ 9 ∧
      ∃ jobs, sliceJobs S (fmesh lowTetra) zUp.f64v.normalize sett = .ok jobs ∧ jobs.length = 4 := by
  obtain ⟨hF, hR, he⟩ := lowTetra_facts
  have hn := f32_03_near
  have hv := f32_03_val
  have t' := abs_le.1 tenth_near
  have z0 : f32_03 ≠ 0 := by rw [hv]; norm_num
  have hw : Watertight lowTetra := by
    have ext_iff : ∀ a b c x y z : ℝ, ((⟨a, b, c⟩ : R3) = ⟨x, y, z⟩) ↔ a = x ∧ b = y ∧ c = z := by
      intro a b c x y z; exact R3.mk.injEq .. ▸ Iff.rfl
    constructor
    · simp [lowTetra, dirEdges, RTri.edges, ext_iff, z0, z0.symm]
    · intro e he
      simp only [lowTetra, dirEdges, RTri.edges, List.flatMap_cons, List.flatMap_nil, List.append_nil, List.cons_append,
        List.nil_append, List.mem_cons, List.not_mem_nil, or_false] at he ⊢
      rcases he with h | h | h | h | h | h | h | h | h | h | h | h <;> rw [h] <;> simp [ext_iff]
  refine ⟨hw, he, by norm_num at hn ⊢; exact hn, ?_⟩
  have ht2 : sett.layerHeight = B64.of tenth := by
    rw [ht, B64.lit_of]; unfold tenth; rw [B64.of_rd]; norm_num
  obtain ⟨jobs, hj, _, h1, h2, _⟩ := C95_planes S lowTetra 0 f32_03 tenth hF hR he (by rw [hv]; norm_num)
    (isF_rd (by rw [abs_of_pos] <;> norm_num)) (by linarith [t'.1]) (by linarith [t'.2]) sett ht2 hs
  refine ⟨jobs, hj, ?_⟩
  rw [hv] at h1 h2
  have u : (jobs.length : ℝ) < 5 := by
    by_contra hc
    push Not at hc
    have : (4 : ℝ) * tenth ≤ (jobs.length - 1) * tenth := by nlinarith [t'.1]
    norm_num at h2
    linarith [t'.1]
  have l : (3 : ℝ) < jobs.length := by
    by_contra hc
    push Not at hc
    have : (jobs.length : ℝ) * tenth ≤ 3 * tenth := by nlinarith [t'.1]
    norm_num at h1
    nlinarith [t'.2]
  have u' : jobs.length < 5 := by exact_mod_cast u
  have l' : 3 < jobs.length := by exact_mod_cast l
  omega

/-- the hypotheses of `C96_layers_partial` are met by this model, those of `C96_exact` by the tetrahedron of height 4 -/
example : |f32_03 - 0 - (3 : ℕ) * tenth| ≤ tenth / 10 ^ 6 ∧ (4 : ℝ) - 0 = (4 : ℕ) * 1 ∧ Rep (4 - 0) := by
  have t' := abs_le.1 tenth_near
  have hn := abs_le.1 f32_03_near
  refine ⟨?_, by norm_num, by rw [sub_zero]; simpa using rep_int (n := 4) (by norm_num)⟩
  rw [abs_le]
  push_cast
  constructor <;> linarith [t'.1, t'.2, hn.1, hn.2]

end Goosli
