import Verif.Proofs.B64Sweep
import Verif.Props.C01
/-!
# C95: slicing along the vertical in `float64`

How many planes there are, where they are, and what their layers contain, for the program as it computes: with the rounding
of every operation. The numbers are `B64`, the specification is about real numbers.
-/
set_option linter.unusedSectionVars false
set_option autoImplicit false
namespace Goosli
open Flt

/-- **C95 (planes).** For a model from height `lo` to `hi` and layers of height `t` the program makes `n` planes, where `n` is
`(hi - lo) / t` rounded up, except that the quotient may be off by three parts in `10^16`. The plane number `m` is horizontal
at the middle of the `m`-th of `n` equal layers, up to `(m + 10) * 2e-13`. -/
theorem C95_planes (S : Sorter) (ts : List RTri) (lo hi t : ℝ) (hF : ∀ w ∈ allVerts ts, w.isF) (hR : ∀ w ∈ allVerts ts, w.inRange)
    (he : Extent ts zUp lo hi) (hh : 1 / 10 ^ 6 ≤ hi - lo) (tF : IsF t) (t0 : 1 / 1000 ≤ t) (t1 : t ≤ 1000)
    (sett : Settings B64) (ht : sett.layerHeight = B64.of t) (hs : sett.supportsOn = false) :
    ∃ jobs, sliceJobs S (fmesh ts) zUp.f64v.normalize sett = .ok jobs ∧ 1 ≤ jobs.length ∧
      hi - lo ≤ jobs.length * t * (1 + 3 / 10 ^ 16) ∧ (jobs.length - 1) * t < (hi - lo) * (1 + 3 / 10 ^ 16) ∧
      ∀ (m : ℕ) (j : Job B64), jobs[m]? = some j → j.order = m ∧ ∃ h : ℝ, IsF h ∧ j.plane = levelF h ∧
        |h - (lo + (m + 1 / 2) * ((hi - lo) / jobs.length))| ≤ (m + 10) * (2 / 10 ^ 13) := by
  obtain ⟨wl, mwl, ewl⟩ := he.1.1
  obtain ⟨wh, mwh, ewh⟩ := he.2.1
  rw [dot_zUp] at ewl ewh
  have H : FloatSizes lo hi t := ⟨ewl ▸ (hF wl mwl).2.2, ewh ▸ (hF wh mwh).2.2, tF, ewl ▸ (hR wl mwl).2.2, ewh ▸ (hR wh mwh).2.2,
    t0, t1, hh⟩
  obtain ⟨jobs, hj, hlen, hspec⟩ := jobs_f64 S hF hR he H sett ht hs
  have hlr : (jobs.length : ℝ) = floatCount lo hi t := by exact_mod_cast congrArg (Int.cast (R := ℝ)) hlen
  have hpos := H.count_pos
  have tp : 0 < t := by linarith
  have e1 := abs_le.1 H.span_err
  have q0 : 1 / 10 ^ 10 ≤ rd (hi - lo) / t := by
    rw [le_div_iff₀ tp]
    nlinarith [e1.1]
  have e2 := abs_le.1 (rd_err q0 (le_of_eq (abs_of_pos (lt_of_lt_of_le (by norm_num) q0))))
  have hq : rd (hi - lo) / t * t = rd (hi - lo) := by field_simp
  rw [normalize_up]
  refine ⟨jobs, hj, by omega, ?_, ?_, ?_⟩
  · rw [hlr]
    have c : rd (rd (hi - lo) / t) ≤ floatCount lo hi t := Int.le_ceil _
    generalize (floatCount lo hi t : ℝ) = N at c ⊢
    have c2 : rd (hi - lo) * (1 - 12 / 10 ^ 17) ≤ N * t := by
      have : rd (hi - lo) / t * (1 - 12 / 10 ^ 17) ≤ N := by linarith [e2.1]
      have := mul_le_mul_of_nonneg_right this tp.le
      nlinarith
    nlinarith [e1.1]
  · rw [hlr]
    have c : (floatCount lo hi t : ℝ) < rd (rd (hi - lo) / t) + 1 := Int.ceil_lt_add_one _
    generalize (floatCount lo hi t : ℝ) = N at c ⊢
    have c2 : (N - 1) * t < rd (hi - lo) * (1 + 12 / 10 ^ 17) := by
      have : N - 1 < rd (hi - lo) / t * (1 + 12 / 10 ^ 17) := by linarith [e2.2]
      have := mul_lt_mul_of_pos_right this tp
      nlinarith
    nlinarith [e1.2]
  · intro m j hm
    obtain ⟨m1, hp, ho, _⟩ := hspec m j hm
    refine ⟨ho, floatLevel lo hi t m, H.levelF m m1, hp, ?_⟩
    rw [hlr]
    exact H.level_near m m1

/-- a contour of the plane at height `h`: closed, and every corner is a point where an edge crosses the plane, rounded to
eight decimals -/
def goodContour (ts : List RTri) (h : ℝ) (q : Path B64) : Prop :=
  q.isClosed = true ∧ q.points.head? = q.points.getLast? ∧
    ∀ x ∈ q.points, ∃ e ∈ dirEdges ts, crossesAt h e ∧ x = (crossAt (lvl h) zUp e).round8.f64

theorem equal_f64 {s : R3} (h : s.isF) : s.f64.equal s.f64 = true := by
  show (almostZero (B64.of s.x - B64.of s.x) && almostZero (B64.of s.y - B64.of s.y) && almostZero (B64.of s.z - B64.of s.z)) = true
  rw [almostZero_same h.1, almostZero_same h.2.1, almostZero_same h.2.2]; rfl

/-- the corners of the segments -/
theorem section_points {h : ℝ} {ts : List RTri} (H : FloatSafe h ts) (hdeg : ∀ t ∈ ts, t.nrm ≠ 0) :
    ∀ q ∈ sectionPaths (levelF h) (fmesh ts).triangles, ∀ x ∈ q.points,
      ∃ e ∈ dirEdges ts, crossesAt h e ∧ x = (crossAt (lvl h) zUp e).round8.f64 := by
  intro q hq x hx
  obtain ⟨t', ht', hq⟩ := List.mem_filterMap.1 hq
  obtain ⟨t, ht, rfl⟩ := List.mem_map.1 ht'
  rcases triangle_f64 H ht (hdeg t ht) with ⟨h1, _, _⟩ | ⟨e, f, h1, h2, h3⟩
  · rw [h1] at hq; cases hq
  · rw [h1] at hq
    simp only [Option.map_some, Option.some.injEq] at hq
    subst hq
    obtain ⟨me, ae⟩ := mem_ups.1 (by rw [h2]; simp : e ∈ ups (lvl h) zUp t.edges)
    obtain ⟨mf, df⟩ := mem_downs.1 (by rw [h3]; simp : f ∈ downs (lvl h) zUp t.edges)
    have sub : ∀ g ∈ t.edges, g ∈ dirEdges ts := fun g hg => List.mem_flatMap.2 ⟨t, ht, hg⟩
    simp only [List.mem_cons, List.not_mem_nil, or_false] at hx
    rcases hx with rfl | rfl
    · exact ⟨e, sub e me, Or.inl ae, rfl⟩
    · exact ⟨f, sub f mf, Or.inr df, rfl⟩

/-- **C95 (layer).** A worker that gets the segments of a plane which keeps the distances of `FloatSafe`, in whatever order,
returns a layer of closed contours whose corners are exact crossing points rounded to eight decimals. -/
theorem C95_layer (S : Sorter) (ts : List RTri) (h : ℝ) (hw : Watertight ts) (hdeg : ∀ t ∈ ts, t.nrm ≠ 0) (H : FloatSafe h ts)
    (j : Job B64) (hj : (jobPaths j).Perm (sectionPaths (levelF h) (fmesh ts).triangles)) :
    ∃ l : Layer B64, runJob S j = .ok l ∧ l.order = j.order ∧ l.norm = j.plane.n ∧ ∀ q ∈ l.paths, goodContour ts h q := by
  obtain ⟨out, ho, hcl⟩ := C94_closed S ts h hw hdeg H (jobPaths j) hj
  refine ⟨⟨j.order, j.plane.n, out.map Path.minimizeLines, [], [], []⟩, ?_, rfl, rfl, ?_⟩
  · unfold runJob joinPaths3AndMinimize
    rw [ho]; rfl
  · intro q hq
    obtain ⟨q0, hq0, rfl⟩ := List.mem_map.1 hq
    have hpts : ∀ x ∈ q0.points, ∃ e ∈ dirEdges ts, crossesAt h e ∧ x = (crossAt (lvl h) zUp e).round8.f64 := by
      obtain ⟨out', groups, ho', hgp, _, hog, _⟩ := C13_join_conserves S (jobPaths j) (by
        intro q hq h; have := jobPaths_two j q hq; rw [h] at this; cases this)
      rw [ho] at ho'
      injection ho' with ho'
      subst ho'
      intro x hx
      rw [hog] at hq0
      obtain ⟨g, hg, hgq⟩ := List.mem_map.1 hq0
      rw [← hgq] at hx
      obtain ⟨r, hr, hx⟩ := mem_concatPath hx
      exact section_points H hdeg r (hj.mem_iff.1 (hgp.mem_iff.1 (List.mem_flatten.2 ⟨g, hg, hr⟩))) x hx
    have hx := minimize_exact q0 (hcl q0 hq0).2.2
    have hmp : ∀ x ∈ q0.minimizeLines.points, ∃ e ∈ dirEdges ts, crossesAt h e ∧ x = (crossAt (lvl h) zUp e).round8.f64 :=
      fun x hx => hpts x (minimize_mem q0 x hx)
    refine ⟨isClosed_exact hx ?_, hx, hmp⟩
    intro x hx
    obtain ⟨e, he, hc, rfl⟩ := hmp x hx
    obtain ⟨s, hs, hsF, _⟩ := stored_isF (H.crossRange he hc)
    rw [hs]
    exact equal_f64 hsF

/-- what holds for the layer of every plane holds for the layers of the result, which are all of them but an empty first and an
empty last one -/
theorem slice_layers (S : Sorter) (A : Arrival B64) (ts : List RTri) (lo hi t : ℝ)
    (he : Extent ts zUp lo hi) (hh : 1 / 10 ^ 6 ≤ hi - lo) (tF : IsF t) (t0 : 1 / 1000 ≤ t) (t1 : t ≤ 1000)
    (sett : Settings B64) (ht : sett.layerHeight = B64.of t) (hs : sett.supportsOn = false)
    (hF : ∀ w ∈ allVerts ts, w.isF) (hR : ∀ w ∈ allVerts ts, w.inRange) (Good : ℕ → Layer B64 → Prop)
    (hsafe : ∀ m : ℕ, (m : ℤ) < floatCount lo hi t → FloatSafe (floatLevel lo hi t m) ts)
    (hgood : ∀ (m : ℕ) (j : Job B64), (m : ℤ) < floatCount lo hi t → j.order = m → j.plane = levelF (floatLevel lo hi t m) →
      (jobPaths j).Perm (sectionPaths (levelF (floatLevel lo hi t m)) (fmesh ts).triangles) → ∃ l, runJob S j = .ok l ∧ Good m l) :
    ∃ full : List (Layer B64), (full.length : ℤ) = floatCount lo hi t ∧
      (∀ (m : ℕ) (l : Layer B64), full[m]? = some l → Good m l) ∧
      (2 ≤ full.length → ∃ layers, sliceByVector S A (some (fmesh ts)) zUp.f64v sett = .ok layers) ∧
      ∀ layers, sliceByVector S A (some (fmesh ts)) zUp.f64v sett = .ok layers →
        ∃ pre post, full = pre ++ layers ++ post ∧ pre.length ≤ 1 ∧ post.length ≤ 1 ∧
          (∀ l ∈ pre, l.paths = []) ∧ (∀ l ∈ post, l.paths = []) := by
  obtain ⟨wl, mwl, ewl⟩ := he.1.1
  obtain ⟨wh, mwh, ewh⟩ := he.2.1
  rw [dot_zUp] at ewl ewh
  have H : FloatSizes lo hi t := ⟨ewl ▸ (hF wl mwl).2.2, ewh ▸ (hF wh mwh).2.2, tF, ewl ▸ (hR wl mwl).2.2, ewh ▸ (hR wh mwh).2.2,
    t0, t1, hh⟩
  have hne : ts ≠ [] := by rintro rfl; simp [allVerts] at mwl
  obtain ⟨jobs, hj, hlen, hspec⟩ := jobs_f64 S hF hR he H sett ht hs
  have hrun : ∀ (m : ℕ) (j : Job B64), jobs[m]? = some j → ∃ l : Layer B64, runJob S j = .ok l ∧ Good m l := by
    intro m j hm
    obtain ⟨m1, hp, ho, hperm⟩ := hspec m j hm
    have HS := hsafe m m1
    have hp2 := hperm HS.heightR HS.off
    rw [hp] at hp2
    exact hgood m j m1 ho hp hp2
  have hmap : ∀ (js : List (Job B64)) (k : ℕ), (∀ (m : ℕ) (j : Job B64), js[m]? = some j → ∃ l : Layer B64, runJob S j = .ok l ∧
      Good (k + m) l) →
      ∃ full, js.mapM (runJob S) = .ok full ∧ full.length = js.length ∧ ∀ (m : ℕ) (l : Layer B64), full[m]? = some l → Good (k + m) l := by
    intro js
    induction js with
    | nil => intro k _; exact ⟨[], rfl, rfl, by simp⟩
    | cons j js ih =>
      intro k hk
      obtain ⟨l, a, b⟩ := hk 0 j rfl
      obtain ⟨full, c, d, e⟩ := ih (k + 1) (fun m j hm => by
        have := hk (m + 1) j (by simpa using hm)
        have e1 : k + (m + 1) = k + 1 + m := by omega
        rwa [e1] at this)
      refine ⟨l :: full, ?_, by simp [d], ?_⟩
      · rw [List.mapM_cons, a, c]; rfl
      · intro m l' hm
        cases m with
        | zero => simp only [List.getElem?_cons_zero, Option.some.injEq] at hm; subst hm; exact b
        | succ m =>
          have := e m l' (by simpa using hm)
          have e1 : k + (m + 1) = k + 1 + m := by omega
          rwa [e1]
  obtain ⟨full, hfull, hfl, hprop⟩ := hmap jobs 0 (by simpa using hrun)
  have hslice : sliceByVector S A (some (fmesh ts)) zUp.f64v sett = trimEmpty full := by
    rw [C01_slice S A (fmesh ts) zUp.f64v sett (by simp [fmesh, hne]), normalize_up, hj]
    show (jobs.mapM (runJob S)).bind trimEmpty = _
    rw [hfull]; rfl
  refine ⟨full, by rw [hfl]; exact hlen, by simpa using hprop, ?_, ?_⟩
  · intro h2
    rw [hslice]
    refine trimEmpty_ok full (by rintro rfl; simp at h2) ?_
    rintro l rfl; simp at h2
  · intro layers hl
    rw [hslice] at hl
    exact trimEmpty_spec full layers hl

/-- **C95.** Slicing a watertight mesh along the vertical in `float64`, supports off: if every plane keeps the distances of
`FloatSafe`, then all contours of all layers are closed, with corners where the exact section has them, rounded to eight
decimals; only an empty first and an empty last layer are dropped. With two or more planes the program does not fail. -/
theorem C95_slice (S : Sorter) (A : Arrival B64) (ts : List RTri) (lo hi t : ℝ) (hw : Watertight ts) (hdeg : ∀ t ∈ ts, t.nrm ≠ 0)
    (he : Extent ts zUp lo hi) (hh : 1 / 10 ^ 6 ≤ hi - lo) (tF : IsF t) (t0 : 1 / 1000 ≤ t) (t1 : t ≤ 1000)
    (sett : Settings B64) (ht : sett.layerHeight = B64.of t) (hs : sett.supportsOn = false)
    (hF : ∀ w ∈ allVerts ts, w.isF) (hR : ∀ w ∈ allVerts ts, w.inRange)
    (hsafe : ∀ m : ℕ, (m : ℤ) < floatCount lo hi t → FloatSafe (floatLevel lo hi t m) ts) :
    ∃ full : List (Layer B64), (full.length : ℤ) = floatCount lo hi t ∧
      (∀ (m : ℕ) (l : Layer B64), full[m]? = some l → l.order = m ∧ l.norm = zUp.f64v ∧
        ∀ q ∈ l.paths, goodContour ts (floatLevel lo hi t m) q) ∧
      (2 ≤ full.length → ∃ layers, sliceByVector S A (some (fmesh ts)) zUp.f64v sett = .ok layers) ∧
      ∀ layers, sliceByVector S A (some (fmesh ts)) zUp.f64v sett = .ok layers →
        ∃ pre post, full = pre ++ layers ++ post ∧ pre.length ≤ 1 ∧ post.length ≤ 1 ∧
          (∀ l ∈ pre, l.paths = []) ∧ (∀ l ∈ post, l.paths = []) := by
  refine slice_layers S A ts lo hi t he hh tF t0 t1 sett ht hs hF hR (fun m l => l.order = m ∧ l.norm = zUp.f64v ∧
    ∀ q ∈ l.paths, goodContour ts (floatLevel lo hi t m) q) hsafe fun m j m1 ho hp hp2 => ?_
  obtain ⟨l, a, b, c, d⟩ := C95_layer S ts _ hw hdeg (hsafe m m1) j hp2
  exact ⟨l, a, by rw [b, ho], by rw [c, hp]; rfl, d⟩

/-! ## Non-vacuity: the tetrahedron of height 4 in layers of height 1 -/

theorem exFloat_count : floatCount 0 4 1 = 4 := by
  have r4 : Rep 4 := by simpa using rep_int (n := 4) (by norm_num)
  unfold floatCount
  rw [sub_zero, rd_of_rep r4, div_one, rd_of_rep r4]
  norm_num

theorem exFloat_step : floatStep 0 4 1 = 1 := by
  have r4 : Rep 4 := by simpa using rep_int (n := 4) (by norm_num)
  have rq : Rep (1 / 4) := by
    have := rep_zpow (e := -2) (by norm_num)
    norm_num at this ⊢
    exact this
  unfold floatStep
  rw [exFloat_count, sub_zero, rd_of_rep r4]
  push_cast
  rw [rd_of_rep rq]
  have : (4 : ℝ) * (1 / 4) = 1 := by norm_num
  rw [this, rd_of_rep isF_one.1]

theorem exFloat_rep (m : ℕ) (h : m < 4) : Rep ((m : ℝ) + 1 / 2) := by
  refine ⟨2 * m + 1, -1, ?_, by norm_num, ?_⟩
  · rw [abs_of_pos (by omega)]; have : (2 : ℤ) ^ 53 = 9007199254740992 := by norm_num
    omega
  · push_cast; rw [zpow_neg_one]; ring

theorem exFloat_level (m : ℕ) (h : m < 4) : floatLevel 0 4 1 m = m + 1 / 2 := by
  induction m with
  | zero =>
    show rd (0 + rd (floatStep 0 4 1 * (1 / 2))) = _
    rw [exFloat_step, one_mul, rd_of_rep isF_half.1, zero_add, rd_of_rep isF_half.1]
    norm_num
  | succ m ih =>
    show rd (floatLevel 0 4 1 m + floatStep 0 4 1) = _
    rw [ih (by omega), exFloat_step]
    have e : (m : ℝ) + 1 / 2 + 1 = ((m + 1 : ℕ) : ℝ) + 1 / 2 := by push_cast; ring
    rw [e]
    exact rd_of_rep (exFloat_rep (m + 1) h)

theorem exTetra_extentF : Extent exTetra zUp 0 4 := by
  refine ⟨⟨⟨⟨0, 0, 0⟩, by simp [exTetra, allVerts, RTri.verts], by simp [R3.dot, zUp]⟩, ?_⟩,
    ⟨⟨⟨0, 0, 4⟩, by simp [exTetra, allVerts, RTri.verts], by simp [R3.dot, zUp]⟩, ?_⟩⟩
  · rintro x ⟨w, hw, rfl⟩
    rcases exTetra_verts w hw with rfl | rfl | rfl | rfl <;> simp [R3.dot, zUp]
  · rintro x ⟨w, hw, rfl⟩
    rcases exTetra_verts w hw with rfl | rfl | rfl | rfl <;> simp [R3.dot, zUp]

theorem exFloat_safe : ∀ m : ℕ, (m : ℤ) < floatCount 0 4 1 → FloatSafe (floatLevel 0 4 1 m) exTetra := by
  intro m hm
  rw [exFloat_count] at hm
  have hm : m < 4 := by omega
  have h0 : (0 : ℝ) ≤ m := Nat.cast_nonneg m
  have h3 : (m : ℝ) ≤ 3 := by exact_mod_cast Nat.le_of_lt_succ hm
  rw [exFloat_level m hm]
  refine exTetra_safeAt (isF_rep (exFloat_rep m hm) ?_) (m * 10 ^ 8 + 5 * 10 ^ 7) ?_ ?_ ?_
  · rw [abs_of_nonneg (by linarith)]
    have : (4 : ℝ) ≤ 2 ^ 100 := by norm_num
    linarith
  · push_cast
    have : (m : ℝ) + 1 / 2 - (m * 100000000 + 50000000) / 10 ^ 8 = 0 := by ring
    rw [this]; norm_num
  · linarith
  · linarith

/-- the hypotheses of `C95_slice` are met: there are four planes, all in order -/
example : Watertight exTetra ∧ (∀ t ∈ exTetra, t.nrm ≠ 0) ∧ Extent exTetra zUp 0 4 ∧ IsF 1 ∧ floatCount 0 4 1 = 4 ∧
    (∀ w ∈ allVerts exTetra, w.isF) ∧ (∀ w ∈ allVerts exTetra, w.inRange) ∧
    ∀ m : ℕ, (m : ℤ) < floatCount 0 4 1 → FloatSafe (floatLevel 0 4 1 m) exTetra :=
  ⟨exTetra_ok.1, exTetra_ok.2.1, exTetra_extentF, isF_one, exFloat_count, exTetra_safe.isF, exTetra_safe.range, exFloat_safe⟩

end Goosli
