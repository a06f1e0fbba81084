import Verif.Props.C10
import Verif.Props.C11
import Verif.Props.C13
import Verif.Props.C17
import Verif.Props.C42
import Verif.Props.C43
import Verif.Props.C47
import Verif.Props.C49
import Verif.Props.C74
import Verif.Proofs.Cut
import Verif.Proofs.FillPlanes
/-!
# C78: the layers are level and printed from the bottom up
-/
set_option linter.unusedSectionVars false
set_option autoImplicit false
namespace Goosli
open Flt

/-! ## Specification -/

/-- all points of the path are at the height `z` -/
def LevelAt (z : ℝ) (q : Path XR) : Prop := ∀ p ∈ q.points, ∃ w : R3, p = w.pt ∧ w.z = z

/-- everything that is printed in the layer is at the height `z`: contours, walls and infill -/
def LayerAt (z : ℝ) (l : Layer XR) : Prop := ∀ q ∈ l.paths ++ l.middlePs ++ l.innerPs ++ l.fill, LevelAt z q

/-- the height of layer `m` of `n` of a model from `lo` to `hi`: the middle of the layer, rounded to eight decimals -/
noncomputable def layerZ (lo hi : ℝ) (n m : Nat) : ℝ := r8 (lo + ((m : ℝ) + 1 / 2) * ((hi - lo) / n))

/-- the plane is given by real numbers -/
def RealPlane (p : Plane XR) : Prop := ∃ P N : R3, p = ⟨P.pt, N.vec⟩

/-! ## Contours -/

theorem LevelAt.of_mem {z : ℝ} {q q' : Path XR} (h : LevelAt z q) (hs : ∀ p ∈ q'.points, p ∈ q.points) : LevelAt z q' :=
  fun p hp => h p (hs p hp)

theorem minimizeLines_mem {α : Type} [Flt α] (p : Path α) : ∀ x ∈ p.minimizeLines.points, x ∈ p.points := by
  obtain ⟨core, hs, h⟩ := C17_no_new_points p
  intro x hx
  rcases h with h | ⟨_, ⟨y, hy, h⟩ | ⟨y, hy, h⟩⟩
  · rw [h] at hx; exact hs.subset hx
  · rw [h, List.mem_append, List.mem_singleton] at hx
    rcases hx with hx | rfl
    · exact hs.subset hx
    · exact hs.subset (List.mem_of_mem_head? hy)
  · rw [h, List.mem_cons] at hx
    rcases hx with rfl | hx
    · exact hs.subset (List.mem_of_mem_getLast? hy)
    · exact hs.subset hx

theorem concatPath_mem {α : Type} [Flt α] (g : List (Path α)) (x : Point α) (hx : x ∈ (concatPath g).points) : ∃ q ∈ g, x ∈ q.points := by
  cases g with
  | nil => simp [concatPath] at hx
  | cons p ps =>
    simp only [concatPath, List.mem_append, List.mem_flatMap] at hx
    rcases hx with hx | ⟨q, hq, hx⟩
    · exact ⟨p, by simp, hx⟩
    · exact ⟨q, by simp [hq], List.mem_of_mem_tail hx⟩

theorem joined_mem {α : Type} [Flt α] (S : Sorter) (p out : List (Path α)) (hn : ∀ q ∈ p, q.points ≠ [])
    (h : joinPaths3AndMinimize S p = .ok out) : ∀ q ∈ out, ∀ x ∈ q.points, ∃ q' ∈ p, x ∈ q'.points := by
  obtain ⟨out', groups, h1, h2, _, h3, _⟩ := C13_join_conserves S p hn
  unfold joinPaths3AndMinimize at h
  rw [h1] at h
  have h : (Except.ok (out'.map Path.minimizeLines) : Go _) = .ok out := h
  injection h with h
  intro q hq x hx
  rw [← h, List.mem_map] at hq
  obtain ⟨q1, hq1, rfl⟩ := hq
  have hx := minimizeLines_mem q1 x hx
  rw [h3, List.mem_map] at hq1
  obtain ⟨g, hg, rfl⟩ := hq1
  obtain ⟨q2, hq2, hx⟩ := concatPath_mem g x hx
  exact ⟨q2, h2.mem_iff.1 (List.mem_flatten.2 ⟨g, hg, hq2⟩), hx⟩

/-- the ends of the section of a triangle are points of the plane, rounded -/
theorem section_round8 (P N : R3) (r : RTri) (hr : r.small) (l : Line XR) (h : (Plane.mk P.pt N.vec).intersectTriangle r.tri = some l) :
    ∃ u v : R3, l = ⟨u.round8.pt, v.round8.pt⟩ ∧ R3.onPlane P N u ∧ R3.onPlane P N v := by
  rw [show r.tri = newTriangle r.a.pt r.b.pt r.c.pt from (newTriangle_tri r.a r.b r.c).symm] at h
  rw [newTriangle_pt] at h
  unfold Plane.intersectTriangle at h
  cases hce : (Plane.mk P.pt N.vec).chordEnds ⟨((r.b - r.a).cross (r.c - r.a)).vec, r.a.pt, r.b.pt, r.c.pt⟩ with
  | none => rw [hce] at h; simp at h
  | some q =>
    obtain ⟨p, q⟩ := q
    rw [hce] at h
    obtain ⟨u, v, rfl, rfl, hn, hcase⟩ := chordEnds_spec P N r.a r.b r.c _ _ _ hce
    have hall : ∃ s t s' t' : R3, (s = r.a ∨ s = r.b ∨ s = r.c) ∧ (t = r.a ∨ t = r.b ∨ t = r.c) ∧ (s' = r.a ∨ s' = r.b ∨ s' = r.c) ∧
        (t' = r.a ∨ t' = r.b ∨ t' = r.c) ∧ crosses P N s t u ∧ crosses P N s' t' v := by
      rcases hcase with ⟨h1, h2⟩ | ⟨h1, h2⟩ | ⟨h1, h2⟩
      · exact ⟨r.a, r.b, r.b, r.c, by simp, by simp, by simp, by simp, h1, h2⟩
      · exact ⟨r.a, r.b, r.c, r.a, by simp, by simp, by simp, by simp, h1, h2⟩
      · exact ⟨r.b, r.c, r.c, r.a, by simp, by simp, by simp, by simp, h1, h2⟩
    obtain ⟨s, t, s', t', e1, e2, e3, e4, hu, hv⟩ := hall
    obtain ⟨ha, hb, hc⟩ := hr
    have sm : ∀ w, (w = r.a ∨ w = r.b ∨ w = r.c) → w.small := by rintro w (rfl | rfl | rfl) <;> assumption
    have su := small_of_onSegment hu.2.1 (sm _ e1) (sm _ e2)
    have sv := small_of_onSegment hv.2.1 (sm _ e3) (sm _ e4)
    simp only [roundPlaces_pt u su, roundPlaces_pt v sv] at h
    by_cases heq : u.round8.pt.equal v.round8.pt = true
    · simp [heq] at h
    · rw [if_neg heq] at h
      split at h
      · injection h with h; exact ⟨u, v, h.symm, hu.2.2, hv.2.2⟩
      · injection h with h; exact ⟨v, u, h.symm, hv.2.2, hu.2.2⟩

/-- the points of the path are points of the plane across `u` at the height `k`, rounded to eight decimals -/
def RoundedOn (u : R3) (k : ℝ) (q : Path XR) : Prop := ∀ p ∈ q.points, ∃ w : R3, p = w.round8.pt ∧ w.dot u = k

theorem RoundedOn.level {k : ℝ} {q : Path XR} (h : RoundedOn ⟨0, 0, 1⟩ k q) : LevelAt (r8 k) q := by
  intro p hp
  obtain ⟨w, rfl, hw⟩ := h p hp
  have hw : w.z = k := by simpa [R3.dot] using hw
  exact ⟨_, rfl, by simp [R3.round8, hw]⟩

theorem section_rounded (u : R3) (hu : u.dot u = 1) (k : ℝ) (r : RTri) (hr : r.small) (l : Line XR)
    (h : (Plane.mk (k • u).pt u.vec).intersectTriangle r.tri = some l) : RoundedOn u k ⟨[l.p1, l.p2]⟩ := by
  obtain ⟨x, y, rfl, hx, hy⟩ := section_round8 _ _ r hr l h
  have hz : ∀ w : R3, R3.onPlane (k • u) u w → w.dot u = k := by
    intro w hw
    have e : R3.height (k • u) u w = w.dot u - k * u.dot u := by simp [R3.height, R3.dot]; ring
    rw [R3.onPlane, e, hu] at hw
    linarith
  intro p hp
  simp only [List.mem_cons, List.not_mem_nil, or_false] at hp
  rcases hp with rfl | rfl
  · exact ⟨_, rfl, hz x hx⟩
  · exact ⟨_, rfl, hz y hy⟩

/-- **C78, contours across any direction.** All contour points of layer number `m` are points of one plane across the direction, the
middle plane of the layer, rounded to eight decimals. The layers come with increasing numbers. Supports included. -/
theorem C78_planes (S : Sorter) (A : Arrival XR) (ts : List RTri) (d : R3) (hd : d ≠ 0) (sett : Settings XR) (lo hi t : ℝ)
    (he' : Extent ts d.unit lo hi) (hsm : ∀ r ∈ ts, r.small) (hr' : ∀ w ∈ allVerts ts, |w.dot d.unit| ≤ XR.maxF64R) (hf : SupportsFinite sett)
    (hsup : ∀ sup, supportsOf S (rmesh ts) d.unit.vec sett = .ok sup → ∀ r : RTri, r.tri ∈ sup → r.small)
    (hlt : lo < hi) (hh : sett.layerHeight = XR.fin t) (ht : 0 < t) (hb : ⌈(hi - lo) / t⌉ < 2 ^ 63)
    (layers : List (Layer XR)) (h : sliceByVector S A (some (rmesh ts)) d.vec sett = .ok layers) :
    (layers.map (·.order)).Pairwise (· < ·) ∧
    ∀ l ∈ layers, ∃ m : Nat, l.order = m ∧ (m : Int) < ⌈(hi - lo) / t⌉ ∧ l.norm = d.unit.vec ∧
      (∀ q ∈ l.paths, RoundedOn d.unit (lo + ((m : ℝ) + 1 / 2) * ((hi - lo) / ⌈(hi - lo) / t⌉.toNat)) q) ∧
      l.middlePs = [] ∧ l.innerPs = [] ∧ l.fill = [] := by
  have hne : ts ≠ [] := by
    rintro rfl
    obtain ⟨w, hw, _⟩ := he'.1.1
    simp [allVerts] at hw
  have hu1 : d.unit.dot d.unit = 1 := by
    have h1 := R3.norm_sq d.unit
    rw [R3.unit_norm hd] at h1
    unfold R3.normSq at h1
    linarith
  rw [sliceByVector_real S A ts hne] at h
  obtain ⟨jobs, hj, hlen, _, _, _⟩ := C11_planes S ts d hd sett lo hi t he' hr' hf hlt hh ht hb
  rw [normalize_vec] at hj
  rw [hj] at h
  obtain ⟨sup, hs, hall⟩ := sliceJobs_spec he' hr' hf hj
  have hlow := supportsOf_low he' hr' hf hs
  have h : (jobs.mapM (runJob S)).bind trimEmpty = .ok layers := h
  cases hm : jobs.mapM (runJob S) with
  | error e => rw [hm] at h; cases h
  | ok full =>
    rw [hm] at h
    obtain ⟨pre, post, hfull, _, _, _, _⟩ := trimEmpty_spec full layers h
    have hfa := mapM_mem _ _ _ hm
    have key : ∀ (m : Nat) (l : Layer XR), full[m]? = some l → l.order = m ∧ (m : Int) < ⌈(hi - lo) / t⌉ ∧
        l.norm = d.unit.vec ∧ (∀ q ∈ l.paths, RoundedOn d.unit (lo + ((m : ℝ) + 1 / 2) * ((hi - lo) / ⌈(hi - lo) / t⌉.toNat)) q) ∧
        l.middlePs = [] ∧ l.innerPs = [] ∧ l.fill = [] := by
      intro m l hl
      obtain ⟨hltm, hle⟩ := List.getElem?_eq_some_iff.1 hl
      have hlt' : m < jobs.length := by rw [hfa.length_eq]; exact hltm
      have hrun : runJob S jobs[m] = .ok l := by
        have := List.Forall₂.get hfa hlt' hltm
        simpa [hle] using this
      obtain ⟨g1, g2, g3⟩ := hall m jobs[m] (List.getElem?_eq_getElem hlt')
      unfold runJob at hrun
      cases hp : joinPaths3AndMinimize S (jobPaths jobs[m]) with
      | error e => rw [hp] at hrun; cases hrun
      | ok ps =>
        rw [hp] at hrun
        have hrun : (Except.ok _ : Go (Layer XR)) = Except.ok l := hrun
        injection hrun with hrun
        subst hrun
        refine ⟨by simp [g1], by omega, by rw [g2], ?_, rfl, rfl, rfl⟩
        have hn : (⌈(hi - lo) / t⌉.toNat : ℝ) = (jobs.length : ℝ) := by
          have : ⌈(hi - lo) / t⌉.toNat = jobs.length := by omega
          rw [this]
        have hlvl : ∀ q ∈ jobPaths jobs[m], q.points ≠ [] ∧
            RoundedOn d.unit (lo + ((m : ℝ) + 1 / 2) * ((hi - lo) / ⌈(hi - lo) / t⌉.toNat)) q := by
          intro q hq
          have hq := g3.mem_iff.1 hq
          rw [g2] at hq
          unfold sectionPaths at hq
          obtain ⟨tr, htr, hq⟩ := List.mem_filterMap.1 hq
          have hreal : ∃ r : RTri, tr = r.tri ∧ r.small := by
            rcases List.mem_append.1 htr with h' | h'
            · obtain ⟨r, rfl, _⟩ := hlow tr h'
              exact ⟨r, rfl, hsup sup hs r h'⟩
            · obtain ⟨r, hr1, rfl⟩ := List.mem_map.1 h'
              exact ⟨r, rfl, hsm r hr1⟩
          obtain ⟨r, rfl, hrs⟩ := hreal
          rw [Option.map_eq_some_iff] at hq
          obtain ⟨ln, hln, rfl⟩ := hq
          refine ⟨by simp, ?_⟩
          rw [hn]
          exact section_rounded _ hu1 _ r hrs ln hln
        intro q hq x hx
        obtain ⟨q', hq', hx'⟩ := joined_mem S _ _ (fun q hq => (hlvl q hq).1) hp q hq x hx
        exact (hlvl q' hq').2 x hx'
    constructor
    · have hfo : (full.map (·.order)).Pairwise (· < ·) := by
        rw [List.pairwise_iff_getElem]
        intro i j hi' hj' hij
        rw [List.length_map] at hi' hj'
        rw [List.getElem_map, List.getElem_map, (key i _ (List.getElem?_eq_getElem hi')).1, (key j _ (List.getElem?_eq_getElem hj')).1]
        exact_mod_cast hij
      refine hfo.sublist ?_
      rw [hfull]
      apply List.Sublist.map
      exact (List.sublist_append_right pre layers).trans (List.sublist_append_left _ post)
    · intro l hl
      have : l ∈ full := by rw [hfull]; simp [hl]
      obtain ⟨m, hm', rfl⟩ := List.getElem_of_mem this
      exact ⟨m, key m _ (List.getElem?_eq_getElem hm')⟩

/-- what the theorems below assume about a model that is sliced along the z axis: real and of moderate size, from `lo` to `hi`, layer
height `t` -/
structure Sliceable (S : Sorter) (ts : List RTri) (sett : Settings XR) (lo hi t : ℝ) : Prop where
  extent : Extent ts ⟨0, 0, 1⟩ lo hi
  small : ∀ r ∈ ts, r.small
  supports : SupportsFinite sett
  smallSupports : ∀ sup, supportsOf S (rmesh ts) (⟨0, 0, 1⟩ : R3).vec sett = .ok sup → ∀ r : RTri, r.tri ∈ sup → r.small
  tall : lo < hi
  height : sett.layerHeight = XR.fin t
  pos : 0 < t
  count : ⌈(hi - lo) / t⌉ < 2 ^ 63

theorem roundLimit_le : roundLimit ≤ XR.maxF64R := by
  unfold XR.maxF64R roundLimit
  have h1 : (1 : ℝ) ≤ 2 ^ 983 := one_le_pow₀ (by norm_num)
  have e : (2 : ℝ) ^ 1023 = 2 ^ 983 * 2 ^ 40 := by rw [← pow_add]
  rw [e]
  have h2 : (1 : ℝ) ≤ 2 - 2⁻¹ ^ 52 := by norm_num
  generalize (2 : ℝ) ^ 983 = y at h1
  generalize (2 : ℝ) - 2⁻¹ ^ 52 = z at h2
  have h3 : 1 ≤ z * y := by nlinarith
  nlinarith

theorem allVerts_small {ts : List RTri} (h : ∀ r ∈ ts, r.small) : ∀ w ∈ allVerts ts, w.small := by
  intro w hw
  unfold allVerts at hw
  obtain ⟨r, hr, hw⟩ := List.mem_flatMap.1 hw
  obtain ⟨ha, hb, hc⟩ := h r hr
  simp only [RTri.verts, List.mem_cons, List.not_mem_nil, or_false] at hw
  rcases hw with rfl | rfl | rfl <;> assumption

/-- **C78, contours.** Along the z axis: all contour points of layer number `m` have exactly the same height, the middle of the layer
rounded to eight decimals. The layers come with increasing numbers. Supports included. -/
theorem C78_contours (S : Sorter) (A : Arrival XR) (ts : List RTri) (sett : Settings XR) (lo hi t : ℝ) (hm : Sliceable S ts sett lo hi t)
    (layers : List (Layer XR)) (h : sliceByVector S A (some (rmesh ts)) axisZ sett = .ok layers) :
    (layers.map (·.order)).Pairwise (· < ·) ∧
    ∀ l ∈ layers, ∃ m : Nat, l.order = m ∧ (m : Int) < ⌈(hi - lo) / t⌉ ∧ l.norm = (⟨0, 0, 1⟩ : R3).vec ∧
      (∀ q ∈ l.paths, LevelAt (layerZ lo hi ⌈(hi - lo) / t⌉.toNat m) q) ∧ l.middlePs = [] ∧ l.innerPs = [] ∧ l.fill = [] := by
  have hz : (⟨0, 0, 1⟩ : R3) ≠ 0 := by intro h; have := congrArg R3.z h; simp at this
  rw [axisZ_vec] at h
  obtain ⟨h1, h2⟩ := C78_planes S A ts ⟨0, 0, 1⟩ hz sett lo hi t (by rw [upUnit]; exact hm.extent) hm.small
    (by
      intro w hw
      rw [upUnit]
      have := (allVerts_small hm.small w hw).2.2.trans roundLimit_le
      simpa [R3.dot] using this)
    hm.supports (by rw [upUnit]; exact hm.smallSupports) hm.tall hm.height hm.pos hm.count layers h
  refine ⟨h1, ?_⟩
  intro l hl
  obtain ⟨m, a1, a2, a3, a4, a5⟩ := h2 l hl
  rw [upUnit] at a3 a4
  exact ⟨m, a1, a2, a3, fun q hq => (a4 q hq).level, a5⟩

/-! ## Walls and infill -/

/-- all points of the path are in one plane across `N` -/
def FlatAt (N : R3) (k : ℝ) (q : Path XR) : Prop := ∀ p ∈ q.points, ∃ w : R3, p = w.pt ∧ w.dot N = k

theorem levelAt_iff (z : ℝ) (q : Path XR) : LevelAt z q ↔ FlatAt ⟨0, 0, 1⟩ z q := by
  simp [LevelAt, FlatAt, R3.dot]

/-- both ends of the line are in the plane -/
def FlatLine (N : R3) (k : ℝ) (l : Line XR) : Prop := ∃ a b : R3, l = ⟨a.pt, b.pt⟩ ∧ a.dot N = k ∧ b.dot N = k

theorem intersectLine2_flat {N : R3} {k : ℝ} {l m : Line XR} (hl : FlatLine N k l) (hm : FlatLine N k m) (i : Point XR)
    (h : l.intersectLine2 m = some i) : ∃ w : R3, i = w.pt ∧ w.dot N = k := by
  obtain ⟨a, b, rfl, ha, hb⟩ := hl
  obtain ⟨c, d, rfl, hc, hd⟩ := hm
  have tv : ∀ x y : R3, (Line.mk x.pt y.pt).toVector = (y - x).vec := fun x y => toVector2_pt x y
  unfold Line.intersectLine2 at h
  simp only [tv, cross_vec, length_vec, almostZero_fin, codirected_vec] at h
  split at h
  · cases h
  · rename_i hz
    have hb0 : ((d - c).cross (b - a)).norm ≠ 0 := by
      intro e
      apply hz
      rw [e]
      have : (0 : ℝ) < tol := by unfold tol; norm_num
      simp [this]
    obtain ⟨s, hs⟩ : ∃ s : ℝ, ((if !decide (0 ≤ ((d - c).cross (d - a)).dot ((d - c).cross (b - a))) then lit (-1) 0 else lit 1 0 : XR) *
        XR.fin ((d - c).cross (d - a)).norm / XR.fin ((d - c).cross (b - a)).norm) = XR.fin s := by
      split <;> (rw [XR.lit_def, XR.fin_mul, XR.fin_div hb0]; exact ⟨_, rfl⟩)
    simp only [hs, mulScalar_vec, shift_pt] at h
    have : i = (a + s • (b - a)).pt := by
      split at h
      · cases h
      · split at h
        · injection h with h; exact h.symm
        · cases h
    refine ⟨_, this, ?_⟩
    have e : (a + s • (b - a)).dot N = a.dot N + s * (b.dot N - a.dot N) := by simp [R3.dot]; ring
    rw [e, ha, hb]; ring

theorem trimLines_flat {N : R3} {k : ℝ} : ∀ (t : List (Line XR)) (l : Line XR), FlatLine N k l → (∀ m ∈ t, FlatLine N k m) →
    ∀ m ∈ trimLines l t, FlatLine N k m := by
  intro t
  induction t with
  | nil => intro l hl _ m hm; rw [trimLines, List.mem_singleton] at hm; exact hm ▸ hl
  | cons n t ih =>
    intro l hl ht m hm
    rw [trimLines] at hm
    have hn := ht n (by simp)
    have htt : ∀ m ∈ t, FlatLine N k m := fun m hm => ht m (by simp [hm])
    cases hi : l.intersectLine2 n with
    | none =>
      rw [hi] at hm
      rcases List.mem_cons.1 hm with rfl | hm
      · exact hl
      · obtain ⟨a, b, rfl, _, hb⟩ := hl
        obtain ⟨c, d, rfl, _, hd⟩ := hn
        exact ih _ ⟨b, d, rfl, hb, hd⟩ htt m hm
    | some i =>
      rw [hi] at hm
      obtain ⟨w, rfl, hw⟩ := intersectLine2_flat hl hn i hi
      obtain ⟨a, b, rfl, ha, hb⟩ := hl
      obtain ⟨c, d, rfl, _, hd⟩ := hn
      rcases List.mem_cons.1 hm with rfl | hm
      · exact ⟨a, w, rfl, ha, hw⟩
      · exact ih _ ⟨w, d, rfl, hw, hd⟩ htt m hm

theorem trimmedLines_flat {N : R3} {k : ℝ} (closed : Bool) (ls : List (Line XR)) (h : ∀ m ∈ ls, FlatLine N k m) :
    ∀ m ∈ trimmedLines closed ls, FlatLine N k m := by
  intro m hm
  cases ls with
  | nil => simp [trimmedLines] at hm
  | cons l t =>
    have hl := h l (by simp)
    have ht : ∀ m ∈ t, FlatLine N k m := fun m hm => h m (by simp [hm])
    unfold trimmedLines at hm
    cases closed with
    | false => exact trimLines_flat t l hl ht m hm
    | true =>
      have key := trimLines_flat (t ++ [l]) l hl (by
        intro m hm
        rcases List.mem_append.1 hm with hm | hm
        · exact ht m hm
        · rw [List.mem_singleton] at hm; exact hm ▸ hl)
      simp only [if_true] at hm
      split at hm
      · rename_i last hlast
        rcases List.mem_cons.1 hm with rfl | hm
        · exact key _ (List.mem_of_mem_getLast? hlast)
        · exact key _ (List.mem_of_mem_dropLast (List.mem_of_mem_tail hm))
      · simp at hm

/-- the offset of a plane contour is in the plane of the contour -/
theorem makeOffset_flat {N : R3} {k w : ℝ} {p q : Path XR} (hp : FlatAt N k p) (h : makeOffset p (XR.fin w) N.vec = some q) : FlatAt N k q := by
  unfold makeOffset at h
  split at h
  · cases h
  · have hs : ∀ m ∈ (adjPairs p.points).map (offsetSide (XR.fin w) N.vec.reverse), FlatLine N k m := by
      intro m hm
      obtain ⟨⟨x, y⟩, hxy, rfl⟩ := List.mem_map.1 hm
      have hx := List.of_mem_zip (by simpa [adjPairs] using hxy)
      obtain ⟨a, rfl, ha⟩ := hp x hx.1
      obtain ⟨b, rfl, hb⟩ := hp y (List.mem_of_mem_tail hx.2)
      rw [offsetSide_real]
      have h0 : (sideShift w N a b).dot N = 0 := by simp [sideShift, R3.unit, R3.dot, R3.cross]; ring
      have add : ∀ u v : R3, (u + v).dot N = u.dot N + v.dot N := by intro u v; simp [R3.dot]; ring
      exact ⟨_, _, rfl, by rw [add, h0, ha, add_zero], by rw [add, h0, hb, add_zero]⟩
    have ht := trimmedLines_flat p.isClosed _ hs
    dsimp only at h
    split at h
    · rename_i a b t hk
      injection h with h
      subst h
      have hkept : ∀ m ∈ a :: b :: t, FlatLine N k m := by
        intro m hm
        rw [← hk] at hm
        unfold keptLines at hm
        obtain ⟨⟨m', s⟩, hq, rfl⟩ := List.mem_map.1 hm
        exact ht _ (List.of_mem_zip (List.mem_of_mem_filter hq)).1
      intro x hx
      have hx := minimizeLines_mem _ x hx
      rcases List.mem_cons.1 hx with rfl | hx
      · obtain ⟨u, v, rfl, hu, _⟩ := hkept a (by simp)
        exact ⟨u, rfl, hu⟩
      · obtain ⟨m, hm, rfl⟩ := List.mem_map.1 hx
        obtain ⟨u, v, rfl, _, hv⟩ := hkept m hm
        exact ⟨v, rfl, hv⟩
    · cases h

theorem offsets_flat {N : R3} {k w : ℝ} {limit : Int} {p : Path XR} {ws : List (Path XR)} (hp : FlatAt N k p)
    (h : OffsetsOf (XR.fin w) N.vec limit p ws) : ∀ q ∈ ws, FlatAt N k q := by
  obtain ⟨_, h, _⟩ := h
  have key : ∀ (i : Nat) (q : Path XR), ws[i]? = some q → FlatAt N k q := by
    intro i
    induction i with
    | zero => intro q hq; exact makeOffset_flat hp (h 0 p q rfl hq)
    | succ i ih =>
      intro q hq
      have hlt : i < ws.length := by
        have := (List.getElem?_eq_some_iff.1 hq).1
        omega
      have hi := List.getElem?_eq_getElem hlt
      exact makeOffset_flat (ih _ hi) (h (i + 1) _ q (by rw [List.getElem?_cons_succ]; exact hi) hq)
  intro q hq
  obtain ⟨i, hi, rfl⟩ := List.getElem_of_mem hq
  exact key i _ (List.getElem?_eq_getElem hi)

/-- fill lines between plane contours are in the plane of the contours -/
theorem fillCut_flat {N : R3} {k : ℝ} (S : Sorter) (cs : List (Path XR)) (hc : ∀ q ∈ cs, FlatAt N k q) (p : Plane XR) (hp : RealPlane p) :
    ∀ q ∈ intersectByPlane S cs p, FlatAt N k q := by
  obtain ⟨P, M, rfl⟩ := hp
  obtain ⟨ws, rfl, hw⟩ : ∃ ws : List (List R3), cs = ws.map rpath ∧ ∀ w ∈ ws, ∀ x ∈ w, x.dot N = k := by
    induction cs with
    | nil => exact ⟨[], rfl, by simp⟩
    | cons q cs ih =>
      obtain ⟨ws, rfl, hw⟩ := ih (fun q hq => hc q (by simp [hq]))
      obtain ⟨w, h1, h2⟩ := real_points (hc q (by simp))
      refine ⟨w :: ws, ?_, ?_⟩
      · obtain ⟨pts⟩ := q
        simp only [List.map_cons]
        rw [show rpath w = ⟨pts⟩ by rw [rpath, ← h1]]
      · intro w' hw'
        rcases List.mem_cons.1 hw' with rfl | hw'
        · exact h2
        · exact hw w' hw'
  obtain ⟨segs, h1, h2, _⟩ := C43_segments S P M ws
  intro q hq
  rw [h1] at hq
  obtain ⟨s, hs, rfl⟩ := List.mem_map.1 hq
  have key : ∀ x ∈ cutPoints P M ws, x.dot N = k := by
    intro x hx
    obtain ⟨e, he, _, ⟨t, _, _, rfl⟩, _⟩ := (C43_cut P M ws x).1 hx
    unfold contourEdges at he
    obtain ⟨w, hw1, he⟩ := List.mem_flatMap.1 he
    have he := List.of_mem_zip (by simpa [adjPairs] using he)
    have e1 := hw w hw1 e.1 he.1
    have e2 := hw w hw1 e.2 (List.mem_of_mem_tail he.2)
    simp [R3.dot] at e1 e2 ⊢
    linear_combination (1 - t) * e1 + t * e2
  intro x hx
  simp only [rpath_points, List.map_cons, List.map_nil, List.mem_cons, List.not_mem_nil, or_false] at hx
  rcases hx with rfl | rfl
  · exact ⟨_, rfl, key _ (h2 s hs).1⟩
  · exact ⟨_, rfl, key _ (h2 s hs).2⟩

/-- the fill planes of a real model are real -/
theorem fillPlanes_real {ts : List RTri} (hne : ts ≠ []) (hsm : ∀ r ∈ ts, r.small) {sett : Settings XR} {lw : ℝ} (hlw : sett.gs.lineWidth = XR.fin lw)
    (hl : lw ≠ 0) (hd : 3 ≤ sett.fillDensity) : ∀ p ∈ (calcFillPlanes (rmesh ts) sett).1 ++ (calcFillPlanes (rmesh ts) sett).2, RealPlane p := by
  have hr : ∀ w ∈ allVerts ts, |w.x| ≤ XR.maxF64R ∧ |w.y| ≤ XR.maxF64R := fun w hw =>
    ⟨(allVerts_small hsm w hw).1.trans roundLimit_le, (allVerts_small hsm w hw).2.1.trans roundLimit_le⟩
  obtain ⟨ax, bx, hx⟩ := exists_extent (u := R3.ex) hne (fun w hw => by simpa [R3.dot, R3.ex] using (hr w hw).1)
  obtain ⟨ay, b_y, hy⟩ := exists_extent (u := R3.ey) hne (fun w hw => by simpa [R3.dot, R3.ey] using (hr w hw).2)
  have common : ∀ (u : R3) (s : ℝ), s ≠ 0 → ∀ p ∈ calcFillPlanesCommon (rmesh ts) u.vec (XR.fin s), RealPlane p := by
    intro u s hs p hp
    unfold calcFillPlanesCommon fillStart at hp
    rw [fillRadius_eq hx hy hr] at hp
    dsimp only at hp
    rw [XR.fin_neg, XR.fin_div hs, XR.fin_floor, XR.fin_mul, mulScalar_vec, toPoint_vec, fillPlanesFrom_eq] at hp
    obtain ⟨i, _, rfl⟩ := List.mem_map.1 hp
    exact ⟨_, _, rfl⟩
  have step : ∀ d : Int, d ≠ 0 → ∃ s : ℝ, s ≠ 0 ∧ fillStep d sett.gs.lineWidth = XR.fin s := by
    intro d h0
    have h0' : (d : ℝ) ≠ 0 := by exact_mod_cast h0
    refine ⟨100 / d * lw, mul_ne_zero (div_ne_zero (by norm_num) h0') hl, ?_⟩
    unfold fillStep
    rw [hlw, XR.lit_def, XR.ofInt_def, XR.fin_div h0', XR.fin_mul]
    norm_num
  have vecs : ∀ m1 m2 e1 e2, ∃ u : R3, V (lit m1 e1) (lit m2 e2) (lit 0 0 : XR) = u.vec := by
    intro m1 m2 e1 e2
    simp only [XR.lit_def, V]
    exact ⟨⟨_, _, _⟩, rfl⟩
  have d2 : sett.fillDensity.tdiv 2 ≠ 0 := by rw [Int.tdiv_eq_ediv_of_nonneg (by omega)]; omega
  have d3 : sett.fillDensity.tdiv 3 ≠ 0 := by rw [Int.tdiv_eq_ediv_of_nonneg (by omega)]; omega
  intro p hp
  rcases List.mem_append.1 hp with hp | hp
  · have lines : ∀ p ∈ calcFillPlanesLines (rmesh ts) sett, RealPlane p := by
      intro p hp
      obtain ⟨s, hs, e⟩ := step _ (show sett.fillDensity ≠ 0 by omega)
      unfold calcFillPlanesLines at hp
      rw [e, axisX_vec] at hp
      exact common _ s hs p hp
    have other : ∀ d : Int, d ≠ 0 → ∀ m1 m2 e1 e2, ∀ p ∈ calcFillPlanesCommon (rmesh ts) (V (lit m1 e1) (lit m2 e2) (lit 0 0))
        (fillStep d sett.gs.lineWidth), RealPlane p := by
      intro d h0 m1 m2 e1 e2 p hp
      obtain ⟨s, hs, e⟩ := step d h0
      obtain ⟨u, hu⟩ := vecs m1 m2 e1 e2
      rw [e, hu] at hp
      exact common u s hs p hp
    unfold calcFillPlanes at hp
    dsimp only at hp
    split at hp
    · exact lines p hp
    · split at hp
      · rcases List.mem_append.1 hp with hp | hp <;> exact other _ d2 _ _ _ _ p hp
      · split at hp
        · rcases List.mem_append.1 hp with hp | hp
          · rcases List.mem_append.1 hp with hp | hp <;> exact other _ d3 _ _ _ _ p hp
          · exact other _ d3 _ _ _ _ p hp
        · exact lines p hp
  · unfold calcFillPlanes calcFillFullPlane at hp
    dsimp only at hp
    rw [hlw, axisX_vec] at hp
    exact common _ lw hl p hp

theorem planesFor_mem {β : Type} {full sparse : List β} {b t : Int} {n i : Nat} {p : β} (h : p ∈ planesFor full sparse b t n i) :
    p ∈ sparse ++ full := by
  unfold planesFor at h
  split at h <;> simp [h]

/-- fill lines of a level layer are level -/
theorem fillLines_level {z : ℝ} (S : Sorter) (full sparse : List (Plane XR)) (sett : Settings XR) (n i : Nat) (l : Layer XR)
    (hp : ∀ p ∈ sparse ++ full, RealPlane p) (hl : LayerAt z l) : ∀ q ∈ fillLines S full sparse sett n i l, LevelAt z q := by
  intro q hq
  unfold fillLines at hq
  rcases List.mem_append.1 hq with hq | hq
  · exact hl q (by simp [hq])
  · obtain ⟨p, hp1, hq⟩ := List.mem_flatMap.1 hq
    rw [levelAt_iff]
    refine fillCut_flat S _ ?_ p (hp p (planesFor_mem hp1)) q hq
    intro c hc
    rw [← levelAt_iff]
    unfold fillBetween at hc
    split at hc
    · exact hl c (by simp [hc])
    · exact hl c (by simp [hc])

theorem LevelAt.flip {z : ℝ} {x q : Path XR} (h : LevelAt z q) (e : x.points = q.points ∨ x.points = q.points.reverse) : LevelAt z x := by
  intro p hp
  rcases e with e | e <;> rw [e] at hp
  · exact h p hp
  · exact h p (List.mem_reverse.1 hp)

/-- the layers of a group: numbers increasing, and layer number `m` entirely at the height `layerZ lo hi n m` -/
def LevelGroup (lo hi : ℝ) (n : Nat) (ls : List (Layer XR)) : Prop :=
  (ls.map (·.order)).Pairwise (· < ·) ∧ ∀ l ∈ ls, ∃ m : Nat, l.order = m ∧ m < n ∧ LayerAt (layerZ lo hi n m) l

/-- **C78.** With the slicing type `3axes` the program prints one group of layers: with increasing numbers, and in layer number `m`
everything is exactly at one height, the middle of the layer rounded to eight decimals: contours, supports and infill. -/
theorem C78_three_axes (S : Sorter) (A : Arrival XR) (f : List (STri XR) → XR → List (STri XR)) (fuel : Nat) (planes : Option Bytes) [FltText XR]
    (ts : List RTri) (sett : Settings XR) (lo hi t lw : ℝ) (hm : Sliceable S ts sett lo hi t) (hlw : sett.gs.lineWidth = XR.fin lw)
    (hl : lw ≠ 0) (hd : 3 ≤ sett.fillDensity) (g : Gcode XR) (h : sliceAs S A f fuel planes "3axes" (rmesh ts) sett = .ok g) :
    ∃ out, g = ⟨sett.gs, [.layersMoving out]⟩ ∧ LevelGroup lo hi ⌈(hi - lo) / t⌉.toNat out := by
  obtain ⟨layers, out, h1, h2, rfl⟩ := ((C74_type S A f fuel planes "3axes" (rmesh ts) sett).1 rfl g).1 h
  refine ⟨out, rfl, ?_⟩
  obtain ⟨ho, hz⟩ := C78_contours S A ts sett lo hi t hm layers h1
  have hne : ts ≠ [] := by
    rintro rfl
    obtain ⟨w, hw, _⟩ := hm.extent.1.1
    simp [allVerts] at hw
  have hp := fillPlanes_real hne hm.small hlw hl hd
  obtain ⟨out', h3, h4, h5⟩ := C42_fill S layers (calcFillPlanes (rmesh ts) sett).1 (calcFillPlanes (rmesh ts) sett).2 sett (by
    intro l hl q hq
    obtain ⟨m, _, _, _, _, _, _, e⟩ := hz l hl
    rw [e] at hq; cases hq)
  rw [h2] at h3
  injection h3 with h3
  subst h3
  have hord : out.map (·.order) = layers.map (·.order) := by
    apply List.ext_getElem?
    intro i
    rw [List.getElem?_map, List.getElem?_map]
    cases hli : layers[i]? with
    | none =>
      have : out[i]? = none := by rw [List.getElem?_eq_none_iff] at hli ⊢; omega
      rw [this]
    | some l =>
      obtain ⟨o, h6, h7, _⟩ := h5 i l hli
      rw [h6]; simp [h7]
  refine ⟨by rw [hord]; exact ho, ?_⟩
  intro o ho'
  obtain ⟨i, hio, rfl⟩ := List.getElem_of_mem ho'
  have hil : i < layers.length := by omega
  obtain ⟨o', e1, e2, _, e4, e5, e6, _, e8, _⟩ := h5 i _ (List.getElem?_eq_getElem hil)
  rw [List.getElem?_eq_getElem hio] at e1
  injection e1 with e1
  subst e1
  obtain ⟨m, m1, m2, m3, m4, m5, m6, m7⟩ := hz _ (List.getElem_mem hil)
  refine ⟨m, by rw [e2, m1], by omega, ?_⟩
  have hlay : LayerAt (layerZ lo hi ⌈(hi - lo) / t⌉.toNat m) layers[i] := by
    intro q hq
    rw [m5, m6, m7] at hq
    exact m4 q (by simpa using hq)
  intro q hq
  simp only [List.mem_append] at hq
  rcases hq with ((hq | hq) | hq) | hq
  · rw [e4] at hq; exact m4 q hq
  · rw [e5, m5] at hq; cases hq
  · rw [e6, m6] at hq; cases hq
  · obtain ⟨q', hq', e⟩ := e8 q hq
    exact (fillLines_level S _ _ sett _ _ _ hp hlay q' hq').flip e

/-- **C78, walls.** The same with the walls that `vip` adds: everything in layer number `m` of the prepared layers is at one height. -/
theorem C78_walls_partial (S : Sorter) (A : Arrival XR) (ts : List RTri) (sett : Settings XR) (lo hi t lw : ℝ) (hm : Sliceable S ts sett lo hi t)
    (hlw : sett.gs.lineWidth = XR.fin lw) (sparse full : List (Plane XR)) (hp : ∀ p ∈ sparse ++ full, RealPlane p)
    (layers : List (Layer XR)) (h : sliceByVector S A (some (rmesh ts)) axisZ sett = .ok layers) :
    ∃ out, prepareLayers S layers sett sparse full = .ok out ∧ out.length = layers.length ∧ LevelGroup lo hi ⌈(hi - lo) / t⌉.toNat out := by
  obtain ⟨ho, hz⟩ := C78_contours S A ts sett lo hi t hm layers h
  obtain ⟨out, h3, h4, h5⟩ := C47_walls S layers sett sparse full (by
    intro l hl q hq
    obtain ⟨m, _, _, _, _, _, _, e⟩ := hz l hl
    rw [e] at hq; cases hq)
  refine ⟨out, h3, h4, ?_⟩
  have hord : out.map (·.order) = layers.map (·.order) := by
    apply List.ext_getElem?
    intro i
    rw [List.getElem?_map, List.getElem?_map]
    cases hli : layers[i]? with
    | none =>
      have : out[i]? = none := by rw [List.getElem?_eq_none_iff] at hli ⊢; omega
      rw [this]
    | some l =>
      obtain ⟨o, h6, h7, _⟩ := h5 i l hli
      rw [h6]; simp [h7]
  refine ⟨by rw [hord]; exact ho, ?_⟩
  intro o ho'
  obtain ⟨i, hio, rfl⟩ := List.getElem_of_mem ho'
  have hil : i < layers.length := by omega
  obtain ⟨o', e1, e2, _, e4, ⟨walls, w1, w2, w3⟩, _, e8⟩ := h5 i _ (List.getElem?_eq_getElem hil)
  rw [List.getElem?_eq_getElem hio] at e1
  injection e1 with e1
  subst e1
  obtain ⟨m, m1, m2, m3, m4, m5, m6, m7⟩ := hz _ (List.getElem_mem hil)
  refine ⟨m, by rw [e2, m1], by omega, ?_⟩
  obtain ⟨z, hzz⟩ : ∃ z, z = layerZ lo hi ⌈(hi - lo) / t⌉.toNat m := ⟨_, rfl⟩
  rw [← hzz] at m4 ⊢
  have hw : ∀ ws ∈ walls, ∀ q ∈ ws, LevelAt z q := by
    intro ws hws q hq
    obtain ⟨j, hj, rfl⟩ := List.getElem_of_mem hws
    have hj' : j < layers[i].paths.length := by rw [w1.length_eq]; exact hj
    have hr := List.Forall₂.get w1 hj' hj
    simp only [List.get_eq_getElem] at hr
    unfold WallsOf at hr
    dsimp only at hr
    split at hr
    · rw [m3, hlw] at hr
      have hflat := (levelAt_iff _ _).1 (m4 _ (List.getElem_mem hj'))
      exact (levelAt_iff _ _).2 (offsets_flat hflat hr q hq)
    · rw [hr] at hq; cases hq
  have hmid : ∀ q ∈ out[i].middlePs, LevelAt z q := by
    intro q hq
    rw [w2, m5, List.nil_append] at hq
    obtain ⟨ws, hws, hq⟩ := List.mem_flatMap.1 hq
    exact hw ws hws q (List.mem_of_mem_dropLast hq)
  have hinn : ∀ q ∈ out[i].innerPs, LevelAt z q := by
    intro q hq
    rw [w3, m6, List.nil_append] at hq
    obtain ⟨ws, hws, hq⟩ := List.mem_filterMap.1 hq
    exact hw ws hws q (List.mem_of_mem_getLast? hq)
  have hlay : LayerAt z { out[i] with fill := layers[i].fill } := by
    intro q hq
    simp only [m7, List.mem_append, List.not_mem_nil, or_false] at hq
    rcases hq with (hq | hq) | hq
    · rw [e4] at hq; exact m4 q hq
    · exact hmid q hq
    · exact hinn q hq
  intro q hq
  simp only [List.mem_append] at hq
  rcases hq with ((hq | hq) | hq) | hq
  · rw [e4] at hq; exact m4 q hq
  · exact hmid q hq
  · exact hinn q hq
  · obtain ⟨q', hq', e⟩ := e8 q hq
    exact (fillLines_level S _ _ sett _ _ _ hp hlay q' hq').flip e

theorem r8_mono {x y : ℝ} (h : x ≤ y) : r8 x ≤ r8 y := by
  have h8 : (0 : ℝ) < 10 ^ 8 := by norm_num
  unfold r8
  apply div_le_div_of_nonneg_right _ h8.le
  split_ifs with hx hy hy
  · exact_mod_cast Int.ceil_mono (by nlinarith)
  · have h1 : (⌈x * 10 ^ 8 - 1 / 2⌉ : Int) ≤ 0 := Int.ceil_le.2 (by push_cast; nlinarith)
    have h2 : (0 : Int) ≤ ⌊y * 10 ^ 8 + 1 / 2⌋ := Int.floor_nonneg.2 (by push Not at hy; nlinarith)
    exact_mod_cast h1.trans h2
  · exfalso; linarith
  · exact_mod_cast Int.floor_mono (by nlinarith)

/-- **C78.** Higher numbers are higher up: heights never decrease, and increase if the layers are thicker than the rounding. -/
theorem C78_upwards (lo hi : ℝ) (n m m' : Nat) (h : lo < hi) (hn : 0 < n) (hm : m < m') :
    layerZ lo hi n m ≤ layerZ lo hi n m' ∧ (1 / 10 ^ 8 < (hi - lo) / n → layerZ lo hi n m < layerZ lo hi n m') := by
  have hn' : (0 : ℝ) < n := by exact_mod_cast hn
  have hs : 0 < (hi - lo) / n := div_pos (by linarith) hn'
  have hmm : (m : ℝ) + 1 ≤ m' := by exact_mod_cast hm
  have hle : lo + ((m : ℝ) + 1 / 2) * ((hi - lo) / n) + (hi - lo) / n ≤ lo + ((m' : ℝ) + 1 / 2) * ((hi - lo) / n) := by nlinarith
  constructor
  · exact r8_mono (by linarith)
  · intro hb
    unfold layerZ
    have b1 := abs_le.1 (r8_bounds (lo + ((m : ℝ) + 1 / 2) * ((hi - lo) / n)))
    have b2 := abs_le.1 (r8_bounds (lo + ((m' : ℝ) + 1 / 2) * ((hi - lo) / n)))
    norm_num at b1 b2 hb
    linarith [b1.2, b2.1]

/-! ## Bodies of rotation -/

theorem tiltedUp : (axisZ : Vec XR).rotate (rotationAroundX (lit 60 0)) = (⟨0, Real.sqrt 3 / 2, 1 / 2⟩ : R3).vec := by
  have e : (lit 60 0 : XR) = XR.fin 60 := by simp
  have r : rad 60 = Real.pi / 3 := by unfold rad; ring
  rw [axisZ_vec, e, rotate_rotX, r]
  congr 1
  apply R3.ext <;> simp [R3.rotX]

theorem tiltedUp_unit : (⟨0, Real.sqrt 3 / 2, 1 / 2⟩ : R3).unit = ⟨0, Real.sqrt 3 / 2, 1 / 2⟩ := by
  have h3 : Real.sqrt 3 * Real.sqrt 3 = 3 := Real.mul_self_sqrt (by norm_num)
  have : (⟨0, Real.sqrt 3 / 2, 1 / 2⟩ : R3).norm = 1 := by
    unfold R3.norm R3.normSq R3.dot
    rw [show (0 : ℝ) * 0 + Real.sqrt 3 / 2 * (Real.sqrt 3 / 2) + 1 / 2 * (1 / 2) = 1 by nlinarith]
    exact Real.sqrt_one
  unfold R3.unit
  rw [this]
  apply R3.ext <;> simp

/-- **C78, bodies of rotation.** `SliceRotation` tilts the upper part by 60 degrees and slices it along the axis tilted by 60 degrees. The
layers of that part are not level as the nozzle sees them: a contour that extends one millimetre in the y direction climbs by more
than 1.7 millimetres. -/
theorem C78_rotation (S : Sorter) (A : Arrival XR) (ts : List RTri) (sett : Settings XR) (lo hi t : ℝ)
    (he : Extent ts ⟨0, Real.sqrt 3 / 2, 1 / 2⟩ lo hi) (hsm : ∀ r ∈ ts, r.small) (hf : SupportsFinite sett)
    (hsup : ∀ sup, supportsOf S (rmesh ts) (⟨0, Real.sqrt 3 / 2, 1 / 2⟩ : R3).vec sett = .ok sup → ∀ r : RTri, r.tri ∈ sup → r.small)
    (hlt : lo < hi) (hh : sett.layerHeight = XR.fin t) (ht : 0 < t) (hb : ⌈(hi - lo) / t⌉ < 2 ^ 63) (layers : List (Layer XR))
    (h : sliceByVector S A (some (rmesh ts)) (axisZ.rotate (rotationAroundX (lit 60 0))) sett = .ok layers) :
    ∀ l ∈ layers, ∀ q ∈ l.paths, ∀ u v : R3, u.pt ∈ q.points → v.pt ∈ q.points →
      |(u.z - v.z) + Real.sqrt 3 * (u.y - v.y)| ≤ 1 / 10 ^ 7 ∧ (1 ≤ |u.y - v.y| → 17 / 10 < |u.z - v.z|) := by
  have hz : (⟨0, Real.sqrt 3 / 2, 1 / 2⟩ : R3) ≠ 0 := by intro h; have := congrArg R3.z h; simp at this
  have s3 : Real.sqrt 3 * Real.sqrt 3 = 3 := Real.mul_self_sqrt (by norm_num)
  have s0 : 0 ≤ Real.sqrt 3 := Real.sqrt_nonneg 3
  have s2 : Real.sqrt 3 < 2 := by nlinarith
  have s1 : 173 / 100 < Real.sqrt 3 := by nlinarith
  rw [tiltedUp] at h
  obtain ⟨_, h2⟩ := C78_planes S A ts _ hz sett lo hi t (by rw [tiltedUp_unit]; exact he) hsm
    (by
      intro w hw
      rw [tiltedUp_unit]
      have hw := allVerts_small hsm w hw
      have b1 := abs_le.1 hw.2.1
      have b2 := abs_le.1 hw.2.2
      have hl : 2 * roundLimit ≤ XR.maxF64R := by
        unfold XR.maxF64R roundLimit
        have h1 : (1 : ℝ) ≤ 2 ^ 983 := one_le_pow₀ (by norm_num)
        have e : (2 : ℝ) ^ 1023 = 2 ^ 983 * 2 ^ 40 := by rw [← pow_add]
        rw [e]
        have h2 : (1 : ℝ) ≤ 2 - 2⁻¹ ^ 52 := by norm_num
        generalize (2 : ℝ) ^ 983 = y at h1
        generalize (2 : ℝ) - 2⁻¹ ^ 52 = z at h2
        have h3 : 1 ≤ z * y := by nlinarith
        nlinarith
      have r0 : 0 ≤ roundLimit := by unfold roundLimit; norm_num
      rw [abs_le]
      simp only [R3.dot, mul_zero, zero_add]
      constructor <;> nlinarith)
    hf (by rw [tiltedUp_unit]; exact hsup) hlt hh ht hb layers h
  intro l hl q hq u v hu hv
  obtain ⟨m, _, _, _, h3, _⟩ := h2 l hl
  rw [tiltedUp_unit] at h3
  obtain ⟨u', eu, hu'⟩ := h3 q hq _ hu
  obtain ⟨v', ev, hv'⟩ := h3 q hq _ hv
  have eu := R3.pt_inj eu
  have ev := R3.pt_inj ev
  subst eu ev
  simp only [R3.dot, R3.round8] at hu' hv' ⊢
  have c1 := abs_le.1 (r8_bounds u'.y)
  have c2 := abs_le.1 (r8_bounds u'.z)
  have c3 := abs_le.1 (r8_bounds v'.y)
  have c4 := abs_le.1 (r8_bounds v'.z)
  norm_num at c1 c2 c3 c4
  generalize r8 u'.y = uy at *
  generalize r8 u'.z = uz at *
  generalize r8 v'.y = vy at *
  generalize r8 v'.z = vz at *
  have main : |(uz - vz) + Real.sqrt 3 * (uy - vy)| ≤ 1 / 10 ^ 7 := by
    have e : (uz - vz) + Real.sqrt 3 * (uy - vy) = (uz - u'.z) - (vz - v'.z) + Real.sqrt 3 * ((uy - u'.y) - (vy - v'.y)) := by
      linear_combination 2 * hu' - 2 * hv'
    rw [e, abs_le]
    obtain ⟨a1, a2⟩ := c1
    obtain ⟨a3, a4⟩ := c2
    obtain ⟨a5, a6⟩ := c3
    obtain ⟨a7, a8⟩ := c4
    constructor <;> nlinarith
  refine ⟨main, ?_⟩
  intro hy
  have t1 : |Real.sqrt 3 * (uy - vy)| = Real.sqrt 3 * |uy - vy| := by rw [abs_mul, abs_of_nonneg s0]
  have t2 : Real.sqrt 3 * |uy - vy| ≤ |(uz - vz) + Real.sqrt 3 * (uy - vy)| + |uz - vz| := by
    rw [← t1]
    have := abs_sub ((uz - vz) + Real.sqrt 3 * (uy - vy)) (uz - vz)
    rwa [add_sub_cancel_left] at this
  have t3 : 173 / 100 ≤ Real.sqrt 3 * |uy - vy| := by nlinarith
  norm_num at main
  linarith

/-! ## Examples -/

/-- the hypotheses of the theorems hold for a triangle of height 2 sliced into two layers -/
example (S : Sorter) : Sliceable S [exampleTri] (exampleSettings 1) 0 2 1 := by
  refine ⟨exampleExtent, ?_, (fun h => by cases h), ?_, by norm_num, rfl, by norm_num, by norm_num⟩
  · intro r hr
    rw [List.mem_singleton] at hr
    subst hr
    simp only [RTri.small, R3.small, exampleTri, roundLimit]
    norm_num
  · intro sup h r hr
    have h : (Except.ok [] : Go _) = Except.ok sup := h
    injection h with h
    subst h
    cases hr

section
open RatToy
attribute [local instance] RatToy.flt RatToy.txt
set_option maxRecDepth 10000

/-- lowest and highest point of each layer of each group of layers of a program -/
def printedHeights (g : Gcode Rat) : List (List (Option (Rat × Rat))) :=
  (printedWith levelBed g.cmds).map fun q => q.2.map fun l =>
    match (l.paths ++ l.middlePs ++ l.innerPs ++ l.fill).flatMap fun p => p.points.map (·.z) with
    | [] => none
    | z :: t => some (t.foldl min z, t.foldl max z)

/-- a funnel is printed in level layers with `3axes` -/
example : (sliceAs Sorter.insertion inOrder (fun l _ => l) 9 none "3axes" funnel hollow).map printedHeights =
    .ok [[some (1 / 2, 1 / 2), some (3 / 2, 3 / 2)]] := by decide +kernel
/-- **C78 fails for bodies of rotation.** The one layer of the tilted part of a funnel is not level: it
climbs by more than 12 millimetres. (In the rational arithmetic of `RatToy`; `C78_rotation` says the same for every model.) -/
theorem C78_violated : ∃ low high : Rat, (via (sliceRotation Sorter.insertion inOrder) funnel).map printedHeights =
    .ok [[some (1 / 2, 1 / 2)], [some (low, high)]] ∧ low + 12 < high :=
  ⟨-265654841 / 50000000, 706343787 / 100000000, by decide +kernel, by decide +kernel⟩
end

end Goosli
