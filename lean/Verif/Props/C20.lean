import Verif.Proofs.Cut
/-!
# C20: cutting separates the mesh
-/
set_option linter.unusedSectionVars false
namespace Goosli
open Flt

/-- the vertices of the triangle differ pairwise by at least `1e-6` in some coordinate -/
def RTri.distinct (t : RTri) : Prop := ¬ t.a.near t.b ∧ ¬ t.b.near t.c ∧ ¬ t.c.near t.a

theorem R3.near_symm {a b : R3} (h : a.near b) : b.near a :=
  ⟨by rw [abs_sub_comm]; exact h.1, by rw [abs_sub_comm]; exact h.2.1, by rw [abs_sub_comm]; exact h.2.2⟩

theorem rots_trans {r s s' : RTri} (hs : s ∈ r.rots) (hs' : s' ∈ r.rots) : s' ∈ s.rots := by
  simp only [RTri.rots, List.mem_cons, List.not_mem_nil, or_false] at *
  rcases hs with rfl | rfl | rfl <;> rcases hs' with rfl | rfl | rfl <;> simp [RTri.rot]

/-- both vertices close in the sense needed below -/
def Close (e : ℝ) (a b : R3) : Prop := |a.x - b.x| ≤ e ∧ |a.y - b.y| ≤ e ∧ |a.z - b.z| ≤ e

theorem verts_rots {r s : RTri} (h : s ∈ r.rots) : s.a ∈ r.verts ∧ s.b ∈ r.verts ∧ s.c ∈ r.verts := by
  simp only [RTri.rots, List.mem_cons, List.not_mem_nil, or_false] at h
  rcases h with rfl | rfl | rfl <;> simp [RTri.verts, RTri.rot]

/-- heights of the pieces of one triangle, with a bound `e` on the distance of vertices the code confuses -/
theorem piece_bounds (P N : R3) (r : RTri) (hr : r.small) (e : ℝ) (he : 1 / 2 / 10 ^ 8 ≤ e)
    (hn : ∀ s ∈ r.rots, ∀ s' ∈ r.rots, s.a.near s'.a → Close e s.a s'.a) :
    (∀ t ∈ (cutTriangle ⟨P.pt, N.vec⟩ r.tri).up, ∃ q : RTri, t = q.tri ∧ ∀ v ∈ q.verts, -(e * N.l1) ≤ R3.height P N v) ∧
      (∀ t ∈ (cutTriangle ⟨P.pt, N.vec⟩ r.tri).down, ∃ q : RTri, t = q.tri ∧ ∀ v ∈ q.verts, R3.height P N v ≤ e * N.l1) := by
  have hl := N.l1_nonneg
  have hel : 0 ≤ e * N.l1 := mul_nonneg (le_trans (by norm_num) he) hl
  have hcut : ∀ x : R3, (∃ u, R3.onPlane P N u ∧ x.within8 u) → |R3.height P N x| ≤ e * N.l1 := by
    rintro x ⟨u, hu, hx⟩
    have := height_close (P := P) (N := N) hx.1 hx.2.1 hx.2.2
    unfold R3.onPlane at hu
    rw [hu, sub_zero] at this
    exact this.trans (mul_le_mul_of_nonneg_right he hl)
  have hclose : ∀ {x y : R3}, Close e x y → |R3.height P N x - R3.height P N y| ≤ e * N.l1 :=
    fun h => height_close h.1 h.2.1 h.2.2
  rcases cut_cases P N r with ⟨h1, h2, h3, ec⟩ | ⟨h1, h2, h3, ec⟩ | ⟨s, hs, h1, h2, h3, ⟨_, ec⟩ | ⟨l, hl', ec⟩⟩ |
    ⟨s, hs, h1, h2, h3, ⟨_, ec⟩ | ⟨l, hl', ec⟩⟩ <;> rw [ec]
  · simp only [List.mem_singleton, List.not_mem_nil, false_imp_iff, implies_true, and_true, forall_eq]
    refine ⟨r, rfl, ?_⟩
    intro v hv
    simp only [RTri.verts, List.mem_cons, List.not_mem_nil, or_false] at hv
    rcases hv with rfl | rfl | rfl <;> linarith
  · simp only [List.mem_singleton, List.not_mem_nil, false_imp_iff, implies_true, true_and, forall_eq]
    refine ⟨r, rfl, ?_⟩
    intro v hv
    simp only [RTri.verts, List.mem_cons, List.not_mem_nil, or_false] at hv
    rcases hv with rfl | rfl | rfl <;> linarith
  · simp
  · obtain ⟨x, y, rfl, hx, hy⟩ := section_near_plane P N r hr l hl'
    have hx := abs_le.1 (hcut x hx); have hy := abs_le.1 (hcut y hy)
    obtain ⟨s', hs', hnear, m1, m2, hm, hsp⟩ := split_spec r s.a x y (verts_rots hs).1
    rw [hsp]
    have hm1 : |R3.height P N m1| ≤ e * N.l1 ∧ |R3.height P N m2| ≤ e * N.l1 := by
      rcases hm with ⟨rfl, rfl, _⟩ | ⟨rfl, rfl, _⟩
      · exact ⟨abs_le.2 hx, abs_le.2 hy⟩
      · exact ⟨abs_le.2 hy, abs_le.2 hx⟩
    have k1 := abs_le.1 hm1.1; have k2 := abs_le.1 hm1.2
    have hc := abs_le.1 (hclose (hn s' hs' s hs hnear))
    have bs : -(e * N.l1) ≤ R3.height P N s'.a ∧ R3.height P N s'.b ≤ e * N.l1 ∧ R3.height P N s'.c ≤ e * N.l1 := by
      have hss := rots_trans hs hs'
      simp only [RTri.rots, List.mem_cons, List.not_mem_nil, or_false] at hss
      rcases hss with rfl | rfl | rfl
      · exact ⟨by linarith, by linarith, by linarith⟩
      · simp only [RTri.rot] at hc ⊢
        exact ⟨by linarith, by linarith, by linarith⟩
      · simp only [RTri.rot] at hc ⊢
        exact ⟨by linarith, by linarith, by linarith⟩
    constructor
    · intro t ht
      rw [List.mem_singleton] at ht; subst ht
      refine ⟨_, rfl, ?_⟩
      intro v hv
      simp only [RTri.verts, List.mem_cons, List.not_mem_nil, or_false] at hv
      rcases hv with rfl | rfl | rfl <;> linarith [bs.1]
    · intro t ht
      simp only [List.mem_cons, List.not_mem_nil, or_false] at ht
      rcases ht with rfl | rfl
      · refine ⟨_, rfl, ?_⟩
        intro v hv
        simp only [RTri.verts, List.mem_cons, List.not_mem_nil, or_false] at hv
        rcases hv with rfl | rfl | rfl <;> linarith [bs.2.1, bs.2.2]
      · refine ⟨_, rfl, ?_⟩
        intro v hv
        simp only [RTri.verts, List.mem_cons, List.not_mem_nil, or_false] at hv
        rcases hv with rfl | rfl | rfl <;> linarith [bs.2.1, bs.2.2]
  · simp
  · obtain ⟨x, y, rfl, hx, hy⟩ := section_near_plane P N r hr l hl'
    have hx := abs_le.1 (hcut x hx); have hy := abs_le.1 (hcut y hy)
    obtain ⟨s', hs', hnear, m1, m2, hm, hsp⟩ := split_spec r s.a x y (verts_rots hs).1
    rw [hsp]
    have hm1 : |R3.height P N m1| ≤ e * N.l1 ∧ |R3.height P N m2| ≤ e * N.l1 := by
      rcases hm with ⟨rfl, rfl, _⟩ | ⟨rfl, rfl, _⟩
      · exact ⟨abs_le.2 hx, abs_le.2 hy⟩
      · exact ⟨abs_le.2 hy, abs_le.2 hx⟩
    have k1 := abs_le.1 hm1.1; have k2 := abs_le.1 hm1.2
    have hc := abs_le.1 (hclose (hn s' hs' s hs hnear))
    have bs : R3.height P N s'.a ≤ e * N.l1 ∧ -(e * N.l1) ≤ R3.height P N s'.b ∧ -(e * N.l1) ≤ R3.height P N s'.c := by
      have hss := rots_trans hs hs'
      simp only [RTri.rots, List.mem_cons, List.not_mem_nil, or_false] at hss
      rcases hss with rfl | rfl | rfl
      · exact ⟨by linarith, by linarith, by linarith⟩
      · simp only [RTri.rot] at hc ⊢
        exact ⟨by linarith, by linarith, by linarith⟩
      · simp only [RTri.rot] at hc ⊢
        exact ⟨by linarith, by linarith, by linarith⟩
    constructor
    · intro t ht
      simp only [List.mem_cons, List.not_mem_nil, or_false] at ht
      rcases ht with rfl | rfl
      · refine ⟨_, rfl, ?_⟩
        intro v hv
        simp only [RTri.verts, List.mem_cons, List.not_mem_nil, or_false] at hv
        rcases hv with rfl | rfl | rfl <;> linarith [bs.2.1, bs.2.2]
      · refine ⟨_, rfl, ?_⟩
        intro v hv
        simp only [RTri.verts, List.mem_cons, List.not_mem_nil, or_false] at hv
        rcases hv with rfl | rfl | rfl <;> linarith [bs.2.1, bs.2.2]
    · intro t ht
      rw [List.mem_singleton] at ht; subst ht
      refine ⟨_, rfl, ?_⟩
      intro v hv
      simp only [RTri.verts, List.mem_cons, List.not_mem_nil, or_false] at hv
      rcases hv with rfl | rfl | rfl <;> linarith [bs.1]

/-- every vertex of the mesh is a finite point with height at least `lo` -/
def AllAbove (P N : R3) (lo : ℝ) (m : Mesh XR) : Prop :=
  ∀ t ∈ m.triangles, ∃ q : RTri, t = q.tri ∧ ∀ v ∈ q.verts, lo ≤ R3.height P N v

/-- every vertex of the mesh is a finite point with height at most `hi` -/
def AllBelow (P N : R3) (hi : ℝ) (m : Mesh XR) : Prop :=
  ∀ t ∈ m.triangles, ∃ q : RTri, t = q.tri ∧ ∀ v ∈ q.verts, R3.height P N v ≤ hi

theorem cut_bounds (S : Sorter) (P N : R3) (ts : List RTri) (hs : ∀ r ∈ ts, r.small) (e : ℝ) (he : 1 / 2 / 10 ^ 8 ≤ e)
    (hn : ∀ r ∈ ts, ∀ s ∈ r.rots, ∀ s' ∈ r.rots, s.a.near s'.a → Close e s.a s'.a) :
    ∃ up down, cutMesh S (some (rmesh ts)) ⟨P.pt, N.vec⟩ = .ok (up, down) ∧
      AllAbove P N (-(e * N.l1)) up ∧ AllBelow P N (e * N.l1) down := by
  obtain ⟨_, caps, _, h1, _, h2⟩ := cutMesh_shape S P N ts hs
  have hl := N.l1_nonneg
  have hcap : ∀ c ∈ caps, ∀ v ∈ c.verts, |R3.height P N v| ≤ e * N.l1 := by
    intro c hc v hv
    obtain ⟨u, hu, hx⟩ := (h2 c hc).2 v hv
    have := height_close (P := P) (N := N) hx.1 hx.2.1 hx.2.2
    unfold R3.onPlane at hu
    rw [hu, sub_zero] at this
    exact this.trans (mul_le_mul_of_nonneg_right he hl)
  refine ⟨_, _, h1, ?_, ?_⟩
  · intro t ht
    rcases List.mem_append.1 ht with ht | ht
    · obtain ⟨r, hr, ht⟩ := List.mem_flatMap.1 ht
      exact (piece_bounds P N r (hs r hr) e he (hn r hr)).1 t ht
    · obtain ⟨c, hc, rfl⟩ := List.mem_map.1 ht
      exact ⟨c, rfl, fun v hv => (abs_le.1 (hcap c hc v hv)).1⟩
  · intro t ht
    rcases List.mem_append.1 ht with ht | ht
    · obtain ⟨r, hr, ht⟩ := List.mem_flatMap.1 ht
      exact (piece_bounds P N r (hs r hr) e he (hn r hr)).2 t ht
    · obtain ⟨c, hc, rfl⟩ := List.mem_map.1 ht
      refine ⟨c.flip, rfl, fun v hv => (abs_le.1 (hcap c hc v ?_)).2⟩
      simp only [RTri.verts, RTri.flip, List.mem_cons, List.not_mem_nil, or_false] at hv ⊢
      tauto

/-- **C20 (what holds for separated vertices).** If no triangle has two vertices within `1e-6` of each other, `CutMesh`
returns two meshes whose vertices are in front of and behind the plane, up to `0.5e-8 · (|Nx|+|Ny|+|Nz|)`.  Missing
to the full property: triangles with two vertices closer than that, see `C20_violated` and `C20_coarse`. -/
theorem C20_separated_partial (S : Sorter) (P N : R3) (ts : List RTri) (hs : ∀ r ∈ ts, r.small) (hd : ∀ r ∈ ts, r.distinct) :
    ∃ up down, cutMesh S (some (rmesh ts)) ⟨P.pt, N.vec⟩ = .ok (up, down) ∧
      AllAbove P N (-(1 / 2 / 10 ^ 8 * N.l1)) up ∧ AllBelow P N (1 / 2 / 10 ^ 8 * N.l1) down := by
  refine cut_bounds S P N ts hs _ (le_refl _) ?_
  intro r hr s h1 s' h2 hn
  obtain ⟨d1, d2, d3⟩ := hd r hr
  have heq : s.a = s'.a := by
    simp only [RTri.rots, List.mem_cons, List.not_mem_nil, or_false] at h1 h2
    rcases h1 with rfl | rfl | rfl <;> rcases h2 with rfl | rfl | rfl <;> simp only [RTri.rot] at hn ⊢
    · exact absurd hn d1
    · exact absurd (R3.near_symm hn) d3
    · exact absurd (R3.near_symm hn) d1
    · exact absurd hn d2
    · exact absurd hn d3
    · exact absurd (R3.near_symm hn) d2
  rw [heq]
  unfold Close
  rw [sub_self, sub_self, sub_self, abs_zero]
  norm_num

/-- **C20 (every mesh).** For every mesh the same holds up to `1e-6 · (|Nx|+|Ny|+|Nz|)`. -/
theorem C20_coarse (S : Sorter) (P N : R3) (ts : List RTri) (hs : ∀ r ∈ ts, r.small) :
    ∃ up down, cutMesh S (some (rmesh ts)) ⟨P.pt, N.vec⟩ = .ok (up, down) ∧
      AllAbove P N (-(1 / 10 ^ 6 * N.l1)) up ∧ AllBelow P N (1 / 10 ^ 6 * N.l1) down := by
  refine cut_bounds S P N ts hs _ (by norm_num) ?_
  intro r _ s _ s' _ hn
  exact ⟨hn.1.le, hn.2.1.le, hn.2.2.le⟩

theorem sublist_flatMap {β γ : Type} (l : List β) (p : β → Bool) (f : β → γ) (g : β → List γ)
    (h : ∀ x ∈ l, p x = true → g x = [f x]) : ((l.filter p).map f).Sublist (l.flatMap g) := by
  induction l with
  | nil => simp
  | cons x l ih =>
    have ih := ih (fun y hy => h y (by simp [hy]))
    rw [List.flatMap_cons]
    by_cases hp : p x = true
    · rw [List.filter_cons_of_pos hp, h x (by simp) hp]
      exact ih.cons₂ (f x)
    · rw [List.filter_cons_of_neg hp]
      exact ih.trans (List.sublist_append_right _ _)

open Classical in
/-- **C20 (untouched triangles).** The triangles with no vertex strictly behind the plane appear unchanged and in order
in the first mesh, those with all vertices strictly behind it in the second. -/
theorem C20_passed_through (S : Sorter) (P N : R3) (ts : List RTri) (hs : ∀ r ∈ ts, r.small) :
    ∃ up down, cutMesh S (some (rmesh ts)) ⟨P.pt, N.vec⟩ = .ok (up, down) ∧
      ((ts.filter fun r => decide (∀ v ∈ r.verts, 0 ≤ R3.height P N v)).map RTri.tri).Sublist up.triangles ∧
      ((ts.filter fun r => decide (∀ v ∈ r.verts, R3.height P N v < 0)).map RTri.tri).Sublist down.triangles := by
  obtain ⟨_, caps, _, h1, _, _⟩ := cutMesh_shape S P N ts hs
  refine ⟨_, _, h1, ?_, ?_⟩
  · refine (sublist_flatMap ts _ RTri.tri _ ?_).trans (List.sublist_append_left _ _)
    intro r _ hr
    have hr : ∀ v ∈ r.verts, 0 ≤ R3.height P N v := by simpa using hr
    have ha := hr r.a (by simp [RTri.verts]); have hb := hr r.b (by simp [RTri.verts]); have hc := hr r.c (by simp [RTri.verts])
    rcases cut_cases P N r with ⟨_, _, _, e⟩ | ⟨h, _⟩ | ⟨s, hs, _, h, _, _⟩ | ⟨s, hs, h, _⟩
    · rw [e]
    · linarith
    · exact absurd (hr _ (verts_rots hs).2.1) (by linarith)
    · exact absurd (hr _ (verts_rots hs).1) (by linarith)
  · refine (sublist_flatMap ts _ RTri.tri _ ?_).trans (List.sublist_append_left _ _)
    intro r _ hr
    have hr : ∀ v ∈ r.verts, R3.height P N v < 0 := by simpa using hr
    have ha := hr r.a (by simp [RTri.verts])
    rcases cut_cases P N r with ⟨h, _⟩ | ⟨_, _, _, e⟩ | ⟨s, hs, h, _⟩ | ⟨s, hs, _, h, _⟩
    · linarith
    · rw [e]
    · exact absurd (hr _ (verts_rots hs).1) (by linarith)
    · exact absurd (hr _ (verts_rots hs).2.1) (by linarith)

/-- a triangle with two vertices `0.9e-6` apart, on different sides of the plane `z = 0` -/
noncomputable def tightTri : RTri := ⟨⟨0, 0, -(5 / 10 ^ 7)⟩, ⟨0, 0, 4 / 10 ^ 7⟩, ⟨10, 0, 5 / 10 ^ 7⟩⟩

/-- **C20 (violated for close vertices).** `splitOnThree` looks for the cut-off vertex with a tolerance of `1e-6` and may
take the wrong one: the triangle `tightTri` cut by the plane `z = 0` leaves a vertex at height `4e-7` in the second mesh,
eighty times the rounding of the cut points. -/
theorem C20_violated (S : Sorter) : tightTri.small ∧
    ∃ up down, cutMesh S (some (rmesh [tightTri])) ⟨(R3.mk 0 0 0).pt, (R3.mk 0 0 1).vec⟩ = .ok (up, down) ∧
      (∃ t ∈ down.triangles, ∃ v : R3, t.p1 = v.pt ∧ R3.height ⟨0, 0, 0⟩ ⟨0, 0, 1⟩ v = 4 / 10 ^ 7) ∧
      ¬ AllBelow ⟨0, 0, 0⟩ ⟨0, 0, 1⟩ (1 / 2 / 10 ^ 8 * (R3.mk 0 0 1).l1) down := by
  have hsm : tightTri.small := by
    refine ⟨?_, ?_, ?_⟩ <;> simp only [tightTri, R3.small, roundLimit] <;> norm_num [abs_of_nonneg]
  refine ⟨hsm, ?_⟩
  obtain ⟨_, caps, _, h1, _, _⟩ := cutMesh_shape S ⟨0, 0, 0⟩ ⟨0, 0, 1⟩ [tightTri] (by simpa using hsm)
  have ha : R3.height ⟨0, 0, 0⟩ ⟨0, 0, 1⟩ tightTri.a = -(5 / 10 ^ 7) := by simp [R3.height, R3.dot, tightTri]
  have hb : R3.height ⟨0, 0, 0⟩ ⟨0, 0, 1⟩ tightTri.b = 4 / 10 ^ 7 := by simp [R3.height, R3.dot, tightTri]
  have hc : R3.height ⟨0, 0, 0⟩ ⟨0, 0, 1⟩ tightTri.c = 5 / 10 ^ 7 := by simp [R3.height, R3.dot, tightTri]
  have hx1 : crosses ⟨0, 0, 0⟩ ⟨0, 0, 1⟩ tightTri.a tightTri.b ⟨0, 0, 0⟩ := by
    refine ⟨by rw [ha, hb]; norm_num, ⟨5 / 9, by norm_num, by norm_num, ?_⟩, by simp [R3.onPlane, R3.height, R3.dot]⟩
    apply R3.ext <;> simp [tightTri]
    norm_num
  have hx2 : crosses ⟨0, 0, 0⟩ ⟨0, 0, 1⟩ tightTri.c tightTri.a ⟨5, 0, 0⟩ := by
    refine ⟨by rw [ha, hc]; norm_num, ⟨1 / 2, by norm_num, by norm_num, ?_⟩, by simp [R3.onPlane, R3.height, R3.dot]⟩
    apply R3.ext <;> simp [tightTri] <;> norm_num
  obtain ⟨l, hl, _⟩ := section_of_crossings ⟨0, 0, 0⟩ ⟨0, 0, 1⟩ tightTri.a tightTri.b tightTri.c ⟨0, 0, 0⟩ ⟨5, 0, 0⟩
    hsm.1 hsm.2.1 hsm.2.2 (Or.inl hx1) (Or.inr (Or.inr hx2)) (Or.inl (by norm_num))
  rw [newTriangle_tri] at hl
  have hp1 : (splitOnThree tightTri.a.pt l tightTri.tri).1.p1 = tightTri.b.pt := by
    have he : tightTri.tri.p2.equal tightTri.a.pt = true :=
      (equal_pt tightTri.b tightTri.a).2 (by refine ⟨?_, ?_, ?_⟩ <;> simp [tightTri, tol] <;> norm_num [abs_of_nonneg])
    unfold splitOnThree
    rw [if_pos he]
    dsimp only
    split <;> rfl
  have hd : (splitOnThree tightTri.a.pt l tightTri.tri).1 ∈
      (cutTriangle ⟨(R3.mk 0 0 0).pt, (R3.mk 0 0 1).vec⟩ tightTri.tri).down := by
    rcases cut_cases ⟨0, 0, 0⟩ ⟨0, 0, 1⟩ tightTri with ⟨h, _⟩ | ⟨_, h, _⟩ | ⟨s, hs, i1, i2, i3, _⟩ |
      ⟨s, hs, i1, i2, i3, ⟨e, _⟩ | ⟨l', hl', e⟩⟩
    · rw [ha] at h; norm_num at h
    · rw [hb] at h; norm_num at h
    · simp only [RTri.rots, List.mem_cons, List.not_mem_nil, or_false] at hs
      rcases hs with rfl | rfl | rfl
      · rw [ha] at i1; norm_num at i1
      · simp only [RTri.rot] at i2; rw [hc] at i2; norm_num at i2
      · simp only [RTri.rot] at i3; rw [hb] at i3; norm_num at i3
    · have : tightTri.tri = RTri.tri ⟨tightTri.a, tightTri.b, tightTri.c⟩ := rfl
      rw [this, hl] at e; simp at e
    · simp only [RTri.rots, List.mem_cons, List.not_mem_nil, or_false] at hs
      rcases hs with rfl | rfl | rfl
      · have : tightTri.tri = RTri.tri ⟨tightTri.a, tightTri.b, tightTri.c⟩ := rfl
        rw [this, hl] at hl'
        obtain rfl := Option.some.inj hl'
        rw [e]; simp
      · simp only [RTri.rot] at i1; rw [hb] at i1; norm_num at i1
      · simp only [RTri.rot] at i1; rw [hc] at i1; norm_num at i1
  have hmem : (splitOnThree tightTri.a.pt l tightTri.tri).1 ∈
      ([tightTri].flatMap (fun r => (cutTriangle ⟨(R3.mk 0 0 0).pt, (R3.mk 0 0 1).vec⟩ r.tri).down) ++
        caps.map (fun c => c.flip.tri)) := by
    rw [List.flatMap_cons, List.flatMap_nil, List.append_nil]
    exact List.mem_append_left _ hd
  refine ⟨_, _, h1, ⟨_, hmem, tightTri.b, hp1, hb⟩, ?_⟩
  intro hall
  obtain ⟨q, hq, hv⟩ := hall _ hmem
  have h3 : q.a = tightTri.b := by
    have h4 : q.tri.p1 = tightTri.b.pt := by rw [← hq]; exact hp1
    have h5 : q.a.pt = tightTri.b.pt := h4
    simpa [R3.pt, R3.ext_iff] using h5
  have h6 := hv q.a (by simp [RTri.verts])
  rw [h3, hb] at h6
  simp [R3.l1] at h6
  norm_num at h6

/-- a triangle with separated vertices and coordinates in range, strictly cut by the plane `z = 0` -/
example : (RTri.mk ⟨0, 0, -1⟩ ⟨10, 0, 1⟩ ⟨0, 10, 1⟩).small ∧ (RTri.mk ⟨0, 0, -1⟩ ⟨10, 0, 1⟩ ⟨0, 10, 1⟩).distinct ∧
    R3.height ⟨0, 0, 0⟩ ⟨0, 0, 1⟩ ⟨0, 0, -1⟩ < 0 ∧ 0 < R3.height ⟨0, 0, 0⟩ ⟨0, 0, 1⟩ ⟨10, 0, 1⟩ := by
  refine ⟨⟨?_, ?_, ?_⟩, ⟨?_, ?_, ?_⟩, ?_, ?_⟩
  · simp only [R3.small, roundLimit]; norm_num
  · simp only [R3.small, roundLimit]; norm_num [abs_of_nonneg]
  · simp only [R3.small, roundLimit]; norm_num [abs_of_nonneg]
  · rintro ⟨h, _, _⟩; simp [tol] at h; norm_num at h
  · rintro ⟨h, _, _⟩; simp [tol] at h; norm_num at h
  · rintro ⟨_, h, _⟩; simp [tol] at h; norm_num at h
  · simp [R3.height, R3.dot]
  · simp [R3.height, R3.dot]

end Goosli
