import Verif.Spec.RaySolid
import Verif.Props.C08
import Verif.Props.C25
import Verif.Proofs.Paths
/-!
# C86: which triangles a plane meets; which paths are equal
-/
set_option autoImplicit false
namespace Goosli
open Flt R3

theorem onTri_mix {t : RTri} {a b : R3} (ha : OnTri t a) (hb : OnTri t b) {r : ℝ} (h0 : 0 ≤ r) (h1 : r ≤ 1) : OnTri t (a + r • (b - a)) := by
  obtain ⟨u, v, w, hu, hv, hw, hs, rfl⟩ := ha
  obtain ⟨u', v', w', hu', hv', hw', hs', rfl⟩ := hb
  have h1' : 0 ≤ 1 - r := by linarith
  refine ⟨(1 - r) * u + r * u', (1 - r) * v + r * v', (1 - r) * w + r * w', by positivity, by positivity, by positivity, ?_, ?_⟩
  · linear_combination (1 - r) * hs + r * hs'
  · apply R3.ext <;> simp <;> ring

theorem onTri_corner (t : RTri) {x : R3} (h : x = t.a ∨ x = t.b ∨ x = t.c) : OnTri t x := by
  rcases h with rfl | rfl | rfl
  · exact ⟨1, 0, 0, by norm_num, le_rfl, le_rfl, by norm_num, by apply R3.ext <;> simp⟩
  · exact ⟨0, 1, 0, le_rfl, by norm_num, le_rfl, by norm_num, by apply R3.ext <;> simp⟩
  · exact ⟨0, 0, 1, le_rfl, le_rfl, by norm_num, by norm_num, by apply R3.ext <;> simp⟩

/-- **C86.** `Plane.Intersect` reports exactly whether the plane and the triangle have a point in common, degenerate triangles and
triangles that only touch the plane included. -/
theorem C86_plane_meets (P N : R3) (t : RTri) :
    (Plane.mk P.pt N.vec).intersect t.tri = true ↔ ∃ x, OnTri t x ∧ R3.onPlane P N x := by
  have hd : ∀ x : R3, R3.height P N x = x.dot N - P.dot N := by intro x; simp [R3.height, R3.dot]; ring
  have hcode : (Plane.mk P.pt N.vec).intersect t.tri = true ↔
      min (t.a.dot N) (min (t.b.dot N) (t.c.dot N)) ≤ P.dot N ∧ P.dot N ≤ max (t.a.dot N) (max (t.b.dot N) (t.c.dot N)) := by
    unfold Plane.intersect
    rw [tri_minMaxZ]
    simp
  rw [hcode]
  constructor
  · rintro ⟨hmin, hmax⟩
    obtain ⟨lo, hlo, hl⟩ : ∃ lo, (lo = t.a ∨ lo = t.b ∨ lo = t.c) ∧ lo.dot N ≤ P.dot N := by
      rcases min_le_iff.1 hmin with h | h
      · exact ⟨_, Or.inl rfl, h⟩
      · rcases min_le_iff.1 h with h | h
        · exact ⟨_, Or.inr (Or.inl rfl), h⟩
        · exact ⟨_, Or.inr (Or.inr rfl), h⟩
    obtain ⟨hi, hhi, hh⟩ : ∃ hi, (hi = t.a ∨ hi = t.b ∨ hi = t.c) ∧ P.dot N ≤ hi.dot N := by
      rcases le_max_iff.1 hmax with h | h
      · exact ⟨_, Or.inl rfl, h⟩
      · rcases le_max_iff.1 h with h | h
        · exact ⟨_, Or.inr (Or.inl rfl), h⟩
        · exact ⟨_, Or.inr (Or.inr rfl), h⟩
    rcases eq_or_lt_of_le hl with h | h
    · exact ⟨lo, onTri_corner t hlo, by unfold R3.onPlane; rw [hd, h]; ring⟩
    · have hpos : 0 < hi.dot N - lo.dot N := by linarith
      refine ⟨lo + ((P.dot N - lo.dot N) / (hi.dot N - lo.dot N)) • (hi - lo),
        onTri_mix (onTri_corner t hlo) (onTri_corner t hhi) (div_nonneg (by linarith) hpos.le) (by rw [div_le_one hpos]; linarith), ?_⟩
      have hm : ∀ r : ℝ, (lo + r • (hi - lo)).dot N = lo.dot N + r * (hi.dot N - lo.dot N) := by intro r; simp [R3.dot]; ring
      unfold R3.onPlane
      rw [hd, hm, div_mul_cancel₀ _ hpos.ne']
      ring
  · rintro ⟨x, ⟨u, v, w, hu, hv, hw, hs, rfl⟩, hx⟩
    unfold R3.onPlane at hx
    rw [hd] at hx
    have e : P.dot N = u * t.a.dot N + v * t.b.dot N + w * t.c.dot N := by
      have : (u • t.a + v • t.b + w • t.c).dot N = u * t.a.dot N + v * t.b.dot N + w * t.c.dot N := by simp [R3.dot]; ring
      linarith
    have hw' : w = 1 - u - v := by linarith
    constructor
    · set m := min (t.a.dot N) (min (t.b.dot N) (t.c.dot N)) with hm
      have m1 : m ≤ t.a.dot N := min_le_left _ _
      have m2 : m ≤ t.b.dot N := (min_le_right _ _).trans (min_le_left _ _)
      have m3 : m ≤ t.c.dot N := (min_le_right _ _).trans (min_le_right _ _)
      have : (u + v + w) * m ≤ P.dot N := by
        rw [e]
        nlinarith [mul_le_mul_of_nonneg_left m1 hu, mul_le_mul_of_nonneg_left m2 hv, mul_le_mul_of_nonneg_left m3 hw]
      rwa [hs, one_mul] at this
    · set m := max (t.a.dot N) (max (t.b.dot N) (t.c.dot N)) with hm
      have m1 : t.a.dot N ≤ m := le_max_left _ _
      have m2 : t.b.dot N ≤ m := (le_max_left _ _).trans (le_max_right _ _)
      have m3 : t.c.dot N ≤ m := (le_max_right _ _).trans (le_max_right _ _)
      have : P.dot N ≤ (u + v + w) * m := by
        rw [e]
        nlinarith [mul_le_mul_of_nonneg_left m1 hu, mul_le_mul_of_nonneg_left m2 hv, mul_le_mul_of_nonneg_left m3 hw]
      rwa [hs, one_mul] at this

/-- a section is only found where `Intersect` says yes -/
theorem C86_section_meets (P N : R3) (t : RTri) (ha : t.a.small) (hb : t.b.small) (hc : t.c.small) (l : Line XR)
    (h : (Plane.mk P.pt N.vec).intersectTriangle (newTriangle t.a.pt t.b.pt t.c.pt) = some l) :
    (Plane.mk P.pt N.vec).intersect t.tri = true := by
  obtain ⟨u, v, x, y, -, hu, -, hbu, -⟩ := C08_sound P N t.a t.b t.c ha hb hc l h
  refine (C86_plane_meets P N t).2 ⟨u, ?_, hu⟩
  rcases hbu with ⟨r, h0, h1, rfl⟩ | ⟨r, h0, h1, rfl⟩ | ⟨r, h0, h1, rfl⟩ <;>
    exact onTri_mix (onTri_corner t (by simp)) (onTri_corner t (by simp)) h0 h1

/-- **C86, paths.** `Path.Equal` compares the points one by one, with the tolerance of `Point.Equal`. -/
theorem C86_path_equal (us vs : List R3) : (rpath us).equal (rpath vs) = true ↔ List.Forall₂ R3.near us vs := by
  have key : ∀ us vs : List R3, us.length = vs.length →
      (((us.map R3.pt).zip (vs.map R3.pt)).all (fun q => q.1.equal q.2) = true ↔ List.Forall₂ R3.near us vs) := by
    intro us
    induction us with
    | nil => intro vs h; cases vs with
      | nil => simp
      | cons => simp at h
    | cons u us ih => intro vs h; cases vs with
      | nil => simp at h
      | cons v vs =>
        simp only [List.map_cons, List.zip_cons_cons, List.all_cons, Bool.and_eq_true, List.forall₂_cons, equal_pt]
        rw [ih vs (by simpa using h)]
  unfold Path.equal rpath
  simp only [List.length_map]
  split_ifs with h
  · simp only [false_iff]
    exact fun hf => h hf.length_eq
  · exact key us vs (not_not.1 h)

/-- two steps of six tenths of the tolerance -/
theorem C86_path_equal_not_transitive : ∃ a b c : List R3, (rpath a).equal (rpath b) = true ∧ (rpath b).equal (rpath c) = true ∧
    (rpath a).equal (rpath c) = false := by
  refine ⟨[⟨0, 0, 0⟩], [⟨6 / 10000000, 0, 0⟩], [⟨12 / 10000000, 0, 0⟩], ?_, ?_, ?_⟩
  · rw [C86_path_equal]; simp [R3.near, tol]; norm_num [abs_lt]
  · rw [C86_path_equal]; simp [R3.near, tol]; norm_num [abs_lt]
  · rw [← Bool.not_eq_true, C86_path_equal]; simp [R3.near, tol]; norm_num [abs_lt]

/-! ## Non-vacuity -/

/-- a plane that touches a triangle in a corner, and one that misses it -/
example : (Plane.mk (R3.mk 0 0 0).pt (R3.mk 0 0 1).vec).intersect (RTri.mk ⟨0, 0, 0⟩ ⟨1, 0, 1⟩ ⟨0, 1, 2⟩).tri = true ∧
    (Plane.mk (R3.mk 0 0 3).pt (R3.mk 0 0 1).vec).intersect (RTri.mk ⟨0, 0, 0⟩ ⟨1, 0, 1⟩ ⟨0, 1, 2⟩).tri = false := by
  constructor
  · exact (C86_plane_meets _ _ _).2 ⟨⟨0, 0, 0⟩, onTri_corner _ (by simp), by simp [R3.onPlane, R3.height, R3.dot]⟩
  · rw [← Bool.not_eq_true, C86_plane_meets]
    rintro ⟨x, ⟨u, v, w, hu, hv, hw, hs, rfl⟩, hx⟩
    simp [R3.onPlane, R3.height, R3.dot] at hx
    linarith

end Goosli
