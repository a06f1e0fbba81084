import Verif.Props.C119
import Verif.Proofs.B64Extrude
import Verif.Props.C95
import Verif.Props.C79
/-!
# C123: supports add nothing to a model that stands on its overhanging faces
-/
set_option autoImplicit false
namespace Goosli
open Flt R3 Spec

section any
variable {α : Type} [Flt α]

/-- triangles the plane of a job does not meet leave no trace in its layer -/
theorem runJob_extra (S : Sorter) (i : Nat) (p : Plane α) (extra l : List (Triangle α)) (h : ∀ t ∈ extra, p.intersectTriangle t = none) :
    runJob S ⟨i, p, extra ++ l⟩ = runJob S ⟨i, p, l⟩ := by
  have : jobPaths (⟨i, p, extra ++ l⟩ : Job α) = jobPaths ⟨i, p, l⟩ := by
    unfold jobPaths
    dsimp only
    rw [List.filterMap_append, List.append_left_eq_self, List.filterMap_eq_nil_iff]
    intro t ht
    rw [h t ht]; rfl
  unfold runJob
  rw [this]

/-- triangles at the front of the active list that meet none of the planes to come leave no trace in the layers -/
theorem sweep_extra (S : Sorter) (Z sh : Vec α) : ∀ (k i : Nat) (p : Point α) (extra active rest : List (Triangle α)),
    (∀ n < k, ∀ t ∈ extra, (Plane.mk (sweepPoint sh p n) Z).intersectTriangle t = none) →
    (sweep Z sh k i p (extra ++ active) rest).mapM (runJob S) = (sweep Z sh k i p active rest).mapM (runJob S) := by
  intro k
  induction k with
  | zero => intros; rfl
  | succ k ih =>
    intro i p extra active rest h
    unfold sweep sweepStep
    dsimp only
    rw [List.filter_append, List.append_assoc, List.mapM_cons, List.mapM_cons,
      ih (i + 1) (p.shift sh) (extra.filter _) _ _ (fun n hn t ht => by
        rw [sweepPoint_shift]
        exact h (n + 1) (by omega) t (List.mem_filter.1 ht).1),
      runJob_extra S i ⟨p, Z⟩ (extra.filter _) _ (fun t ht => h 0 (by omega) t (List.mem_filter.1 ht).1)]

/-- the same for triangles at the front of the triangles to come, if the first plane is not below any of them -/
theorem sweep_front (S : Sorter) (Z sh : Vec α) (k i : Nat) (p : Point α) (extra rest : List (Triangle α))
    (h0 : ∀ t ∈ extra, (t.minZ Z ≤? p.toVector.dot Z) = true)
    (h : ∀ n < k, ∀ t ∈ extra, (Plane.mk (sweepPoint sh p n) Z).intersectTriangle t = none) :
    (sweep Z sh k i p [] (extra ++ rest)).mapM (runJob S) = (sweep Z sh k i p [] rest).mapM (runJob S) := by
  cases k with
  | zero => rfl
  | succ k =>
    unfold sweep sweepStep
    dsimp only
    rw [List.takeWhile_append_of_pos h0, List.dropWhile_append_of_pos h0, List.mapM_cons, List.mapM_cons, List.filter_nil, List.nil_append, List.nil_append,
      sweep_extra S Z sh k (i + 1) (p.shift sh) extra _ _ (fun n hn t ht => by
        rw [sweepPoint_shift]
        exact h (n + 1) (by omega) t ht),
      runJob_extra S i ⟨p, Z⟩ extra _ (fun t ht => h 0 (by omega) t ht)]

end any

/-- layers are at least six tenths of a micrometre thick unless there are only one or two -/
theorem FloatSizes.thick {lo hi t : ℝ} (H : FloatSizes lo hi t) : floatCount lo hi t ≤ 2 ∨ 6 / 10 ^ 4 ≤ (hi - lo) / floatCount lo hi t := by
  by_cases h2 : floatCount lo hi t ≤ 2
  · exact Or.inl h2
  right
  have t0 := H.t0
  have hh := H.high
  have tp : 0 < t := by linarith
  have e1 := abs_le.1 H.span_err
  have q0 : 1 / 10 ^ 10 ≤ rd (hi - lo) / t := by
    rw [le_div_iff₀ tp]
    nlinarith [e1.1, H.t1]
  have e2 := abs_le.1 (rd_err q0 (le_of_eq (abs_of_pos (lt_of_lt_of_le (by norm_num) q0))))
  have hq : rd (hi - lo) / t * t = rd (hi - lo) := by field_simp
  have c : (floatCount lo hi t : ℝ) < rd (rd (hi - lo) / t) + 1 := Int.ceil_lt_add_one _
  have c3 : (3 : ℝ) ≤ floatCount lo hi t := by exact_mod_cast (by omega : 3 ≤ floatCount lo hi t)
  generalize (floatCount lo hi t : ℝ) = N at c c3 ⊢
  have c2 : (N - 1) * t < rd (hi - lo) * (1 + 12 / 10 ^ 17) := by
    have : N - 1 < rd (hi - lo) / t * (1 + 12 / 10 ^ 17) := by linarith [e2.2]
    have := mul_lt_mul_of_pos_right this tp
    nlinarith
  rw [le_div_iff₀ (by linarith)]
  nlinarith [e1.2, mul_le_mul_of_nonneg_left t0 (show (0 : ℝ) ≤ N - 1 by linarith)]

/-- the first plane is clearly above the bottom -/
theorem FloatSizes.first_above {lo hi t : ℝ} (H : FloatSizes lo hi t) : lo + 1 / 10 ^ 7 ≤ floatLevel lo hi t 0 := by
  have h0 := H.count_pos
  have h := abs_le.1 (H.level_err 0 (by push_cast; omega))
  have hp : (1 : ℝ) ≤ floatCount lo hi t := by exact_mod_cast h0
  have hd : 5 / 10 ^ 7 ≤ (hi - lo) / floatCount lo hi t := by
    rcases H.thick with h2 | h2
    · have h2' : (floatCount lo hi t : ℝ) ≤ 2 := by exact_mod_cast h2
      rw [le_div_iff₀ (by linarith)]
      linarith [H.high]
    · linarith
  push_cast at h
  linarith [h.1]

/-- no plane is outside of the model, so none is more than a metre from the origin -/
theorem FloatSizes.level_metre {lo hi t : ℝ} (H : FloatSizes lo hi t) (m : ℕ) (hm : (m : ℤ) < floatCount lo hi t) :
    lo + 1 / 10 ^ 7 ≤ floatLevel lo hi t m ∧ |floatLevel lo hi t m| ≤ 1000 := by
  have up : floatLevel lo hi t 0 ≤ floatLevel lo hi t m := by
    clear hm
    induction m with
    | zero => exact le_refl _
    | succ m ih => exact ih.trans (H.level_mono m)
  have lo1 := abs_le.1 H.lo1
  have hi1 := abs_le.1 H.hi1
  have h0 := H.first_above
  have hp : (1 : ℝ) ≤ floatCount lo hi t := by exact_mod_cast H.count_pos
  have hc : (floatCount lo hi t : ℝ) ≤ 2000001 := by exact_mod_cast H.count_le
  have hm' : (m : ℝ) + 1 ≤ floatCount lo hi t := by exact_mod_cast hm
  have hm0 : (0 : ℝ) ≤ m := Nat.cast_nonneg m
  have h := abs_le.1 (H.level_near m hm)
  have hh := H.high
  refine ⟨by linarith, abs_le.2 ⟨by linarith, ?_⟩⟩
  have hδN : (hi - lo) / floatCount lo hi t * floatCount lo hi t = hi - lo := by field_simp
  rcases H.thick with h2 | h2
  · have h2' : (floatCount lo hi t : ℝ) ≤ 2 := by exact_mod_cast h2
    have hd : 5 / 10 ^ 7 ≤ (hi - lo) / floatCount lo hi t := by
      rw [le_div_iff₀ (by linarith)]
      linarith
    generalize (hi - lo) / (floatCount lo hi t : ℝ) = δ at *
    nlinarith [h.2]
  · generalize (hi - lo) / (floatCount lo hi t : ℝ) = δ at *
    nlinarith [h.2]

/-- a point of the space of the printer that is not above height `h` -/
structure LowPt (h : ℝ) (w : R3) : Prop where
  isF : w.isF
  inRange : w.inRange
  low : w.z ≤ h

/-- the projection of a point to the plane of the bottom -/
theorem proj_bottom {lo : ℝ} (loF : IsF lo) (l1 : |lo| ≤ 1000) (l3 : lo ≤ 1000 - 1 / 10 ^ 6) {w : R3} (hw : LowPt lo w) :
    ∃ v : R3, (Plane.mk (zUp.f64v.mulScalar (B64.of lo)).toPoint zUp.f64v).proectionPointToPlane w.f64 = .ok v.f64 ∧ LowPt (lo + 1 / 10 ^ 9) v := by
  obtain ⟨⟨xF, yF, zF⟩, ⟨xr, yr, zr⟩, hl⟩ := hw
  have z1 := abs_le.1 zr
  have l2 := abs_le.1 l1
  have dF : IsF (rd (lo - w.z)) := isF_rd (by rw [abs_le]; constructor <;> norm_num <;> linarith)
  have d0 : 0 ≤ rd (lo - w.z) := rd_nonneg (by linarith)
  have de := abs_le.1 (rd_err (x := lo - w.z) (M := 2000) (by norm_num) (by rw [abs_le]; constructor <;> linarith))
  have sa : |rd (lo - w.z) + w.z| ≤ 1001 := by rw [abs_le]; constructor <;> linarith [de.1, de.2]
  have se := abs_le.1 (rd_err (M := 1001) (by norm_num) sa)
  have sF : IsF (rd (rd (lo - w.z) + w.z)) := isF_rd (sa.trans (by norm_num))
  have hz0 : w.z ≤ rd (rd (lo - w.z) + w.z) := le_rd zF.1 (by linarith)
  refine ⟨⟨w.x, w.y, rd (rd (lo - w.z) + w.z)⟩, ?_, ⟨xF, yF, sF⟩, ⟨xr, yr, ?_⟩, by linarith [se.2, de.2]⟩
  · rw [mulScalar_zUp loF]
    unfold Plane.proectionPointToPlane
    have e0 : B64.of 0 * (B64.of 0 - B64.of w.x) + B64.of 0 * (B64.of 0 - B64.of w.y) + B64.of 1 * (B64.of lo - B64.of w.z) = B64.of (rd (lo - w.z)) := by
      have xF' : IsF (rd (0 - w.x)) := isF_rd (by rw [zero_sub, abs_neg]; exact xr.trans (by norm_num))
      have yF' : IsF (rd (0 - w.y)) := isF_rd (by rw [zero_sub, abs_neg]; exact yr.trans (by norm_num))
      rw [B64.sub_of isF_zero xF, B64.sub_of isF_zero yF, B64.sub_of loF zF, B64.mul_of isF_zero xF', B64.mul_of isF_zero yF', B64.mul_of isF_one dF]
      rw [zero_mul, zero_mul, one_mul, rd_zero, rd_of_rep dF.1, B64.add_of isF_zero isF_zero, add_zero, rd_zero, B64.add_of isF_zero dF, zero_add,
        rd_of_rep dF.1]
    have e1 : B64.of 0 * B64.of 0 + B64.of 0 * B64.of 0 + B64.of 1 * B64.of 1 = B64.of 1 := by
      rw [B64.mul_of isF_zero isF_zero, B64.mul_of isF_one isF_one, mul_zero, mul_one, rd_zero, rd_of_rep isF_one.1,
        B64.add_of isF_zero isF_zero, add_zero, rd_zero, B64.add_of isF_zero isF_one, zero_add, rd_of_rep isF_one.1]
    have el : (zUp.f64v.x * ((lvl lo).f64v.toPoint.x - w.f64.x) + zUp.f64v.y * ((lvl lo).f64v.toPoint.y - w.f64.y) + zUp.f64v.z * ((lvl lo).f64v.toPoint.z - w.f64.z)) /
        (zUp.f64v.x * zUp.f64v.x + zUp.f64v.y * zUp.f64v.y + zUp.f64v.z * zUp.f64v.z) = B64.of (rd (lo - w.z)) := by
      show (B64.of 0 * (B64.of 0 - B64.of w.x) + B64.of 0 * (B64.of 0 - B64.of w.y) + B64.of 1 * (B64.of lo - B64.of w.z)) /
        (B64.of 0 * B64.of 0 + B64.of 0 * B64.of 0 + B64.of 1 * B64.of 1) = _
      rw [e0, e1, B64.div_of dF isF_one one_ne_zero, div_one, rd_of_rep dF.1]
    dsimp only at el ⊢
    rw [el]
    rw [if_neg (by show ¬ Flt.isNaN (B64.of (rd (lo - w.z))).1 = true; rw [B64.of_val dF]; simp)]
    show Except.ok (Point.mk (B64.of (rd (lo - w.z)) * B64.of 0 + B64.of w.x) (B64.of (rd (lo - w.z)) * B64.of 0 + B64.of w.y)
      (B64.of (rd (lo - w.z)) * B64.of 1 + B64.of w.z)) = Except.ok (Point.mk (B64.of w.x) (B64.of w.y) (B64.of (rd (rd (lo - w.z) + w.z))))
    rw [B64.mul_of dF isF_zero, B64.mul_of dF isF_one, mul_zero, mul_one, rd_zero, rd_of_rep dF.1, B64.add_of isF_zero xF, B64.add_of isF_zero yF,
      B64.add_of dF zF, zero_add, zero_add, rd_of_rep xF.1, rd_of_rep yF.1]
  · rw [abs_le]
    constructor
    · linarith
    · linarith [se.2, de.2]

/-- the model stands on all its faces that are painted as overhangs: they are at its bottom -/
def StandsOnOverhangs (ts : List RTri) (lo : ℝ) (sett : Settings B64) : Prop :=
  ∀ r ∈ ts, (r.f64.n.angle sett.unitVector.reverse <? lit 90 0 - sett.colorizedAngle) = true → r.a.z = lo ∧ r.b.z = lo ∧ r.c.z = lo

theorem colored_mem (ts : List RTri) (ang : B64) (v : Vec B64) (x : Triangle B64) (h : x ∈ filterTrianglesByColor (fmesh ts) ang v) :
    ∃ r ∈ ts, x = r.f64 ∧ (r.f64.n.angle v.reverse <? lit 90 0 - ang) = true := by
  unfold filterTrianglesByColor colorizeTriangles at h
  rw [List.mem_filterMap] at h
  obtain ⟨⟨a, b⟩, hq, e⟩ := h
  rw [List.zip_map_right] at hq
  obtain ⟨⟨a', b'⟩, hq', e'⟩ := List.mem_map.1 hq
  have hab : a' = b' ∧ a' ∈ (fmesh ts).triangles := by
    obtain ⟨i, hi, hg⟩ := List.mem_iff_getElem.1 hq'
    rw [List.getElem_zip] at hg
    simp only [Prod.mk.injEq] at hg
    exact ⟨hg.1.symm.trans hg.2, hg.1 ▸ List.getElem_mem _⟩
  simp only [Prod.map, id, Prod.mk.injEq] at e'
  obtain ⟨rfl, rfl⟩ := e'
  obtain ⟨rfl, hm⟩ := hab
  dsimp only at e
  split_ifs at e with hc
  injection e with e
  subst e
  obtain ⟨r, hr, rfl⟩ := List.mem_map.1 hm
  exact ⟨r, hr, rfl, hc⟩

/-- the supports of such a model are not above its bottom -/
theorem supports_low (S : Sorter) {ts : List RTri} {lo hi t : ℝ} (hF : ∀ w ∈ allVerts ts, w.isF) (hR : ∀ w ∈ allVerts ts, w.inRange)
    (H : FloatSizes lo hi t) (sett : Settings B64) (hu : sett.unitVector = zUp.f64v) (hst : StandsOnOverhangs ts lo sett)
    {o : ℝ} (hoF : IsF o) (ho : sett.supportOffset = B64.of o) (o0 : 0 ≤ o) (o1 : -1000 ≤ lo - o) :
    ∃ sup, supportTriangles S (fmesh ts) zUp.f64v (B64.of lo) sett = .ok sup ∧
      ∀ tr ∈ sup, ∃ r : RTri, tr = r.f64 ∧ ∀ w ∈ r.verts, LowPt (lo + 1 / 10 ^ 9) w := by
  have l1 := abs_le.1 H.lo1
  have h1 := abs_le.1 H.hi1
  have hh := H.high
  -- the coloured triangles, moved down
  obtain ⟨col, hcol⟩ : ∃ c, c = (if sett.supportOffset =? lit 0 0 then filterTrianglesByColor (fmesh ts) sett.colorizedAngle sett.unitVector
      else (filterTrianglesByColor (fmesh ts) sett.colorizedAngle sett.unitVector).map fun t => t.shift (sett.unitVector.mulScalar (-sett.supportOffset))) := ⟨_, rfl⟩
  have colLow : ∀ x ∈ col, ∃ a b c : R3, x.p1 = a.f64 ∧ x.p2 = b.f64 ∧ x.p3 = c.f64 ∧ LowPt lo a ∧ LowPt lo b ∧ LowPt lo c := by
    have base : ∀ x ∈ filterTrianglesByColor (fmesh ts) sett.colorizedAngle sett.unitVector, ∃ a b c : R3, x.p1 = a.f64 ∧ x.p2 = b.f64 ∧ x.p3 = c.f64 ∧
        (LowPt lo a ∧ LowPt lo b ∧ LowPt lo c) ∧ a.z = lo ∧ b.z = lo ∧ c.z = lo := fun x hx => by
      obtain ⟨r, hr, rfl, hc⟩ := colored_mem ts _ _ x hx
      obtain ⟨z1, z2, z3⟩ := hst r hr hc
      have va := vert_mem hr (w := r.a) (by simp)
      have vb := vert_mem hr (w := r.b) (by simp)
      have vc := vert_mem hr (w := r.c) (by simp)
      exact ⟨r.a, r.b, r.c, rfl, rfl, rfl, ⟨⟨hF _ va, hR _ va, z1.le⟩, ⟨hF _ vb, hR _ vb, z2.le⟩, ⟨hF _ vc, hR _ vc, z3.le⟩⟩, z1, z2, z3⟩
    intro x hx
    rw [hcol] at hx
    split_ifs at hx with hz
    · obtain ⟨a, b, c, e1, e2, e3, ⟨l1, l2, l3⟩, -⟩ := base x hx
      exact ⟨a, b, c, e1, e2, e3, l1, l2, l3⟩
    · obtain ⟨y, hy, rfl⟩ := List.mem_map.1 hx
      obtain ⟨a, b, c, e1, e2, e3, ⟨k1, k2, k3⟩, z1, z2, z3⟩ := base y hy
      have sh : ∀ w : R3, LowPt lo w → w.z = lo → w.f64.shift (sett.unitVector.mulScalar (-sett.supportOffset)) = (⟨w.x, w.y, rd (lo - o)⟩ : R3).f64 ∧
          LowPt lo ⟨w.x, w.y, rd (lo - o)⟩ := fun w hw hz => by
        have sa : |lo - o| ≤ 1000 := by rw [abs_le]; constructor <;> linarith
        have r1 : rd (lo - o) ≤ lo := rd_le H.loF.1 (by linarith)
        have r2 : -1000 ≤ rd (lo - o) := le_rd (by simpa using (isF_int (n := -1000) (by norm_num)).1) o1
        constructor
        · rw [hu, ho, B64.neg_of hoF, mulScalar_zUp hoF.neg]
          show Point.mk (B64.of w.x + B64.of 0) (B64.of w.y + B64.of 0) (B64.of w.z + B64.of (-o)) = Point.mk (B64.of w.x) (B64.of w.y) (B64.of (rd (lo - o)))
          rw [B64.add_of hw.isF.1 isF_zero, B64.add_of hw.isF.2.1 isF_zero, B64.add_of hw.isF.2.2 hoF.neg, add_zero, add_zero, B64.of_rd, B64.of_rd, hz,
            ← sub_eq_add_neg]
        · exact ⟨⟨hw.isF.1, hw.isF.2.1, isF_rd (sa.trans (by norm_num))⟩, ⟨hw.inRange.1, hw.inRange.2.1, by rw [abs_le]; constructor <;> linarith⟩, r1⟩
      refine ⟨_, _, _, ?_, ?_, ?_, (sh a k1 z1).2, (sh b k2 z2).2, (sh c k3 z3).2⟩
      · rw [← (sh a k1 z1).1, ← e1]; rfl
      · rw [← (sh b k2 z2).1, ← e2]; rfl
      · rw [← (sh c k3 z3).1, ← e3]; rfl
  -- their edges
  have lineLow : ∀ l ∈ makeUndoubledLines col, ∃ a b : R3, l = ⟨a.f64, b.f64⟩ ∧ LowPt lo a ∧ LowPt lo b := fun l hl => by
    have := undoubled_sub _ _ l hl
    unfold triangleLines at this
    obtain ⟨x, hx, hl⟩ := List.mem_flatMap.1 this
    obtain ⟨a, b, c, e1, e2, e3, k1, k2, k3⟩ := colLow x hx
    simp only [List.mem_cons, List.not_mem_nil, or_false, e1, e2, e3] at hl
    rcases hl with rfl | rfl | rfl
    · exact ⟨a, b, rfl, k1, k2⟩
    · exact ⟨a, c, rfl, k1, k3⟩
    · exact ⟨c, b, rfl, k3, k2⟩
  have projOk := fun {w : R3} (hw : LowPt lo w) => proj_bottom H.loF H.lo1 (by linarith) hw
  have linesOk : ∀ ls : List (Line B64), (∀ l ∈ ls, ∃ a b : R3, l = ⟨a.f64, b.f64⟩ ∧ LowPt lo a ∧ LowPt lo b) →
      ∃ r, makeSupportLines ls (Plane.mk (zUp.f64v.mulScalar (B64.of lo)).toPoint zUp.f64v) = .ok r := by
    intro ls
    induction ls with
    | nil => intro _; exact ⟨[], rfl⟩
    | cons l t ih =>
      intro h
      obtain ⟨a, b, rfl, ka, kb⟩ := h l List.mem_cons_self
      obtain ⟨r, hr⟩ := ih fun l hl => h l (List.mem_cons_of_mem _ hl)
      obtain ⟨va, ea, -⟩ := projOk ka
      obtain ⟨vb, eb, -⟩ := projOk kb
      unfold makeSupportLines at hr ⊢
      refine ⟨⟨va.f64, vb.f64⟩ :: r, ?_⟩
      rw [List.mapM_cons, hr]
      simp only [ea, eb, bind, Except.bind, pure, Except.pure]
  obtain ⟨sl, hsl⟩ := linesOk _ lineLow
  have hok : ∃ sup, supportTriangles S (fmesh ts) zUp.f64v (B64.of lo) sett = .ok sup := by
    unfold supportTriangles
    dsimp only
    rw [← hcol, hsl]
    exact ⟨_, rfl⟩
  obtain ⟨sup, hsup⟩ := hok
  refine ⟨sup, hsup, fun tr htr => ?_⟩
  obtain ⟨under, u1, u2, u3⟩ := C79_supports S (fmesh ts) zUp.f64v (B64.of lo) sett sup hsup
  rw [← hcol] at u1
  obtain ⟨⟨q, hq, he⟩, -⟩ := (u3 tr).1 htr
  obtain ⟨a, b, el, ka, kb⟩ := lineLow q.2 (by rw [← u1]; exact List.mem_map_of_mem hq)
  obtain ⟨va, ea, la⟩ := projOk ka
  obtain ⟨vb, eb, lb⟩ := projOk kb
  obtain ⟨p1, p2⟩ := u2 q hq
  rw [el] at p1 p2 he
  dsimp only at p1 p2 he
  rw [ea] at p1
  rw [eb] at p2
  injection p1 with p1
  injection p2 with p2
  rw [← p1, ← p2] at he
  have up : ∀ {w : R3}, LowPt lo w → LowPt (lo + 1 / 10 ^ 9) w := fun h => ⟨h.isF, h.inRange, h.low.trans (by norm_num)⟩
  rcases he with rfl | rfl
  · refine ⟨⟨va, a, b⟩, rfl, fun w hw => ?_⟩
    simp only [RTri.verts, List.mem_cons, List.not_mem_nil, or_false] at hw
    rcases hw with rfl | rfl | rfl
    · exact la
    · exact up ka
    · exact up kb
  · refine ⟨⟨va, vb, b⟩, rfl, fun w hw => ?_⟩
    simp only [RTri.verts, List.mem_cons, List.not_mem_nil, or_false] at hw
    rcases hw with rfl | rfl | rfl
    · exact la
    · exact lb
    · exact up kb

/-- **C123.** In `float64`, if all faces of a model that are painted as overhangs are at its bottom, the layers are the same with and without
supports, whatever the distance between supports and model is. -/
theorem C123_same (S : Sorter) (A : Arrival B64) (ts : List RTri) (lo hi t : ℝ) (hF : ∀ w ∈ allVerts ts, w.isF) (hR : ∀ w ∈ allVerts ts, w.inRange)
    (he : Extent ts zUp lo hi) (H : FloatSizes lo hi t) (sett : Settings B64) (ht : sett.layerHeight = B64.of t)
    (hu : sett.unitVector = zUp.f64v) (hst : StandsOnOverhangs ts lo sett)
    {o : ℝ} (hoF : IsF o) (ho : sett.supportOffset = B64.of o) (o0 : 0 ≤ o) (o1 : -1000 ≤ lo - o) (b : Bool) :
    sliceByVector S A (some (fmesh ts)) zUp.f64v { sett with supportsOn := b } =
      sliceByVector S A (some (fmesh ts)) zUp.f64v { sett with supportsOn := false } := by
  cases b with
  | false => rfl
  | true =>
    have hne : ts ≠ [] := by
      rintro rfl; obtain ⟨w, hw, _⟩ := he.1.1; simp [allVerts] at hw
    have hc := count_f64 hF he H
    have hpos := H.count_pos
    obtain ⟨sup, hsup, hlow⟩ := supports_low S hF hR H { sett with supportsOn := true } hu hst hoF ho o0 o1
    have j1 : sliceJobs S (fmesh ts) zUp.f64v { sett with supportsOn := true } = .ok (sweep zUp.f64v (layerShift (fmesh ts) zUp.f64v (B64.of t))
        (floatCount lo hi t).toNat 0 (firstPoint (fmesh ts) zUp.f64v (B64.of t)) [] (sup ++ sortByMinZ S zUp.f64v (fmesh ts).triangles)) := by
      unfold sliceJobs
      dsimp only
      have hc' := hc
      rw [← ht] at hc'
      rw [hc', if_neg (by omega)]
      unfold supportsOf
      rw [if_pos rfl, minMaxZ_f64 hF he]
      dsimp only
      rw [hsup, ht]
      rfl
    have j2 : sliceJobs S (fmesh ts) zUp.f64v { sett with supportsOn := false } = .ok (sweep zUp.f64v (layerShift (fmesh ts) zUp.f64v (B64.of t))
        (floatCount lo hi t).toNat 0 (firstPoint (fmesh ts) zUp.f64v (B64.of t)) [] (sortByMinZ S zUp.f64v (fmesh ts).triangles)) := by
      unfold sliceJobs
      dsimp only
      rw [ht, hc, if_neg (by omega)]
      rfl
    have triF : ∀ r : RTri, (∀ w ∈ r.verts, LowPt (lo + 1 / 10 ^ 9) w) → r.isF := fun r h =>
      ⟨(h r.a (by simp [RTri.verts])).isF, (h r.b (by simp [RTri.verts])).isF, (h r.c (by simp [RTri.verts])).isF⟩
    rw [C01_slice S A (fmesh ts) zUp.f64v _ (by simp [fmesh, hne]), C01_slice S A (fmesh ts) zUp.f64v _ (by simp [fmesh, hne]), normalize_up, j1, j2]
    show ((sweep _ _ _ _ _ _ _).mapM (runJob S)).bind trimEmpty = ((sweep _ _ _ _ _ _ _).mapM (runJob S)).bind trimEmpty
    rw [sweep_front S]
    · intro x hx
      obtain ⟨r, rfl, hr⟩ := hlow x hx
      have z0 := sweepZ_f64 hF he H 0 (by push_cast; omega)
      unfold sweepZ sweepPoint at z0
      have l0 := H.first_above
      have low : r.lo zUp ≤ lo + 1 / 10 ^ 9 := by
        unfold RTri.lo
        rw [dot_zUp]
        exact (min_le_left _ _).trans (hr r.a (by simp [RTri.verts])).low
      rw [z0, minZ_f64 (triF r hr), B64.le_of (lo_isF (triF r hr)) (H.levelF 0 (by push_cast; omega)), decide_eq_true_eq]
      linarith
    · intro n hn x hx
      obtain ⟨r, rfl, hr⟩ := hlow x hx
      have n1 : (n : ℤ) < floatCount lo hi t := by omega
      obtain ⟨la, lm⟩ := H.level_metre n n1
      rw [point_f64 hF he H n n1]
      have ka := hr r.a (by simp [RTri.verts])
      have kb := hr r.b (by simp [RTri.verts])
      have kc := hr r.c (by simp [RTri.verts])
      refine side_none (h := floatLevel lo hi t n) (H.levelF n n1) lm (triF r hr) ka.inRange kb.inRange kc.inRange ?_ (Or.inr ?_)
      · intro w hw
        have := (hr w hw).low
        rw [abs_of_neg (by linarith)]
        linarith
      · unfold RTri.hi
        simp only [dot_zUp, max_lt_iff]
        exact ⟨by linarith [ka.low], by linarith [kb.low], by linarith [kc.low]⟩

/-! ## models with whole coordinates -/

/-- a model with whole coordinates -/
def WholeModel (ts : List RTri) : Prop := ∀ w ∈ allVerts ts, Dyadic 0 w.x ∧ Dyadic 0 w.y ∧ Dyadic 0 w.z

theorem whole_isF {x : ℝ} (h : Dyadic 0 x) (hx : |x| ≤ 10 ^ 15) : IsF x := by
  obtain ⟨n, rfl⟩ := h
  rw [pow_zero, div_one] at hx ⊢
  refine isF_int ?_
  have : |(n : ℝ)| = ((|n| : ℤ) : ℝ) := by push_cast; rfl
  rw [this] at hx
  have h2 : |n| ≤ 10 ^ 15 := by exact_mod_cast hx
  omega

/-- the stored normal of a triangle with whole coordinates is exact -/
theorem nrm_whole {r : RTri} (g : ∀ w ∈ r.verts, Dyadic 0 w.x ∧ Dyadic 0 w.y ∧ Dyadic 0 w.z) (b : ∀ w ∈ r.verts, w.inRange) :
    r.f64.n = r.nrm.f64v ∧ (Dyadic 0 r.nrm.x ∧ Dyadic 0 r.nrm.y ∧ Dyadic 0 r.nrm.z) ∧
      (|r.nrm.x| ≤ 8 * 10 ^ 6 ∧ |r.nrm.y| ≤ 8 * 10 ^ 6 ∧ |r.nrm.z| ≤ 8 * 10 ^ 6) := by
  obtain ⟨ax, ay, az⟩ := g r.a (by simp [RTri.verts])
  obtain ⟨bx, by', bz⟩ := g r.b (by simp [RTri.verts])
  obtain ⟨cx, cy, cz⟩ := g r.c (by simp [RTri.verts])
  obtain ⟨ax', ay', az'⟩ := b r.a (by simp [RTri.verts])
  obtain ⟨bx', by'', bz'⟩ := b r.b (by simp [RTri.verts])
  obtain ⟨cx', cy', cz'⟩ := b r.c (by simp [RTri.verts])
  have small : ∀ {x : ℝ}, |x| ≤ 1000 → |x| ≤ 10 ^ 15 := fun h => h.trans (by norm_num)
  have dif : ∀ {x y : ℝ}, |x| ≤ 1000 → |y| ≤ 1000 → |x - y| ≤ 2000 := fun hx hy => (abs_sub _ _).trans (by linarith)
  have sub : ∀ {x y : ℝ}, Dyadic 0 x → Dyadic 0 y → |x| ≤ 1000 → |y| ≤ 1000 → B64.of x - B64.of y = B64.of (x - y) := fun gx gy hx hy => by
    rw [B64.sub_of (whole_isF gx (small hx)) (whole_isF gy (small hy)), B64.of_rd]
  have prod : ∀ {x y : ℝ}, |x| ≤ 2000 → |y| ≤ 2000 → |x * y| ≤ 4 * 10 ^ 6 := fun hx hy => by
    rw [abs_mul]; exact (mul_le_mul hx hy (abs_nonneg _) (by norm_num)).trans (by norm_num)
  have det : ∀ {x y z w : ℝ}, Dyadic 0 x → Dyadic 0 y → Dyadic 0 z → Dyadic 0 w → |x| ≤ 2000 → |y| ≤ 2000 → |z| ≤ 2000 → |w| ≤ 2000 →
      B64.of x * B64.of y - B64.of z * B64.of w = B64.of (x * y - z * w) ∧ Dyadic 0 (x * y - z * w) ∧ |x * y - z * w| ≤ 8 * 10 ^ 6 :=
    fun {x y z w} gx gy gz gw hx hy hz hw => by
      have s : ∀ {x : ℝ}, |x| ≤ 2000 → |x| ≤ 10 ^ 15 := fun h => h.trans (by norm_num)
      have g1 : Dyadic 0 (x * y) := gx.mul' gy
      have g2 : Dyadic 0 (z * w) := gz.mul' gw
      have p1 := prod hx hy
      have p2 := prod hz hw
      have f1 := whole_isF g1 (p1.trans (by norm_num))
      have f2 := whole_isF g2 (p2.trans (by norm_num))
      refine ⟨?_, g1.sub g2, (abs_sub _ _).trans (by linarith)⟩
      rw [B64.mul_of (whole_isF gx (s hx)) (whole_isF gy (s hy)), B64.mul_of (whole_isF gz (s hz)) (whole_isF gw (s hw)), rd_of_rep f1.1, rd_of_rep f2.1,
        B64.sub_of f1 f2, B64.of_rd]
  have dx := det (by'.sub ay) (cz.sub az) (bz.sub az) (cy.sub ay) (dif by'' ay') (dif cz' az') (dif bz' az') (dif cy' ay')
  have dy := det (bz.sub az) (cx.sub ax) (bx.sub ax) (cz.sub az) (dif bz' az') (dif cx' ax') (dif bx' ax') (dif cz' az')
  have dz := det (bx.sub ax) (cy.sub ay) (by'.sub ay) (cx.sub ax) (dif bx' ax') (dif cy' ay') (dif by'' ay') (dif cx' ax')
  refine ⟨?_, ⟨dx.2.1, dy.2.1, dz.2.1⟩, dx.2.2, dy.2.2, dz.2.2⟩
  show (⟨(B64.of r.b.y - B64.of r.a.y) * (B64.of r.c.z - B64.of r.a.z) - (B64.of r.b.z - B64.of r.a.z) * (B64.of r.c.y - B64.of r.a.y),
    (B64.of r.b.z - B64.of r.a.z) * (B64.of r.c.x - B64.of r.a.x) - (B64.of r.b.x - B64.of r.a.x) * (B64.of r.c.z - B64.of r.a.z),
    (B64.of r.b.x - B64.of r.a.x) * (B64.of r.c.y - B64.of r.a.y) - (B64.of r.b.y - B64.of r.a.y) * (B64.of r.c.x - B64.of r.a.x)⟩ : Vec B64) = _
  rw [sub bx ax bx' ax', sub by' ay by'' ay', sub bz az bz' az', sub cx ax cx' ax', sub cy ay cy' ay', sub cz az cz' az', dx.1, dy.1, dz.1]
  rfl

/-- the angle between the downward direction and a whole vector that does not point downwards is not less than a right angle, up to rounding -/
theorem angle_up {m : R3} (g : Dyadic 0 m.x ∧ Dyadic 0 m.y ∧ Dyadic 0 m.z) (b : |m.x| ≤ 8 * 10 ^ 6 ∧ |m.y| ≤ 8 * 10 ^ 6 ∧ |m.z| ≤ 8 * 10 ^ 6) (hm : m ≠ 0)
    (h : 0 ≤ m.z) : ∃ a : ℝ, m.f64v.angle zUp.f64v.reverse = B64.of a ∧ IsF a ∧ 90 - 1 / 10 ^ 9 ≤ a := by
  have big : ∀ {x : ℝ}, |x| ≤ 8 * 10 ^ 6 → |x| ≤ 10 ^ 15 := fun h => h.trans (by norm_num)
  have fx := whole_isF g.1 (big b.1)
  have fy := whole_isF g.2.1 (big b.2.1)
  have fz := whole_isF g.2.2 (big b.2.2)
  have F0 := isF_zero
  have F1 := isF_one
  have sq : ∀ {x : ℝ}, Dyadic 0 x → |x| ≤ 8 * 10 ^ 6 → Dyadic 0 (x * x) ∧ 0 ≤ x * x ∧ x * x ≤ 64 * 10 ^ 12 := fun {x} gx hx => by
    refine ⟨gx.mul' gx, mul_self_nonneg x, ?_⟩
    rw [← abs_mul_abs_self]
    exact (mul_le_mul hx hx (abs_nonneg _) (by norm_num)).trans (by norm_num)
  obtain ⟨gx, x0, x1⟩ := sq g.1 b.1
  obtain ⟨gy, y0, y1⟩ := sq g.2.1 b.2.1
  obtain ⟨gz, z0, z1⟩ := sq g.2.2 b.2.2
  have wh : ∀ {x : ℝ}, Dyadic 0 x → 0 ≤ x → x ≤ 10 ^ 15 → IsF x := fun gx h0 h1 => whole_isF gx (by rwa [abs_of_nonneg h0])
  have fxx := wh gx x0 (x1.trans (by norm_num))
  have fyy := wh gy y0 (y1.trans (by norm_num))
  have fzz := wh gz z0 (z1.trans (by norm_num))
  have fxy := wh (gx.add gy) (add_nonneg x0 y0) (by linarith)
  have fall := wh ((gx.add gy).add gz) (add_nonneg (add_nonneg x0 y0) z0) (by linarith)
  obtain ⟨N, hN⟩ : ∃ N, N = m.x * m.x + m.y * m.y + m.z * m.z := ⟨_, rfl⟩
  have N0 : 0 < N := by
    rcases (add_nonneg (add_nonneg x0 y0) z0).lt_or_eq with h | h
    · rw [hN]; exact h
    · exfalso
      apply hm
      have hx : m.x = 0 := by nlinarith
      have hy : m.y = 0 := by nlinarith
      have hz : m.z = 0 := by nlinarith
      cases m; simp only at hx hy hz; subst hx; subst hy; subst hz; rfl
  rw [← hN] at fall
  -- the lengths
  have len : m.f64v.length = B64.of (rd (Real.sqrt N)) := by
    show Flt.sqrt (B64.of m.x * B64.of m.x + B64.of m.y * B64.of m.y + B64.of m.z * B64.of m.z) = _
    rw [B64.mul_of fx fx, B64.mul_of fy fy, B64.mul_of fz fz, rd_of_rep fxx.1, rd_of_rep fyy.1, rd_of_rep fzz.1, B64.add_of fxx fyy, rd_of_rep fxy.1,
      B64.add_of fxy fzz, ← hN, rd_of_rep fall.1, B64.sqrt_of fall N0.le]
  have hrev : zUp.f64v.reverse = (⟨B64.of 0, B64.of 0, B64.of (-1)⟩ : Vec B64) := by
    show (⟨-B64.of 0, -B64.of 0, -B64.of 1⟩ : Vec B64) = _
    rw [B64.neg_of F0, B64.neg_of F1, neg_zero]
  have Fm1 : IsF (-1 : ℝ) := F1.neg
  have len1 : (⟨B64.of 0, B64.of 0, B64.of (-1)⟩ : Vec B64).length = B64.of 1 := by
    show Flt.sqrt (B64.of 0 * B64.of 0 + B64.of 0 * B64.of 0 + B64.of (-1) * B64.of (-1)) = _
    rw [B64.mul_of F0 F0, B64.mul_of Fm1 Fm1, show (0 : ℝ) * 0 = 0 by norm_num, show (-1 : ℝ) * -1 = 1 by norm_num, rd_of_rep F0.1, rd_of_rep F1.1,
      B64.add_of F0 F0, show (0 : ℝ) + 0 = 0 by norm_num, rd_of_rep F0.1, B64.add_of F0 F1, show (0 : ℝ) + 1 = 1 by norm_num, rd_of_rep F1.1,
      B64.sqrt_of F1 (by norm_num), Real.sqrt_one, rd_of_rep F1.1]
  have dot : m.f64v.dot ⟨B64.of 0, B64.of 0, B64.of (-1)⟩ = B64.of (-m.z) := by
    show B64.of m.x * B64.of 0 + B64.of m.y * B64.of 0 + B64.of m.z * B64.of (-1) = _
    rw [B64.mul_of fx F0, B64.mul_of fy F0, B64.mul_of fz Fm1, mul_zero, mul_zero, rd_of_rep F0.1, B64.add_of F0 F0, add_zero, rd_of_rep F0.1,
      show m.z * -1 = -m.z by ring, rd_of_rep fz.neg.1, B64.add_of F0 fz.neg, zero_add, rd_of_rep fz.neg.1]
  obtain ⟨L, hL⟩ : ∃ L, L = rd (Real.sqrt N) := ⟨_, rfl⟩
  have sN : Real.sqrt N ≤ 2 ^ 53 := by
    rw [Real.sqrt_le_left (by norm_num)]; rw [hN]; norm_num; norm_num at x1 y1 z1; linarith
  have LF : IsF L := by
    rw [hL]
    refine isF_rd ?_
    rw [abs_of_nonneg (Real.sqrt_nonneg _)]
    exact sN.trans (by norm_num)
  have one : 1 ≤ N := by
    have := (((gx.add gy).add gz).le_abs (by rw [← hN]; exact N0.ne'))
    rwa [← hN, pow_zero, div_one, abs_of_pos N0] at this
  have L1 : 1 ≤ L := by
    rw [hL]
    refine le_rd F1.1 ?_
    rw [Real.one_le_sqrt]
    exact one
  have Lz : m.z ≤ L := by
    rw [hL]
    refine le_rd fz.1 (Real.le_sqrt_of_sq_le ?_)
    rw [hN]; nlinarith
  -- the cosine
  have c1 : -1 ≤ -m.z / L := by rw [le_div_iff₀ (by linarith)]; linarith
  have c2 : -m.z / L ≤ 0 := div_nonpos_of_nonpos_of_nonneg (by linarith) (by linarith)
  obtain ⟨v, hv⟩ : ∃ v, v = rd (-m.z / L) := ⟨_, rfl⟩
  have v1 : -1 ≤ v := by rw [hv]; exact le_rd Fm1.1 c1
  have v2 : v ≤ 0 := by rw [hv]; exact rd_le F0.1 c2
  have vF : IsF v := by rw [hv]; exact isF_rd (by rw [abs_le]; constructor <;> linarith)
  have cosv : m.f64v.dot zUp.f64v.reverse / m.f64v.length / zUp.f64v.reverse.length = B64.of v := by
    rw [hrev, dot, len, len1, ← hL, B64.div_of fz.neg LF (by linarith), ← hv, B64.div_of vF F1 (by norm_num), div_one, rd_of_rep vF.1]
  -- the angle
  have p0 := Real.pi_pos
  have p3 := Real.pi_gt_three
  have p4 := Real.pi_le_four
  have a0 : Real.pi / 2 ≤ Real.arccos v := by
    rw [← Real.arccos_zero]; exact Real.arccos_le_arccos v2
  have a1 : Real.arccos v ≤ Real.pi := Real.arccos_le_pi v
  have e1 := abs_le.1 (rd_err (x := Real.arccos v) (M := 4) (by norm_num) (by rw [abs_of_nonneg (by linarith)]; linarith))
  have e2 := abs_le.1 (rd_err (x := Real.pi) (M := 4) (by norm_num) (by rw [abs_of_pos p0]; exact p4))
  have F180 : IsF (180 : ℝ) := by simpa using isF_int (n := 180) (by norm_num)
  obtain ⟨A, hA⟩ : ∃ A, A = rd (Real.arccos v) := ⟨_, rfl⟩
  obtain ⟨P, hP⟩ : ∃ P, P = rd Real.pi := ⟨_, rfl⟩
  rw [← hA] at e1
  rw [← hP] at e2
  have AF : IsF A := by rw [hA]; exact isF_rd (by rw [abs_of_nonneg (by linarith)]; linarith)
  have PF : IsF P := by rw [hP]; exact isF_rd (by rw [abs_of_pos p0]; linarith)
  norm_num at e1 e2
  have e3 := abs_le.1 (rd_err (x := A * 180) (M := 1000) (by norm_num) (by rw [abs_le]; constructor <;> linarith))
  obtain ⟨B, hB⟩ : ∃ B, B = rd (A * 180) := ⟨_, rfl⟩
  rw [← hB] at e3
  have BF : IsF B := by rw [hB]; exact isF_rd (by rw [abs_le]; constructor <;> linarith)
  norm_num at e3
  have P0 : 0 < P := by linarith
  have q0 : 0 ≤ B / P := div_nonneg (by linarith) P0.le
  have q1 : B / P ≤ 1000 := by rw [div_le_iff₀ P0]; linarith
  have q2 : 90 - 1 / 10 ^ 10 ≤ B / P := by rw [le_div_iff₀ P0]; norm_num; linarith
  have e4 := abs_le.1 (rd_err (x := B / P) (M := 1000) (by norm_num) (by rw [abs_of_nonneg q0]; exact q1))
  refine ⟨rd (B / P), ?_, isF_rd (by rw [abs_of_nonneg q0]; linarith), by norm_num at e4 q2 ⊢; linarith⟩
  unfold Vec.angle
  dsimp only
  rw [cosv]
  have t1 : (B64.of v <? (lit (-1) 0 : B64)) = false := by
    rw [B64.lit_of, show (((-1 : ℤ) : ℝ) / 10 ^ 0) = -1 by norm_num, B64.lt_of vF Fm1, decide_eq_false_iff_not]; linarith
  have t2 : ((lit 1 0 : B64) <? B64.of v) = false := by
    rw [B64.lit_of, show (((1 : ℤ) : ℝ) / 10 ^ 0) = 1 by norm_num, B64.lt_of F1 vF, decide_eq_false_iff_not]; linarith
  rw [t1, t2, Bool.or_false, if_neg (by simp)]
  have ac : Flt.acos (B64.of v) = B64.of A := by
    show B64.rnd (Flt.acos (B64.of v).1) = _
    rw [B64.of_val vF, XR.fin_acos', if_neg (by rintro (h | h) <;> linarith), hA, B64.of_rd]
    rfl
  have pe : (Flt.pi : B64) = B64.of P := by
    rw [hP, B64.of_rd]; rfl
  rw [ac, pe, B64.lit_of, show (((180 : ℤ) : ℝ) / 10 ^ 0) = 180 by norm_num, B64.mul_of AF F180, ← hB, B64.div_of BF PF P0.ne']

/-- all faces of the model that point downwards are at its bottom -/
def OverhangsAtBottom (ts : List RTri) (lo : ℝ) : Prop := ∀ r ∈ ts, r.nrm.z < 0 → r.a.z = lo ∧ r.b.z = lo ∧ r.c.z = lo

/-- only faces that point downwards are painted -/
theorem overhangs_stand {ts : List RTri} {lo : ℝ} (hW : WholeModel ts) (hR : ∀ w ∈ allVerts ts, w.inRange) (hdeg : ∀ r ∈ ts, r.nrm ≠ 0)
    (hov : OverhangsAtBottom ts lo) (sett : Settings B64) (hu : sett.unitVector = zUp.f64v)
    {c : ℝ} (cF : IsF c) (hc : sett.colorizedAngle = B64.of c) (c0 : 1 / 10 ^ 6 ≤ c) (c1 : c ≤ 1000) : StandsOnOverhangs ts lo sett := by
  intro r hr hcol
  apply hov r hr
  by_contra hn
  rw [not_lt] at hn
  have vm : ∀ w ∈ r.verts, w ∈ allVerts ts := fun w hw => vert_mem hr (by simpa [RTri.verts] using hw)
  obtain ⟨e, g, b⟩ := nrm_whole (fun w hw => hW w (vm w hw)) (fun w hw => hR w (vm w hw))
  obtain ⟨a, ea, aF, a0⟩ := angle_up g b (hdeg r hr) hn
  have F90 : IsF (90 : ℝ) := by simpa using isF_int (n := 90) (by norm_num)
  have sm : |90 - c| ≤ 1000 := by rw [abs_le]; constructor <;> linarith
  rw [e, hu, ea, hc, B64.lit_of, show (((90 : ℤ) : ℝ) / 10 ^ 0) = 90 by norm_num, B64.sub_of F90 cF, B64.lt_of aF (isF_rd (by linarith [sm])),
    decide_eq_true_eq] at hcol
  have := abs_le.1 (rd_err (x := 90 - c) (M := 1000) (by norm_num) sm)
  norm_num at this a0 c0
  linarith

/-- **C123, whole models.** A model with whole coordinates whose downward faces are all at its bottom needs no supports, and gets none. -/
theorem C123_whole (S : Sorter) (A : Arrival B64) (ts : List RTri) (lo hi t : ℝ) (hW : WholeModel ts) (hR : ∀ w ∈ allVerts ts, w.inRange)
    (hdeg : ∀ r ∈ ts, r.nrm ≠ 0) (hov : OverhangsAtBottom ts lo)
    (he : Extent ts zUp lo hi) (H : FloatSizes lo hi t) (sett : Settings B64) (ht : sett.layerHeight = B64.of t)
    (hu : sett.unitVector = zUp.f64v) {c : ℝ} (cF : IsF c) (hc : sett.colorizedAngle = B64.of c) (c0 : 1 / 10 ^ 6 ≤ c) (c1 : c ≤ 1000)
    {o : ℝ} (hoF : IsF o) (ho : sett.supportOffset = B64.of o) (o0 : 0 ≤ o) (o1 : -1000 ≤ lo - o) (b : Bool) :
    sliceByVector S A (some (fmesh ts)) zUp.f64v { sett with supportsOn := b } =
      sliceByVector S A (some (fmesh ts)) zUp.f64v { sett with supportsOn := false } := by
  have small : ∀ {x : ℝ}, |x| ≤ 1000 → |x| ≤ 10 ^ 15 := fun h => h.trans (by norm_num)
  exact C123_same S A ts lo hi t
    (fun w hw => ⟨whole_isF (hW w hw).1 (small (hR w hw).1), whole_isF (hW w hw).2.1 (small (hR w hw).2.1), whole_isF (hW w hw).2.2 (small (hR w hw).2.2)⟩)
    hR he H sett ht hu (overhangs_stand hW hR hdeg hov sett hu cF hc c0 c1) hoF ho o0 o1 b

/-- **C123, the run.** The file `goosli` writes for such a model with the slicer `3axes` is the same with and without supports. -/
theorem C123_program (M : Machine B64) (fuel : ℕ) (read : String → Option Bytes) (templates : String → Option (List Char))
    (canWrite : String → Bool) (now : String) (fl : GoosliFlags B64) (ts0 ts : List RTri) (og : R3) (lo hi t c o : ℝ)
    (hread : Loads (read fl.stl) (fmesh ts0)) (hF : ∀ w ∈ allVerts ts0, w.isF) (hog : og.isF) (horg : fl.origin = og.f64v)
    (hts : ts0.map (RTri.movedF og) = ts) (hty : fl.slicingType = "3axes")
    (hW : WholeModel ts) (hR : ∀ w ∈ allVerts ts, w.inRange) (hdeg : ∀ r ∈ ts, r.nrm ≠ 0) (hov : OverhangsAtBottom ts lo)
    (he : Extent ts zUp lo hi) (H : FloatSizes lo hi t) (ht : fl.layerHeight = B64.of t) (hu : fl.normal = zUp.f64v)
    (cF : IsF c) (hc : fl.angle = B64.of c) (c0 : 1 / 10 ^ 6 ≤ c) (c1 : c ≤ 1000)
    (hoF : IsF o) (ho : fl.supportOffset = B64.of o) (o0 : 0 ≤ o) (o1 : -1000 ≤ lo - o) (b : Bool) :
    runGoosli M fuel read templates canWrite now { fl with supportsOn := b } =
      runGoosli M fuel read templates canWrite now { fl with supportsOn := false } := by
  have sl := C123_whole M.sorter M.arrival ts lo hi t hW hR hdeg hov he H fl.settings ht hu cF hc c0 c1 hoF ho o0 o1 b
  rw [← axisZ_f64] at sl
  unfold runGoosli
  congr 1
  dsimp only
  have sh : shiftLoaded (fmesh ts0) fl.origin = fmesh ts := by rw [horg, shiftLoaded_f64 hog hF, hts]
  rw [loadMesh_loads hread, go_ok_bind, go_ok_bind, sh]
  unfold sliceAs
  rw [if_pos hty, if_pos hty]
  have e : sliceByVectorToGcode M.sorter M.arrival (fmesh ts) axisZ ({ fl with supportsOn := b } : GoosliFlags B64).settings =
      sliceByVectorToGcode M.sorter M.arrival (fmesh ts) axisZ ({ fl with supportsOn := false } : GoosliFlags B64).settings := by
    unfold sliceByVectorToGcode
    have sl' : sliceByVector M.sorter M.arrival (some (fmesh ts)) axisZ ({ fl with supportsOn := b } : GoosliFlags B64).settings =
      sliceByVector M.sorter M.arrival (some (fmesh ts)) axisZ ({ fl with supportsOn := false } : GoosliFlags B64).settings := sl
    rw [sl']
    rfl
  rw [e]
  rfl

/-! ## boxes -/

theorem box_overhangs {p q : R3} (h : Below3 p q) : OverhangsAtBottom (brick p q) p.z := by
  intro r hr hn
  obtain ⟨h1, h2, h3⟩ := h
  unfold brick boxFaces at hr
  simp only [List.map_cons, List.map_nil, List.mem_cons, List.not_mem_nil, or_false] at hr
  rcases hr with rfl | rfl | rfl | rfl | rfl | rfl | rfl | rfl | rfl | rfl | rfl | rfl
  · exact ⟨rfl, rfl, rfl⟩
  · exact ⟨rfl, rfl, rfl⟩
  all_goals
    exfalso
    simp [RTri.nrm, R3.cross, cornerAt] at hn
    try nlinarith

theorem box_whole {k : ℕ} {p q : R3} (H : GoodBox k p q) : WholeModel (brick p q) := fun w hw => by
  obtain ⟨hx, hy, hz⟩ := box_vert hw
  refine ⟨?_, ?_, ?_⟩
  · rcases hx with e | e <;> rw [e]
    exacts [H.px, H.qx]
  · rcases hy with e | e <;> rw [e]
    exacts [H.py, H.qy]
  · rcases hz with e | e <;> rw [e]
    exacts [H.pz, H.qz]

theorem box_sizes {k n : ℕ} {p q : R3} {t : ℝ} (H : GoodBox k p q) (E : EvenLayers k n p.z q.z t) (hn : 2 ≤ n) : FloatSizes p.z q.z t := by
  have t0 := E.pos
  have tg := E.gridT.le_abs t0.ne'
  rw [abs_of_pos t0] at tg
  have h8 : (1 : ℝ) / 2 ^ 8 ≤ 1 / 2 ^ k := one_div_le_one_div_of_le (by positivity) (pow_le_pow_right₀ (by norm_num) H.coarse)
  have a := abs_le.1 E.lo1
  have b := abs_le.1 E.hi1
  have hh := E.height
  have n2 : (2 : ℝ) ≤ n := by exact_mod_cast hn
  have t1 : t ≤ 1000 := by nlinarith
  have small : ∀ {x : ℝ}, |x| ≤ 1000 → |x| ≤ 10 ^ 15 := fun h => h.trans (by norm_num)
  have tt : 1 / 2 ^ 8 ≤ t := h8.trans tg
  norm_num at tt
  exact ⟨whole_isF H.pz (small E.lo1), whole_isF H.qz (small E.hi1),
    grid_isF H.coarse E.gridT (by rw [abs_of_pos t0]; exact t1), E.lo1, E.hi1, by norm_num; linarith, t1, by norm_num; nlinarith⟩

/-- **C123, boxes.** C118 with supports: the contours of a box are its rectangles, whether supports are on or not. -/
theorem C123_box (M : Machine B64) (fuel : ℕ) (read : String → Option Bytes) (templates : String → Option (List Char))
    (canWrite : String → Bool) (now : String) (fl : GoosliFlags B64) (ts0 : List RTri) (og p q : R3) (t lw c o : ℝ) (k n : ℕ)
    (hread : Loads (read fl.stl) (fmesh ts0)) (hF : ∀ w ∈ allVerts ts0, w.isF) (hty : fl.slicingType = "3axes") (hog : og.isF) (horg : fl.origin = og.f64v)
    (hout : canWrite fl.out = true) (htop : (templates "data/header_template.txt").isSome) (hbot : (templates "data/footer_template.txt").isSome)
    (hts : ts0.map (RTri.movedF og) = brick p q) (H : GoodBox k p q) (E : EvenLayers k n p.z q.z t) (hn : 2 ≤ n) (ht : fl.layerHeight = B64.of t)
    (hu : fl.normal = zUp.f64v) (cF : IsF c) (hc : fl.angle = B64.of c) (c0 : 1 / 10 ^ 6 ≤ c) (c1 : c ≤ 1000)
    (hoF : IsF o) (ho : fl.supportOffset = B64.of o) (o0 : 0 ≤ o) (o1 : -1000 ≤ p.z - o)
    (hlw : fl.lineWidth = B64.of lw) (Flw : IsF lw) (l0 : 1 / 50 ≤ lw) (l1 : lw ≤ 10)
    (hd0 : 1 ≤ densityShare fl.fillingType fl.fillDensity) (hd1 : densityShare fl.fillingType fl.fillDensity ≤ 100) :
    ∃ (hd ft : List Char) (text : String),
      runGoosli M fuel read templates canWrite now fl = ⟨[(fl.out, hd ++ text.toList ++ ft)], .ok ()⟩ ∧
      (∀ P : Printer, P.tool = 0 → ∀ m ∈ printedMoves P (parseText text), m.layer < n) ∧
      ∀ i < n, ∃ j < 4, ∀ P : Printer, P.tool = 0 →
        rimMovesOf i (printedMoves P (parseText text)) = rectMoves p q (thousandth (p.z + (i + 1 / 2) * t)) i j := by
  have hR : ∀ w ∈ allVerts (brick p q), w.inRange := (box_grid H).range
  have he := box_extent H.below
  have FS := box_sizes H E hn
  have pr := C123_program M fuel read templates canWrite now fl ts0 (brick p q) og p.z q.z t c o hread hF hog horg hts hty (box_whole H) hR (box_grid H).solid
    (box_overhangs H.below) he FS ht hu cF hc c0 c1 hoF ho o0 o1 fl.supportsOn
  rw [show ({ fl with supportsOn := fl.supportsOn } : GoosliFlags B64) = fl from rfl] at pr
  rw [pr]
  exact C118_program M fuel read templates canWrite now { fl with supportsOn := false } ts0 og p q t lw k n hread hF hty hog horg hout htop hbot hts H E hn ht rfl
    hlw Flw l0 l1 hd0 hd1

/-- **C123, boxes by default.** The default slicer returns of a box the same program with and without supports. -/
theorem C123_default (S : Sorter) (A : Arrival B64) (fuel : ℕ) (hf : 0 < fuel) (planes : Option Bytes)
    (hp : readPlanes planes = .ok ([] : List (AnalyzedPlane B64))) {k n : ℕ} {p q : R3} {t c o : ℝ} (H : GoodBox k p q) (E : EvenLayers k n p.z q.z t)
    (hn : 2 ≤ n) (sett : Settings B64) (ht : sett.layerHeight = B64.of t)
    (hu : sett.unitVector = zUp.f64v) (cF : IsF c) (hc : sett.colorizedAngle = B64.of c) (c0 : 1 / 10 ^ 6 ≤ c) (c1 : c ≤ 1000)
    (hoF : IsF o) (ho : sett.supportOffset = B64.of o) (o0 : 0 ≤ o) (o1 : -1000 ≤ p.z - o) (b : Bool) :
    vipSlice S A fuel planes (fmesh (brick p q)) { sett with supportsOn := b } =
      vipSlice S A fuel planes (fmesh (brick p q)) { sett with supportsOn := false } := by
  have sl := C123_whole S A (brick p q) p.z q.z t (box_whole H) (box_grid H).range (box_grid H).solid (box_overhangs H.below) (box_extent H.below)
    (box_sizes H E hn) sett ht hu cF hc c0 c1 hoF ho o0 o1 b
  obtain ⟨j, hj, hsl⟩ := C118_slice S A H E hn { sett with supportsOn := false } ht rfl
  rw [hsl] at sl
  rw [← axisZ_f64] at hsl sl
  obtain ⟨l1, out1, -, a1, b1, d1, -⟩ := box_flat S A fuel hf planes hp H E hn _ hj hsl
  obtain ⟨l2, out2, -, a2, b2, d2, -⟩ := box_flat S A fuel hf planes hp H E hn _ hj sl
  rw [d1, d2]
  rw [hsl] at a1
  rw [sl] at a2
  injection a1 with a1
  injection a2 with a2
  subst a1
  subst a2
  have e : Except.ok out2 = (Except.ok out1 : Go (List (Layer B64))) := by
    rw [← b1, ← b2]; rfl
  injection e with e
  rw [e]

/-! ## Non-vacuity -/

/-- flags with supports one millimetre below the overhangs -/
private noncomputable def exFlags : GoosliFlags B64 :=
  ⟨"in.stl", "out.gcode", (⟨0, 0, 0⟩ : R3).f64v, (⟨0, 0, 0⟩ : R3).f64, B64.of 10, B64.of (1 / 4), B64.of (1 / 2), 20, 1, 1, 60, 200, 50, 30, 40, false,
    B64.of (1 / 2), "Squares", false, 20, B64.of 5, "planes.txt", "3axes", B64.of 30, zUp.f64v, true, B64.of 1, B64.of 2, B64.of 1, 3⟩

/-- every box on the bed of whole sides with a height of at most 12 mm, sliced with supports -/
example (M : Machine B64) (fuel : ℕ) (now : String) (p q : R3) (c : ℕ) (c0 : 1 ≤ c) (c1 : c ≤ 12) (hz : p.z = 0) (hc : q.z - p.z = c) (H : GoodBox 3 p q) :
    ∃ (hd ft : List Char) (text : String),
    runGoosli M fuel (fun f => if f = "in.stl" then some (saveSTL (fmesh (brick p q))) else none) (fun _ => some []) (fun _ => true) now exFlags =
      ⟨[("out.gcode", hd ++ text.toList ++ ft)], .ok ()⟩ ∧
    ∀ i < 4 * c, ∃ j < 4, ∀ P : Printer, P.tool = 0 →
        rimMovesOf i (printedMoves P (parseText text)) = rectMoves p q (thousandth (p.z + (i + 1 / 2) * (1 / 4))) i j := by
  have em := movedF_zero (ts := brick p q) (box_isF H)
  have step : rd (((4 * c : ℕ) : ℝ) * (1 / 4) * rd (1 / ((4 * c : ℕ) : ℝ))) = 1 / 4 := by
    have := even_upto48 (n := 4 * c) (by omega) (by omega) (b := -2) (by norm_num)
    have e : (2 : ℝ) ^ (-2 : ℤ) = 1 / 4 := by norm_num
    rwa [e] at this
  have E : EvenLayers 3 (4 * c) p.z q.z (1 / 4) :=
    ⟨H.pz.mono (by norm_num), ⟨1, by norm_num⟩, by norm_num, by rw [hc]; push_cast; ring, H.pr.2.2, H.qr.2.2, step⟩
  have F30 : IsF (30 : ℝ) := by simpa using isF_int (n := 30) (by norm_num)
  obtain ⟨hd, ft, text, h1, -, h2⟩ :=
    C123_box M fuel (fun f => if f = "in.stl" then some (saveSTL (fmesh (brick p q))) else none) (fun _ => some []) (fun _ => true) now exFlags (brick p q) ⟨0, 0, 0⟩ p q (1 / 4)
      (1 / 2) 30 1 3 (4 * c) (by exact box_loads H) (box_isF H) rfl ⟨isF_zero, isF_zero, isF_zero⟩ rfl rfl rfl rfl em H E (by omega) rfl rfl F30 rfl
      (by norm_num) (by norm_num) isF_one rfl (by norm_num) (by rw [hz]; norm_num) rfl isF_half (by norm_num) (by norm_num) (by decide) (by decide)
  exact ⟨hd, ft, text, h1, h2⟩

end Goosli
