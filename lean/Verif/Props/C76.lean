import Verif.Proofs.Hits
import Verif.Props.C53
import Verif.Props.C64
import Verif.Props.C74
/-!
# C76: what counts as an overhang
-/
set_option linter.unusedSectionVars false
set_option autoImplicit false
namespace Goosli
open Flt

/-! ## Specification -/

/-- the horizontal direction at `θ` degrees, counted clockwise (seen from above) from the x axis -/
noncomputable def probeDir (θ : ℝ) : R3 := ⟨Real.cos (rad θ), -Real.sin (rad θ), 0⟩

/-- the way from `a` up to `b` leans more than 40 degrees from the vertical -/
def Leans (a b : R3) : Prop := (b.z - a.z) * Real.tan (rad 40) < (b - a).flat.norm

/-- In the direction `d` from `c` the contour `cur` (centroid `c`) and the contour `prev` below it (centroid `o`) are both met, and the
way from the lower point to the upper one leans too much. -/
def Reported (c o : R3) (cur prev : List R3) (d : R3) : Prop :=
  ∃ a b, Meets c d c cur b ∧ Meets c d o prev a ∧ Leans a b

/-! ## Proofs -/

theorem ez_ne : R3.ez ≠ 0 := by intro h; have := congrArg R3.z h; simp [R3.ez] at this

theorem axisZ_ez : (axisZ : Vec XR) = R3.ez.vec := axisZ_vec

theorem rad40_pos : 0 < rad 40 := by unfold rad; positivity
theorem rad40_lt : rad 40 < Real.pi / 2 := by unfold rad; linarith [Real.pi_pos]

theorem lean_iff (v : R3) (hv : 0 < v.z) : 40 < angleDeg R3.ez v ↔ v.z * Real.tan (rad 40) < v.flat.norm := by
  have hn : 0 < v.norm := by apply R3.norm_pos; rintro rfl; simp at hv
  have hq : v.norm * v.norm = v.flat.norm * v.flat.norm + v.z * v.z := by
    rw [R3.norm_sq, flat_sq]; simp [R3.normSq, R3.dot]
  have hf := v.flat.norm_nonneg
  have hc : 0 < Real.cos (rad 40) := Real.cos_pos_of_mem_Ioo ⟨by linarith [rad40_pos, Real.pi_pos], rad40_lt⟩
  have hs : 0 < Real.sin (rad 40) := Real.sin_pos_of_pos_of_lt_pi rad40_pos (by linarith [rad40_lt, Real.pi_pos])
  have hez : R3.ez.dot v / (R3.ez.norm * v.norm) = v.z / v.norm := by
    simp [R3.ez, R3.dot, R3.norm, R3.normSq]
  have hr1 : v.z / v.norm ≤ 1 := by rw [div_le_one hn]; nlinarith
  have hr0 : 0 < v.z / v.norm := div_pos hv hn
  have h1 : 40 < angleDeg R3.ez v ↔ rad 40 < Real.arccos (v.z / v.norm) := by
    unfold angleDeg rad
    rw [hez, lt_div_iff₀ Real.pi_pos, div_lt_iff₀ (by norm_num : (0 : ℝ) < 180), mul_comm]
  have h2 : rad 40 < Real.arccos (v.z / v.norm) ↔ v.z / v.norm < Real.cos (rad 40) := by
    have := Real.strictAntiOn_cos.lt_iff_gt (a := Real.arccos (v.z / v.norm)) (b := rad 40)
      ⟨Real.arccos_nonneg _, Real.arccos_le_pi _⟩ ⟨rad40_pos.le, by linarith [rad40_lt, Real.pi_pos]⟩
    rw [← this, Real.cos_arccos (by linarith) hr1]
  rw [h1, h2, Real.tan_eq_sin_div_cos, div_lt_iff₀ hn, mul_div_assoc', div_lt_iff₀ hc]
  have h3 := Real.sin_sq_add_cos_sq (rad 40)
  have e : (Real.cos (rad 40) * v.norm) ^ 2 - v.z ^ 2 = (v.flat.norm * Real.cos (rad 40)) ^ 2 - (v.z * Real.sin (rad 40)) ^ 2 := by
    have : (Real.cos (rad 40) * v.norm) ^ 2 = Real.cos (rad 40) ^ 2 * (v.norm * v.norm) := by ring
    rw [this, hq]; linear_combination (v.z ^ 2) * h3
  constructor
  · intro h
    have : v.z ^ 2 < (Real.cos (rad 40) * v.norm) ^ 2 := by
      apply sq_lt_sq' <;> nlinarith
    apply lt_of_pow_lt_pow_left₀ 2 (by positivity)
    linarith
  · intro h
    have : (v.z * Real.sin (rad 40)) ^ 2 < (v.flat.norm * Real.cos (rad 40)) ^ 2 := by
      apply sq_lt_sq' <;> nlinarith [mul_pos hv hs]
    apply lt_of_pow_lt_pow_left₀ 2 (by positivity)
    linarith

theorem failAngle_iff (a b : R3) (h : a.z < b.z) : (failAngle <? (axisZ : Vec XR).angle (a.pt.vectorTo b.pt)) = true ↔ Leans a b := by
  have hz : 0 < (b - a).z := by simp; linarith
  have hne : b - a ≠ 0 := by intro h0; rw [h0] at hz; simp at hz
  have h40 : (failAngle : XR) = XR.fin 40 := by simp [failAngle]
  rw [axisZ_ez, vectorTo_pt, angle_vec _ _ ez_ne hne, h40]
  simp only [XR.fin_lt, decide_eq_true_eq, lean_iff _ hz]
  rfl

theorem rotate_probe (θ φ : ℝ) : (probeDir θ).vec.rotate (rotationAroundZ (XR.fin φ)) = (probeDir (θ + φ)).vec := by
  have e : rad (θ + φ) = rad θ + rad φ := by unfold rad; ring
  rw [rotate_rotZ]
  congr 1
  unfold probeDir
  rw [e]
  apply R3.ext <;> simp [R3.rotZ, Real.cos_add, Real.sin_add] <;> ring

theorem axisX_probe : (axisX : Vec XR) = (probeDir 0).vec := by
  have : rad 0 = 0 := by unfold rad; ring
  rw [axisX_vec']
  congr 1
  apply R3.ext <;> simp [probeDir, this]

/-- a point where a level contour is met is as high as the contour -/
theorem Meets.height {c d o : R3} {ws : List R3} {i : R3} {z : ℝ} (h : Meets c d o ws i) (hz : ∀ w ∈ ws, w.z = z) : i.z = z := by
  obtain ⟨k, q, h1, ⟨⟨_, hs, _⟩, _⟩, _⟩ := h
  have hq := List.mem_of_getElem? h1
  have hm := List.of_mem_zip (show (q.1, q.2) ∈ ws.zip ws.tail from hq)
  have z1 := hz _ hm.1
  have z2 := hz _ (List.mem_of_mem_tail hm.2)
  obtain ⟨t, _, _, rfl⟩ := hs
  simp [z1, z2]

theorem failingAngles_real (cur prev : List R3) (c o : R3) (z z' : ℝ) (hc : findCentroid ⟨cur.map R3.pt⟩ = .ok c.pt)
    (ho : findCentroid ⟨prev.map R3.pt⟩ = .ok o.pt) (hz : ∀ w ∈ cur, w.z = z) (hz' : ∀ w ∈ prev, w.z = z') (hlt : z' < z) :
    ∀ (k : Nat) (j : Int), ∃ l : List Int,
      failingAngles ⟨cur.map R3.pt⟩ ⟨prev.map R3.pt⟩ c.pt k j (probeDir (10 * j)).vec = .ok (l.map fun n : Int => XR.fin (10 * (n : ℝ))) ∧
      l.Pairwise (· < ·) ∧ ∀ n, n ∈ l ↔ j ≤ n ∧ n < j + k ∧ Reported c o cur prev (probeDir (10 * n)) := by
  intro k
  induction k with
  | zero =>
    intro j
    refine ⟨[], rfl, List.Pairwise.nil, fun n => ?_⟩
    simp; omega
  | succ k ih =>
    intro j
    obtain ⟨l, h1, h2, h3⟩ := ih (j + 1)
    have hnext : ((probeDir (10 * j)).vec.rotate (rotationAroundZ (ofInt angleDist)) : Vec XR) = (probeDir (10 * ((j + 1 : Int) : ℝ))).vec := by
      have : (ofInt angleDist : XR) = XR.fin 10 := by simp [angleDist]
      rw [this, rotate_probe]
      congr 2
      push_cast; ring
    have hj : (ofInt (j * angleDist) : XR) = XR.fin (10 * (j : ℝ)) := by
      simp [angleDist]; ring
    set d := probeDir (10 * j) with hd
    -- the test in this direction
    obtain ⟨b, hb, hrep⟩ : ∃ b : Bool, (b = true ↔ Reported c o cur prev d) ∧
        failingAngles ⟨cur.map R3.pt⟩ ⟨prev.map R3.pt⟩ c.pt (k + 1) j d.vec =
          .ok (if b then XR.fin (10 * (j : ℝ)) :: l.map (fun n : Int => XR.fin (10 * (n : ℝ))) else l.map fun n : Int => XR.fin (10 * (n : ℝ))) := by
      unfold failingAngles
      rw [hnext, h1, hj, axisZ_ez]
      simp only [cross_vec]
      rcases pathHit c d c cur hc with ⟨u, e1, m1⟩ | ⟨e1, m1⟩
      · rcases pathHit c d o prev ho with ⟨w, e2, m2⟩ | ⟨e2, m2⟩
        · refine ⟨failAngle <? (axisZ : Vec XR).angle (w.pt.vectorTo u.pt), ?_, ?_⟩
          · rw [failAngle_iff _ _ (by rw [m1.height hz, m2.height hz']; exact hlt)]
            constructor
            · intro h; exact ⟨w, u, m1, m2, h⟩
            · rintro ⟨w', u', m1', m2', h⟩
              rw [m1.unique m1', m2.unique m2']; exact h
          · rw [axisZ_ez]
            simp only [e1, e2, go_ok_bind, pure, Except.pure]
        · refine ⟨false, ?_, ?_⟩
          · constructor
            · intro h; cases h
            · rintro ⟨w', u', m1', m2', h⟩
              exact absurd m2' (m2.not_meets _)
          · simp only [e1, e2, go_ok_bind, pure, Except.pure]
      · refine ⟨false, ?_, ?_⟩
        · constructor
          · intro h; cases h
          · rintro ⟨w', u', m1', m2', h⟩
            exact absurd m1' (m1.not_meets _)
        · simp only [e1, go_ok_bind, pure, Except.pure]
    by_cases hbt : b = true
    · refine ⟨j :: l, ?_, ?_, ?_⟩
      · rw [hrep, if_pos hbt]; rfl
      · refine List.pairwise_cons.2 ⟨fun n hn => ?_, h2⟩
        have := (h3 n).1 hn
        omega
      · intro n
        rw [List.mem_cons, h3]
        constructor
        · rintro (rfl | ⟨h4, h5, h6⟩)
          · exact ⟨le_refl _, by push_cast; omega, hb.1 hbt⟩
          · exact ⟨by omega, by push_cast; omega, h6⟩
        · rintro ⟨h4, h5, h6⟩
          by_cases hn : n = j
          · exact Or.inl hn
          · exact Or.inr ⟨by omega, by push_cast at h5; omega, h6⟩
    · refine ⟨l, ?_, h2, ?_⟩
      · rw [hrep, if_neg hbt]
      · intro n
        rw [h3]
        constructor
        · rintro ⟨h4, h5, h6⟩
          exact ⟨by omega, by push_cast; omega, h6⟩
        · rintro ⟨h4, h5, h6⟩
          by_cases hn : n = j
          · subst hn
            exact absurd (hb.2 h6) hbt
          · exact ⟨by omega, by push_cast at h5; omega, h6⟩

/-! ## The report -/

/-- the direction `r` is the middle of the reported angles: each of them counts as itself or one turn more, so that it is within half a
turn of the last one; `r` is the whole part of the mean, within one turn -/
def MiddleOf (angles : List ℝ) (r : Int) : Prop :=
  ∃ (reps : List ℝ) (last : ℝ), angles.getLast? = some last ∧ List.Forall₂ (fun a x : ℝ => x = a ∨ x = a + 360) angles reps ∧
    (∀ x ∈ reps, |x - last| ≤ 180) ∧ r = ⌊reps.sum / reps.length⌋ % 360

/-- **C76.** A contour above the contour `prev` is reported iff it leans more than 40 degrees from the vertical in one of the 36 directions
that are ten degrees apart, and the contour below is met in the middle `r` of these directions. The plane goes through the point where
it is met, and leans 60 degrees from the horizontal towards that direction. -/
theorem C76_report (cur prev : List R3) (c o : R3) (z z' : ℝ) (hc : findCentroid ⟨cur.map R3.pt⟩ = .ok c.pt)
    (ho : findCentroid ⟨prev.map R3.pt⟩ = .ok o.pt) (hz : ∀ w ∈ cur, w.z = z) (hz' : ∀ w ∈ prev, w.z = z') (hlt : z' < z)
    (layer : Layer XR) (hp : findPrevPath c.pt layer.paths = .ok (some ⟨prev.map R3.pt⟩)) :
    ((∀ j : Int, 0 ≤ j → j < 36 → ¬ Reported c o cur prev (probeDir (10 * j))) → pathFails layer ⟨cur.map R3.pt⟩ c.pt = .ok none) ∧
    ((∃ j : Int, 0 ≤ j ∧ j < 36 ∧ Reported c o cur prev (probeDir (10 * j))) → ∃ (l : List Int) (r : Int),
      l.Pairwise (· < ·) ∧ (∀ j, j ∈ l ↔ 0 ≤ j ∧ j < 36 ∧ Reported c o cur prev (probeDir (10 * j))) ∧
      MiddleOf (l.map fun j : Int => 10 * (j : ℝ)) r ∧
      (∀ i, Meets c (probeDir r) o prev i → pathFails layer ⟨cur.map R3.pt⟩ c.pt =
        .ok (some ⟨i.pt, (Real.sin (rad 60) • probeDir r + Real.cos (rad 60) • R3.ez).vec⟩)) ∧
      (Misses c (probeDir r) o prev → pathFails layer ⟨cur.map R3.pt⟩ c.pt = .ok none)) := by
  obtain ⟨l, h1, h2, h3⟩ := failingAngles_real cur prev c o z z' hc ho hz hz' hlt 36 0
  have e0 : (probeDir (10 * ((0 : Int) : ℝ))).vec = (axisX : Vec XR) := by rw [axisX_probe]; simp
  rw [e0] at h1
  have h3 : ∀ j, j ∈ l ↔ 0 ≤ j ∧ j < 36 ∧ Reported c o cur prev (probeDir (10 * j)) := by
    intro j; rw [h3]; simp
  constructor
  · intro hno
    have hl : l = [] := by
      cases l with
      | nil => rfl
      | cons a t =>
        obtain ⟨a1, a2, a3⟩ := (h3 a).1 (by simp)
        exact absurd a3 (hno a a1 a2)
    subst hl
    unfold pathFails
    simp only [hp, go_ok_bind, angleCount, h1]
    rfl
  · rintro ⟨j, hj⟩
    have hjl := (h3 j).2 hj
    have hne : l ≠ [] := List.ne_nil_of_mem hjl
    obtain ⟨reps, last, r, m1, m2, m3, m4, m5, m6, m7⟩ := C53_middle (l.map fun n : Int => 10 * (n : ℝ)) 360 (by norm_num) (by norm_num)
      (by simpa using hne) (by
        rw [List.pairwise_map]
        refine h2.imp ?_
        intro a b hab
        have : (a : ℝ) < b := by exact_mod_cast hab
        linarith) (by
        intro a ha
        obtain ⟨n, hn, rfl⟩ := List.mem_map.1 ha
        obtain ⟨n1, n2, _⟩ := (h3 n).1 hn
        have n1' : (0 : ℝ) ≤ n := by exact_mod_cast n1
        have n2' : (n : ℝ) ≤ 35 := by exact_mod_cast (by omega : n ≤ 35)
        push_cast
        constructor <;> linarith)
    rw [List.map_map] at m1
    refine ⟨l, r, h2, h3, ⟨reps, last, m2, by simpa using m3, ?_, m5⟩, ?_, ?_⟩
    · intro x hx; have := m4 x hx; norm_num at this; exact this
    all_goals
      have hv : ((axisX : Vec XR).rotate (rotationAroundZ (ofInt r))) = (probeDir r).vec := by
        rw [axisX_probe, XR.ofInt_def, rotate_probe, zero_add]
      have hemp : (l.map fun n : Int => XR.fin (10 * (n : ℝ))).isEmpty = false := by
        cases l with
        | nil => exact absurd rfl hne
        | cons a t => rfl
      have m1' : middleOnTheRing (l.map fun n : Int => XR.fin (10 * (n : ℝ))) angleFull = .ok r := m1
      have hn : (tiltedNormal (ofInt r + lit 90 0) : Vec XR) = (Real.sin (rad 60) • probeDir r + Real.cos (rad 60) • R3.ez).vec := by
        have : (ofInt r + lit 90 0 : XR) = XR.fin ((r : ℝ) + 90) := by simp
        rw [this, tiltedNormal_vec]
        have e : rad ((r : ℝ) + 90) = rad r + Real.pi / 2 := by unfold rad; ring
        congr 1
        rw [e]
        apply R3.ext <;> simp [probeDir, R3.ez, Real.sin_add_pi_div_two, Real.cos_add_pi_div_two]
    · intro i hi
      unfold pathFails
      simp only [hp, go_ok_bind, angleCount, h1, hemp, Bool.false_eq_true, if_false, m1', hv]
      rw [axisZ_ez, cross_vec]
      simp only [pathHit_meets ho hi, go_ok_bind, hn]
      rfl
    · intro hi
      unfold pathFails
      simp only [hp, go_ok_bind, angleCount, h1, hemp, Bool.false_eq_true, if_false, m1', hv]
      rw [axisZ_ez, cross_vec]
      simp only [pathHit_misses ho hi, go_ok_bind]
      rfl

/-! ## The whole layer -/

section
variable {α : Type} [Flt α]

/-- nothing is reported for this contour: it is taken for a hole, or it is no overhang -/
def Quiet (prevLayer : Layer α) (pth : Path α) : Prop :=
  ∃ c, findCentroid pth = .ok c ∧ (looksLikeHole pth c = true ∨ pathFails prevLayer pth c = .ok none)

/-- **C76, a layer.** Contours that look like holes are left out; the first other contour for which there is a report decides; if there
is none, there is none for the layer. -/
theorem C76_layer (prevLayer : Layer α) (paths : List (Path α)) :
    ((∀ p ∈ paths, Quiet prevLayer p) → calculateFails prevLayer paths = .ok none) ∧
    (∀ before p after c pl, paths = before ++ p :: after → (∀ q ∈ before, Quiet prevLayer q) → findCentroid p = .ok c →
      looksLikeHole p c = false → pathFails prevLayer p c = .ok (some pl) → calculateFails prevLayer paths = .ok (some pl)) := by
  have step : ∀ p t, Quiet prevLayer p → calculateFails prevLayer (p :: t) = calculateFails prevLayer t := by
    rintro p t ⟨c, h1, h2⟩
    rw [calculateFails]
    simp only [h1, go_ok_bind]
    by_cases hh : looksLikeHole p c = true
    · rw [if_pos hh]
    · rw [if_neg hh]
      rcases h2 with h2 | h2
      · exact absurd h2 hh
      · simp only [h2, go_ok_bind]
  constructor
  · induction paths with
    | nil => intro _; rfl
    | cons p t ih =>
      intro h
      rw [step p t (h p (by simp))]
      exact ih fun q hq => h q (by simp [hq])
  · intro before
    induction before generalizing paths with
    | nil =>
      rintro p after c pl rfl _ h1 h2 h3
      rw [List.nil_append, calculateFails]
      simp only [h1, go_ok_bind, h2, Bool.false_eq_true, if_false, h3]
      rfl
    | cons b t ih =>
      rintro p after c pl rfl hq h1 h2 h3
      rw [List.cons_append, step b _ (hq b (by simp))]
      exact ih _ p after c pl rfl (fun q h => hq q (by simp [h])) h1 h2 h3
end

/-! ## Legs of a bridge -/

theorem intersectSegment_same (P N P' N' : R3) (h : ∀ w, R3.height P' N' w = - R3.height P N w) (a b : R3) :
    (Plane.mk P'.pt N'.vec).intersectSegment a.pt b.pt = (Plane.mk P.pt N.vec).intersectSegment a.pt b.pt := by
  apply Option.ext
  intro q
  rw [intersectSegment_iff, intersectSegment_iff]
  unfold crosses R3.onPlane
  simp only [h, ne_eq, neg_inj, neg_eq_zero]

theorem pathHit_same (P N P' N' : R3) (h : ∀ w, R3.height P' N' w = - R3.height P N w) (ws : List R3) (v : Vec XR) :
    (Plane.mk P'.pt N'.vec).intersectPathCodirectedWith ⟨ws.map R3.pt⟩ v =
      (Plane.mk P.pt N.vec).intersectPathCodirectedWith ⟨ws.map R3.pt⟩ v := by
  unfold Plane.intersectPathCodirectedWith
  cases findCentroid (⟨ws.map R3.pt⟩ : Path XR) with
  | error e => rfl
  | ok c =>
    simp only [go_ok_bind, adjPairs_pt, List.findSome?_map]
    congr 2
    funext q
    simp only [Function.comp]
    rw [intersectSegment_same P N P' N' h]

/-- the plane of a leg whose deck lies in the direction `u`: it leans 60 degrees from the horizontal, towards `u` if `u.y ≤ 0`, and
towards the mirror image of `u` otherwise -/
noncomputable def legNormal (u : R3) : R3 :=
  Real.sin (rad 60) • R3.mk (u.x / u.flat.norm) (-|u.y| / u.flat.norm) 0 + Real.cos (rad 60) • R3.ez

theorem legNormal_vec (u : R3) (hz : u.z = 0) (hu : u ≠ 0) :
    (tiltedNormal ((axisX : Vec XR).angle u.vec + lit 90 0) : Vec XR) = (legNormal u).vec := by
  have hf : u.flat = u := by apply R3.ext <;> simp [R3.flat, hz]
  have hf0 : u.flat ≠ 0 := by rw [hf]; exact hu
  have hx : (R3.mk 1 0 0) ≠ 0 := by intro h; have := congrArg R3.x h; simp at this
  have h1 : (R3.mk 1 0 0).norm = 1 := by simp [R3.norm, R3.normSq, R3.dot]
  have hsym : angleDeg (R3.mk 1 0 0) u = angleDeg u.flat (R3.mk 1 0 0) := by
    rw [hf]; unfold angleDeg R3.dot; congr 4 <;> ring
  have hs := sin_angleDeg u.flat hf0 rfl
  have hc := cos_angleDeg u.flat _ hf0 hx
  have hd : u.flat.dot (R3.mk 1 0 0) = u.x := by simp [R3.dot, R3.flat]
  rw [hd, h1, mul_one] at hc
  have hfy : u.flat.y = u.y := rfl
  rw [hfy] at hs
  rw [axisX_vec', angle_vec _ _ hx hu, hsym]
  have : (XR.fin (angleDeg u.flat (R3.mk 1 0 0)) + lit 90 0 : XR) = XR.fin (angleDeg u.flat (R3.mk 1 0 0) + 90) := by simp
  rw [this, tiltedNormal_vec]
  have e : rad (angleDeg u.flat (R3.mk 1 0 0) + 90) = rad (angleDeg u.flat (R3.mk 1 0 0)) + Real.pi / 2 := by unfold rad; ring
  rw [e, Real.sin_add_pi_div_two, Real.cos_add_pi_div_two, hs, hc]
  congr 1
  unfold legNormal
  apply R3.ext <;> simp [R3.ez]
  ring

/-- **C76, a leg of a bridge.** The contour of the leg (centroid `c`) above the contour `prev` is reported iff it leans more than 40
degrees from the vertical in the direction of the other leg. -/
theorem C76_leg (cur prev : List R3) (c o e : R3) (z z' : ℝ) (hc : findCentroid ⟨cur.map R3.pt⟩ = .ok c.pt)
    (ho : findCentroid ⟨prev.map R3.pt⟩ = .ok o.pt) (hz : ∀ w ∈ cur, w.z = z) (hz' : ∀ w ∈ prev, w.z = z') (hlt : z' < z)
    (hce : c.z = e.z) (hne : c ≠ e) (plane : Plane XR)
    (hpl : plane = ⟨c.pt, ((e - c).cross .ez).vec⟩ ∨ plane = ⟨e.pt, ((c - e).cross .ez).vec⟩) :
    (∀ a b, Meets c (e - c) c cur b → Meets c (e - c) o prev a → Leans a b →
      legFails plane ⟨cur.map R3.pt⟩ ⟨prev.map R3.pt⟩ c.pt e.pt = .ok (some ⟨a.pt, (legNormal (e - c)).vec⟩)) ∧
    (¬ Reported c o cur prev (e - c) → legFails plane ⟨cur.map R3.pt⟩ ⟨prev.map R3.pt⟩ c.pt e.pt = .ok none) := by
  have hu : e - c ≠ 0 := by
    intro h; apply hne
    have hx := congrArg R3.x h; have hy := congrArg R3.y h
    simp at hx hy
    apply R3.ext <;> linarith
  have huz : (e - c).z = 0 := by simp [hce]
  have hsame : ∀ ws : List R3, plane.intersectPathCodirectedWith ⟨ws.map R3.pt⟩ (e - c).vec =
      (Plane.mk c.pt ((e - c).cross .ez).vec).intersectPathCodirectedWith ⟨ws.map R3.pt⟩ (e - c).vec := by
    intro ws
    rcases hpl with rfl | rfl
    · rfl
    · apply pathHit_same
      intro w
      simp [R3.height, R3.dot, R3.cross, R3.ez]
      ring
  have hnv := legNormal_vec (e - c) huz hu
  have hgen : ∀ r r' : Option (Point XR), (Plane.mk c.pt ((e - c).cross .ez).vec).intersectPathCodirectedWith ⟨cur.map R3.pt⟩ (e - c).vec = .ok r →
      (Plane.mk c.pt ((e - c).cross .ez).vec).intersectPathCodirectedWith ⟨prev.map R3.pt⟩ (e - c).vec = .ok r' →
      legFails plane ⟨cur.map R3.pt⟩ ⟨prev.map R3.pt⟩ c.pt e.pt = match r, r' with
        | some b, some a => if failAngle <? (axisZ : Vec XR).angle (a.vectorTo b) then .ok (some ⟨a, (legNormal (e - c)).vec⟩) else .ok none
        | _, _ => .ok none := by
    intro r r' h1 h2
    unfold legFails
    rw [vectorTo_pt, hsame, hsame, h1, h2]
    simp only [go_ok_bind, hnv]
    cases r <;> cases r' <;> rfl
  constructor
  · intro a b h1 h2 h3
    rw [hgen _ _ (pathHit_meets hc h1) (pathHit_meets ho h2)]
    simp only
    rw [if_pos ((failAngle_iff a b (by rw [h1.height hz, h2.height hz']; exact hlt)).2 h3)]
  · intro hno
    rcases pathHit c (e - c) c cur hc with ⟨u, e1, m1⟩ | ⟨e1, m1⟩
    · rcases pathHit c (e - c) o prev ho with ⟨w, e2, m2⟩ | ⟨e2, m2⟩
      · rw [hgen _ _ e1 e2]
        simp only
        rw [if_neg]
        rw [failAngle_iff w u (by rw [m1.height hz, m2.height hz']; exact hlt)]
        exact fun h => hno ⟨w, u, m1, m2, h⟩
      · rw [hgen _ _ e1 e2]
    · rcases pathHit c (e - c) o prev ho with ⟨w, e2, m2⟩ | ⟨e2, m2⟩
      · rw [hgen _ _ e1 e2]
      · rw [hgen _ _ e1 e2]

/-! ## Bodies of rotation -/

/-- **C76, a body of rotation.** Only the direction of the first corner `a` of the lower contour is probed: a layer is reported iff the
way from `a` to the contour above leans more than 40 degrees from the vertical and ends further from the centroid `o` than `a` is. -/
theorem C76_rotation (cur prev : List R3) (curs prevs : List (Path XR)) (a : R3) (c o : R3) (z z' : ℝ)
    (hc : findCentroid ⟨cur.map R3.pt⟩ = .ok c.pt) (ho : findCentroid ⟨prev.map R3.pt⟩ = .ok o.pt) (hz : ∀ w ∈ cur, w.z = z)
    (hz' : ∀ w ∈ prev, w.z = z') (hlt : z' < z) (ha : prev.head? = some a) (prevL curL : Layer XR)
    (hp : prevL.paths = ⟨prev.map R3.pt⟩ :: prevs) (hq : curL.paths = ⟨cur.map R3.pt⟩ :: curs) :
    ∃ b, failRotation prevL curL = .ok b ∧
      (b = true ↔ ∃ q, Meets a (a - o) c cur q ∧ Leans a q ∧ R3.dist o a ≤ R3.dist o q) := by
  obtain ⟨t, rfl⟩ : ∃ t, prev = a :: t := by
    cases prev with
    | nil => cases ha
    | cons x t => injection ha with ha; subst ha; exact ⟨t, rfl⟩
  have haz : a.z = z' := hz' a (by simp)
  unfold failRotation
  simp only [hp, hq, goAt, List.getElem?_cons_zero, List.map_cons, go_ok_bind]
  rw [List.map_cons] at ho
  simp only [ho, go_ok_bind]
  rw [vectorTo_pt, axisZ_ez, cross_vec]
  rcases pathHit a (a - o) c cur hc with ⟨q, e1, m1⟩ | ⟨e1, m1⟩
  · have hl := failAngle_iff a q (by rw [m1.height hz, haz]; exact hlt)
    rw [axisZ_ez] at hl
    simp only [e1, go_ok_bind]
    by_cases hle : Leans a q
    · rw [if_pos (hl.2 hle)]
      refine ⟨_, rfl, ?_⟩
      simp only [distanceTo_pt, XR.fin_lt, Bool.not_eq_true', decide_eq_false_iff_not, not_lt]
      constructor
      · intro h; exact ⟨q, m1, hle, h⟩
      · rintro ⟨q', m1', _, h⟩; rw [m1.unique m1']; exact h
    · rw [if_neg fun h => hle (hl.1 h)]
      refine ⟨false, rfl, ?_⟩
      constructor
      · intro h; cases h
      · rintro ⟨q', m1', h, _⟩; rw [← m1.unique m1'] at h; exact absurd h hle
  · simp only [e1, go_ok_bind]
    refine ⟨false, rfl, ?_⟩
    constructor
    · intro h; cases h
    · rintro ⟨q', m1', h, _⟩; exact absurd m1' (m1.not_meets _)

/-! ## Slopes that go inwards -/

/-- a clockwise square around the z axis at height `z`, `2 r` wide -/
def square (r z : ℝ) : List R3 := [⟨-r, -r, z⟩, ⟨-r, r, z⟩, ⟨r, r, z⟩, ⟨r, -r, z⟩, ⟨-r, -r, z⟩]

theorem square_z (r z : ℝ) : ∀ w ∈ square r z, w.z = z := by simp [square]

theorem square_centroid (r z : ℝ) (hr : 1 ≤ r) : findCentroid ⟨(square r z).map R3.pt⟩ = .ok (R3.mk 0 0 z).pt := by
  have ha : fanArea 0 (square r z) = -4 * r ^ 2 := by
    simp [fanArea, adjPairs, triArea, square]; ring
  have hx : fanMx 0 (square r z) = 0 := by
    simp [fanMx, adjPairs, triArea, square]; ring
  have hy : fanMy 0 (square r z) = 0 := by
    simp [fanMy, adjPairs, triArea, square]; ring
  have hpos : 1 ≤ 4 * r ^ 2 := by nlinarith
  have htol : tol ≤ |fanArea 0 (square r z)| := by
    rw [ha, show -4 * r ^ 2 = -(4 * r ^ 2) by ring, abs_neg, abs_of_pos (by linarith)]
    have : tol ≤ 1 := by simp [tol]; norm_num
    linarith
  obtain ⟨c, h1, h2, h3⟩ := C29_centroid (square r z) z (square_z r z) (by simp [closedAt, square]) htol
  obtain ⟨h4, h5⟩ := h3 0
  rw [ha, hx] at h4
  rw [ha, hy] at h5
  rw [h1]
  congr 2
  apply R3.ext
  · rcases mul_eq_zero.1 h4 with h | h
    · exact h
    · nlinarith
  · rcases mul_eq_zero.1 h5 with h | h
    · exact h
    · nlinarith
  · exact h2

/-- the square is met in every horizontal direction -/
theorem square_meets (r z z' θ : ℝ) (hr : 0 < r) : ∃ i, Meets ⟨0, 0, z'⟩ (probeDir θ) ⟨0, 0, z⟩ (square r z) i := by
  rcases meets_or_misses ⟨0, 0, z'⟩ (probeDir θ) ⟨0, 0, z⟩ (square r z) with h | h
  · exact h
  · exfalso
    have h1 := Real.sin_sq_add_cos_sq (rad θ)
    unfold probeDir at h
    set s := Real.sin (rad θ)
    set k := Real.cos (rad θ)
    have hadj : adjPairs (square r z) = [(⟨-r, -r, z⟩, ⟨-r, r, z⟩), (⟨-r, r, z⟩, ⟨r, r, z⟩), (⟨r, r, z⟩, ⟨r, -r, z⟩), (⟨r, -r, z⟩, ⟨-r, -r, z⟩)] := rfl
    unfold Misses at h
    rw [hadj] at h
    by_cases hks : |s| ≤ |k|
    · have hk : k ≠ 0 := by
        intro hk; rw [hk, abs_zero] at hks
        have := abs_eq_zero.1 (le_antisymm hks (abs_nonneg s))
        rw [hk, this] at h1; norm_num at h1
      have hq : |s / k| ≤ 1 := by rw [abs_div, div_le_one (abs_pos.2 hk)]; exact hks
      obtain ⟨q1, q2⟩ := abs_le.1 hq
      rcases lt_or_gt_of_ne hk with hneg | hpos
      · refine h (⟨-r, -r, z⟩, ⟨-r, r, z⟩) (by simp) ⟨-r, r * (s / k), z⟩ ⟨⟨?_, ⟨(1 + s / k) / 2, by linarith, by linarith, ?_⟩, ?_⟩, ?_⟩
        · simp [R3.height, R3.dot, R3.cross, R3.ez]
          intro hc; nlinarith
        · apply R3.ext <;> simp
          ring
        · simp [R3.onPlane, R3.height, R3.dot, R3.cross, R3.ez]; field_simp; ring
        · simp [R3.dot]
          have : r * (s / k) * s = (r * s ^ 2) / k := by field_simp
          rw [this]
          have : r * s ^ 2 / k ≤ 0 := div_nonpos_of_nonneg_of_nonpos (by positivity) hneg.le
          nlinarith
      · refine h (⟨r, r, z⟩, ⟨r, -r, z⟩) (by simp) ⟨r, -(r * (s / k)), z⟩ ⟨⟨?_, ⟨(1 + s / k) / 2, by linarith, by linarith, ?_⟩, ?_⟩, ?_⟩
        · simp [R3.height, R3.dot, R3.cross, R3.ez]
          intro hc; nlinarith
        · apply R3.ext <;> simp
          ring
        · simp [R3.onPlane, R3.height, R3.dot, R3.cross, R3.ez]; field_simp; ring
        · simp [R3.dot]
          have : r * (s / k) * s = (r * s ^ 2) / k := by field_simp
          rw [this]
          have : 0 ≤ r * s ^ 2 / k := by positivity
          nlinarith
    · push Not at hks
      have hs : s ≠ 0 := by intro hs; rw [hs, abs_zero] at hks; exact absurd hks (not_lt.2 (abs_nonneg _))
      have hq : |k / s| ≤ 1 := by rw [abs_div, div_le_one (abs_pos.2 hs)]; exact hks.le
      obtain ⟨q1, q2⟩ := abs_le.1 hq
      rcases lt_or_gt_of_ne hs with hneg | hpos
      · refine h (⟨-r, r, z⟩, ⟨r, r, z⟩) (by simp) ⟨-(r * (k / s)), r, z⟩ ⟨⟨?_, ⟨(1 - k / s) / 2, by linarith, by linarith, ?_⟩, ?_⟩, ?_⟩
        · simp [R3.height, R3.dot, R3.cross, R3.ez]
          intro hc; nlinarith
        · apply R3.ext <;> simp
          ring
        · simp [R3.onPlane, R3.height, R3.dot, R3.cross, R3.ez]; field_simp; ring
        · simp [R3.dot]
          have : r * (k / s) * k = (r * k ^ 2) / s := by field_simp
          rw [this]
          have : r * k ^ 2 / s ≤ 0 := div_nonpos_of_nonneg_of_nonpos (by positivity) hneg.le
          nlinarith
      · refine h (⟨r, -r, z⟩, ⟨-r, -r, z⟩) (by simp) ⟨r * (k / s), -r, z⟩ ⟨⟨?_, ⟨(1 - k / s) / 2, by linarith, by linarith, ?_⟩, ?_⟩, ?_⟩
        · simp [R3.height, R3.dot, R3.cross, R3.ez]
          intro hc; nlinarith
        · apply R3.ext <;> simp
          ring
        · simp [R3.onPlane, R3.height, R3.dot, R3.cross, R3.ez]; field_simp; ring
        · simp [R3.dot]
          have : r * (k / s) * k = (r * k ^ 2) / s := by field_simp
          rw [this]
          have : 0 ≤ r * k ^ 2 / s := by positivity
          nlinarith

/-- along the x axis it is met in the middle of its right side -/
theorem square_meets_x (r z z' : ℝ) (hr : 0 < r) : Meets ⟨0, 0, z'⟩ (probeDir 0) ⟨0, 0, z⟩ (square r z) ⟨r, 0, z⟩ := by
  obtain ⟨i, hi⟩ := square_meets r z z' 0 hr
  have hd : probeDir 0 = ⟨1, 0, 0⟩ := by
    have : rad 0 = 0 := by unfold rad; ring
    apply R3.ext <;> simp [probeDir, this]
  have : i = ⟨r, 0, z⟩ := by
    have hiz := hi.height (square_z r z)
    obtain ⟨k, q, h1, ⟨⟨hn, ⟨t, t0, t1, ht⟩, hp⟩, hf⟩, _⟩ := hi
    rw [hd] at hn hp hf
    have hy : i.y = 0 := by
      simp [R3.onPlane, R3.height, R3.dot, R3.cross, R3.ez] at hp; linarith
    have hx : 0 ≤ i.x := by simpa [R3.dot] using hf
    have hq := List.mem_of_getElem? h1
    have hadj : adjPairs (square r z) = [(⟨-r, -r, z⟩, ⟨-r, r, z⟩), (⟨-r, r, z⟩, ⟨r, r, z⟩), (⟨r, r, z⟩, ⟨r, -r, z⟩), (⟨r, -r, z⟩, ⟨-r, -r, z⟩)] := rfl
    rw [hadj] at hq
    simp only [List.mem_cons, List.not_mem_nil, or_false] at hq
    have ex := congrArg R3.x ht
    rcases hq with rfl | rfl | rfl | rfl
    · simp at ex; linarith
    · exfalso; simp [R3.height, R3.dot, R3.cross, R3.ez] at hn
    · simp at ex
      exact R3.ext ex hy hiz
    · exfalso; simp [R3.height, R3.dot, R3.cross, R3.ez] at hn
  rw [this] at hi
  exact hi

theorem square_outside (r z : ℝ) (hr : 0 < r) : looksLikeHole ⟨(square r z).map R3.pt⟩ (R3.mk 0 0 z).pt = false := by
  rw [Bool.eq_false_iff]
  intro h
  unfold square at h
  rw [looksLikeHole_real] at h
  simp [leftOf] at h
  nlinarith

theorem square_inside (r z z' : ℝ) (hr : 0 < r) (h : |z - z'| < r) : (R3.mk 0 0 z').pt.inside ⟨(square r z).map R3.pt⟩ = true := by
  have hv : ((R3.mk 0 0 z').pt.vectorTo (R3.mk (-r) (-r) z).pt).projectOnPlane ⟨(R3.mk 0 0 z').pt, (R3.mk 0 (2 * r) 0).vec⟩ =
      (R3.mk (-r) 0 (z - z')).vec := by
    unfold Vec.projectOnPlane
    simp only [vectorTo_pt, projectOn_vec, reverse_vec, add_vec]
    congr 1
    apply R3.ext <;> simp [R3.dot, R3.normSq]
    field_simp
    ring
  have hn : (R3.mk (-r) (-r) z).pt.vectorTo (R3.mk (-r) r z).pt = (R3.mk 0 (2 * r) 0).vec := by
    rw [vectorTo_pt]
    congr 1
    apply R3.ext <;> simp
    ring
  have s1 : (Plane.mk (R3.mk 0 0 z').pt (R3.mk 0 (2 * r) 0).vec).intersectSegment (R3.mk (-r) (-r) z).pt (R3.mk (-r) r z).pt =
      some (R3.mk (-r) 0 z).pt := by
    refine (intersectSegment_iff _ _ _ _ _).2 ⟨_, rfl, ?_, ⟨1 / 2, by norm_num, by norm_num, ?_⟩, ?_⟩
    · simp [R3.height, R3.dot]; intro h; nlinarith
    · apply R3.ext <;> simp
      ring
    · simp [R3.onPlane, R3.height, R3.dot]
  have s3 : (Plane.mk (R3.mk 0 0 z').pt (R3.mk 0 (2 * r) 0).vec).intersectSegment (R3.mk r r z).pt (R3.mk r (-r) z).pt =
      some (R3.mk r 0 z).pt := by
    refine (intersectSegment_iff _ _ _ _ _).2 ⟨_, rfl, ?_, ⟨1 / 2, by norm_num, by norm_num, ?_⟩, ?_⟩
    · simp [R3.height, R3.dot]; intro h; nlinarith
    · apply R3.ext <;> simp
      ring
    · simp [R3.onPlane, R3.height, R3.dot]
  have s2 : (Plane.mk (R3.mk 0 0 z').pt (R3.mk 0 (2 * r) 0).vec).intersectSegment (R3.mk (-r) r z).pt (R3.mk r r z).pt = none := by
    rw [intersectSegment_pt, if_pos (by simp [R3.height, R3.dot])]
  have s4 : (Plane.mk (R3.mk 0 0 z').pt (R3.mk 0 (2 * r) 0).vec).intersectSegment (R3.mk r (-r) z).pt (R3.mk (-r) (-r) z).pt = none := by
    rw [intersectSegment_pt, if_pos (by simp [R3.height, R3.dot])]
  have c1 : ((R3.mk 0 0 z').pt.vectorTo (R3.mk (-r) 0 z).pt).codirectedWith (R3.mk (-r) 0 (z - z')).vec = true := by
    rw [vectorTo_pt, codirected_vec, decide_eq_true_eq]; simp [R3.dot]; nlinarith
  have c3 : ((R3.mk 0 0 z').pt.vectorTo (R3.mk r 0 z).pt).codirectedWith (R3.mk (-r) 0 (z - z')).vec = false := by
    obtain ⟨h1, h2⟩ := abs_lt.1 h
    rw [vectorTo_pt, codirected_vec, decide_eq_false_iff_not]; simp [R3.dot]; nlinarith
  unfold Point.inside square
  simp only [List.map_cons, List.map_nil, hn, hv, adjPairs, List.tail_cons, List.zip_cons_cons, List.zip_nil_right, List.countP_cons,
    List.countP_nil, s1, s2, s3, s4, c1, c3]
  rfl

/-- **C76, negation.** A pyramid is reported as an overhang: if the square `2 R` wide at height 0 is followed by a narrower square, `2 r`
wide, at height `h`, and the wall leans inwards by more than 40 degrees from the vertical, then a plane to cut with is found, although
nothing of the upper square is outside the lower one. -/
theorem C76_violated (R r h : ℝ) (hr : 1 ≤ r) (hrR : r < R) (hh : 0 < h) (hR : h < R) (hlean : h * Real.tan (rad 40) < R - r)
    (prev : Layer XR) (hp : prev.paths = [⟨(square R 0).map R3.pt⟩]) :
    ∃ pl, calculateFails prev [⟨(square r h).map R3.pt⟩] = .ok (some pl) := by
  have hR0 : (0 : ℝ) < R := by linarith
  have hprev : findPrevPath (R3.mk 0 0 h).pt prev.paths = .ok (some ⟨(square R 0).map R3.pt⟩) := by
    rw [hp]
    unfold findPrevPath
    simp only [square_centroid R 0 (by linarith), go_ok_bind, square_outside R 0 hR0, Bool.false_eq_true, if_false,
      square_inside R 0 h hR0 (by rw [zero_sub, abs_neg, abs_of_pos hh]; exact hR), if_true]
    rfl
  have hrep : Reported ⟨0, 0, h⟩ ⟨0, 0, 0⟩ (square r h) (square R 0) (probeDir (10 * ((0 : Int) : ℝ))) := by
    have e : probeDir (10 * ((0 : Int) : ℝ)) = probeDir 0 := by simp
    rw [e]
    refine ⟨_, _, square_meets_x r h h (by linarith), square_meets_x R 0 h hR0, ?_⟩
    unfold Leans
    have : ((R3.mk r 0 h) - (R3.mk R 0 0)).flat.norm = R - r := by
      have e2 : ((R3.mk r 0 h) - (R3.mk R 0 0)).flat.normSq = (R - r) ^ 2 := by
        simp [R3.flat, R3.normSq, R3.dot]; ring
      unfold R3.norm
      rw [e2, Real.sqrt_sq (by linarith)]
    rw [this]; simpa using hlean
  obtain ⟨l, q, _, _, _, hmeet, _⟩ := (C76_report (square r h) (square R 0) ⟨0, 0, h⟩ ⟨0, 0, 0⟩ h 0 (square_centroid r h hr)
    (square_centroid R 0 (by linarith)) (square_z r h) (square_z R 0) hh prev hprev).2 ⟨0, le_refl _, by norm_num, hrep⟩
  obtain ⟨i, hi⟩ := square_meets R 0 h q hR0
  exact ⟨_, (C76_layer prev _).2 [] _ [] _ _ rfl (by simp) (square_centroid r h hr) (square_outside r h (by linarith)) (hmeet i hi)⟩

/-! ## Upright walls -/

theorem InFront.lift {c d o : R3} {q : R3 × R3} {i : R3} (hd : d.z = 0) (t : ℝ) (h : InFront c d o q i) :
    InFront c d (o + ⟨0, 0, t⟩) (q.1 + ⟨0, 0, t⟩, q.2 + ⟨0, 0, t⟩) (i + ⟨0, 0, t⟩) := by
  have hh : ∀ w : R3, R3.height c (d.cross .ez) (w + ⟨0, 0, t⟩) = R3.height c (d.cross .ez) w := by
    intro w; simp [R3.height, R3.dot, R3.cross, R3.ez]
  obtain ⟨⟨h1, ⟨s, s0, s1, h2⟩, h3⟩, h4⟩ := h
  refine ⟨⟨by simp only [hh]; exact h1, ⟨s, s0, s1, ?_⟩, by unfold R3.onPlane; rw [hh]; exact h3⟩, ?_⟩
  · rw [h2]; apply R3.ext <;> simp
    ring
  · have : (i + ⟨0, 0, t⟩ - (o + ⟨0, 0, t⟩)).dot d = (i - o).dot d := by simp [R3.dot]
    rw [this]; exact h4

theorem Meets.lift {c d o : R3} {ws : List R3} {i : R3} (hd : d.z = 0) (t : ℝ) (h : Meets c d o ws i) :
    Meets c d (o + ⟨0, 0, t⟩) (ws.map (· + ⟨0, 0, t⟩)) (i + ⟨0, 0, t⟩) := by
  obtain ⟨k, q, h1, h2, h3⟩ := h
  have hadj : adjPairs (ws.map fun w => w + (⟨0, 0, t⟩ : R3)) = (adjPairs ws).map fun q => (q.1 + ⟨0, 0, t⟩, q.2 + ⟨0, 0, t⟩) := by
    unfold adjPairs
    rw [← List.map_tail, List.zip_map]; rfl
  refine ⟨k, _, by rw [hadj, List.getElem?_map, h1]; rfl, h2.lift hd t, ?_⟩
  intro k' q' hk hq' i' hi'
  rw [hadj, List.getElem?_map, Option.map_eq_some_iff] at hq'
  obtain ⟨r, hr, rfl⟩ := hq'
  have := hi'.lift hd (-t)
  have e1 : ∀ w : R3, w + ⟨0, 0, t⟩ + ⟨0, 0, -t⟩ = w := by intro w; apply R3.ext <;> simp
  simp only [e1] at this
  exact h3 k' r hk hr _ this

/-- **C76, upright walls** are never reported: a contour above the same contour, `h` higher. -/
theorem C76_upright (prev : List R3) (c o : R3) (h z' : ℝ) (hh : 0 < h)
    (hc : findCentroid ⟨(prev.map (· + ⟨0, 0, h⟩)).map R3.pt⟩ = .ok c.pt) (ho : findCentroid ⟨prev.map R3.pt⟩ = .ok o.pt)
    (hco : c = o + ⟨0, 0, h⟩) (hz' : ∀ w ∈ prev, w.z = z') (layer : Layer XR)
    (hp : findPrevPath c.pt layer.paths = .ok (some ⟨prev.map R3.pt⟩)) :
    pathFails layer ⟨(prev.map (· + ⟨0, 0, h⟩)).map R3.pt⟩ c.pt = .ok none := by
  refine (C76_report _ prev c o (z' + h) z' hc ho ?_ hz' (by linarith) layer hp).1 ?_
  · intro w hw
    obtain ⟨v, hv, rfl⟩ := List.mem_map.1 hw
    simp [hz' v hv]
  · rintro j _ _ ⟨a, b, m1, m2, hl⟩
    have m3 := m2.lift (d := probeDir (10 * j)) (by rfl) h
    rw [← hco] at m3
    have hb := m1.unique m3
    unfold Leans at hl
    rw [hb] at hl
    have e : (a + (⟨0, 0, h⟩ : R3) - a).flat.norm = 0 := by
      apply R3.norm_eq_zero.2
      apply R3.ext <;> simp [R3.flat]
    rw [e] at hl
    have htan : 0 < Real.tan (rad 40) := Real.tan_pos_of_pos_of_lt_pi_div_two rad40_pos rad40_lt
    simp at hl
    nlinarith

theorem tan40_lt_one : Real.tan (rad 40) < 1 := by
  rw [← Real.tan_pi_div_four]
  apply Real.tan_lt_tan_of_nonneg_of_lt_pi_div_two rad40_pos.le (by linarith [Real.pi_pos])
  unfold rad; linarith [Real.pi_pos]

/-- a flat pyramid: 20 mm wide, and 16 mm one millimetre higher -/
example (prev : Layer XR) (hp : prev.paths = [⟨(square 10 0).map R3.pt⟩]) :
    ∃ pl, calculateFails prev [⟨(square 8 1).map R3.pt⟩] = .ok (some pl) :=
  C76_violated 10 8 1 (by norm_num) (by norm_num) (by norm_num) (by norm_num) (by linarith [tan40_lt_one]) prev hp

/-- a square tower -/
example (prev : Layer XR) (hp : prev.paths = [⟨(square 10 0).map R3.pt⟩]) :
    calculateFails prev [⟨(square 10 1).map R3.pt⟩] = .ok none := by
  have e : (square 10 0).map (· + ⟨0, 0, 1⟩) = square 10 1 := by
    simp only [square, List.map_cons, List.map_nil, List.cons.injEq, and_true]
    refine ⟨?_, ?_, ?_, ?_, ?_⟩ <;> apply R3.ext <;> simp
  have hprev : findPrevPath (R3.mk 0 0 1).pt prev.paths = .ok (some ⟨(square 10 0).map R3.pt⟩) := by
    rw [hp]
    unfold findPrevPath
    simp only [square_centroid 10 0 (by norm_num), go_ok_bind, square_outside 10 0 (by norm_num), Bool.false_eq_true, if_false,
      square_inside 10 0 1 (by norm_num) (by norm_num), if_true]
    rfl
  have := C76_upright (square 10 0) ⟨0, 0, 1⟩ ⟨0, 0, 0⟩ 1 0 (by norm_num) (by rw [e]; exact square_centroid 10 1 (by norm_num))
    (square_centroid 10 0 (by norm_num)) (by apply R3.ext <;> simp) (square_z 10 0) prev hprev
  rw [e] at this
  exact (C76_layer prev _).1 fun p hp' => by
    rw [List.mem_singleton] at hp'; subst hp'
    exact ⟨_, square_centroid 10 1 (by norm_num), Or.inr this⟩

/-! ## A contour above nothing -/

/-- **C76, an island.** If no outside contour below contains the centroid `c` of the contour, the first contour below (centroid `o`)
decides: the plane goes through the point `i` where it is met in the direction of `c`, and is as steep as always; without such a point
there is no report, nor if there is no contour below. -/
theorem C76_island (cur : Path XR) (prev : List R3) (rest : List (Path XR)) (c o : R3) (z' : ℝ)
    (ho : findCentroid ⟨prev.map R3.pt⟩ = .ok o.pt) (hz' : ∀ w ∈ prev, w.z = z') (hoz : o.z = z') (layer : Layer XR)
    (hl : layer.paths = ⟨prev.map R3.pt⟩ :: rest) (hp : findPrevPath c.pt layer.paths = .ok none) :
    (∀ i, Meets o (c - o).flat o prev i → i ≠ o → pathFails layer cur c.pt = .ok (some ⟨i.pt, (legNormal (i - o)).vec⟩)) ∧
    (Misses o (c - o).flat o prev → pathFails layer cur c.pt = .ok none) := by
  constructor
  · intro i hi hne
    have hiz : (i - o).z = 0 := by simp [hi.height hz', hoz]
    have h0 : i - o ≠ 0 := by
      intro h; apply hne
      have hx := congrArg R3.x h; have hy := congrArg R3.y h; have hzz := congrArg R3.z h
      simp at hx hy hzz
      apply R3.ext <;> linarith
    have hx : (R3.mk 1 0 0) ≠ 0 := by intro h; have := congrArg R3.x h; simp at this
    have hsym : (i - o).vec.angle (axisX : Vec XR) = (axisX : Vec XR).angle (i - o).vec := by
      rw [axisX_vec', angle_vec _ _ hx h0, angle_vec _ _ h0 hx]
      congr 1
      unfold angleDeg R3.dot
      congr 4 <;> ring
    unfold pathFails
    simp only [hp, go_ok_bind]
    rw [hl]
    simp only [ho, go_ok_bind, vectorTo_pt, projectXY]
    rw [axisZ_ez, cross_vec]
    simp only [pathHit_meets ho hi, go_ok_bind, vectorTo_pt, hsym, legNormal_vec (i - o) hiz h0]
    rfl
  · intro hm
    unfold pathFails
    simp only [hp, go_ok_bind]
    rw [hl]
    simp only [ho, go_ok_bind, vectorTo_pt, projectXY]
    rw [axisZ_ez, cross_vec]
    simp only [pathHit_misses ho hm, go_ok_bind]
    rfl

/-- the first layer of a part in mid air: nothing below, no report -/
theorem C76_nothing_below (layer : Layer XR) (cur : Path XR) (c : Point XR) (h : layer.paths = []) : pathFails layer cur c = .ok none := by
  unfold pathFails
  rw [h]
  rfl

section
variable {α : Type} [Flt α]
/-- **C76, the contour below:** the first contour that is not taken for a hole and contains the point. -/
theorem C76_below (p : Point α) (paths : List (Path α)) :
    ((∀ q ∈ paths, ∃ c, findCentroid q = .ok c ∧ (looksLikeHole q c = true ∨ p.inside q = false)) → findPrevPath p paths = .ok none) ∧
    (∀ before q after c, paths = before ++ q :: after →
      (∀ r ∈ before, ∃ c, findCentroid r = .ok c ∧ (looksLikeHole r c = true ∨ p.inside r = false)) → findCentroid q = .ok c →
      looksLikeHole q c = false → p.inside q = true → findPrevPath p paths = .ok (some q)) := by
  have step : ∀ r t, (∃ c, findCentroid r = .ok c ∧ (looksLikeHole r c = true ∨ p.inside r = false)) →
      findPrevPath p (r :: t) = findPrevPath p t := by
    rintro r t ⟨c, h1, h2⟩
    rw [findPrevPath]
    simp only [h1, go_ok_bind]
    by_cases hh : looksLikeHole r c = true
    · rw [if_pos hh]
    · rw [if_neg hh]
      rcases h2 with h2 | h2
      · exact absurd h2 hh
      · rw [if_neg (by rw [h2]; simp)]
  constructor
  · induction paths with
    | nil => intro _; rfl
    | cons q t ih =>
      intro h
      rw [step q t (h q (by simp))]
      exact ih fun r hr => h r (by simp [hr])
  · intro before
    induction before generalizing paths with
    | nil =>
      rintro q after c rfl _ h1 h2 h3
      rw [List.nil_append, findPrevPath]
      simp only [h1, go_ok_bind, h2, Bool.false_eq_true, if_false, h3, if_true]
      rfl
    | cons b t ih =>
      rintro q after c rfl hq h1 h2 h3
      rw [List.cons_append, step b _ (hq b (by simp))]
      exact ih _ q after c rfl (fun r h => hq r (by simp [h])) h1 h2 h3
end

end Goosli
