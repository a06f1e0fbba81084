import Verif.Props.C51
import Verif.Props.C28
import Verif.Props.C09
import Verif.Proofs.Rot
/-!
# C62: the analysis mixes up the triangles of two meshes
-/
set_option linter.unusedSectionVars false
namespace Goosli
open Flt

/-- a flag beyond the last triangle of the original mesh ends the program -/
theorem lowestFail_error {α : Type} [Flt α] (mesh : Mesh α) (v : Vec α) : ∀ (flags : List Bool) (i : Nat) (t : Option (Triangle α)),
    (∃ k : Nat, flags[k]? = some true ∧ mesh.triangles.length ≤ i + k) → lowestFail mesh v i flags t = .error .index
  | [], _, _, h => by obtain ⟨k, hk, _⟩ := h; simp at hk
  | f :: rest, i, t, ⟨k, hk, hl⟩ => by
    unfold lowestFail
    cases k with
    | zero =>
      simp at hk
      subst hk
      have : goAt mesh.triangles i = .error .index := by
        unfold goAt
        rw [List.getElem?_eq_none (by omega)]
      rw [if_pos rfl, this]
      rfl
    | succ k =>
      have ih := fun t' => lowestFail_error mesh v rest (i + 1) t' ⟨k, by simpa using hk, by omega⟩
      cases f with
      | false => simp only [Bool.false_eq_true, if_false]; exact ih t
      | true =>
        rw [if_pos rfl]
        cases hg : goAt mesh.triangles i with
        | error e =>
          have : e = .index := by
            unfold goAt at hg
            split at hg
            · cases hg
            · injection hg with h; exact h.symm
          rw [this]; rfl
        | ok t2 =>
          rw [go_ok_bind]
          split_ifs <;> exact ih _

namespace TwoParts

/-- the part that hangs over: a tetrahedron on the bed -/
def A : R3 := ⟨10, 10, 0⟩
def B : R3 := ⟨10, -10, 0⟩
def C : R3 := ⟨0, 0, 0⟩
def D : R3 := ⟨100, 0, 10⟩
/-- the other part: a tetrahedron with an upright face, standing further in direction x -/
def E : R3 := ⟨200, 0, 0⟩
def F : R3 := ⟨200, 10, 0⟩
def G : R3 := ⟨210, 0, 0⟩
def H : R3 := ⟨200, 0, 10⟩

/-- two closed tetrahedra that stand on the bed -/
def model : List RTri := [⟨A, C, D⟩, ⟨C, B, D⟩, ⟨A, B, C⟩, ⟨B, A, D⟩, ⟨E, F, G⟩, ⟨E, G, H⟩, ⟨G, F, H⟩, ⟨E, H, F⟩]

end TwoParts
open TwoParts

/-- the surface is closed: every edge is used once in each direction -/
example : ∀ e ∈ model.flatMap (fun t => [(t.a, t.b), (t.b, t.c), (t.c, t.a)]),
    (e.2, e.1) ∈ model.flatMap (fun t => [(t.a, t.b), (t.b, t.c), (t.c, t.a)]) := by
  simp [model]

theorem model_nrm : model.map RTri.nrm = [⟨-100, 100, 1000⟩, ⟨-100, -100, 1000⟩, ⟨0, 0, -200⟩, ⟨200, 0, -1800⟩, ⟨0, 0, -100⟩, ⟨0, -100, 0⟩,
    ⟨100, 100, 100⟩, ⟨-100, 0, 0⟩] := by
  simp [model, RTri.nrm, R3.cross, A, B, C, D, E, F, G, H]
  norm_num


theorem flag_iff (t : RTri) (a : ℝ) (d : R3) (hn : t.nrm ≠ 0) (hd : d ≠ 0) (h1 : -90 ≤ a) (h2 : a ≤ 90) :
    (t.tri.n.angle d.vec.reverse <? (lit 90 0 - XR.fin a : XR)) = decide (Real.sin (rad a) * (t.nrm.norm * d.norm) < -(t.nrm.dot d)) := by
  obtain ⟨f, hf, _, h⟩ := C28_meaning [t] a d hd 0 t rfl hn
  have : (colorizeTriangles (rmesh [t]) (XR.fin a) d.vec)[0]? = some (t.tri.n.angle d.vec.reverse <? (lit 90 0 - XR.fin a : XR)) := rfl
  rw [this] at hf
  injection hf with hf
  rw [hf, Bool.eq_iff_iff, decide_eq_true_eq]
  exact h h1 h2

theorem sin_upto60 {a : ℝ} (h0 : 0 ≤ a) (h1 : a < 60) : 0 ≤ Real.sin (rad a) ∧ Real.sin (rad a) < Real.sin (rad 60) := by
  have hpi := Real.pi_pos
  have e : rad a = a * (Real.pi / 180) := by unfold rad; ring
  have e60 : rad 60 = 60 * (Real.pi / 180) := by unfold rad; ring
  have hp : 0 < Real.pi / 180 := by positivity
  have hlt : rad a < rad 60 := by rw [e, e60]; exact mul_lt_mul_of_pos_right h1 hp
  have h60 : rad 60 = Real.pi / 3 := rad60
  have hge : 0 ≤ rad a := by rw [e]; positivity
  exact ⟨Real.sin_nonneg_of_nonneg_of_le_pi hge (by linarith), Real.sin_lt_sin_of_lt_of_le_pi_div_two (by linarith) (by linarith) hlt⟩

theorem sin60_lt : Real.sin (rad 60) < 9 / 10 := by
  rw [rad60, Real.sin_pi_div_three]
  have : Real.sqrt 3 < 9 / 5 := by rw [Real.sqrt_lt' (by norm_num)]; norm_num
  linarith

theorem R3.ne_zero_of_x {v : R3} (h : v.x ≠ 0) : v ≠ 0 := by rintro rfl; exact h rfl
theorem R3.ne_zero_of_y {v : R3} (h : v.y ≠ 0) : v ≠ 0 := by rintro rfl; exact h rfl
theorem R3.ne_zero_of_z {v : R3} (h : v.z ≠ 0) : v ≠ 0 := by rintro rfl; exact h rfl

/-- the flags of the first round -/
theorem model_flags {a : ℝ} (h0 : 0 ≤ a) (h1 : a < 60) :
    colorizeTriangles (rmesh model) (XR.fin a) axisZ = [false, false, true, true, true, false, false, false] := by
  have hz : (R3.mk 0 0 1) ≠ 0 := R3.ne_zero_of_z (by simp)
  have z1 : (R3.mk 0 0 1).norm = 1 := by simp [R3.norm, R3.normSq, R3.dot]
  obtain ⟨s0, s1⟩ := sin_upto60 h0 h1
  have s2 := sin60_lt
  have hm := model_nrm
  simp only [model, List.map_cons, List.map_nil, List.cons.injEq, and_true] at hm
  obtain ⟨n1, n2, n3, n4, n5, n6, n7, n8⟩ := hm
  have fl : ∀ (t : RTri) (n : R3), t.nrm = n → n ≠ 0 → (t.tri.n.angle (R3.mk 0 0 1).vec.reverse <? (lit 90 0 - XR.fin a : XR)) =
      decide (Real.sin (rad a) * n.norm < -n.z) := by
    intro t n hn hne
    rw [flag_iff t a _ (by rw [hn]; exact hne) hz (by linarith) (by linarith), z1, hn, mul_one]
    congr 2
    simp [R3.dot]
  unfold colorizeTriangles
  rw [axisZ_vec]
  simp only [rmesh, model, List.map_cons, List.map_nil]
  rw [fl _ _ n1 (R3.ne_zero_of_x (by norm_num)), fl _ _ n2 (R3.ne_zero_of_x (by norm_num)), fl _ _ n3 (R3.ne_zero_of_z (by norm_num)),
    fl _ _ n4 (R3.ne_zero_of_x (by norm_num)), fl _ _ n5 (R3.ne_zero_of_z (by norm_num)), fl _ _ n6 (R3.ne_zero_of_y (by norm_num)),
    fl _ _ n7 (R3.ne_zero_of_x (by norm_num)), fl _ _ n8 (R3.ne_zero_of_x (by norm_num))]
  have nn : ∀ v : R3, 0 ≤ Real.sin (rad a) * v.norm := fun v => mul_nonneg s0 (Real.sqrt_nonneg _)
  have b3 : (R3.mk 0 0 (-200)).norm = 200 := by
    unfold R3.norm; rw [show (R3.mk 0 0 (-200)).normSq = 200 ^ 2 by simp [R3.normSq, R3.dot]; norm_num]; exact Real.sqrt_sq (by norm_num)
  have b5 : (R3.mk 0 0 (-100)).norm = 100 := by
    unfold R3.norm; rw [show (R3.mk 0 0 (-100)).normSq = 100 ^ 2 by simp [R3.normSq, R3.dot]; norm_num]; exact Real.sqrt_sq (by norm_num)
  have b4 : (R3.mk 200 0 (-1800)).norm ≤ 1900 := by
    unfold R3.norm; rw [Real.sqrt_le_left (by norm_num)]; simp [R3.normSq, R3.dot]; norm_num
  have c4 : Real.sin (rad a) * (R3.mk 200 0 (-1800)).norm < 1800 := by
    have : Real.sin (rad a) * (R3.mk 200 0 (-1800)).norm ≤ 9 / 10 * 1900 :=
      mul_le_mul (by linarith) b4 (Real.sqrt_nonneg _) (by norm_num)
    linarith
  simp only [List.cons.injEq, decide_eq_false_iff_not, decide_eq_true_eq, not_lt, and_true]
  refine ⟨?_, ?_, ?_, ?_, ?_, ?_, ?_, ?_⟩
  · have := nn ⟨-100, 100, 1000⟩; linarith
  · have := nn ⟨-100, -100, 1000⟩; linarith
  · rw [b3]; linarith
  · linarith
  · rw [b5]; linarith
  · have := nn ⟨0, -100, 0⟩; linarith
  · have := nn ⟨100, 100, 100⟩; linarith
  · have := nn ⟨-100, 0, 0⟩; linarith

/-- the first round chooses the overhanging face -/
theorem model_lowest (flags : List Bool) (hf : flags = [false, false, true, true, true, false, false, false]) :
    lowestFail (rmesh model) axisZ 0 flags none = .ok (some (RTri.mk B A D).tri) := by
  subst hf
  have q : (lit 1 2 : XR) = XR.fin (1 / 100) := by simp; norm_num
  simp [lowestFail, goAt, rmesh, model, go_ok_bind, RTri.tri, R3.pt, A, B, C, D, E, F, G]
  rw [if_neg (by norm_num)]
  rfl


/-- the normal of the plane found in the first round -/
noncomputable def TwoParts.N : R3 := ⟨Real.cos (rad 30) * 200, 0, Real.sin (rad 30) * 200⟩

theorem model_next : nextPlane ⟨planeXY, false, lit 0 0⟩ (RTri.mk B A D).tri =
    ⟨⟨B.pt, TwoParts.N.vec⟩, true, XR.fin (angleDeg (RTri.mk B A D).nrm.flat (R3.mk 1 0 0) - 90)⟩ := by
  have hn : (RTri.mk B A D).nrm = ⟨200, 0, -1800⟩ := by
    simp [RTri.nrm, R3.cross, A, B, D]; norm_num
  have hf : (RTri.mk B A D).nrm.flat = ⟨200, 0, 0⟩ := by rw [hn]; rfl
  rw [nextPlane_tilted _ rfl _ (by rw [hf]; exact R3.ne_zero_of_x (by norm_num)), hf]
  have h200 : (R3.mk 200 0 0).norm = 200 := by
    unfold R3.norm; rw [show (R3.mk 200 0 0).normSq = 200 ^ 2 by simp [R3.normSq, R3.dot]; norm_num]; exact Real.sqrt_sq (by norm_num)
  rw [hn, h200]
  have hl : lowestVertex (RTri.mk B A D).tri (planeXY : Plane XR).n = B.pt := by
    simp [lowestVertex, planeXY_eq, RTri.tri, R3.dot, A, B, D]
  simp only [hl, mul_zero]
  rfl

theorem cos30_pos : 0 < Real.cos (rad 30) := by rw [rad30, Real.cos_pi_div_six]; positivity
theorem sin30_eq : Real.sin (rad 30) = 1 / 2 := by rw [rad30, Real.sin_pi_div_six]

theorem model_height (w : R3) : R3.height B TwoParts.N w = Real.cos (rad 30) * 200 * (w.x - 10) + 100 * w.z := by
  simp [R3.height, TwoParts.N, B, R3.dot, sin30_eq]; ring

theorem TwoParts.small {v : R3} (h : v ∈ [A, B, C, D, E, F, G, H]) : v.small := by
  simp only [List.mem_cons, List.not_mem_nil, or_false] at h
  rcases h with rfl | rfl | rfl | rfl | rfl | rfl | rfl | rfl <;>
    simp [R3.small, roundLimit, A, B, C, D, E, F, G, H] <;> norm_num

/-- a triangle that is not behind the plane stays as it is -/
theorem model_kept (t : RTri) (ha : 0 ≤ R3.height B TwoParts.N t.a) (hb : 0 ≤ R3.height B TwoParts.N t.b)
    (hc : 0 ≤ R3.height B TwoParts.N t.c) : (cutTriangle ⟨B.pt, TwoParts.N.vec⟩ t.tri).up = [t.tri] := by
  rcases cut_cases B TwoParts.N t with ⟨_, _, _, h⟩ | ⟨h, _⟩ | ⟨s, hs, _, h1, _⟩ | ⟨s, hs, h1, _⟩
  · rw [h]
  · linarith
  all_goals
    simp only [RTri.rots, List.mem_cons, List.not_mem_nil, or_false] at hs
    rcases hs with rfl | rfl | rfl <;> (try simp only [RTri.rot] at h1) <;> linarith

/-- a triangle with the vertex `c` behind the plane and a cut line gives two pieces in front -/
theorem model_split (t : RTri) (l : Line XR) (hl : (Plane.mk B.pt TwoParts.N.vec).intersectTriangle t.tri = some l)
    (h : ∃ s ∈ t.rots, R3.height B TwoParts.N s.a < 0 ∧ 0 ≤ R3.height B TwoParts.N s.b ∧ 0 ≤ R3.height B TwoParts.N s.c) :
    (cutTriangle ⟨B.pt, TwoParts.N.vec⟩ t.tri).up.length = 2 := by
  obtain ⟨s0, hs0, a0, b0, c0⟩ := h
  simp only [RTri.rots, List.mem_cons, List.not_mem_nil, or_false] at hs0
  rcases cut_cases B TwoParts.N t with ⟨h1, h2, h3, _⟩ | ⟨h1, h2, h3, _⟩ | ⟨s, hs, _, h1, h2, _⟩ | ⟨s, hs, _, _, _, h⟩
  · rcases hs0 with rfl | rfl | rfl <;> (try simp only [RTri.rot] at a0) <;> linarith
  · rcases hs0 with rfl | rfl | rfl <;> (try simp only [RTri.rot] at b0) <;> linarith
  · simp only [RTri.rots, List.mem_cons, List.not_mem_nil, or_false] at hs
    rcases hs with rfl | rfl | rfl <;> rcases hs0 with rfl | rfl | rfl <;> (try simp only [RTri.rot] at a0 b0 c0 h1 h2) <;> linarith
  · rcases h with ⟨h, _⟩ | ⟨l', _, h⟩
    · rw [hl] at h; cases h
    · rw [h]; rfl


/-- the point in which the edge from `C` to `D` meets the plane -/
noncomputable def TwoParts.M : R3 := C + (Real.cos (rad 30) * 2000 / (Real.cos (rad 30) * 20000 + 1000)) • (D - C)

theorem model_M : R3.onSegment C D TwoParts.M ∧ R3.onPlane B TwoParts.N TwoParts.M := by
  have h := cos30_pos
  have h2 : 0 < Real.cos (rad 30) * 20000 + 1000 := by positivity
  refine ⟨⟨_, by positivity, ?_, rfl⟩, ?_⟩
  · rw [div_le_one h2]; linarith
  · unfold R3.onPlane
    rw [model_height]
    simp only [TwoParts.M, C, D, R3.add_x, R3.smul_x, R3.sub_x, R3.add_z, R3.smul_z, R3.sub_z]
    field_simp
    ring

theorem onSegment_left (a b : R3) : R3.onSegment a b a := ⟨0, le_refl _, zero_le_one, by apply R3.ext <;> simp⟩
theorem onSegment_right (a b : R3) : R3.onSegment a b b := ⟨1, zero_le_one, le_refl _, by apply R3.ext <;> simp⟩
theorem onSegment_swap {a b w : R3} (h : R3.onSegment a b w) : R3.onSegment b a w := by
  obtain ⟨t, h0, h1, rfl⟩ := h
  exact ⟨1 - t, by linarith, by linarith, by apply R3.ext <;> simp <;> ring⟩

/-- the two upper faces of the first part are cut in two -/
theorem model_pieces : (cutTriangle ⟨B.pt, TwoParts.N.vec⟩ (RTri.mk A C D).tri).up.length = 2 ∧
    (cutTriangle ⟨B.pt, TwoParts.N.vec⟩ (RTri.mk C B D).tri).up.length = 2 := by
  obtain ⟨hM, hP⟩ := model_M
  have h := cos30_pos
  have hA : R3.height B TwoParts.N A = 0 := by rw [model_height]; simp [A]
  have hB : R3.height B TwoParts.N B = 0 := by rw [model_height]; simp [B]
  have hC : R3.height B TwoParts.N C < 0 := by rw [model_height]; simp [C]; linarith
  have hD : 0 < R3.height B TwoParts.N D := by rw [model_height]; simp [D]; linarith
  have sA := TwoParts.small (v := A) (by simp)
  have sB := TwoParts.small (v := B) (by simp)
  have sC := TwoParts.small (v := C) (by simp)
  have sD := TwoParts.small (v := D) (by simp)
  have hMy : TwoParts.M.y = 0 := by simp [TwoParts.M, C, D]
  constructor
  · obtain ⟨l, hl, _⟩ := C09_not_lost B TwoParts.N A C D A TwoParts.M sA sC sD (Or.inr (Or.inr hD)) (Or.inr (Or.inl hC))
      ⟨Or.inl (onSegment_left _ _), hA⟩ ⟨Or.inr (Or.inl hM), hP⟩ (Or.inr (Or.inl (by rw [hMy]; simp [A]; norm_num)))
    rw [newTriangle_tri] at hl
    exact model_split _ l hl ⟨(RTri.mk A C D).rot, by simp [RTri.rots], hC, hD.le, hA.ge⟩
  · obtain ⟨l, hl, _⟩ := C09_not_lost B TwoParts.N C B D B TwoParts.M sC sB sD (Or.inr (Or.inr hD)) (Or.inl hC)
      ⟨Or.inl (onSegment_right _ _), hB⟩ ⟨Or.inr (Or.inr (onSegment_swap hM)), hP⟩ (Or.inr (Or.inl (by rw [hMy]; simp [B]; norm_num)))
    rw [newTriangle_tri] at hl
    exact model_split _ l hl ⟨RTri.mk C B D, by simp [RTri.rots], hC, hB.ge, hD.le⟩

theorem flatMap_get {β γ : Type} (f : β → List γ) (l : List β) (x : γ) (rest : List γ) (b : β) (hb : f b = [x]) :
    ((l ++ [b]).flatMap f ++ rest)[(l.flatMap f).length]? = some x := by
  rw [List.flatMap_append, List.append_assoc, List.getElem?_append_right (le_refl _)]
  simp [hb]

/-- **C62.** Two parts stand on the bed, the first of which hangs over. For every angle from 0 to below 60 degrees, the default 30
among them, and whatever the sorting routine does, `Analyze` ends with an index out of range: in the second round it looks up the upright
face of the second part, which has not been touched, in the original mesh under its number in the cut mesh. -/
theorem C62_analyze_panics (S : Sorter) (a : ℝ) (h0 : 0 ≤ a) (h1 : a < 60) : analyze S (rmesh model) (XR.fin a) = .error .index := by
  have hs : ∀ r ∈ model, r.small := by
    intro r hr
    simp only [model, List.mem_cons, List.not_mem_nil, or_false] at hr
    rcases hr with rfl | rfl | rfl | rfl | rfl | rfl | rfl | rfl <;> exact ⟨TwoParts.small (by simp), TwoParts.small (by simp), TwoParts.small (by simp)⟩
  obtain ⟨contours, caps, _, hcut, _, _⟩ := cutMesh_shape S B TwoParts.N model hs
  have c30 := cos30_pos
  have hge : ∀ w : R3, 10 ≤ w.x → 0 ≤ w.z → 0 ≤ R3.height B TwoParts.N w := by
    intro w hx hz
    rw [model_height]
    have : 0 ≤ Real.cos (rad 30) * 200 * (w.x - 10) := mul_nonneg (by positivity) (by linarith)
    linarith
  have k4 : (cutTriangle ⟨B.pt, TwoParts.N.vec⟩ (RTri.mk B A D).tri).up = [(RTri.mk B A D).tri] :=
    model_kept _ (hge _ (by simp [B]) (by simp [B])) (hge _ (by simp [A]) (by simp [A])) (hge _ (by simp [D]; norm_num) (by simp [D]))
  have k5 : (cutTriangle ⟨B.pt, TwoParts.N.vec⟩ (RTri.mk E F G).tri).up = [(RTri.mk E F G).tri] :=
    model_kept _ (hge _ (by simp [E]; norm_num) (by simp [E])) (hge _ (by simp [F]; norm_num) (by simp [F])) (hge _ (by simp [G]; norm_num) (by simp [G]))
  have k6 : (cutTriangle ⟨B.pt, TwoParts.N.vec⟩ (RTri.mk E G H).tri).up = [(RTri.mk E G H).tri] :=
    model_kept _ (hge _ (by simp [E]; norm_num) (by simp [E])) (hge _ (by simp [G]; norm_num) (by simp [G])) (hge _ (by simp [H]; norm_num) (by simp [H]))
  have k7 : (cutTriangle ⟨B.pt, TwoParts.N.vec⟩ (RTri.mk G F H).tri).up = [(RTri.mk G F H).tri] :=
    model_kept _ (hge _ (by simp [G]; norm_num) (by simp [G])) (hge _ (by simp [F]; norm_num) (by simp [F])) (hge _ (by simp [H]; norm_num) (by simp [H]))
  have k8 : (cutTriangle ⟨B.pt, TwoParts.N.vec⟩ (RTri.mk E H F).tri).up = [(RTri.mk E H F).tri] :=
    model_kept _ (hge _ (by simp [E]; norm_num) (by simp [E])) (hge _ (by simp [H]; norm_num) (by simp [H])) (hge _ (by simp [F]; norm_num) (by simp [F]))
  obtain ⟨p1, p2⟩ := model_pieces
  -- the upright face of the second part is flagged
  have hN : TwoParts.N ≠ 0 := R3.ne_zero_of_x (by simp [TwoParts.N]; positivity)
  have hNn : TwoParts.N.norm = 200 := by
    unfold R3.norm
    have : TwoParts.N.normSq = 200 ^ 2 := by
      simp only [R3.normSq, R3.dot, TwoParts.N]; linear_combination 40000 * Real.sin_sq_add_cos_sq (rad 30)
    rw [this]; exact Real.sqrt_sq (by norm_num)
  have hn8 : (RTri.mk E H F).nrm = ⟨-100, 0, 0⟩ := by simp [RTri.nrm, R3.cross, E, F, H]; norm_num
  have hn8' : (R3.mk (-100) 0 0).norm = 100 := by
    unfold R3.norm; rw [show (R3.mk (-100) 0 0).normSq = 100 ^ 2 by simp [R3.normSq, R3.dot]; norm_num]; exact Real.sqrt_sq (by norm_num)
  have flag8 : ((RTri.mk E H F).tri.n.angle TwoParts.N.vec.reverse <? (lit 90 0 - XR.fin a : XR)) = true := by
    rw [flag_iff _ a _ (by rw [hn8]; exact R3.ne_zero_of_x (by norm_num)) hN (by linarith) (by linarith), hn8, hn8', hNn, decide_eq_true_eq]
    obtain ⟨_, s1⟩ := sin_upto60 h0 h1
    have : Real.sin (rad 60) = Real.cos (rad 30) := by
      rw [rad60, rad30, Real.sin_pi_div_three, Real.cos_pi_div_six]
    simp only [R3.dot, TwoParts.N]
    nlinarith
  have step1 : analyze S (rmesh model) (XR.fin a) =
      analyzeLoop S (rmesh model) (XR.fin a) 6 [nextPlane ⟨planeXY, false, lit 0 0⟩ (RTri.mk B A D).tri]
        (nextPlane ⟨planeXY, false, lit 0 0⟩ (RTri.mk B A D).tri)
        ⟨model.flatMap (fun r => (cutTriangle ⟨B.pt, TwoParts.N.vec⟩ r.tri).up) ++ caps.map RTri.tri⟩ := by
    unfold analyze
    rw [analyzeLoop]
    rw [if_neg (by simp [rmesh, model])]
    rw [show (planeXY : Plane XR).n = axisZ from rfl, model_lowest _ (model_flags h0 h1), go_ok_bind]
    simp only
    rw [model_next, hcut, go_ok_bind]
    rfl
  rw [step1, model_next, analyzeLoop]
  set ups := model.flatMap (fun r => (cutTriangle ⟨B.pt, TwoParts.N.vec⟩ r.tri).up) with hups
  have hlen : 8 ≤ (([⟨A, C, D⟩, ⟨C, B, D⟩, ⟨A, B, C⟩, ⟨B, A, D⟩, ⟨E, F, G⟩, ⟨E, G, H⟩, ⟨G, F, H⟩] : List RTri).flatMap
      (fun r => (cutTriangle ⟨B.pt, TwoParts.N.vec⟩ r.tri).up)).length := by
    simp only [List.flatMap_cons, List.flatMap_nil, List.length_append, p1, p2, k4, k5, k6, k7, List.length_cons, List.length_nil]
    omega
  have hget := flatMap_get (fun r : RTri => (cutTriangle ⟨B.pt, TwoParts.N.vec⟩ r.tri).up)
    [⟨A, C, D⟩, ⟨C, B, D⟩, ⟨A, B, C⟩, ⟨B, A, D⟩, ⟨E, F, G⟩, ⟨E, G, H⟩, ⟨G, F, H⟩] (RTri.mk E H F).tri (caps.map RTri.tri) (RTri.mk E H F) k8
  have hne : ¬ (5 < ([nextPlane ⟨planeXY, false, lit 0 0⟩ (RTri.mk B A D).tri] : List (AnalyzedPlane XR)).length ∨
      (ups ++ caps.map RTri.tri).length = 0) := by
    have := List.getElem?_eq_some_iff.1 hget
    obtain ⟨hl, _⟩ := this
    simp only [List.length_cons, List.length_nil]
    intro h
    rcases h with h | h
    · omega
    · have : ((([⟨A, C, D⟩, ⟨C, B, D⟩, ⟨A, B, C⟩, ⟨B, A, D⟩, ⟨E, F, G⟩, ⟨E, G, H⟩, ⟨G, F, H⟩] : List RTri) ++ [RTri.mk E H F]).flatMap
        (fun r => (cutTriangle ⟨B.pt, TwoParts.N.vec⟩ r.tri).up) ++ caps.map RTri.tri).length = 0 := h
      omega
  rw [← model_next, if_neg hne, lowestFail_error]
  · rfl
  · refine ⟨(([⟨A, C, D⟩, ⟨C, B, D⟩, ⟨A, B, C⟩, ⟨B, A, D⟩, ⟨E, F, G⟩, ⟨E, G, H⟩, ⟨G, F, H⟩] : List RTri).flatMap
          (fun r => (cutTriangle ⟨B.pt, TwoParts.N.vec⟩ r.tri).up)).length, ?_, ?_⟩
    · rw [model_next]
      simp only [colorizeTriangles, List.getElem?_map]
      have : (ups ++ caps.map RTri.tri)[(([⟨A, C, D⟩, ⟨C, B, D⟩, ⟨A, B, C⟩, ⟨B, A, D⟩, ⟨E, F, G⟩, ⟨E, G, H⟩, ⟨G, F, H⟩] : List RTri).flatMap
          (fun r => (cutTriangle ⟨B.pt, TwoParts.N.vec⟩ r.tri).up)).length]? = some (RTri.mk E H F).tri := hget
      rw [this]
      simp only [Option.map_some, flag8]
    · rw [Nat.zero_add]; exact hlen

end Goosli
