import Verif.Props.C119
import Verif.Props.C114
/-!
# C120: slicing by profile fails on every upright model
-/
set_option autoImplicit false
namespace Goosli
open Flt R3 Spec

/-! ## not a number -/

/-- not a number -/
def IsNan (a : B64) : Prop := a.1 = .nan

theorem isNan_rnd {a : XR} (h : a = .nan) : IsNan (B64.rnd a) := by subst h; rfl

theorem IsNan.notFinite {a : B64} (h : IsNan a) : NotFinite a := fun x e => by rw [h] at e; cases e

theorem IsNan.mul_right {a b : B64} (h : IsNan b) : IsNan (a * b) := isNan_rnd (by
  show XR.mul a.1 b.1 = _
  rw [h]; cases a.1 <;> rfl)

theorem IsNan.mul_left {a b : B64} (h : IsNan a) : IsNan (a * b) := isNan_rnd (by show XR.mul a.1 b.1 = _; rw [h]; rfl)
theorem IsNan.div_left {a b : B64} (h : IsNan a) : IsNan (a / b) := isNan_rnd (by show XR.div a.1 b.1 = _; rw [h]; rfl)
theorem IsNan.add_left {a b : B64} (h : IsNan a) : IsNan (a + b) := isNan_rnd (by show XR.add a.1 b.1 = _; rw [h]; rfl)
theorem IsNan.cos {a : B64} (h : IsNan a) : IsNan (Flt.cos a) := isNan_rnd (by show XR.lift _ _ _ a.1 = _; rw [h]; rfl)
theorem IsNan.acos {a : B64} (h : IsNan a) : IsNan (Flt.acos a) := isNan_rnd (by show XR.lift _ _ _ a.1 = _; rw [h]; rfl)
theorem IsNan.lt_left {a b : B64} (h : IsNan a) : (a <? b) = false := by show XR.lt a.1 b.1 = _; rw [h]; rfl
theorem IsNan.lt_right {a b : B64} (h : IsNan b) : (a <? b) = false := by show XR.lt a.1 b.1 = _; rw [h]; cases a.1 <;> rfl

theorem zero_div_zero : IsNan (B64.of 0 / B64.of 0) := isNan_rnd (by
  rw [B64.of_val isF_zero]
  show XR.div (.fin 0) (.fin 0) = _
  simp [XR.div, XR.infSign])

/-- the direction of no vector -/
theorem zero_angle : IsNan ((⟨0, 0, 0⟩ : R3).f64v.angle axisX) := by
  have F0 := isF_zero
  have d : (⟨0, 0, 0⟩ : R3).f64v.dot (axisX : Vec B64) = B64.of 0 := by
    rw [axisX_f64]
    show B64.of 0 * B64.of 1 + B64.of 0 * B64.of 0 + B64.of 0 * B64.of 0 = _
    rw [B64.mul_of F0 isF_one, B64.mul_of F0 F0, zero_mul, zero_mul, rd_zero, B64.add_of F0 F0, add_zero, rd_zero, B64.add_of F0 F0, add_zero, rd_zero]
  have l : (⟨0, 0, 0⟩ : R3).f64v.length = B64.of 0 := by
    show Flt.sqrt (B64.of 0 * B64.of 0 + B64.of 0 * B64.of 0 + B64.of 0 * B64.of 0) = _
    rw [B64.mul_of F0 F0, zero_mul, rd_zero, B64.add_of F0 F0, add_zero, rd_zero, B64.add_of F0 F0, add_zero, rd_zero, B64.sqrt_of F0 le_rfl, Real.sqrt_zero, rd_zero]
  unfold Vec.angle
  dsimp only
  rw [d, l]
  have n : IsNan (B64.of 0 / B64.of 0 / (axisX : Vec B64).length) := zero_div_zero.div_left
  rw [n.lt_left, n.lt_right]
  exact n.acos.mul_left.div_left

/-- an upright direction has no angle about the z axis -/
theorem upright_directionZ {d : ℝ} (hd : IsF d) : IsNan (directionZ (⟨0, 0, d⟩ : R3).f64v) := by
  unfold directionZ
  rw [upright_flat hd]
  exact zero_angle.add_left

/-- a mesh turned by an angle that is not a number is broken -/
theorem turn_broken {a b : B64} (h : IsNan a) (m : Mesh B64) (hm : m.triangles ≠ []) : ∃ t ∈ (turnMesh a b m).triangles, t.Broken := by
  obtain ⟨t, ht⟩ := List.exists_mem_of_ne_nil _ hm
  unfold turnMesh
  have h1 : ∃ t ∈ (m.rotate (rotationAroundZ a) originPoint).triangles, t.p1.Broken := by
    refine ⟨_, List.mem_map.2 ⟨t, ht, rfl⟩, Or.inl ?_⟩
    have c : IsNan (Flt.cos (toRadians a)) := (IsNan.div_left (IsNan.mul_right h)).cos
    exact (IsNan.add_left (IsNan.add_left (IsNan.add_left (IsNan.mul_right c)))).notFinite
  obtain ⟨u, hu, hb⟩ := h1
  generalize m.rotate (rotationAroundZ a) originPoint = m' at hu ⊢
  refine ⟨_, List.mem_map.2 ⟨u, hu, rfl⟩, Or.inl (Or.inl ?_)⟩
  have : (originPoint.vectorTo u.p1).toPoint.Broken := by
    rcases hb with h | h | h
    · exact Or.inl (rnd_bad (XR.add_bad (Or.inl h)))
    · exact Or.inr (Or.inl (rnd_bad (XR.add_bad (Or.inl h))))
    · exact Or.inr (Or.inr (rnd_bad (XR.add_bad (Or.inl h))))
  exact (Point.Broken.dot this _).add_left

/-- a broken mesh cannot be sliced -/
theorem broken_slice (S : Sorter) (A : Arrival B64) {m : Mesh B64} (sett : Settings B64) (h : ∃ t ∈ m.triangles, t.Broken) :
    sliceByVector S A (some m) axisZ sett = .error .makeSize := by
  obtain ⟨t, ht, hb⟩ := h
  refine (slice_cases S A m (List.ne_nil_of_mem ht) axisZ sett).1 ?_
  have hl := minMaxZ_lost (ts := m.triangles) ht hb axisZ.normalize
  exact hl.diff.div_left.ceil.toInt

/-- **C120, the cause.** If the simplified profile of a model is a single step straight up, `SliceByProfile` panics: it turns the model by an angle
that is not a number. -/
theorem C120_upright (S : Sorter) (A : Arrival B64) (fuel : ℕ) (mesh : Mesh B64) (hm : mesh.triangles ≠ []) (sett : Settings B64)
    (layers : List (Layer B64)) (centers : List (Point B64)) (a b : R3) (h1 : sliceByVector S A (some mesh) axisZ sett = .ok layers)
    (h2 : calculateCenters layers = .ok centers) (h3 : simplifyLine fuel centers sett.epsilon = .ok [a.f64, b.f64])
    (ha : a.isF) (hb : b.isF) (hx : a.x = b.x) (hy : a.y = b.y) (hz : |b.z - a.z| ≤ 2 ^ 100) : sliceByProfile S A fuel mesh sett = .error .makeSize := by
  have ev : a.f64.vectorTo b.f64 = (⟨0, 0, rd (b.z - a.z)⟩ : R3).f64v := by
    show (⟨B64.of b.x - B64.of a.x, B64.of b.y - B64.of a.y, B64.of b.z - B64.of a.z⟩ : Vec B64) = _
    rw [hx, hy, B64.sub_of hb.1 hb.1, B64.sub_of hb.2.1 hb.2.1, B64.sub_of hb.2.2 ha.2.2, sub_self, sub_self, rd_zero]
    rfl
  unfold sliceByProfile
  rw [h1, go_ok_bind, h2, go_ok_bind, h3, go_ok_bind]
  show profileLoop S A sett [(a.f64, b.f64)] mesh _ = _
  unfold profileLoop
  have pc : profileCut S mesh b.f64 ([] : List (Point B64 × Point B64)).isEmpty = .ok (mesh, mesh) := rfl
  dsimp only
  rw [pc, go_ok_bind]
  dsimp only
  rw [ev, broken_slice S A sett (turn_broken (upright_directionZ (isF_rd hz)) mesh hm)]
  rfl

/-! ## boxes -/

/-- the centre of a layer with one contour is its centroid -/
theorem one_center {k : ℕ} {p q : R3} (H : GoodBox k p q) {h : ℝ} (L : LevelOf k p q h) (m : ℤ) (i : ℕ) :
    calculateCenter (⟨m, zUp.f64v, [fpath (rectLoop p q h i)], [], [], []⟩ : Layer B64) = .ok (rectMid p q h).f64 := by
  have C := (mid_exPt H L).isF
  have key : ∀ {x : ℝ}, IsF x → (lit 0 0 + B64.of x) / (Flt.ofInt 1 : B64) = B64.of x := by
    intro x hx
    have e1 : (Flt.ofInt 1 : B64) = B64.of 1 := by rw [B64.ofInt_of]; norm_num
    rw [B64.lit0, e1, B64.add_of isF_zero hx, zero_add, rd_of_rep hx.1, B64.div_of hx isF_one one_ne_zero, div_one, rd_of_rep hx.1]
  unfold calculateCenter
  have e : List.mapM findCentroid [fpath (rectLoop p q h i)] = .ok [(rectMid p q h).f64] := by
    rw [List.mapM_cons, rect_centroid H L i]
    rfl
  show (List.mapM findCentroid [fpath (rectLoop p q h i)] >>= _) = _
  rw [e, go_ok_bind]
  show Except.ok (⟨(lit 0 0 + B64.of (rectMid p q h).x) / Flt.ofInt 1, (lit 0 0 + B64.of (rectMid p q h).y) / Flt.ofInt 1,
    (lit 0 0 + B64.of (rectMid p q h).z) / Flt.ofInt 1⟩ : Point B64) = _
  rw [key C.1, key C.2.1, key C.2.2]
  rfl

/-- the direction straight up is a unit vector -/
theorem up_normalize {d : ℝ} (hd : Ex 8 2000 d) (pos : 0 < d) : (⟨0, 0, d⟩ : R3).f64v.normalize = zUp.f64v := by
  have F0 := isF_zero
  have Fd := hd.F (by norm_num) (by norm_num)
  have z0 : Ex 8 2000 (0 : ℝ) := ⟨⟨0, by simp⟩, by simp⟩
  have d2 := hd.mul hd
  have l : (⟨0, 0, d⟩ : R3).f64v.length = B64.of d := by
    obtain ⟨e, -⟩ := dotX (u := ⟨0, 0, d⟩) (v := ⟨0, 0, d⟩) ⟨z0, z0, hd⟩ ⟨z0, z0, hd⟩
    have e' : (⟨0, 0, d⟩ : R3).dot ⟨0, 0, d⟩ = d * d := by simp [R3.dot]
    rw [e'] at e
    show Flt.sqrt ((⟨0, 0, d⟩ : R3).f64v.dot (⟨0, 0, d⟩ : R3).f64v) = _
    rw [e, B64.sqrt_of (d2.F (by norm_num) (by norm_num)) (by positivity), Real.sqrt_mul_self pos.le, rd_of_rep Fd.1]
  unfold Vec.normalize
  dsimp only
  rw [l, B64.lit0, B64.eq_of Fd F0, if_neg (by simpa using pos.ne')]
  show (⟨B64.of 0 / B64.of d, B64.of 0 / B64.of d, B64.of d / B64.of d⟩ : Vec B64) = _
  rw [divE F0 Fd pos.ne' (zero_mul d).symm F0, divE Fd Fd pos.ne' (one_mul d).symm isF_one]
  rfl

/-- points above each other are on the line -/
theorem above_on_line {x y a b c : ℝ} (Fx : Ex 8 1000 x) (Fy : Ex 8 1000 y) (Fa : Ex 8 1000 a) (Fb : Ex 8 1000 b) (Fc : Ex 8 1000 c) (h : b < c) :
    (⟨x, y, a⟩ : R3).f64.distanceToLine (⟨x, y, b⟩ : R3).f64 (⟨x, y, c⟩ : R3).f64 = B64.of 0 := by
  have F0 := isF_zero
  have z0 : Ex 8 2000 (0 : ℝ) := ⟨⟨0, by simp⟩, by simp⟩
  have e1 : Ex 8 2000 (1 : ℝ) := ⟨⟨2 ^ 8, by norm_num⟩, by norm_num⟩
  have dca : Ex 8 2000 (c - b) := (Fc.sub Fb).mono le_rfl (by norm_num)
  have dab : Ex 8 2000 (a - b) := (Fa.sub Fb).mono le_rfl (by norm_num)
  have v1 : (⟨x, y, b⟩ : R3).f64.vectorTo (⟨x, y, c⟩ : R3).f64 = (⟨0, 0, c - b⟩ : R3).f64v := by
    rw [vectorToX ⟨Fx, Fy, Fb⟩ ⟨Fx, Fy, Fc⟩]; congr 1; ext <;> simp
  have v2 : (⟨x, y, b⟩ : R3).f64.vectorTo (⟨x, y, a⟩ : R3).f64 = (⟨0, 0, a - b⟩ : R3).f64v := by
    rw [vectorToX ⟨Fx, Fy, Fb⟩ ⟨Fx, Fy, Fa⟩]; congr 1; ext <;> simp
  have d : (⟨0, 0, a - b⟩ : R3).f64v.dot zUp.f64v = B64.of (a - b) := by
    rw [(dotX (u := ⟨0, 0, a - b⟩) (v := zUp) ⟨z0, z0, dab⟩ ⟨z0, z0, e1⟩).1]
    simp [R3.dot, zUp]
  have Fab := dab.F (by norm_num) (by norm_num)
  have pr : (⟨x, y, a⟩ : R3).f64.projectOnLine (⟨x, y, b⟩ : R3).f64 (⟨x, y, c⟩ : R3).f64 = (⟨x, y, a⟩ : R3).f64 := by
    unfold Point.projectOnLine
    dsimp only
    rw [v1, v2, up_normalize dca (sub_pos.2 h), d]
    show (⟨B64.of x + B64.of 0 * B64.of (a - b), B64.of y + B64.of 0 * B64.of (a - b), B64.of b + B64.of 1 * B64.of (a - b)⟩ : Point B64) = _
    rw [B64.mul_of F0 Fab, B64.mul_of isF_one Fab, zero_mul, one_mul, rd_zero, rd_of_rep Fab.1, addX (Fx.mono le_rfl (by norm_num : (1000 : ℝ) ≤ 2000)) z0 (by norm_num) (by norm_num),
      addX (Fy.mono le_rfl (by norm_num : (1000 : ℝ) ≤ 2000)) z0 (by norm_num) (by norm_num), addX Fb dab (by norm_num) (by norm_num), add_zero, add_zero, add_sub_cancel]
    rfl
  unfold Point.distanceToLine
  rw [pr]
  show Flt.sqrt (Flt.pow2 (B64.of x - B64.of x) + Flt.pow2 (B64.of y - B64.of y) + Flt.pow2 (B64.of a - B64.of a)) = _
  have s : ∀ {w : ℝ}, Ex 8 1000 w → Flt.pow2 (B64.of w - B64.of w) = B64.of 0 := fun {w} hw => by
    rw [subX hw hw (by norm_num) (by norm_num), sub_self, B64.pow2_of F0]
    simp [rd_zero]
  rw [s Fx, s Fy, s Fa, B64.add_of F0 F0, add_zero, rd_zero, B64.add_of F0 F0, add_zero, rd_zero, B64.sqrt_of F0 le_rfl, Real.sqrt_zero, rd_zero]

/-- no point is away from the line -/
theorem farthest_zero {a b : Point B64} : ∀ (ps : List (Point B64)) (i : ℕ), (∀ p ∈ ps, p.distanceToLine a b = B64.of 0) →
    farthest a b i ps (0, B64.of 0) = (0, B64.of 0)
  | [], _, _ => rfl
  | p :: t, i, h => by
    unfold farthest
    dsimp only
    rw [h p (List.mem_cons_self ..), B64.lt_of isF_zero isF_zero, if_neg (by simp)]
    exact farthest_zero t (i + 1) fun p hp => h p (List.mem_cons_of_mem _ hp)

/-- the profile of a box is one step straight up -/
theorem box_profile {k n : ℕ} {p q : R3} {t : ℝ} (H : GoodBox k p q) (E : EvenLayers k n p.z q.z t) (hn : 2 ≤ n) (j : ℕ → ℕ) (fuel : ℕ) (hf : 0 < fuel)
    {ε : ℝ} (Fε : IsF ε) (h0 : 0 ≤ ε) :
    ∃ centers, calculateCenters ((List.range n).map fun m : ℕ => rectLayer p q (p.z + (m + 1 / 2) * t) m (j m)) = .ok centers ∧
      simplifyLine fuel centers (B64.of ε) = .ok [(rectMid p q (p.z + ((0 : ℕ) + 1 / 2) * t)).f64, (rectMid p q (p.z + ((n - 1 : ℕ) + 1 / 2) * t)).f64] := by
  have lev : ∀ {m}, m < n → LevelOf k p q (p.z + (m + 1 / 2) * t) := fun {m} hm => by
    obtain ⟨a, b, c⟩ := even_mid E hm
    exact ⟨a, b, c⟩
  have cs : calculateCenters ((List.range n).map fun m : ℕ => rectLayer p q (p.z + (m + 1 / 2) * t) m (j m)) =
      .ok ((List.range n).map fun m : ℕ => (rectMid p q (p.z + (m + 1 / 2) * t)).f64) := by
    unfold calculateCenters
    have : ∀ (l : List ℕ), (∀ m ∈ l, m < n) → (l.map fun m : ℕ => rectLayer p q (p.z + (m + 1 / 2) * t) m (j m)).mapM calculateCenter =
        .ok (l.map fun m : ℕ => (rectMid p q (p.z + (m + 1 / 2) * t)).f64) := by
      intro l
      induction l with
      | nil => intro _; rfl
      | cons m l ih =>
        intro h
        have c : calculateCenter (rectLayer p q (p.z + (m + 1 / 2) * t) m (j m)) = .ok (rectMid p q (p.z + (m + 1 / 2) * t)).f64 :=
          one_center H (lev (h m (List.mem_cons_self ..))) m (j m)
        rw [List.map_cons, List.mapM_cons, c, go_ok_bind, ih fun x hx => h x (List.mem_cons_of_mem _ hx), go_ok_bind]
        rfl
    exact this _ fun m hm => List.mem_range.1 hm
  refine ⟨_, cs, ?_⟩
  obtain ⟨N, rfl⟩ : ∃ N, n = N + 2 := ⟨n - 2, by omega⟩
  obtain ⟨fuel, rfl⟩ : ∃ f, fuel = f + 1 := ⟨fuel - 1, by omega⟩
  set f : ℕ → Point B64 := fun m : ℕ => (rectMid p q (p.z + (m + 1 / 2) * t)).f64 with hfdef
  have sh : (List.range (N + 2)).map f = f 0 :: ((List.range N).map fun m => f (m + 1)) ++ [f (N + 1)] := by
    rw [List.range_succ, List.map_append, List.range_succ_eq_map, List.map_cons, List.map_map]
    rfl
  have far : farthestOf ((List.range (N + 2)).map f) = (0, B64.of 0) := by
    rw [sh]
    unfold farthestOf
    have hl : (f 0 :: ((List.range N).map fun m => f (m + 1)) ++ [f (N + 1)]).getLast? = some (f (N + 1)) := List.getLast?_concat
    have hd : (f 0 :: ((List.range N).map fun m => f (m + 1)) ++ [f (N + 1)]).tail.dropLast = (List.range N).map fun m => f (m + 1) := by simp
    rw [hl, hd]
    dsimp only [List.cons_append, List.head?_cons]
    rw [B64.lit0]
    refine farthest_zero _ 1 fun c hc => ?_
    obtain ⟨m, hm, rfl⟩ := List.mem_map.1 hc
    have hm := List.mem_range.1 hm
    have A := mid_exPt H (lev (m := m + 1) (by omega))
    have B := mid_exPt H (lev (m := 0) (by omega))
    have C := mid_exPt H (lev (m := N + 1) (by omega))
    refine above_on_line A.x A.y A.z B.z C.z ?_
    show p.z + ((0 : ℕ) + 1 / 2) * t < p.z + ((N + 1 : ℕ) + 1 / 2) * t
    have := E.pos
    push_cast
    nlinarith [(Nat.cast_nonneg N : (0 : ℝ) ≤ N)]
  unfold simplifyLine
  dsimp only
  rw [far]
  dsimp only
  rw [B64.lt_of Fε isF_zero, if_neg (by simpa using h0), sh]
  have g1 : goAt (f 0 :: ((List.range N).map fun m => f (m + 1)) ++ [f (N + 1)]) 0 = .ok (f 0) := rfl
  have g2 : goLast (f 0 :: ((List.range N).map fun m => f (m + 1)) ++ [f (N + 1)]) = .ok (f (N + 1)) := by
    unfold goLast
    rw [List.getLast?_concat]
  rw [g1, go_ok_bind, g2, go_ok_bind]
  rfl

/-- **C120, boxes.** Slicing a box by profile panics, at any tolerance. -/
theorem C120_box (S : Sorter) (A : Arrival B64) (fuel : ℕ) (hf : 0 < fuel) {k n : ℕ} {p q : R3} {t ε : ℝ} (H : GoodBox k p q) (E : EvenLayers k n p.z q.z t)
    (hn : 2 ≤ n) (sett : Settings B64) (ht : sett.layerHeight = B64.of t) (hs : sett.supportsOn = false) (he : sett.epsilon = B64.of ε) (Fε : IsF ε)
    (h0 : 0 ≤ ε) : sliceByProfile S A fuel (fmesh (brick p q)) sett = .error .makeSize := by
  obtain ⟨j, -, hsl⟩ := C118_slice S A H E hn sett ht hs
  rw [← axisZ_f64] at hsl
  obtain ⟨centers, h2, h3⟩ := box_profile H E hn j fuel hf Fε h0
  rw [← he] at h3
  have lev : ∀ {m}, m < n → LevelOf k p q (p.z + (m + 1 / 2) * t) := fun {m} hm => by
    obtain ⟨a, b, c⟩ := even_mid E hm
    exact ⟨a, b, c⟩
  have B := mid_exPt H (lev (m := 0) (by omega))
  have C := mid_exPt H (lev (m := n - 1) (by omega))
  refine C120_upright S A fuel _ (by simp [fmesh, brick, boxFaces]) sett _ centers _ _ hsl h2 h3 B.isF C.isF rfl rfl ?_
  have := B.z.2; have := C.z.2
  exact (abs_sub _ _).trans (by norm_num at *; linarith)

/-- **C120, the run.** `goosli` with `5axes_by_profile` writes nothing for a box and panics. -/
theorem C120_program (M : Machine B64) (fuel : ℕ) (hfu : 0 < fuel) (read : String → Option Bytes) (templates : String → Option (List Char))
    (canWrite : String → Bool) (now : String) (fl : GoosliFlags B64) (ts0 : List RTri) (o p q : R3) (t ε : ℝ) (k n : ℕ)
    (hread : Loads (read fl.stl) (fmesh ts0)) (hF : ∀ w ∈ allVerts ts0, w.isF) (hty : fl.slicingType = "5axes_by_profile") (ho : o.isF)
    (horg : fl.origin = o.f64v) (hts : ts0.map (RTri.movedF o) = brick p q) (H : GoodBox k p q) (E : EvenLayers k n p.z q.z t) (hn : 2 ≤ n)
    (ht : fl.layerHeight = B64.of t) (hs : fl.supportsOn = false) (he : fl.epsilon = B64.of ε) (Fε : IsF ε) (h0 : 0 ≤ ε) :
    runGoosli M fuel read templates canWrite now fl = ⟨[], .error .makeSize⟩ := by
  unfold runGoosli
  rw [loadMesh_loads hread, go_ok_bind, horg, shiftLoaded_f64 ho hF, hts]
  unfold sliceAs
  simp only [hty, reduceIte, show ("5axes_by_profile" : String) ≠ "3axes" by decide]
  rw [C120_box M.sorter M.arrival fuel hfu H E hn fl.settings ht hs he Fε h0]
  rfl

/-! ## Non-vacuity -/

/-- flags for slicing by profile with layers of a quarter of a millimetre -/
private noncomputable def exFlags : GoosliFlags B64 :=
  ⟨"in.stl", "out.gcode", (⟨0, 0, 0⟩ : R3).f64v, (⟨0, 0, 0⟩ : R3).f64, B64.of 10, B64.of (1 / 4), B64.of (1 / 2), 20, 1, 1, 60, 200, 50, 30, 40, false,
    B64.of (1 / 2), "Squares", false, 20, B64.of 5, "planes.txt", "5axes_by_profile", B64.of 30, zUp.f64v, false, B64.of 1, B64.of 2, B64.of 1, 3⟩

/-- every box of whole sides with a height of at most 12 mm: no file, a panic -/
example (M : Machine B64) (fuel : ℕ) (hfu : 0 < fuel) (now : String) (p q : R3) (c : ℕ) (c0 : 1 ≤ c) (c1 : c ≤ 12) (hc : q.z - p.z = c) (H : GoodBox 3 p q) :
    runGoosli M fuel (fun f => if f = "in.stl" then some (saveSTL (fmesh (brick p q))) else none) (fun _ => some []) (fun _ => true) now exFlags =
      ⟨[], .error .makeSize⟩ := by
  have em := movedF_zero (ts := brick p q) (box_isF H)
  have step : rd (((4 * c : ℕ) : ℝ) * (1 / 4) * rd (1 / ((4 * c : ℕ) : ℝ))) = 1 / 4 := by
    have := even_upto48 (n := 4 * c) (by omega) (by omega) (b := -2) (by norm_num)
    have e : (2 : ℝ) ^ (-2 : ℤ) = 1 / 4 := by norm_num
    rwa [e] at this
  have E : EvenLayers 3 (4 * c) p.z q.z (1 / 4) :=
    ⟨H.pz.mono (by norm_num), ⟨1, by norm_num⟩, by norm_num, by rw [hc]; push_cast; ring, H.pr.2.2, H.qr.2.2, step⟩
  have F10 : IsF (10 : ℝ) := by exact_mod_cast isF_int (n := 10) (by norm_num)
  exact C120_program M fuel hfu _ _ _ now exFlags (brick p q) ⟨0, 0, 0⟩ p q (1 / 4) 10 3 (4 * c) (by exact box_loads H) (box_isF H) rfl
    ⟨isF_zero, isF_zero, isF_zero⟩ rfl em H E (by omega) rfl rfl rfl F10 (by norm_num)

end Goosli
