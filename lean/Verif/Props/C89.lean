import Verif.Props.C84
import Verif.Props.C88
import Verif.Props.C42
/-!
# C89: fill lines are the material of the model on their plane
-/
set_option autoImplicit false
namespace Goosli
open Flt R3

/-- seen from above, `x` is in no triangle of (rounded) crossing points that is so slim that two of its sides count as collinear -/
def OffSlimCuts (P N : R3) (ts : List RTri) (x : R3) : Prop :=
  ∀ a b c, CrossPoint P N ts a → CrossPoint P N ts b → CrossPoint P N ts c → a.round8 ≠ b.round8 → b.round8 ≠ c.round8 → a.round8 ≠ c.round8 →
    ((b.round8 - a.round8).cross (c.round8 - b.round8)).norm < 1 / 10 ^ 6 → ¬ InTri2 x a.round8 b.round8 c.round8

/-- seen from above, `x` is farther than `ε` from the surface of the model in the plane -/
def FarFromSurface (ε : ℝ) (P N : R3) (ts : List RTri) (x : R3) : Prop :=
  ∀ t ∈ ts, ∀ y, OnTri t y → R3.height P N y = 0 → ε ^ 2 < R3.distSq2 y x

/-- `x` is in the material: the rays from it in the plane that avoid the crossing points meet the surface an odd number of times -/
def InMaterial (P N : R3) (ts : List RTri) (x : R3) : Prop :=
  ∃ d : R3, d.dot N = 0 ∧ (∀ w, CrossPoint P N ts w → d.cross2 (w - x) ≠ 0) ∧ OddTris x d ts

theorem within_xy {x y : R3} (hx : x.x = y.x) (hy : x.y = y.y) (c : List R3) : Within x c ↔ Within y c := by
  have : ∀ {x y : R3}, x.x = y.x → x.y = y.y → Within x c → Within y c := by
    rintro x y hx hy ⟨d, hg, ho⟩
    refine ⟨d, fun w hw h => hg w hw ?_, ?_⟩
    · simp [R3.cross2, hx, hy] at h ⊢; exact h
    · unfold OddHits RayHits at ho ⊢
      rw [hx, hy] at ho
      exact ho
  exact ⟨this hx hy, this hx.symm hy.symm⟩

theorem onContour_above {x y : R3} (hx : x.x = y.x) (hy : x.y = y.y) (c : List R3) : OnContour x c ↔ OnContour y c := by
  unfold OnContour
  rw [hx, hy]

/-- choosing for each element -/
theorem exists_map {β γ : Type} (R : β → γ → Prop) : ∀ l : List β, (∀ b ∈ l, ∃ c, R b c) → ∃ m : List γ, List.Forall₂ R l m
  | [], _ => ⟨[], .nil⟩
  | b :: t, h => by
    obtain ⟨c, hc⟩ := h b (by simp)
    obtain ⟨m, hm⟩ := exists_map R t fun b hb => h b (List.mem_cons_of_mem _ hb)
    exact ⟨c :: m, .cons hc hm⟩

theorem forall₂_mem_right {β γ : Type} {R : β → γ → Prop} {l : List β} {m : List γ} (h : List.Forall₂ R l m) {c : γ} (hc : c ∈ m) :
    ∃ b ∈ l, R b c := by
  induction h with
  | nil => simp at hc
  | cons hr _ ih =>
    rcases List.mem_cons.1 hc with rfl | hc
    · exact ⟨_, by simp, hr⟩
    · obtain ⟨b, hb, hr⟩ := ih hc
      exact ⟨b, List.mem_cons_of_mem _ hb, hr⟩

theorem forall₂_imp_mem {β γ : Type} {R R' : β → γ → Prop} {l : List β} {m : List γ} (h : List.Forall₂ R l m)
    (hi : ∀ b c, b ∈ l → R b c → R' b c) : List.Forall₂ R' l m := by
  induction h with
  | nil => exact .nil
  | cons hr _ ih => exact .cons (hi _ _ (by simp) hr) (ih fun b c hb => hi b c (List.mem_cons_of_mem _ hb))

open Classical in
theorem insideOdd_forall₂ {x : R3} {cs cs' : List (List R3)} (h : List.Forall₂ (fun c c' => Within x c ↔ Within x c') cs cs') :
    InsideOdd x cs ↔ InsideOdd x cs' := by
  have : cs.countP (fun c => decide (Within x c)) = cs'.countP (fun c => decide (Within x c)) := by
    induction h with
    | nil => rfl
    | cons h _ ih => simp only [List.countP_cons, ih, h]
  unfold InsideOdd
  rw [this]

theorem insideOdd_xy {x y : R3} (hx : x.x = y.x) (hy : x.y = y.y) (cs : List (List R3)) : InsideOdd x cs ↔ InsideOdd y cs := by
  classical
  have e : cs.countP (fun c => decide (Within x c)) = cs.countP (fun c => decide (Within y c)) :=
    List.countP_congr fun c _ => by
      rw [decide_eq_true_eq, decide_eq_true_eq]; exact within_xy hx hy c
  unfold InsideOdd
  convert Iff.rfl using 2
  convert congrArg (· % 2) e.symm

/-- there is a ray in the plane that avoids the crossing points -/
theorem exists_ray {P N x : R3} (hN : N.z ≠ 0) (ts : List RTri) (h : ∀ w, CrossPoint P N ts w → w.x ≠ x.x ∨ w.y ≠ x.y) :
    ∃ d : R3, d.dot N = 0 ∧ ∀ w, CrossPoint P N ts w → d.cross2 (w - x) ≠ 0 := by
  classical
  set L := ((dirEdges ts).map (crossAt P N)).filter fun w => decide (CrossPoint P N ts w) with hL
  have mem : ∀ w, CrossPoint P N ts w → w ∈ L := by
    intro w hw
    rw [hL, List.mem_filter]
    refine ⟨?_, by simpa using hw⟩
    obtain ⟨e, he, _, rfl⟩ := hw
    exact List.mem_map_of_mem he
  obtain ⟨d, hd, -⟩ := exists_generic x L (by
    intro w hw
    rw [hL, List.mem_filter] at hw
    exact h w (by simpa using hw.2)) [] (by simp)
  refine ⟨⟨d.x, d.y, -(d.x * N.x + d.y * N.y) / N.z⟩, ?_, fun w hw => ?_⟩
  · simp only [R3.dot]; field_simp; ring
  · have := hd w (mem w hw)
    simpa [R3.cross2] using this

/-- a crossing point is a point of the surface in the plane -/
theorem crossPoint_onTri {P N w : R3} {ts : List RTri} (h : CrossPoint P N ts w) : ∃ t ∈ ts, OnTri t w := by
  obtain ⟨e, he, hc, rfl⟩ := h
  obtain ⟨t, ht, hte⟩ := List.mem_flatMap.1 he
  have hr : ∃ r : ℝ, 0 ≤ r ∧ r ≤ 1 ∧ crossAt P N e = e.1 + r • (e.2 - e.1) := by
    obtain ⟨-, ⟨r, h0, h1, h⟩, -⟩ := crosses_crossAt hc
    exact ⟨r, h0, h1, h⟩
  obtain ⟨r, h0, h1, hr⟩ := hr
  refine ⟨t, ht, ?_⟩
  rw [hr]
  simp [RTri.edges] at hte
  rcases hte with rfl | rfl | rfl
  · exact ⟨1 - r, r, 0, by linarith, h0, le_rfl, by ring, by apply R3.ext <;> simp <;> ring⟩
  · exact ⟨0, 1 - r, r, le_rfl, by linarith, h0, by ring, by apply R3.ext <;> simp <;> ring⟩
  · exact ⟨r, 0, 1 - r, h0, le_rfl, by linarith, by ring, by apply R3.ext <;> simp <;> ring⟩

/-- the contours `cs` are the cross-section of the model: they are closed, their corners are (rounded) crossing points of edges with the
plane, and a point of the plane away from the surface and in no slim triangle is off them, and inside an odd number of them exactly if it
is in the material -/
def BoundMaterial (P N : R3) (ts : List RTri) (cs : List (List R3)) : Prop :=
  (∀ c ∈ cs, c ≠ [] ∧ c.head? = c.getLast? ∧ ∀ w ∈ c, ∃ a, CrossPoint P N ts a ∧ w = a.round8) ∧
  ∀ x : R3, R3.height P N x = 0 → FarFromSurface (1 / 10 ^ 8) P N ts x → OffSlimCuts P N ts x →
    (∀ c ∈ cs, ¬ OnContour x c) ∧ (InsideOdd x cs ↔ InMaterial P N ts x)

/-- **C89, contours.** The contours of a level cut, as they are stored: rounded and with collinear lines merged. They are closed, their corners
are rounded crossing points, and they enclose the material of the model for every point that is farther than 1e-8 from the surface and
in no slim triangle. -/
theorem C89_contours (S : Sorter) (ts : List RTri) (P N : R3) (hN : N.z ≠ 0) (hw : Watertight ts) (hdeg : ∀ t ∈ ts, t.nrm ≠ 0)
    (hsm : ∀ w ∈ allVerts ts, w.small) (hoff : ∀ w ∈ allVerts ts, R3.height P N w ≠ 0) (hsep : WellSeparated P N ts)
    (p : List (Path XR)) (hp : p.Perm (sectionPaths (Plane.mk P.pt N.vec) (rmesh ts).triangles)) :
    ∃ cs : List (List R3), joinPaths3AndMinimize S p = .ok (cs.map rpath) ∧ BoundMaterial P N ts cs := by
  obtain ⟨cs, ho, hc, hperm⟩ := C83_contours S ts P N hw hdeg hsm hoff hsep p hp
  have hcross : ∀ c ∈ cs, ∀ w ∈ c, CrossPoint P N ts w := by
    intro c h w hw
    obtain ⟨q, hq, hwq⟩ := corner_side (hc c h).1 hw
    obtain ⟨t, ht, hs⟩ := List.mem_filterMap.1 (hperm.mem_iff.1 (List.mem_flatMap.2 ⟨c, h, hq⟩))
    obtain ⟨c1, c2⟩ := secOf_cross ht hs
    rcases hwq with rfl | rfl
    · exact c1
    · exact c2
  obtain ⟨cs', hcs'⟩ := exists_map (fun (c c' : List R3) => (rpath (c.map R3.round8)).minimizeLines = rpath c' ∧ c' ≠ [] ∧ c'.head? = c'.getLast? ∧
      (∀ w ∈ c', w ∈ c.map R3.round8) ∧
      ∀ x, ¬ OnContour x (c.map R3.round8) → OffSlim x (c.map R3.round8) → ¬ OnContour x c' ∧ (Within x (c.map R3.round8) ↔ Within x c')) cs
    fun c h => C88_inside_partial (c.map R3.round8) (by rw [List.length_map]; exact (hc c h).1) (by
      rw [List.head?_map, List.getLast?_map, (hc c h).2])
  refine ⟨cs', ?_, ?_, ?_⟩
  · unfold joinPaths3AndMinimize
    rw [ho]
    show Except.ok _ = _
    congr 1
    rw [List.map_map]
    clear ho hc hperm hcross
    induction hcs' with
    | nil => rfl
    | cons h _ ih =>
      simp only [List.map_cons, ih]
      rw [← h.1]
      simp [rpath, Function.comp_def]
  · intro c' hm
    obtain ⟨c, h, hr⟩ := forall₂_mem_right hcs' hm
    obtain ⟨-, h1, h2, h3, -⟩ := hr
    refine ⟨h1, h2, fun w hw => ?_⟩
    obtain ⟨a, ha, rfl⟩ := List.mem_map.1 (h3 w hw)
    exact ⟨a, hcross c h a ha, rfl⟩
  · intro x hx hfar hslim
    have hf : ∀ c ∈ cs, FarFrom (1 / 10 ^ 8) x c := by
      intro c h q hq r h0 h1
      obtain ⟨t, ht, hs⟩ := List.mem_filterMap.1 (hperm.mem_iff.1 (List.mem_flatMap.2 ⟨c, h, hq⟩))
      have hv : ∀ w ∈ t.verts, R3.height P N w ≠ 0 := fun w hw => hoff w (List.mem_flatMap.2 ⟨t, ht, hw⟩)
      obtain ⟨c1, c2⟩ := secOf_cross ht hs
      have hz := height_between (crossPoint_height c1) (crossPoint_height c2) r
      exact hfar t ht _ ((onTri_secOf P N t (hv _ (by simp [RTri.verts])) (hv _ (by simp [RTri.verts])) (hv _ (by simp [RTri.verts]))
        _ hz).2 ⟨q, hs, r, h0, h1, rfl⟩) hz
    obtain ⟨hoc, hio⟩ := C87_rounded hc hf
    have hso : ∀ c ∈ cs, OffSlim x (c.map R3.round8) := by
      intro c h u hu v hv w hw n1 n2 n3 hn
      obtain ⟨u, mu, rfl⟩ := List.mem_map.1 hu
      obtain ⟨v, mv, rfl⟩ := List.mem_map.1 hv
      obtain ⟨w, mw, rfl⟩ := List.mem_map.1 hw
      exact hslim u v w (hcross c h u mu) (hcross c h v mv) (hcross c h w mw) n1 n2 n3 hn
    have hsurf : ∀ t ∈ ts, ¬ OnTri t x := by
      intro t ht hon
      have := hfar t ht x hon hx
      simp [R3.distSq2] at this
      norm_num at this
    have h1 : InsideOdd x (cs.map (List.map R3.round8)) ↔ InsideOdd x cs' := by
      refine insideOdd_forall₂ (List.forall₂_map_left_iff.2 ?_)
      refine forall₂_imp_mem hcs' fun c c' h hr => (hr.2.2.2.2 x (hoc c h) (hso c h)).2
    refine ⟨?_, ?_⟩
    · intro c' hm
      obtain ⟨c, h, hr⟩ := forall₂_mem_right hcs' hm
      exact (hr.2.2.2.2 x (hoc c h) (hso c h)).1
    · rw [← h1, ← hio]
      constructor
      · intro hi
        obtain ⟨d, hd, hg⟩ := exists_ray (P := P) (x := x) hN ts fun w hw => by
          obtain ⟨t, ht, hon⟩ := crossPoint_onTri hw
          have := hfar t ht w hon (crossPoint_height hw)
          by_contra hn
          push Not at hn
          simp [R3.distSq2, hn.1, hn.2] at this
          norm_num at this
        exact ⟨d, hd, hg, (contours_bound hN hoff hc hperm hx hsurf hd hg).1 hi⟩
      · rintro ⟨d, hd, hg, h⟩
        exact (contours_bound hN hoff hc hperm hx hsurf hd hg).2 h

/-! ## Fill lines -/

/-- the fill lines `segs` on the plane are the material of the model there: seen from above, every point strictly inside a line is in the
material, and every point in the material on the plane is strictly inside a line. Points nearer than 1e-8 to the surface and points in
slim triangles are left open. -/
def FillIsMaterial (P : R3) (ts : List RTri) (F M : R3) (segs : List (R3 × R3)) : Prop :=
  (∀ s ∈ segs, s.1 ≠ s.2 → ∀ t : ℝ, 0 < t → t < 1 → ∀ x : R3, x.x = (s.1 + t • (s.2 - s.1)).x → x.y = (s.1 + t • (s.2 - s.1)).y → x.z = P.z →
    FarFromSurface (1 / 10 ^ 8) P ⟨0, 0, 1⟩ ts x → OffSlimCuts P ⟨0, 0, 1⟩ ts x → InMaterial P ⟨0, 0, 1⟩ ts x) ∧
  ∀ x : R3, x.z = P.z → R3.height F M x = 0 → FarFromSurface (1 / 10 ^ 8) P ⟨0, 0, 1⟩ ts x → OffSlimCuts P ⟨0, 0, 1⟩ ts x →
    InMaterial P ⟨0, 0, 1⟩ ts x → ∃ s ∈ segs, s.1 ≠ s.2 ∧ ∃ t : ℝ, 0 < t ∧ t < 1 ∧
      x.x = (s.1 + t • (s.2 - s.1)).x ∧ x.y = (s.1 + t • (s.2 - s.1)).y

/-- the coordinates are at most `m` in absolute value -/
def R3.upTo (m : ℝ) (w : R3) : Prop := |w.x| ≤ m ∧ |w.y| ≤ m ∧ |w.z| ≤ m

theorem upTo_segment {m : ℝ} {a b w : R3} (ha : a.upTo m) (hb : b.upTo m) (hw : R3.onSegment a b w) : w.upTo m := by
  obtain ⟨t, h0, h1, rfl⟩ := hw
  have key : ∀ x y : ℝ, |x| ≤ m → |y| ≤ m → |x + t * (y - x)| ≤ m := by
    intro x y hx hy
    rw [abs_le] at *
    constructor <;> nlinarith
  exact ⟨by simpa using key _ _ ha.1 hb.1, by simpa using key _ _ ha.2.1 hb.2.1, by simpa using key _ _ ha.2.2 hb.2.2⟩

theorem upTo_round8 {a : R3} (h : a.small) : a.round8.upTo (10 ^ 11) := by
  obtain ⟨h1, h2, h3⟩ := h
  obtain ⟨k1, k2, k3⟩ := round8_within a
  have key : ∀ x y : ℝ, |x| ≤ roundLimit → |y - x| ≤ 1 / 2 / 10 ^ 8 → |y| ≤ 10 ^ 11 := by
    intro x y hx hy
    unfold roundLimit at hx
    rw [abs_le] at *
    constructor <;> norm_num at * <;> linarith [hx.1, hx.2, hy.1, hy.2]
  exact ⟨key _ _ h1 k1, key _ _ h2 k2, key _ _ h3 k3⟩

theorem small_onTri {ts : List RTri} (hsm : ∀ w ∈ allVerts ts, w.small) {t : RTri} (ht : t ∈ ts) {x : R3} (h : OnTri t x) : x.small := by
  obtain ⟨u, v, w, hu, hv, hw, hs, rfl⟩ := h
  have ha := hsm t.a (vert_mem ht (by simp))
  have hb := hsm t.b (vert_mem ht (by simp))
  have hc := hsm t.c (vert_mem ht (by simp))
  have key : ∀ p q r : ℝ, |p| ≤ roundLimit → |q| ≤ roundLimit → |r| ≤ roundLimit → |u * p + v * q + w * r| ≤ roundLimit := by
    intro p q r hp hq hr
    rw [abs_le] at *
    have : w = 1 - u - v := by linarith
    subst this
    constructor <;> nlinarith [mul_nonneg hu (sub_nonneg.2 hp.1), mul_nonneg hu (sub_nonneg.2 hp.2), mul_nonneg hv (sub_nonneg.2 hq.1),
      mul_nonneg hv (sub_nonneg.2 hq.2), mul_nonneg hw (sub_nonneg.2 hr.1), mul_nonneg hw (sub_nonneg.2 hr.2)]
  exact ⟨by simpa using key _ _ _ ha.1 hb.1 hc.1, by simpa using key _ _ _ ha.2.1 hb.2.1 hc.2.1, by simpa using key _ _ _ ha.2.2 hb.2.2 hc.2.2⟩

theorem perm_map_exists {β γ : Type} {f : β → γ} {l' l : List γ} (h : l'.Perm l) : ∀ {t : List β}, l = t.map f → ∃ m : List β, m.Perm t ∧ l' = m.map f := by
  induction h with
  | nil => intro t h; exact ⟨[], by rw [List.map_eq_nil_iff.1 h.symm], rfl⟩
  | cons x _ ih =>
    intro t h
    obtain ⟨b, u, rfl, rfl, hu⟩ := List.map_eq_cons_iff.1 h.symm
    obtain ⟨m, hm, rfl⟩ := ih hu.symm
    exact ⟨b :: m, hm.cons b, rfl⟩
  | swap x y _ =>
    intro t h
    obtain ⟨b, u, rfl, rfl, hu⟩ := List.map_eq_cons_iff.1 h.symm
    obtain ⟨c, v, rfl, rfl, rfl⟩ := List.map_eq_cons_iff.1 hu
    exact ⟨c :: b :: v, .swap .., rfl⟩
  | trans _ _ ih1 ih2 =>
    intro t h
    obtain ⟨m, hm, e⟩ := ih2 h
    obtain ⟨m', hm', e'⟩ := ih1 e
    exact ⟨m', hm'.trans hm, e'⟩

/-- reordering fill lines with two ends keeps each of them exactly once, in one of its two directions -/
theorem sortFill_lines {segs : List (R3 × R3)} (hb : ∀ s ∈ segs, s.1.upTo (10 ^ 11) ∧ s.2.upTo (10 ^ 11)) :
    ∃ (out : List (Path XR)) (l : List (R3 × R3)), sortFillPathes (segs.map fun s => rpath [s.1, s.2]) = .ok out ∧ l.Perm segs ∧
      List.Forall₂ (fun q s => q = rpath [s.1, s.2] ∨ q = rpath [s.2, s.1]) out l := by
  match segs, hb with
  | [], _ => exact ⟨[], [], rfl, .refl _, .nil⟩
  | a :: t, hb =>
    obtain ⟨e, out, -, h1, h2⟩ := C44_real [a.1, a.2] (t.map fun s => [s.1, s.2]) (by
      intro q hq
      rcases List.mem_cons.1 hq with rfl | hq
      · simp
      · obtain ⟨s, _, rfl⟩ := List.mem_map.1 hq
        simp) (by
      intro q hq w hw
      have : ∃ s ∈ a :: t, w = s.1 ∨ w = s.2 := by
        rcases List.mem_cons.1 hq with rfl | hq
        · exact ⟨a, by simp, by simpa using hw⟩
        · obtain ⟨s, hs, rfl⟩ := List.mem_map.1 hq
          exact ⟨s, List.mem_cons_of_mem _ hs, by simpa using hw⟩
      obtain ⟨s, hs, hws⟩ := this
      have hw : w.upTo (10 ^ 11) := by
        rcases hws with rfl | rfl
        · exact (hb s hs).1
        · exact (hb s hs).2
      have hle : (10 ^ 11 : ℝ) ≤ 10 ^ 37 := by norm_num
      exact ⟨hw.1.trans hle, hw.2.1.trans hle, hw.2.2.trans hle⟩)
    obtain ⟨l', h3, h4⟩ := h2.perm
    rw [List.map_map] at h3
    obtain ⟨m, hm, rfl⟩ : ∃ m : List (R3 × R3), m.Perm t ∧ l' = m.map fun s => rpath [s.1, s.2] := perm_map_exists h3 rfl
    refine ⟨rpath [a.1, a.2] :: out, a :: m, ?_, hm.cons a, .cons (Or.inl rfl) ?_⟩
    · rw [← h1]
      simp [Function.comp_def]
    · rw [List.forall₂_map_right_iff] at h4
      refine h4.imp fun {q s} h => ?_
      obtain ⟨pts⟩ := q
      rcases h with h | h
      · left; simp [rpath] at h ⊢; exact h
      · right; simp [rpath] at h ⊢; exact h

/-- the lines are on the plane and end on sides of the contours that are not parallel to it -/
def EndOnContours (cs : List (List R3)) (F M : R3) (segs : List (R3 × R3)) : Prop :=
  ∀ s ∈ segs, ∀ w, w = s.1 ∨ w = s.2 → R3.height F M w = 0 ∧
    ∃ c ∈ cs, ∃ q ∈ sides c, R3.height F M q.1 ≠ R3.height F M q.2 ∧ R3.onSegment q.1 q.2 w

/-- **C89.** The model is watertight, without degenerate triangles and with small coordinates; the level plane at the height of `P` passes
through no vertex and the crossing points are well separated. Then the sections are assembled to the contours of the cross-section, and on
every vertical plane that passes through no (rounded) crossing point the fill lines are the material of the model. -/
theorem C89_fill_partial (S : Sorter) (ts : List RTri) (P : R3) (hw : Watertight ts) (hdeg : ∀ t ∈ ts, t.nrm ≠ 0)
    (hsm : ∀ w ∈ allVerts ts, w.small) (hoff : ∀ w ∈ allVerts ts, R3.height P ⟨0, 0, 1⟩ w ≠ 0) (hsep : WellSeparated P ⟨0, 0, 1⟩ ts)
    (p : List (Path XR)) (hp : p.Perm (sectionPaths (Plane.mk P.pt (R3.mk 0 0 1).vec) (rmesh ts).triangles)) :
    ∃ cs : List (List R3), joinPaths3AndMinimize S p = .ok (cs.map rpath) ∧ BoundMaterial P ⟨0, 0, 1⟩ ts cs ∧ ∀ F M : R3,
      ∃ segs : List (R3 × R3), intersectByPlane S (cs.map rpath) (Plane.mk F.pt M.vec) = segs.map (fun s => rpath [s.1, s.2]) ∧
        (∀ s ∈ segs, s.1.upTo (10 ^ 11) ∧ s.2.upTo (10 ^ 11)) ∧ EndOnContours cs F M segs ∧
        (M.z = 0 → M ≠ 0 → (∀ w, CrossPoint P ⟨0, 0, 1⟩ ts w → R3.height F M w.round8 ≠ 0) → FillIsMaterial P ts F M segs) := by
  obtain ⟨cs, ho, hc, hx⟩ := C89_contours S ts P ⟨0, 0, 1⟩ (by simp) hw hdeg hsm hoff hsep p hp
  refine ⟨cs, ho, ⟨hc, hx⟩, fun F M => ?_⟩
  have hh : ∀ x : R3, x.z = P.z → R3.height P ⟨0, 0, 1⟩ x = 0 := by
    intro x h; simp [R3.height, R3.dot, h]
  obtain ⟨segs, h1, hcutp, -⟩ := C43_segments S F M cs
  have hup : ∀ w ∈ cutPoints F M cs, w.upTo (10 ^ 11) := by
    intro w hw
    obtain ⟨q, hq, -, ho, -⟩ := (C43_cut F M cs w).1 hw
    obtain ⟨c, hcc, hqc⟩ := List.mem_flatMap.1 hq
    have hcor : ∀ w ∈ c, w.upTo (10 ^ 11) := by
      intro w hw
      obtain ⟨a, ha, rfl⟩ := (hc c hcc).2.2 w hw
      obtain ⟨t, ht, hon⟩ := crossPoint_onTri ha
      exact upTo_round8 (small_onTri hsm ht hon)
    exact upTo_segment (hcor _ (mem_sides hqc).1) (hcor _ (mem_sides hqc).2) ho
  refine ⟨segs, h1, fun s hs => ⟨hup _ (hcutp s hs).1, hup _ (hcutp s hs).2⟩, ?_, fun hMz hM hcut => ?_⟩
  · intro s hs w hw
    obtain ⟨q, hq, hne, ho, hp⟩ := (C43_cut F M cs w).1 (by
      rcases hw with rfl | rfl
      · exact (hcutp s hs).1
      · exact (hcutp s hs).2)
    obtain ⟨c, hcc, hqc⟩ := List.mem_flatMap.1 hq
    exact ⟨hp, c, hcc, q, hqc, hne, ho⟩
  obtain ⟨segs', h1', -, h2, h3⟩ := C84_fill_exact_partial S F M cs (P.round8).z hMz hM (fun c h => ⟨(hc c h).1, (hc c h).2.1⟩) (by
    intro c h w hw
    obtain ⟨a, ha, rfl⟩ := (hc c h).2.2 w hw
    exact hcut a ha) (by
    intro c h w hw
    obtain ⟨a, ha, rfl⟩ := (hc c h).2.2 w hw
    have := crossPoint_height ha
    simp [R3.height, R3.dot] at this
    have : a.z = P.z := by linarith
    simp [R3.round8, this])
  have : segs' = segs := by
    refine List.map_injective_iff.2 (fun a b h => ?_) (h1'.symm.trans h1)
    simp [rpath] at h
    exact Prod.ext (R3.pt_inj h.1) (R3.pt_inj h.2)
  subst this
  refine ⟨?_, ?_⟩
  · intro s hs hne t h0 ht x ex ey ez hfar hslim
    obtain ⟨k1, k2⟩ := hx x (hh x ez) hfar hslim
    rw [← k2, insideOdd_xy ex ey]
    exact (h2 s hs hne t h0 ht).2
  · intro x ez hF hfar hslim hin
    obtain ⟨k1, k2⟩ := hx x (hh x ez) hfar hslim
    have e : ∀ c, OnContour (⟨x.x, x.y, P.round8.z⟩ : R3) c ↔ OnContour x c := fun c => onContour_above rfl rfl c
    obtain ⟨s, hs, hne, t, h0, ht, he⟩ := h3 ⟨x.x, x.y, P.round8.z⟩ rfl (by rw [← hF]; exact height_xy hMz rfl rfl)
      (fun c h => by rw [e]; exact k1 c h) ((insideOdd_xy rfl rfl cs).2 (k2.2 hin))
    exact ⟨s, hs, hne, t, h0, ht, by rw [← he], by rw [← he]⟩

/-- contours `cs` and fill lines `segs` are the model at the height of `P`: `cs` are the contours of the cross-section, and `segs` are the
fill lines of the planes, each exactly once, in some order and possibly reversed; they end on the contours, and on every vertical plane
through no stored crossing point they are the material -/
def SectionIsModel (P : R3) (ts : List RTri) (planes : List (R3 × R3)) (cs : List (List R3)) (segs : List (R3 × R3)) : Prop :=
  BoundMaterial P ⟨0, 0, 1⟩ ts cs ∧
  ∃ (lines : R3 × R3 → List (R3 × R3)) (l : List (R3 × R3)), l.Perm (planes.flatMap lines) ∧
    List.Forall₂ (fun s u => s = u ∨ s = u.swap) segs l ∧ (∀ f ∈ planes, EndOnContours cs f.1 f.2 (lines f)) ∧
    ∀ f ∈ planes, f.2.z = 0 → f.2 ≠ 0 → (∀ w, CrossPoint P ⟨0, 0, 1⟩ ts w → R3.height f.1 f.2 w.round8 ≠ 0) →
      FillIsMaterial P ts f.1 f.2 (lines f)

/-- the layer consists of the contours and fill lines of the model at the height of `P` -/
def LayerIsModel (P : R3) (ts : List RTri) (planes : List (R3 × R3)) (l : Layer XR) : Prop :=
  ∃ (cs : List (List R3)) (segs : List (R3 × R3)), l.paths = cs.map rpath ∧ l.middlePs = [] ∧ l.innerPs = [] ∧
    l.fill = segs.map (fun s => rpath [s.1, s.2]) ∧ SectionIsModel P ts planes cs segs

/-- **C89, slicing and filling.** A layer that `SliceByVector` computes for the vertical direction (supports off) and that `FillLayers`
fills is the model at its height; neither fails. -/
theorem C89_layer (S : Sorter) (ts : List RTri) (hne : ts ≠ []) (sett : Settings XR) (hs : sett.supportsOn = false)
    (hr : ∀ w ∈ allVerts ts, |w.z| ≤ XR.maxF64R) (hw : Watertight ts) (hdeg : ∀ t ∈ ts, t.nrm ≠ 0) (hsm : ∀ w ∈ allVerts ts, w.small)
    (jobs : List (Job XR)) (hj : sliceJobs S (rmesh ts) (R3.mk 0 0 1).vec.normalize sett = .ok jobs) (j : Job XR) (hm : j ∈ jobs)
    (Q : R3) (hQ : j.plane = ⟨Q.pt, (R3.mk 0 0 1).vec⟩) (hoff : ∀ w ∈ allVerts ts, R3.height Q ⟨0, 0, 1⟩ w ≠ 0)
    (hsep : WellSeparated Q ⟨0, 0, 1⟩ ts) (n i : Nat) (sparse full : List (R3 × R3)) :
    ∃ l o : Layer XR, runJob S j = .ok l ∧
      fillLayer S (sparse.map fun f => ⟨f.1.pt, f.2.vec⟩) (full.map fun f => ⟨f.1.pt, f.2.vec⟩) sett n i l = .ok o ∧ o.order = j.order ∧
      LayerIsModel Q ts (if solidLayer sett n i then full else sparse) o := by
  have hu : (R3.mk 0 0 1).unit = ⟨0, 0, 1⟩ := upUnit
  obtain ⟨sup, h1, h2⟩ := C10_sweep S ts hne ⟨0, 0, 1⟩ sett (by rw [hu]; intro w hw; simpa [R3.dot] using hr w hw)
    (fun h => by rw [hs] at h; cases h) jobs hj
  have hsup : sup = [] := by
    unfold supportsOf at h1
    rw [if_neg (by rw [hs]; simp)] at h1
    injection h1 with h1
    exact h1.symm
  have hperm := h2 j hm
  rw [hsup, List.nil_append, hQ] at hperm
  obtain ⟨cs, ho, hbound, hfill⟩ := C89_fill_partial S ts Q hw hdeg hsm hoff hsep (jobPaths j) hperm
  set qs := if solidLayer sett n i then full else sparse with hqs
  have hex : ∀ f : R3 × R3, ∃ segs : List (R3 × R3), intersectByPlane S (cs.map rpath) (Plane.mk f.1.pt f.2.vec) = segs.map (fun s => rpath [s.1, s.2]) ∧
      (∀ s ∈ segs, s.1.upTo (10 ^ 11) ∧ s.2.upTo (10 ^ 11)) ∧ EndOnContours cs f.1 f.2 segs ∧
      (f.2.z = 0 → f.2 ≠ 0 → (∀ w, CrossPoint Q ⟨0, 0, 1⟩ ts w → R3.height f.1 f.2 w.round8 ≠ 0) → FillIsMaterial Q ts f.1 f.2 segs) :=
    fun f => hfill f.1 f.2
  choose lines hlines using hex
  have hps : (if solidLayer sett n i then full.map (fun f : R3 × R3 => (⟨f.1.pt, f.2.vec⟩ : Plane XR)) else
      sparse.map fun f => ⟨f.1.pt, f.2.vec⟩) = qs.map fun f => ⟨f.1.pt, f.2.vec⟩ := by
    rw [hqs]; split <;> rfl
  have hflat : (qs.map fun f : R3 × R3 => (⟨f.1.pt, f.2.vec⟩ : Plane XR)).flatMap (fun p => intersectByPlane S (cs.map rpath) p) =
      (qs.flatMap lines).map fun s => rpath [s.1, s.2] := by
    rw [List.flatMap_map, List.map_flatMap]
    exact List.flatMap_congr fun f hf => (hlines f).1
  obtain ⟨out, l, k1, k2, k3⟩ := sortFill_lines (segs := qs.flatMap lines) (by
    intro s hs
    obtain ⟨f, hf, hsf⟩ := List.mem_flatMap.1 hs
    exact (hlines f).2.1 s hsf)
  obtain ⟨segs, hsegs, k4⟩ : ∃ segs : List (R3 × R3), out = segs.map (fun s => rpath [s.1, s.2]) ∧
      List.Forall₂ (fun s u => s = u ∨ s = u.swap) segs l := by
    clear k1 k2
    induction k3 with
    | nil => exact ⟨[], rfl, .nil⟩
    | cons h _ ih =>
      obtain ⟨segs, rfl, h4⟩ := ih
      rcases h with rfl | rfl
      · exact ⟨_ :: segs, rfl, .cons (Or.inl rfl) h4⟩
      · exact ⟨Prod.swap _ :: segs, rfl, .cons (Or.inr rfl) h4⟩
  refine ⟨⟨j.order, j.plane.n, cs.map rpath, [], [], []⟩, ⟨j.order, j.plane.n, cs.map rpath, [], [], out⟩, ?_, ?_, rfl,
    cs, segs, rfl, rfl, rfl, hsegs, hbound, lines, l, k2, k4, fun f _ => (hlines f).2.2.1, fun f _ => (hlines f).2.2.2⟩
  · unfold runJob
    rw [ho]; rfl
  · unfold fillLayer
    simp only [hps, fillContours, List.isEmpty_nil, if_true, List.nil_append, hflat, k1]
    rfl

/-! ## Non-vacuity -/

theorem exTetra_cuts {w : R3} (h : CrossPoint ⟨0, 0, 1⟩ ⟨0, 0, 1⟩ exTetra w) :
    w.round8 = ⟨0, 0, 1⟩ ∨ w.round8 = ⟨3, 0, 1⟩ ∨ w.round8 = ⟨0, 3, 1⟩ := by
  have r0 : r8 0 = 0 := by simpa using r8_int 0
  have r1 : r8 1 = 1 := by simpa using r8_int 1
  have r3 : r8 3 = 3 := by simpa using r8_int 3
  have key : w = ⟨0, 0, 1⟩ ∨ w = ⟨3, 0, 1⟩ ∨ w = ⟨0, 3, 1⟩ := by
    obtain ⟨e, he, hc, rfl⟩ := h
    rw [exTetra_edges] at he
    simp only [List.mem_cons, List.not_mem_nil, or_false] at he
    rcases he with h | h | h | h | h | h | h | h | h | h | h | h <;> subst h <;>
      simp [ascends, descends, crossAt, R3.height, R3.dot] at hc ⊢ <;> (try linarith) <;>
      norm_num [R3.ext_iff]
  rcases key with rfl | rfl | rfl <;> simp [R3.round8, r0, r1, r3]

/-- the tetrahedron at height 1: a point in the material, far from the surface and in no slim triangle, and a fill plane through it -/
theorem exTetra_material : FarFromSurface (1 / 10 ^ 8) ⟨0, 0, 1⟩ ⟨0, 0, 1⟩ exTetra ⟨1, 1 / 2, 1⟩ ∧ OffSlimCuts ⟨0, 0, 1⟩ ⟨0, 0, 1⟩ exTetra ⟨1, 1 / 2, 1⟩ ∧
    InMaterial ⟨0, 0, 1⟩ ⟨0, 0, 1⟩ exTetra ⟨1, 1 / 2, 1⟩ ∧
    ∀ w, CrossPoint ⟨0, 0, 1⟩ ⟨0, 0, 1⟩ exTetra w → R3.height ⟨1, 0, 0⟩ ⟨1, 0, 0⟩ w.round8 ≠ 0 := by
  refine ⟨exTetra_far, ?_, ⟨⟨1, 0, 0⟩, by simp [R3.dot], ?_, exTetra_inner.2⟩, ?_⟩
  · intro a b c ha hb hc n1 n2 n3 hn hx
    have ka := exTetra_cuts ha
    have kb := exTetra_cuts hb
    have kc := exTetra_cuts hc
    have e : (((b.round8 - a.round8).cross (c.round8 - b.round8)).norm) = 9 := by
      have : ((b.round8 - a.round8).cross (c.round8 - b.round8)).norm = √(9 * 9) := by
        unfold R3.norm
        congr 1
        rcases ka with h1 | h1 | h1 <;> rcases kb with h2 | h2 | h2 <;> rcases kc with h3 | h3 | h3 <;>
          first | exact absurd (h1.trans h2.symm) n1 | exact absurd (h2.trans h3.symm) n2 | exact absurd (h1.trans h3.symm) n3 |
            rw [h1, h2, h3] <;> norm_num [R3.normSq, R3.dot, R3.cross]
      rw [this, Real.sqrt_mul_self (by norm_num)]
    rw [e] at hn
    norm_num at hn
  · intro w hw
    rcases exTetra_cross hw with h | h <;> simp [R3.cross2, h] <;> norm_num
  · intro w hw
    rcases exTetra_cuts hw with h | h | h <;> rw [h] <;> simp [R3.height, R3.dot] <;> norm_num

end Goosli
