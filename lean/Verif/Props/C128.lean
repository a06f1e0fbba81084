import Verif.Props.C127
import Verif.Props.C126
import Verif.Props.C45
import Verif.Props.C90
import Verif.Model.Fill
/-!
# C128: the place of the model and its infill
-/
set_option autoImplicit false
namespace Goosli
open Flt

/-! ## Spec -/

/-- a filled layer moved by `v` -/
noncomputable def movedFilled (v : R3) (l : Layer XR) : Layer XR :=
  { movedLayer v l with fill := l.fill.map (Path.mapP fun p => p.shift v.vec) }

/-- the commands with all layers moved -/
noncomputable def movedCommand (v : R3) : Command XR → Command XR
  | .layersMoving ls => .layersMoving (ls.map (movedFilled v))
  | c => c

/-- the program with all layers moved -/
noncomputable def movedProgram (v : R3) (g : Gcode XR) : Gcode XR := ⟨g.settings, g.cmds.map (movedCommand v)⟩

/-! ## One fill plane -/

section
variable {α : Type} [Flt α] (f : Point α → Point α)

theorem pairUp_map : ∀ l : List (Point α), pairUp (l.map f) = (pairUp l).map (Path.mapP f)
  | [] => rfl
  | [_] => rfl
  | a :: b :: t => by
    simp only [List.map_cons, pairUp, pairUp_map t]
    rfl

theorem reverse_map (p : Path α) : (p.mapP f).reverse = (p.reverse).mapP f := by
  simp [Path.reverse, Path.mapP]

theorem nearestFrom_map (hd : ∀ p q, (f p).distanceTo (f q) = p.distanceTo q) (p : Point α) : ∀ (l : List (Path α × Bool)) (j : ℕ) (acc : NearAcc α),
    nearestFrom (f p) j (l.map (Prod.map (Path.mapP f) id)) acc = nearestFrom p j l acc
  | [], _, _ => rfl
  | (q, u) :: t, j, acc => by
    have ih := nearestFrom_map hd p t
    simp only [List.map_cons, Prod.map, id, nearestFrom, Path.mapP, goAt_map, goLast_map]
    split
    · exact ih _ _
    · cases goAt q.points 0 with
      | error e => rfl
      | ok x =>
        cases goLast q.points with
        | error e => rfl
        | ok y =>
          simp only [Except.map, bind, Except.bind, hd]
          exact ih _ _

theorem sortFillLoop_map (hd : ∀ p q, (f p).distanceTo (f q) = p.distanceTo q) (fill : List (Path α)) : ∀ (k : ℕ) (last : Path α) (used : List Bool),
    sortFillLoop (fill.map (Path.mapP f)) k (last.mapP f) used = (sortFillLoop fill k last used).map (List.map (Path.mapP f))
  | 0, _, _ => rfl
  | k + 1, last, used => by
    have z : ((fill.map (Path.mapP f)).zip used).tail = (fill.zip used).tail.map (Prod.map (Path.mapP f) id) := by
      rw [List.map_tail, ← List.zip_map, List.map_id]
    have e : goLast (last.mapP f).points = (goLast last.points).map f := by
      unfold Path.mapP; rw [goLast_map]
    simp only [sortFillLoop, z, e]
    cases goLast last.points with
    | error e => rfl
    | ok p =>
      simp only [Except.map, bind, Except.bind, nearestFrom_map f hd]
      cases nearestFrom p 1 (fill.zip used).tail ⟨maxF32, 0, false⟩ with
      | error e => rfl
      | ok r =>
        simp only [goAt_map]
        cases goAt fill r.sj with
        | error e => rfl
        | ok q =>
          have c : (if r.rev = true then (q.mapP f).reverse else q.mapP f) = (if r.rev = true then q.reverse else q).mapP f := by
            split
            · exact reverse_map f q
            · rfl
          simp only [Except.map, c, sortFillLoop_map hd fill k]
          cases sortFillLoop fill k (if r.rev = true then q.reverse else q) (used.set r.sj true) <;> rfl

theorem sortFill_map (hd : ∀ p q, (f p).distanceTo (f q) = p.distanceTo q) (fill : List (Path α)) :
    sortFillPathes (fill.map (Path.mapP f)) = (sortFillPathes fill).map (List.map (Path.mapP f)) := by
  match fill with
  | [] => rfl
  | [_] => rfl
  | a :: b :: t =>
    have h := sortFillLoop_map f hd (a :: b :: t) (t.length + 1) a (true :: List.replicate (t.length + 1) false)
    simp only [List.map_cons] at h
    simp only [List.map_cons, sortFillPathes, List.length_map, h]
    cases sortFillLoop (a :: b :: t) (t.length + 1) a (true :: List.replicate (t.length + 1) false) <;> rfl

end

theorem moved_distance (v : R3) (p q : Point XR) : (p.shift v.vec).distanceTo (q.shift v.vec) = p.distanceTo q := by
  simp only [Point.distanceTo, Point.shift, R3.vec, add_sub_same]

/-- all points have finite coordinates -/
def FinitePaths (ps : List (Path XR)) : Prop := ∀ p ∈ ps, ∀ x ∈ p.points, ∃ w : R3, x = w.pt

theorem pair_mem {β : Type} {l : List β} {a b : β} (h : (a, b) ∈ adjPairs l) : a ∈ l ∧ b ∈ l := by
  unfold adjPairs at h
  exact ⟨(List.of_mem_zip h).1, List.mem_of_mem_tail (List.of_mem_zip h).2⟩

section
variable {P P' N v : R3}

theorem crossings_move (h : P'.dot N = P.dot N + v.dot N) {ps : List (Path XR)} (hf : FinitePaths ps) :
    planeCrossings (ps.map (Path.mapP fun p => p.shift v.vec)) ⟨P'.pt, N.vec⟩ = (planeCrossings ps ⟨P.pt, N.vec⟩).map fun p => p.shift v.vec := by
  unfold planeCrossings
  rw [List.flatMap_map, List.map_flatMap]
  apply List.flatMap_congr
  intro p hp
  simp only [Path.mapP, adjPairs_map]
  rw [List.filterMap_map, List.map_filterMap]
  apply List.filterMap_congr
  rintro ⟨a, b⟩ hab
  obtain ⟨ha, hb⟩ := pair_mem hab
  obtain ⟨x, rfl⟩ := hf p hp a ha
  obtain ⟨y, rfl⟩ := hf p hp b hb
  simp only [Function.comp, Prod.map, shift_pt]
  exact segment_move h x y

theorem sortCrossings_move {S : Sorter} (hS : S.Natural) (pts : List (Point XR)) :
    sortCrossings S ⟨P'.pt, N.vec⟩ (pts.map fun p => p.shift v.vec) = (sortCrossings S ⟨P.pt, N.vec⟩ pts).map fun p => p.shift v.vec := by
  have e : sortsByX (⟨P'.pt, N.vec⟩ : Plane XR) = sortsByX (⟨P.pt, N.vec⟩ : Plane XR) := rfl
  unfold sortCrossings
  rw [e]
  split
  · apply hS
    intro a _ b _
    exact add_lt_same _ _ _
  · apply hS
    intro a _ b _
    exact add_lt_same _ _ _

/-- a fill plane that is moved with the contours gives the same lines, moved -/
theorem byPlane_move {S : Sorter} (hS : S.Natural) (h : P'.dot N = P.dot N + v.dot N) {ps : List (Path XR)} (hf : FinitePaths ps) :
    intersectByPlane S (ps.map (Path.mapP fun p => p.shift v.vec)) ⟨P'.pt, N.vec⟩ =
      (intersectByPlane S ps ⟨P.pt, N.vec⟩).map (Path.mapP fun p => p.shift v.vec) := by
  unfold intersectByPlane
  simp only [crossings_move h hf, List.length_map, sortCrossings_move (P' := P') (P := P) hS]
  split
  · rfl
  · split
    · exact pairUp_map _ _
    · generalize sortCrossings S ⟨P.pt, N.vec⟩ (planeCrossings ps ⟨P.pt, N.vec⟩) = l
      match l with
      | [] => rfl
      | [_] => rfl
      | [_, _] => rfl
      | [_, _, _] => rfl
      | [_, _, _, _] => rfl
      | _ :: _ :: _ :: _ :: _ :: _ => rfl

/-- a plane on one side of all points gives nothing -/
theorem byPlane_none {S : Sorter} {ps : List (Path XR)} (hf : FinitePaths ps)
    (h : (∀ p ∈ ps, ∀ w : R3, w.pt ∈ p.points → P.dot N < w.dot N) ∨ (∀ p ∈ ps, ∀ w : R3, w.pt ∈ p.points → w.dot N < P.dot N)) :
    intersectByPlane S ps ⟨P.pt, N.vec⟩ = [] := by
  have e : planeCrossings ps ⟨P.pt, N.vec⟩ = [] := by
    unfold planeCrossings
    rw [List.flatMap_eq_nil_iff]
    intro p hp
    rw [List.filterMap_eq_nil_iff]
    rintro ⟨a, b⟩ hab
    obtain ⟨ha, hb⟩ := pair_mem hab
    obtain ⟨x, rfl⟩ := hf p hp a ha
    obtain ⟨y, rfl⟩ := hf p hp b hb
    cases hc : (Plane.mk P.pt N.vec).intersectSegment x.pt y.pt with
    | none => rfl
    | some q =>
      exfalso
      obtain ⟨w, _, _, ⟨t, t0, t1, rfl⟩, hp'⟩ := (intersectSegment_iff P N x y q).1 hc
      have e : (x + t • (y - x)).dot N = (1 - t) * x.dot N + t * y.dot N := by simp [R3.dot]; ring
      have e2 : ((x + t • (y - x)) - P).dot N = (x + t • (y - x)).dot N - P.dot N := by simp [R3.dot]; ring
      have hp' : ((x + t • (y - x)) - P).dot N = 0 := hp'
      rw [e2, e] at hp'
      rcases h with h | h
      · have h1 := h p hp x ha
        have h2 := h p hp y hb
        rcases t0.eq_or_lt with rfl | t0
        · linarith
        · nlinarith
      · have h1 := h p hp x ha
        have h2 := h p hp y hb
        rcases t0.eq_or_lt with rfl | t0
        · linarith
        · nlinarith
  unfold intersectByPlane
  rw [e]
  rfl
end

/-! ## All fill planes -/

/-- the lines of consecutive planes do not depend on where the planes begin and end, if they begin and end outside of what they fill -/
theorem flatMap_window {β : Type} (F : ℤ → List β) (c d : ℤ) (hcd : c ≤ d) (k : ℤ) (n : ℕ) (h1 : k ≤ c) (h2 : d ≤ k + n)
    (hF : ∀ j, F j ≠ [] → c ≤ j ∧ j < d) :
    (List.range n).flatMap (fun i : ℕ => F (k + i)) = (List.range (d - c).toNat).flatMap (fun i : ℕ => F (c + i)) := by
  obtain ⟨a, rfl⟩ : ∃ a : ℕ, c = k + a := ⟨(c - k).toNat, by omega⟩
  obtain ⟨b, rfl⟩ : ∃ b : ℕ, d = k + a + b := ⟨(d - (k + a)).toNat, by omega⟩
  obtain ⟨r, rfl⟩ : ∃ r : ℕ, n = a + b + r := ⟨n - (a + b), by omega⟩
  have nil1 : (List.range a).flatMap (fun i : ℕ => F (k + i)) = [] := by
    rw [List.flatMap_eq_nil_iff]
    intro i hi
    by_contra hne
    have := hF _ hne
    have := List.mem_range.1 hi
    omega
  have nil2 : (List.range r).flatMap (fun i : ℕ => F (k + ((a + b + i : ℕ) : ℤ))) = [] := by
    rw [List.flatMap_eq_nil_iff]
    intro i _
    by_contra hne
    have := hF _ hne
    omega
  have e : (k + a + b - (k + a)).toNat = b := by omega
  rw [e, List.range_add, List.range_add, List.flatMap_append, List.flatMap_append, List.flatMap_map, List.flatMap_map, nil1, nil2, List.nil_append, List.append_nil]
  apply List.flatMap_congr
  intro i _
  push_cast
  rw [add_assoc]

/-! ## Layers -/

theorem forall₂_right {β γ : Type} {R : β → γ → Prop} {l : List β} {m : List γ} (h : List.Forall₂ R l m) {c : γ} (hc : c ∈ m) : ∃ b, R b c := by
  induction h with
  | nil => cases hc
  | cons h1 _ ih =>
    rcases List.mem_cons.1 hc with rfl | hc
    · exact ⟨_, h1⟩
    · exact ih hc

/-- the layers as slicing returns them: contours only, close to the model -/
theorem slice_plain (S : Sorter) (A : Arrival XR) (ts : List RTri) (hne : ts ≠ []) (d : R3) (hd : d ≠ 0) (sett : Settings XR)
    (h0 : sett.supportsOn = false) (hs : ∀ r ∈ ts, r.small) {ax bx : ℝ} (hx : Extent ts R3.ex ax bx) (layers : List (Layer XR))
    (h : sliceByVector S A (some (rmesh ts)) d.vec sett = .ok layers) :
    ∀ l ∈ layers, l.innerPs = [] ∧ l.fill = [] ∧ FinitePaths l.paths ∧
      ∀ p ∈ l.paths, ∀ w : R3, w.pt ∈ p.points → ax - 1 / 10 ^ 8 < w.x ∧ w.x < bx + 1 / 10 ^ 8 := by
  have hr : ∀ w ∈ allVerts ts, |w.dot d.unit| ≤ XR.maxF64R := by
    intro w hw
    apply small_reach _ (R3.unit_ne hd)
    obtain ⟨r, hr, hw⟩ := List.mem_flatMap.1 hw
    obtain ⟨ha, hb, hc⟩ := hs r hr
    simp only [RTri.verts, List.mem_cons, List.not_mem_nil, or_false] at hw
    rcases hw with rfl | rfl | rfl <;> assumption
  have plain : ∀ l ∈ layers, l.innerPs = [] ∧ l.fill = [] := by
    have h := h
    rw [sliceByVector_real S A ts hne] at h
    cases hj : sliceJobs S (rmesh ts) d.unit.vec sett with
    | error e => rw [hj] at h; cases h
    | ok jobs =>
      rw [hj] at h
      have h : (jobs.mapM (runJob S)).bind trimEmpty = .ok layers := h
      cases hm : jobs.mapM (runJob S) with
      | error e => rw [hm] at h; cases h
      | ok full =>
        rw [hm] at h
        obtain ⟨pre, post, e, _⟩ := trimEmpty_spec full layers h
        intro l hl
        have hl' : l ∈ full := by rw [e]; simp [hl]
        obtain ⟨j, hj⟩ := forall₂_right (mapM_mem _ _ _ hm) hl'
        unfold runJob at hj
        cases hp : joinPaths3AndMinimize S (jobPaths j) with
        | error e => rw [hp] at hj; cases hj
        | ok ps =>
          rw [hp] at hj
          have hj : (Except.ok _ : Go (Layer XR)) = Except.ok l := hj
          injection hj with hj
          subst hj
          exact ⟨rfl, rfl⟩
  obtain ⟨sup, hsup, hl⟩ := layer_segments S A ts hne d sett hr (fun hc => by rw [h0] at hc; cases hc) layers h
  have sup0 : sup = [] := by
    unfold supportsOf at hsup
    rw [h0] at hsup
    have : (Except.ok [] : Go (List (Triangle XR))) = .ok sup := hsup
    injection this with this
    exact this.symm
  subst sup0
  intro l hm
  refine ⟨(plain l hm).1, (plain l hm).2, ?_⟩
  obtain ⟨z, segs, hperm, hjoin⟩ := hl l hm
  have pts : ∀ q ∈ l.paths, ∀ x ∈ q.points, ∃ w : R3, x = w.pt ∧ ax - 1 / 10 ^ 8 < w.x ∧ w.x < bx + 1 / 10 ^ 8 := by
    have seg : ∀ q ∈ segs, ∃ r ∈ ts, ∃ L, (Plane.mk (z • d.unit).pt d.unit.vec).intersectTriangle r.tri = some L ∧ q = ⟨[L.p1, L.p2]⟩ := by
      intro q hq
      have := hperm.mem_iff.1 hq
      unfold sectionPaths at this
      rw [List.nil_append] at this
      obtain ⟨t, ht, hL⟩ := List.mem_filterMap.1 this
      obtain ⟨r, hr, rfl⟩ := List.mem_map.1 ht
      obtain ⟨L, hL', rfl⟩ := Option.map_eq_some_iff.1 hL
      exact ⟨r, hr, L, hL', rfl⟩
    intro q hq x hx'
    obtain ⟨q', hq', hxq⟩ := joined_mem S segs l.paths (fun q hq => by obtain ⟨r, _, L, _, rfl⟩ := seg q hq; simp) hjoin q hq x hx'
    obtain ⟨r, hrt, L, hL, rfl⟩ := seg q' hq'
    obtain ⟨ha, hb, hc⟩ := hs r hrt
    have hL' : (Plane.mk (z • d.unit).pt d.unit.vec).intersectTriangle (newTriangle r.a.pt r.b.pt r.c.pt) = some L := by
      rw [newTriangle_pt]; exact hL
    obtain ⟨u, v, x1, y1, rfl, _, _, bu, bv, wu, wv, _⟩ := C08_sound _ _ r.a r.b r.c ha hb hc L hL'
    have inx : ∀ w ∈ r.verts, ax ≤ w.x ∧ w.x ≤ bx := fun w hw => by
      have e : w.dot R3.ex = w.x := by simp [R3.dot, R3.ex]
      have m : w ∈ allVerts ts := List.mem_flatMap.2 ⟨r, hrt, hw⟩
      exact ⟨hx.1.2 ⟨w, m, e⟩, hx.2.2 ⟨w, m, e⟩⟩
    have va := inx r.a (by simp [RTri.verts])
    have vb := inx r.b (by simp [RTri.verts])
    have vc := inx r.c (by simp [RTri.verts])
    have onb : ∀ w, R3.onBoundary r.a r.b r.c w → ax ≤ w.x ∧ w.x ≤ bx := by
      have seg2 : ∀ a b w : R3, R3.onSegment a b w → (ax ≤ a.x ∧ a.x ≤ bx) → (ax ≤ b.x ∧ b.x ≤ bx) → ax ≤ w.x ∧ w.x ≤ bx := by
        rintro a b w ⟨t, t0, t1, rfl⟩ ha hb
        simp only [R3.add_x, R3.smul_x, R3.sub_x]
        constructor <;> nlinarith
      rintro w (h | h | h)
      · exact seg2 _ _ _ h va vb
      · exact seg2 _ _ _ h vb vc
      · exact seg2 _ _ _ h vc va
    have near : ∀ w u : R3, w.within8 u → (ax ≤ u.x ∧ u.x ≤ bx) → ax - 1 / 10 ^ 8 < w.x ∧ w.x < bx + 1 / 10 ^ 8 := by
      intro w u hw hu
      have := abs_le.1 hw.1
      constructor <;> norm_num at this ⊢ <;> linarith
    simp only [List.mem_cons, List.not_mem_nil, or_false] at hxq
    rcases hxq with rfl | rfl
    · exact ⟨x1, rfl, near _ _ wu (onb _ bu)⟩
    · exact ⟨y1, rfl, near _ _ wv (onb _ bv)⟩
  refine ⟨fun p hp x hx => (pts p hp x hx).imp fun _ h => h.1, fun p hp w hw => ?_⟩
  obtain ⟨w', e, h1⟩ := pts p hp _ hw
  have : w = w' := by
    have hx := congrArg Point.x e
    have hy := congrArg Point.y e
    have hz := congrArg Point.z e
    simp only [R3.pt, XR.fin.injEq] at hx hy hz
    exact R3.ext hx hy hz
  rw [this]; exact h1

theorem bounds_of_small {ts : List RTri} (hne : ts ≠ []) (hs : ∀ r ∈ ts, r.small) {s : ℝ} (h : 1 / 10 ^ 6 ≤ s) : FillBounds ts s roundLimit where
  ne := hne
  abs := by
    intro w hw
    obtain ⟨r, hr, hw⟩ := List.mem_flatMap.1 hw
    obtain ⟨ha, hb, hc⟩ := hs r hr
    simp only [RTri.verts, List.mem_cons, List.not_mem_nil, or_false] at hw
    rcases hw with rfl | rfl | rfl
    · exact ⟨ha.1, ha.2.1⟩
    · exact ⟨hb.1, hb.2.1⟩
    · exact ⟨hc.1, hc.2.1⟩
  fits := by
    have := small_reach (w := ⟨roundLimit, 0, 0⟩) (u := ⟨1, 0, 0⟩) ⟨by rw [abs_of_nonneg]; unfold roundLimit; norm_num, by simp [roundLimit], by simp [roundLimit]⟩
      (by simp [R3.normSq, R3.dot])
    simp only [R3.dot, mul_one, mul_zero, add_zero] at this
    exact (le_abs_self _).trans this
  step := by norm_num at h; linarith
  count := by unfold roundLimit; norm_num at h ⊢; linarith

/-- no plane at a multiple of `s` is within `1e-8` of the left or right side of the model -/
def ClearOfSides (ts : List RTri) (s : ℝ) : Prop :=
  ∀ w : R3, w ∈ allVerts ts → ((∀ u ∈ allVerts ts, w.x ≤ u.x) ∨ ∀ u ∈ allVerts ts, u.x ≤ w.x) → ∀ k : ℤ, 1 / 10 ^ 8 ≤ |k * s - w.x|

/-- the planes of one direction, moved by whole steps with the model -/
theorem grid_fill {S : Sorter} (hS : S.Natural) {ts : List RTri} (hne : ts ≠ []) {v : R3} (hs : ∀ r ∈ ts, r.small) (hs' : ∀ r ∈ movedModel v ts, r.small)
    {s : ℝ} (h6 : 1 / 10 ^ 6 ≤ s) (m : ℤ) (hm : v.x = m * s) (hc : ClearOfSides ts s) {ax bx : ℝ} (hx : Extent ts R3.ex ax bx)
    {ps : List (Path XR)} (hf : FinitePaths ps) (hp : ∀ p ∈ ps, ∀ w : R3, w.pt ∈ p.points → ax - 1 / 10 ^ 8 < w.x ∧ w.x < bx + 1 / 10 ^ 8) :
    ((calcFillPlanesCommon (rmesh (movedModel v ts)) R3.ex.vec (XR.fin s)).flatMap fun p => intersectByPlane S (ps.map (Path.mapP fun p => p.shift v.vec)) p) =
      ((calcFillPlanesCommon (rmesh ts) R3.ex.vec (XR.fin s)).flatMap fun p => intersectByPlane S ps p).map (Path.mapP fun p => p.shift v.vec) := by
  have hne' : movedModel v ts ≠ [] := by simpa [movedModel] using hne
  have s0 : 0 < s := by norm_num at h6; linarith
  obtain ⟨k, n, r, hr, e1, l1, u1⟩ := C45_grid (bounds_of_small hne hs h6) R3.ex
  obtain ⟨k', n', r', hr', e2, l2, u2⟩ := C45_grid (bounds_of_small hne' hs' h6) R3.ex
  have dx : ∀ w : R3, w.dot R3.ex = w.x := fun w => by simp [R3.dot, R3.ex]
  obtain ⟨⟨⟨wa, ma, ea⟩, la⟩, ⟨wb, mb, eb⟩, lb⟩ := hx
  rw [dx] at ea eb
  have leftm : ∀ j : ℤ, 1 / 10 ^ 8 ≤ |j * s - ax| := fun j => by
    rw [← ea]; exact hc wa ma (Or.inl fun u hu => by rw [ea]; exact la ⟨u, hu, dx u⟩) j
  have rightm : ∀ j : ℤ, 1 / 10 ^ 8 ≤ |j * s - bx| := fun j => by
    rw [← eb]; exact hc wb mb (Or.inr fun u hu => by rw [eb]; exact lb ⟨u, hu, dx u⟩) j
  have mv : ∀ w ∈ allVerts ts, w + v ∈ allVerts (movedModel v ts) := by
    intro w hw
    have : allVerts (movedModel v ts) = (allVerts ts).map (· + v) := by
      unfold allVerts movedModel
      rw [List.flatMap_map, List.map_flatMap]
      rfl
    rw [this]
    exact List.mem_map.2 ⟨w, hw, rfl⟩
  obtain ⟨F, hF⟩ : ∃ F : ℤ → List (Path XR), F = fun j : ℤ => intersectByPlane S ps ⟨(((j : ℝ) * s) • R3.ex).pt, R3.ex.vec⟩ := ⟨_, rfl⟩
  have inside : ∀ j : ℤ, F j ≠ [] → ax < j * s ∧ j * s < bx := by
    intro j hj
    rw [hF] at hj
    have pd : (((j : ℝ) * s) • R3.ex).dot R3.ex = j * s := by simp [R3.dot, R3.ex]
    constructor
    · by_contra hle
      apply hj
      have := leftm j
      rw [abs_of_nonpos (by linarith)] at this
      refine byPlane_none hf (Or.inl fun p hp' w hw => ?_)
      rw [pd, dx]
      linarith [(hp p hp' w hw).1]
    · by_contra hle
      apply hj
      have := rightm j
      rw [abs_of_nonneg (by linarith)] at this
      refine byPlane_none hf (Or.inr fun p hp' w hw => ?_)
      rw [pd, dx]
      linarith [(hp p hp' w hw).2]
  have win : ∀ j, F j ≠ [] → ⌊ax / s⌋ + 1 ≤ j ∧ j < ⌈bx / s⌉ := by
    intro j hj
    obtain ⟨h1, h2⟩ := inside j hj
    constructor
    · have : ⌊ax / s⌋ < j := Int.floor_lt.2 (by rw [div_lt_iff₀ s0]; exact h1)
      omega
    · exact Int.lt_ceil.2 (by rw [lt_div_iff₀ s0]; exact h2)
  have cd : ⌊ax / s⌋ + 1 ≤ ⌈bx / s⌉ := by
    have : ⌊ax / s⌋ < ⌈bx / s⌉ := by
      have ab : ax ≤ bx := by rw [← ea]; exact (lb ⟨wa, ma, dx wa⟩)
      have : (⌊ax / s⌋ : ℝ) < bx / s := by
        refine lt_of_le_of_ne ((Int.floor_le _).trans (div_le_div_of_nonneg_right ab s0.le)) fun h => ?_
        have := rightm ⌊ax / s⌋
        rw [h, div_mul_cancel₀ _ s0.ne', sub_self, abs_zero] at this
        norm_num at this
      exact Int.lt_ceil.2 this
    omega
  have first : (calcFillPlanesCommon (rmesh ts) R3.ex.vec (XR.fin s)).flatMap (fun p => intersectByPlane S ps p) = (List.range n).flatMap fun i : ℕ => F (k + i) := by
    rw [e1, List.flatMap_map, hF]
    apply List.flatMap_congr
    intro i _
    simp only [Int.cast_add, Int.cast_natCast]
  have second : (calcFillPlanesCommon (rmesh (movedModel v ts)) R3.ex.vec (XR.fin s)).flatMap (fun p => intersectByPlane S (ps.map (Path.mapP fun p => p.shift v.vec)) p) =
      ((List.range n').flatMap fun i : ℕ => F ((k' - m) + i)).map (Path.mapP fun p => p.shift v.vec) := by
    rw [e2, List.flatMap_map, List.map_flatMap, hF]
    apply List.flatMap_congr
    intro i _
    simp only [Int.cast_add, Int.cast_natCast, Int.cast_sub]
    apply byPlane_move hS _ hf
    rw [dx, dx, dx, hm]
    simp [R3.ex]
    ring
  rw [first, second]
  congr 1
  rw [flatMap_window F _ _ cd k n _ _ win, flatMap_window F _ _ cd (k' - m) n' _ _ win]
  · have h1 := abs_le.1 (hr' _ (mv wa ma)).1
    have h2 : ((k' - 1 - m : ℤ) : ℝ) ≤ ax / s := by
      rw [le_div_iff₀ s0]
      have : (wa + v).x = ax + m * s := by rw [← ea, ← hm]; rfl
      rw [this] at h1
      push_cast
      nlinarith [h1.1]
    have := Int.le_floor.2 h2
    omega
  · have h1 := abs_le.1 (hr' _ (mv wb mb)).1
    have h2 : bx / s ≤ ((k' + n' - 1 - m : ℤ) : ℝ) := by
      rw [div_le_iff₀ s0]
      have : (wb + v).x = bx + m * s := by rw [← eb, ← hm]; rfl
      rw [this] at h1
      push_cast
      nlinarith [h1.2]
    have := Int.ceil_le.2 h2
    omega
  · have h1 := abs_le.1 (hr _ ma).1
    have h2 : ((k - 1 : ℤ) : ℝ) ≤ ax / s := by
      rw [le_div_iff₀ s0]
      rw [ea] at h1
      push_cast
      nlinarith [h1.1]
    have := Int.le_floor.2 h2
    omega
  · have h1 := abs_le.1 (hr _ mb).1
    have h2 : bx / s ≤ ((k + n - 1 : ℤ) : ℝ) := by
      rw [div_le_iff₀ s0]
      rw [eb] at h1
      push_cast
      nlinarith [h1.2]
    have := Int.ceil_le.2 h2
    omega

theorem mapM_index {β γ : Type} {f g : β × ℕ → Go γ} {T : β → β} {U : γ → γ} : ∀ (l : List β) (i : ℕ),
    (∀ b ∈ l, ∀ j, g (T b, j) = (f (b, j)).map U) → ((l.map T).zipIdx i).mapM g = ((l.zipIdx i).mapM f).map (List.map U)
  | [], _, _ => rfl
  | b :: t, i, h => by
    rw [List.map_cons, List.zipIdx_cons, List.zipIdx_cons, List.mapM_cons, List.mapM_cons, h b (by simp) i,
      mapM_index t (i + 1) fun b hb => h b (by simp [hb])]
    cases f (b, i) with
    | error e => rfl
    | ok y =>
      cases (t.zipIdx (i + 1)).mapM f with
      | error e => rfl
      | ok z => rfl

/-- **C128.** Moving a model by a multiple of `1e-8` in every coordinate and by a whole number of line distances in `x` moves the program of
`SliceByVectorToGcode` — contours and infill — by the same amount and changes nothing else. This holds for the pattern of lines along `y`, if the
conditions of C127 hold and no fill line is within `1e-8` of the left or the right side of the model. For other displacements the
infill changes: `C128_violated`. Missing from the full claim: those displacements, the two other patterns, and supports. -/
theorem C128_place_partial (S : Sorter) (hS : S.Natural) (A : Arrival XR) (ts : List RTri) (d : R3) (hd : d ≠ 0) (v : R3) (hv : v.OnGrid8)
    (sett : Settings XR) (lo hi t : ℝ) (he : Extent ts d.unit lo hi) (hs : ∀ r ∈ ts, r.small) (hs' : ∀ r ∈ movedModel v ts, r.small)
    (h0 : sett.supportsOn = false) (hh : sett.layerHeight = XR.fin t) (t0 : 0 < t) (hb : ⌈(hi - lo) / t⌉ < 2 ^ 63)
    (hties : ∀ m < ⌈(hi - lo) / t⌉.toNat, ∀ w, SectionPoint (levelOf lo hi ⌈(hi - lo) / t⌉.toNat m • d.unit) d.unit ts w → w.TieFree)
    (f1 : sett.fillingType ≠ "Squares") (f2 : sett.fillingType ≠ "Triangles")
    (lw : ℝ) (hlw : sett.gs.lineWidth = XR.fin lw) (l0 : 1 / 10 ^ 6 ≤ lw) (hd0 : sett.fillDensity ≠ 0)
    (l1 : 1 / 10 ^ 6 ≤ 100 / (sett.fillDensity : ℝ) * lw)
    (m1 m2 : ℤ) (hm1 : v.x = m1 * lw) (hm2 : v.x = m2 * (100 / (sett.fillDensity : ℝ) * lw))
    (c1 : ClearOfSides ts lw) (c2 : ClearOfSides ts (100 / (sett.fillDensity : ℝ) * lw)) :
    sliceByVectorToGcode S A (rmesh (movedModel v ts)) d.vec sett = (sliceByVectorToGcode S A (rmesh ts) d.vec sett).map (movedProgram v) := by
  have hne : ts ≠ [] := by
    rintro rfl
    obtain ⟨w, hw, _⟩ := he.1.1
    simp [allVerts] at hw
  have step : fillStep sett.fillDensity sett.gs.lineWidth = XR.fin (100 / (sett.fillDensity : ℝ) * lw) := by
    unfold fillStep
    rw [hlw, XR.lit_def, XR.ofInt_def, XR.fin_div (by exact_mod_cast hd0), XR.fin_mul]
    norm_num
  have planes : ∀ ts : List RTri, calcFillPlanes (rmesh ts) sett =
      (calcFillPlanesCommon (rmesh ts) R3.ex.vec (XR.fin (100 / (sett.fillDensity : ℝ) * lw)), calcFillPlanesCommon (rmesh ts) R3.ex.vec (XR.fin lw)) := by
    intro ts
    unfold calcFillPlanes calcFillFullPlane calcFillPlanesLines
    rw [if_neg f1, if_neg f2, step, hlw, axisX_vec, ite_self]
  obtain ⟨ax, bx, hx⟩ := exists_extent (u := R3.ex) hne (fun w hw => by
    obtain ⟨r, hr, hw⟩ := List.mem_flatMap.1 hw
    obtain ⟨ha, hb, hc⟩ := hs r hr
    refine small_reach ?_ (by simp [R3.normSq, R3.dot, R3.ex])
    simp only [RTri.verts, List.mem_cons, List.not_mem_nil, or_false] at hw
    rcases hw with rfl | rfl | rfl <;> assumption)
  unfold sliceByVectorToGcode
  rw [C127_place_partial S hS A ts d hd v hv sett lo hi t he hs hs' h0 hh t0 hb hties, planes, planes]
  cases hl : sliceByVector S A (some (rmesh ts)) d.vec sett with
  | error e => rfl
  | ok layers =>
    have pl := slice_plain S A ts hne d hd sett h0 hs hx layers hl
    have fills : fillLayers S (layers.map (movedLayer v)) (calcFillPlanesCommon (rmesh (movedModel v ts)) R3.ex.vec (XR.fin (100 / (sett.fillDensity : ℝ) * lw)))
        (calcFillPlanesCommon (rmesh (movedModel v ts)) R3.ex.vec (XR.fin lw)) sett =
        (fillLayers S layers (calcFillPlanesCommon (rmesh ts) R3.ex.vec (XR.fin (100 / (sett.fillDensity : ℝ) * lw)))
          (calcFillPlanesCommon (rmesh ts) R3.ex.vec (XR.fin lw)) sett).map (List.map (movedFilled v)) := by
      unfold fillLayers
      rw [List.length_map]
      refine mapM_index layers 0 fun l hm j => ?_
      obtain ⟨i0, fl0, hf, hp⟩ := pl l hm
      have cont : fillContours (movedLayer v l) = (fillContours l).map (Path.mapP fun p => p.shift v.vec) := by
        unfold fillContours movedLayer
        simp [i0]
      have cont0 : fillContours l = l.paths := by unfold fillContours; simp [i0]
      have fl1 : (movedLayer v l).fill = [] := fl0
      have g1 := grid_fill hS hne hs hs' l0 m1 hm1 c1 hx hf hp
      have g2 := grid_fill hS hne hs hs' l1 m2 hm2 c2 hx hf hp
      simp only [fillLayer, fl0, fl1, List.nil_append, cont, cont0]
      have e : ((if solidLayer sett layers.length j then calcFillPlanesCommon (rmesh (movedModel v ts)) R3.ex.vec (XR.fin lw)
            else calcFillPlanesCommon (rmesh (movedModel v ts)) R3.ex.vec (XR.fin (100 / (sett.fillDensity : ℝ) * lw))).flatMap fun p =>
              intersectByPlane S (l.paths.map (Path.mapP fun p => p.shift v.vec)) p) =
          ((if solidLayer sett layers.length j then calcFillPlanesCommon (rmesh ts) R3.ex.vec (XR.fin lw)
            else calcFillPlanesCommon (rmesh ts) R3.ex.vec (XR.fin (100 / (sett.fillDensity : ℝ) * lw))).flatMap fun p =>
              intersectByPlane S l.paths p).map (Path.mapP fun p => p.shift v.vec) := by
        split
        · exact g1
        · exact g2
      rw [e, sortFill_map _ (moved_distance v)]
      have last : ∀ x : Go (List (Path XR)), (x.map (List.map (Path.mapP fun p => p.shift v.vec)) >>= fun f => pure { movedLayer v l with fill := f }) =
          (x >>= fun f => pure { l with fill := f }).map (movedFilled v) := by
        intro x
        cases x <;> rfl
      exact last _
    show (fillLayers S (layers.map (movedLayer v)) (calcFillPlanesCommon (rmesh (movedModel v ts)) R3.ex.vec (XR.fin (100 / (sett.fillDensity : ℝ) * lw)))
        (calcFillPlanesCommon (rmesh (movedModel v ts)) R3.ex.vec (XR.fin lw)) sett >>= fun ls => pure ((Gcode.new sett.gs).addLayers ls)) =
      (fillLayers S layers (calcFillPlanesCommon (rmesh ts) R3.ex.vec (XR.fin (100 / (sett.fillDensity : ℝ) * lw)))
        (calcFillPlanesCommon (rmesh ts) R3.ex.vec (XR.fin lw)) sett >>= fun ls => pure ((Gcode.new sett.gs).addLayers ls)).map (movedProgram v)
    rw [fills]
    cases fillLayers S layers (calcFillPlanesCommon (rmesh ts) R3.ex.vec (XR.fin (100 / (sett.fillDensity : ℝ) * lw)))
        (calcFillPlanesCommon (rmesh ts) R3.ex.vec (XR.fin lw)) sett <;> rfl

/-! ## The other displacements -/

theorem forall₂_back {β γ : Type} {R : β → γ → Prop} {l : List β} {m : List γ} (h : List.Forall₂ R l m) {c : γ} (hc : c ∈ m) : ∃ b ∈ l, R b c := by
  induction h with
  | nil => cases hc
  | cons h1 _ ih =>
    rcases List.mem_cons.1 hc with rfl | hc
    · exact ⟨_, by simp, h1⟩
    · obtain ⟨b, hb, h⟩ := ih hc
      exact ⟨b, by simp [hb], h⟩

/-- the fill lines of a plane are on the plane -/
theorem line_on_plane {S : Sorter} {ps : List (Path XR)} (hf : FinitePaths ps) (P N : R3) :
    ∀ q ∈ intersectByPlane S ps ⟨P.pt, N.vec⟩, q.points ≠ [] ∧ ∀ w : R3, w.pt ∈ q.points → R3.onPlane P N w := by
  obtain ⟨cs, rfl⟩ : ∃ cs : List (List R3), ps = cs.map rpath := by
    have one : ∀ l : List (Point XR), (∀ x ∈ l, ∃ w : R3, x = w.pt) → ∃ c : List R3, l = c.map R3.pt := by
      intro l
      induction l with
      | nil => exact fun _ => ⟨[], rfl⟩
      | cons a t ih =>
        intro h
        obtain ⟨w, rfl⟩ := h a (by simp)
        obtain ⟨c, rfl⟩ := ih fun x hx => h x (by simp [hx])
        exact ⟨w :: c, rfl⟩
    induction ps with
    | nil => exact ⟨[], rfl⟩
    | cons p t ih =>
      obtain ⟨cs, rfl⟩ := ih fun q hq => hf q (by simp [hq])
      obtain ⟨c, hc⟩ := one p.points (hf p (by simp))
      exact ⟨c :: cs, by rw [List.map_cons, rpath, ← hc]⟩
  obtain ⟨segs, h1, h2, -⟩ := C43_segments S P N cs
  rw [h1]
  intro q hq
  obtain ⟨s, hs, rfl⟩ := List.mem_map.1 hq
  refine ⟨by simp [rpath], fun w hw => ?_⟩
  obtain ⟨c1, c2⟩ := h2 s hs
  simp only [rpath, List.map_cons, List.map_nil, List.mem_cons, List.not_mem_nil, or_false] at hw
  rcases hw with hw | hw <;> rw [R3.pt_inj hw]
  · obtain ⟨_, _, _, _, h⟩ := (C43_cut P N cs s.1).1 c1
    exact h
  · obtain ⟨_, _, _, _, h⟩ := (C43_cut P N cs s.2).1 c2
    exact h

/-- with line width 1 and density 100 all fill lines are at whole numbers -/
theorem fill_at_whole (S : Sorter) (A : Arrival XR) (ts : List RTri) (hne : ts ≠ []) (hs : ∀ r ∈ ts, r.small) (d : R3) (hd : d ≠ 0) (sett : Settings XR)
    (h0 : sett.supportsOn = false) (hty : sett.fillingType = "Lines") (hlw : sett.gs.lineWidth = XR.fin 1) (hfd : sett.fillDensity = 100)
    (out : List (Layer XR)) (h : sliceByVectorToGcode S A (rmesh ts) d.vec sett = .ok ((Gcode.new sett.gs).addLayers out)) :
    ∀ l ∈ out, ∀ q ∈ l.fill, ∀ w : R3, w.pt ∈ q.points → ∃ k : ℤ, w.x = k := by
  have step : fillStep sett.fillDensity sett.gs.lineWidth = XR.fin 1 := by
    unfold fillStep
    rw [hlw, hfd, XR.lit_def, XR.ofInt_def, XR.fin_div (by norm_num), XR.fin_mul]
    norm_num
  have planes : calcFillPlanes (rmesh ts) sett = (calcFillPlanesCommon (rmesh ts) R3.ex.vec (XR.fin 1), calcFillPlanesCommon (rmesh ts) R3.ex.vec (XR.fin 1)) := by
    unfold calcFillPlanes calcFillFullPlane calcFillPlanesLines
    rw [if_pos hty, step, hlw, axisX_vec]
  obtain ⟨ax, bx, hx⟩ := exists_extent (u := R3.ex) hne (fun w hw => by
    obtain ⟨r, hr, hw⟩ := List.mem_flatMap.1 hw
    obtain ⟨ha, hb, hc⟩ := hs r hr
    refine small_reach ?_ (by simp [R3.normSq, R3.dot, R3.ex])
    simp only [RTri.verts, List.mem_cons, List.not_mem_nil, or_false] at hw
    rcases hw with rfl | rfl | rfl <;> assumption)
  unfold sliceByVectorToGcode at h
  obtain ⟨layers, hl, h⟩ := bind_ok h
  obtain ⟨out', ho, h⟩ := bind_ok h
  have e : out' = out := by
    have := congrArg Gcode.cmds (pure_ok h)
    simpa [Gcode.addLayers, Gcode.add, Gcode.new] using this
  subst e
  have pl := slice_plain S A ts hne d hd sett h0 hs hx layers hl
  rw [planes] at ho
  have fa := mapM_mem _ _ _ ho
  intro o hom q hq w hw
  obtain ⟨⟨l, i⟩, hli, hf⟩ := forall₂_back fa hom
  obtain ⟨i0, f0, hfin, -⟩ := pl l (List.fst_mem_of_mem_zipIdx hli)
  obtain ⟨k, n, r, -, e1, -⟩ := C45_grid (bounds_of_small hne hs (s := 1) (by norm_num)) R3.ex
  have cont : fillContours l = l.paths := by unfold fillContours; simp [i0]
  simp only [fillLayer, f0, List.nil_append, cont, ite_self, e1] at hf
  obtain ⟨f, hsort, hf⟩ := bind_ok hf
  have := pure_ok hf
  subst this
  have on : ∀ q ∈ ((List.range n).map (fun i : Nat => Plane.mk ((((k : ℝ) + i) * 1) • R3.ex).pt R3.ex.vec)).flatMap (fun p => intersectByPlane S l.paths p),
      q.points ≠ [] ∧ ∀ w : R3, w.pt ∈ q.points → ∃ k : ℤ, w.x = k := by
    intro q hq
    obtain ⟨p, hp, hq⟩ := List.mem_flatMap.1 hq
    obtain ⟨i, -, rfl⟩ := List.mem_map.1 hp
    obtain ⟨n1, n2⟩ := line_on_plane hfin _ _ q hq
    refine ⟨n1, fun w hw => ⟨k + i, ?_⟩⟩
    have := n2 w hw
    have : w.x - ((k : ℝ) + i) = 0 := by simpa [R3.onPlane, R3.height, R3.dot, R3.ex] using this
    push_cast
    linarith
  obtain ⟨out, h1, -, h3⟩ := sortFillPathes_total _ fun q hq => (on q hq).1
  rw [h1] at hsort
  obtain rfl : out = f := by injection hsort
  obtain ⟨q', hq', hp⟩ := h3 q hq
  refine (on q' hq').2 w ?_
  rcases hp with hp | hp
  · rw [← hp]; exact hw
  · rw [hp] at hw; exact List.mem_reverse.1 hw

/-- line width 1, density 100, layer height 3 -/
noncomputable def wholeSettings : Settings XR := { exampleSettings 3 with fillDensity := 100 }

/-- the tetrahedron has a fill line at `x = 1` -/
theorem tetra_line (S : Sorter) (A : Arrival XR) : ∃ layers : List (Layer XR),
    sliceByVectorToGcode S A (rmesh exTetra) (R3.mk 0 0 1).vec wholeSettings = .ok ((Gcode.new wholeSettings.gs).addLayers layers) ∧
      ∃ l ∈ layers, ∃ a b : R3, rpath [a, b] ∈ l.fill ∧ a.x = 1 := by
  obtain ⟨h1, h2, h3, -, -⟩ := exTetra_ok
  have hn : ⌈((4 : ℝ) - 0) / 3⌉ = 2 := by rw [Int.ceil_eq_iff]; norm_num
  have pd : patternDensity wholeSettings = 100 := by unfold patternDensity wholeSettings exampleSettings; decide
  obtain ⟨layers, sparse, full, n, g1, gp, gv, g2, -, g3⟩ := C90_print_partial S A exTetra wholeSettings rfl h1 h2 h3 0 4 3 1 4 exTetra_extent rfl
    (by norm_num) (by norm_num) (by rw [hn]; norm_num) rfl (by rw [pd]; decide)
    (exTetra_fill _ (by rw [pd]; norm_num)) (exTetra_fill _ le_rfl)
  rw [hn] at g2
  have : n = 2 := by exact_mod_cast g2
  subst this
  refine ⟨layers, g1, ?_⟩
  have e : (0 : ℝ) + (((0 : ℕ) : ℝ) + 1 / 2) * ((4 - 0) / ((2 : ℕ) : ℝ)) = 1 := by norm_num
  have := g3 0 (by norm_num)
  rw [e] at this
  rcases this (exTetra_good (by norm_num) (by norm_num)) with ⟨i, l, k1, -, k2⟩ | ⟨-, -, k⟩
  swap
  · exact absurd exTetra_material.2.2.1 (k _ rfl exTetra_material.1 exTetra_material.2.1)
  obtain ⟨cs, segs, -, -, -, hfill, -, lines, ll, hperm, hfa, hend, hmat⟩ := k2
  have step : fillStep wholeSettings.fillDensity wholeSettings.gs.lineWidth = XR.fin 1 := by
    have a1 : wholeSettings.gs.lineWidth = XR.fin 1 := rfl
    have a2 : wholeSettings.fillDensity = 100 := rfl
    unfold fillStep
    rw [a1, a2, XR.lit_def, XR.ofInt_def, XR.fin_div (by norm_num), XR.fin_mul]
    norm_num
  have planes : calcFillPlanes (rmesh exTetra) wholeSettings = (calcFillPlanesCommon (rmesh exTetra) R3.ex.vec (XR.fin 1), calcFillPlanesCommon (rmesh exTetra) R3.ex.vec (XR.fin 1)) := by
    have a1 : wholeSettings.gs.lineWidth = XR.fin 1 := rfl
    have a3 : wholeSettings.fillingType = "Lines" := rfl
    unfold calcFillPlanes calcFillFullPlane calcFillPlanesLines
    rw [if_pos a3, step, a1, axisX_vec]
  obtain ⟨k₀, n₀, r, hr, he, hlo, hhi⟩ := C45_grid (exTetra_fill 1 le_rfl) R3.ex
  have r4 : (4 : ℝ) ≤ r := by
    have := (hr ⟨4, 0, 0⟩ (by simp [allVerts, RTri.verts, exTetra])).1
    simpa using this
  obtain ⟨c, hc⟩ : ∃ c : ℕ, k₀ + c = 1 := ⟨(1 - k₀).toNat, by
    have : k₀ ≤ 1 := by
      have : (k₀ : ℝ) ≤ 1 := by linarith
      exact_mod_cast this
    omega⟩
  have cn : c < n₀ := by
    have : (1 : ℝ) < k₀ + n₀ := by linarith
    have : (1 : ℤ) < k₀ + n₀ := by exact_mod_cast this
    omega
  have pm : planeOf ((⟨1, 0, 0⟩, R3.ex) : R3 × R3) ∈ calcFillPlanesCommon (rmesh exTetra) R3.ex.vec (XR.fin 1) := by
    rw [he]
    refine List.mem_map.2 ⟨c, List.mem_range.2 cn, ?_⟩
    have : ((k₀ : ℝ) + c) = 1 := by exact_mod_cast hc
    unfold planeOf
    congr 2
    rw [this]
    apply R3.ext <;> simp [R3.ex]
  have back : ∀ fs : List (R3 × R3), calcFillPlanesCommon (rmesh exTetra) R3.ex.vec (XR.fin 1) = fs.map planeOf → ((⟨1, 0, 0⟩, R3.ex) : R3 × R3) ∈ fs := by
    intro fs hfs
    rw [hfs] at pm
    obtain ⟨f, hf, e⟩ := List.mem_map.1 pm
    obtain ⟨e1, e2⟩ := Plane.mk.inj e
    have : f = (⟨1, 0, 0⟩, R3.ex) := Prod.ext (R3.pt_inj e1) (R3.vec_inj e2)
    rwa [this] at hf
  rw [planes] at gp
  obtain ⟨gp1, gp2⟩ := Prod.mk.inj gp
  have fm : ((⟨1, 0, 0⟩, R3.ex) : R3 × R3) ∈ planesOfLayer wholeSettings sparse full layers.length i := by
    unfold planesOfLayer
    split
    · exact back _ gp2
    · exact back _ gp1
  have exx : R3.ex = ⟨1, 0, 0⟩ := rfl
  obtain ⟨s, hs, -, -⟩ := (hmat _ fm rfl (by rw [exx]; intro h; simpa using congrArg R3.x h) exTetra_material.2.2.2).2 ⟨1, 1 / 2, 1⟩ rfl
    (by simp [R3.height, R3.dot, R3.ex]) exTetra_material.1 exTetra_material.2.1 exTetra_material.2.2.1
  have x1 : ∀ w, w = s.1 ∨ w = s.2 → w.x = 1 := by
    intro w hw
    have := (hend _ fm s hs w hw).1
    simp [R3.height, R3.dot, R3.ex] at this
    linarith
  have sl : s ∈ ll := hperm.mem_iff.2 (List.mem_flatMap.2 ⟨_, fm, hs⟩)
  obtain ⟨u, hu, hus⟩ : ∃ u ∈ segs, u = s ∨ u = s.swap := by
    obtain ⟨u, hu, h⟩ := forall₂_back hfa sl
    exact ⟨u, hu, h⟩
  refine ⟨l, List.mem_of_getElem? k1, u.1, u.2, by rw [hfill]; exact List.mem_map.2 ⟨u, hu, rfl⟩, ?_⟩
  rcases hus with rfl | rfl
  · exact x1 _ (Or.inl rfl)
  · exact x1 _ (Or.inr rfl)

/-- **C128 is violated** by other displacements: the fill lines stay at the multiples of their distance. Moved by half the distance, the
tetrahedron is filled at other places. -/
theorem C128_violated : ∃ (ts : List RTri) (v : R3) (sett : Settings XR), v.OnGrid8 ∧ sett.supportsOn = false ∧ sett.fillingType = "Lines" ∧
    (∀ r ∈ ts, r.small) ∧ (∀ r ∈ movedModel v ts, r.small) ∧ Watertight ts ∧
    ∀ (S : Sorter) (A : Arrival XR), sliceByVectorToGcode S A (rmesh (movedModel v ts)) (⟨0, 0, 1⟩ : R3).vec sett ≠
      (sliceByVectorToGcode S A (rmesh ts) (⟨0, 0, 1⟩ : R3).vec sett).map (movedProgram v) := by
  have small : ∀ c : ℝ, |c| ≤ 5 → |c| ≤ roundLimit := fun c h => h.trans (by unfold roundLimit; norm_num)
  have s1 : ∀ r ∈ exTetra, r.small := by
    intro r hr
    simp only [exTetra, List.mem_cons, List.not_mem_nil, or_false] at hr
    rcases hr with rfl | rfl | rfl | rfl <;> refine ⟨⟨?_, ?_, ?_⟩, ⟨?_, ?_, ?_⟩, ⟨?_, ?_, ?_⟩⟩ <;> apply small <;> norm_num
  have s2 : ∀ r ∈ movedModel ⟨1 / 2, 0, 0⟩ exTetra, r.small := by
    intro r hr
    simp only [movedModel, RTri.map, exTetra, List.map_cons, List.map_nil, List.mem_cons, List.not_mem_nil, or_false] at hr
    rcases hr with rfl | rfl | rfl | rfl <;> refine ⟨⟨?_, ?_, ?_⟩, ⟨?_, ?_, ?_⟩, ⟨?_, ?_, ?_⟩⟩ <;> apply small <;> simp <;> norm_num
  refine ⟨exTetra, ⟨1 / 2, 0, 0⟩, wholeSettings, ⟨⟨50000000, by norm_num⟩, ⟨0, by simp⟩, ⟨0, by simp⟩⟩, rfl, rfl, s1, s2, exTetra_ok.1, ?_⟩
  intro S A h
  obtain ⟨layers, g, l, hl, a, b, hab, ha⟩ := tetra_line S A
  rw [g] at h
  have := fill_at_whole S A (movedModel ⟨1 / 2, 0, 0⟩ exTetra) (by simp [movedModel, exTetra]) s2 ⟨0, 0, 1⟩ (by intro h; simpa using congrArg R3.z h)
    wholeSettings rfl rfl rfl rfl (layers.map (movedFilled ⟨1 / 2, 0, 0⟩)) h _ (List.mem_map.2 ⟨l, hl, rfl⟩) _
    (List.mem_map.2 ⟨_, hab, rfl⟩) (a + ⟨1 / 2, 0, 0⟩) (by
      simp only [Path.mapP, rpath, List.map_cons, List.map_nil, shift_pt, List.mem_cons, true_or])
  obtain ⟨k, hk⟩ := this
  have hk : (1 : ℝ) + 1 / 2 = k := by rw [← hk, ← ha]; rfl
  have : (3 : ℤ) = 2 * k := by
    have : (3 : ℝ) = 2 * k := by linarith
    exact_mod_cast this
  omega

/-! Non-vacuity: the tetrahedron with a side at `x = 1/2`, filled at whole numbers, moved by `(3, 1/4, -2)`. -/

/-- the tetrahedron a half to the right -/
noncomputable def halfTetra : List RTri :=
  [⟨⟨1 / 2, 0, 0⟩, ⟨1 / 2, 4, 0⟩, ⟨9 / 2, 0, 0⟩⟩, ⟨⟨1 / 2, 0, 0⟩, ⟨9 / 2, 0, 0⟩, ⟨1 / 2, 0, 4⟩⟩, ⟨⟨9 / 2, 0, 0⟩, ⟨1 / 2, 4, 0⟩, ⟨1 / 2, 0, 4⟩⟩,
    ⟨⟨1 / 2, 4, 0⟩, ⟨1 / 2, 0, 0⟩, ⟨1 / 2, 0, 4⟩⟩]

theorem halfTetra_verts : ∀ w ∈ allVerts halfTetra, w = ⟨1 / 2, 0, 0⟩ ∨ w = ⟨9 / 2, 0, 0⟩ ∨ w = ⟨1 / 2, 4, 0⟩ ∨ w = ⟨1 / 2, 0, 4⟩ := by
  intro w hw
  simp only [allVerts, RTri.verts, halfTetra, List.flatMap_cons, List.flatMap_nil, List.append_nil, List.mem_cons, List.cons_append,
    List.nil_append, List.not_mem_nil, or_false] at hw
  rcases hw with h | h | h | h | h | h | h | h | h | h | h | h <;> simp [h]

theorem halfTetra_clear : ClearOfSides halfTetra 1 := by
  have far : ∀ k c : ℤ, (1 : ℝ) / 10 ^ 8 ≤ |(k : ℝ) * 1 - ((c : ℝ) + 1 / 2)| := by
    intro k c
    have : (1 : ℝ) / 2 ≤ |(k : ℝ) * 1 - ((c : ℝ) + 1 / 2)| := by
      rcases le_or_gt k c with h | h
      · have : (k : ℝ) ≤ c := by exact_mod_cast h
        rw [abs_of_nonpos (by linarith)]; linarith
      · have : (c : ℝ) + 1 ≤ k := by exact_mod_cast h
        rw [abs_of_nonneg (by linarith)]; linarith
    refine le_trans ?_ this
    norm_num
  intro w hw _ k
  have e : (9 : ℝ) / 2 = ((4 : ℤ) : ℝ) + 1 / 2 := by norm_num
  have e0 : (1 : ℝ) / 2 = ((0 : ℤ) : ℝ) + 1 / 2 := by norm_num
  rcases halfTetra_verts w hw with rfl | rfl | rfl | rfl
  · show _ ≤ |_ - (1 : ℝ) / 2|; rw [e0]; exact far k 0
  · show _ ≤ |_ - (9 : ℝ) / 2|; rw [e]; exact far k 4
  · show _ ≤ |_ - (1 : ℝ) / 2|; rw [e0]; exact far k 0
  · show _ ≤ |_ - (1 : ℝ) / 2|; rw [e0]; exact far k 0

example (A : Arrival XR) :
    sliceByVectorToGcode Sorter.insertion A (rmesh (movedModel ⟨3, 1 / 4, -2⟩ halfTetra)) (⟨0, 0, 1⟩ : R3).vec { exampleSettings 4 with fillDensity := 100 } =
      (sliceByVectorToGcode Sorter.insertion A (rmesh halfTetra) (⟨0, 0, 1⟩ : R3).vec { exampleSettings 4 with fillDensity := 100 }).map
        (movedProgram ⟨3, 1 / 4, -2⟩) := by
  have n : ⌈((4 : ℝ) - 0) / 4⌉ = 1 := by norm_num
  have lv : levelOf 0 4 1 0 • (⟨0, 0, 1⟩ : R3) = ⟨0, 0, 2⟩ := by apply R3.ext <;> simp [levelOf]; norm_num
  have step : (100 : ℝ) / ((100 : ℤ) : ℝ) * 1 = 1 := by norm_num
  have free : ∀ k : ℤ, TieFree (k / 2) := fun k j h => by
    have : (k : ℝ) * 10 ^ 8 = 2 * j + 1 := by field_simp at h; linarith
    have : k * 10 ^ 8 = 2 * j + 1 := by exact_mod_cast this
    omega
  have ext : Extent halfTetra (⟨0, 0, 1⟩ : R3) 0 4 := by
    refine ⟨⟨⟨⟨1 / 2, 0, 0⟩, by simp [allVerts, RTri.verts, halfTetra], by simp [R3.dot]⟩, ?_⟩,
      ⟨⟨1 / 2, 0, 4⟩, by simp [allVerts, RTri.verts, halfTetra], by simp [R3.dot]⟩, ?_⟩ <;>
      (rintro x ⟨w, hw, rfl⟩; rcases halfTetra_verts w hw with rfl | rfl | rfl | rfl <;> simp [R3.dot])
  refine C128_place_partial Sorter.insertion insertion_natural A halfTetra ⟨0, 0, 1⟩ (by intro h; simpa using congrArg R3.z h) ⟨3, 1 / 4, -2⟩
    ⟨⟨3 * 10 ^ 8, by norm_num⟩, ⟨25000000, by norm_num⟩, ⟨-2 * 10 ^ 8, by norm_num⟩⟩ _ 0 4 4 (by rw [upUnit]; exact ext) ?_ ?_ rfl rfl
    (by norm_num) (by rw [n]; norm_num) ?_ (by show "Lines" ≠ _; decide) (by show "Lines" ≠ _; decide) 1 rfl (by norm_num) (by show (100 : ℤ) ≠ 0; decide)
    (by show _ ≤ (100 : ℝ) / ((100 : ℤ) : ℝ) * 1; rw [step]; norm_num) 3 3 (by norm_num) (by show _ = _ * ((100 : ℝ) / ((100 : ℤ) : ℝ) * 1); rw [step]; norm_num)
    halfTetra_clear (by show ClearOfSides _ ((100 : ℝ) / ((100 : ℤ) : ℝ) * 1); rw [step]; exact halfTetra_clear)
  · intro r hr
    simp only [halfTetra, List.mem_cons, List.not_mem_nil, or_false] at hr
    rcases hr with rfl | rfl | rfl | rfl <;> refine ⟨⟨?_, ?_, ?_⟩, ⟨?_, ?_, ?_⟩, ⟨?_, ?_, ?_⟩⟩ <;> (norm_num [roundLimit]; try (rw [abs_le]; constructor <;> norm_num))
  · intro r hr
    simp only [movedModel, RTri.map, halfTetra, List.map_cons, List.map_nil, List.mem_cons, List.not_mem_nil, or_false] at hr
    rcases hr with rfl | rfl | rfl | rfl <;> refine ⟨⟨?_, ?_, ?_⟩, ⟨?_, ?_, ?_⟩, ⟨?_, ?_, ?_⟩⟩ <;> simp [roundLimit] <;> norm_num [abs_le]
  · rw [n, upUnit]
    intro m hm w hw
    obtain rfl : m = 0 := by simpa using hm
    have : (1 : ℤ).toNat = 1 := rfl
    rw [this, lv] at hw
    obtain ⟨e, he, hne, ⟨t, t0, t1, rfl⟩, hp⟩ := hw
    have f0 : TieFree 0 := by simpa using free 0
    have f1 : TieFree (1 / 2) := by simpa using free 1
    have f2 : TieFree 2 := by have := free 4; norm_num at this; exact this
    have f5 : TieFree (5 / 2) := by simpa using free 5
    simp only [dirEdges, RTri.edges, halfTetra, List.flatMap_cons, List.flatMap_nil, List.mem_append, List.mem_cons, List.not_mem_nil, or_false] at he
    have low : ∀ {a b : R3}, a.z = 0 → b.z = 0 → R3.onPlane ⟨0, 0, 2⟩ ⟨0, 0, 1⟩ (a + t • (b - a)) → False := by
      intro a b ha hb h
      simp [R3.onPlane, R3.height, R3.dot, ha, hb] at h
    have mid : ∀ {a b : R3}, (a.z = 0 ∧ b.z = 4) ∨ (a.z = 4 ∧ b.z = 0) → R3.onPlane ⟨0, 0, 2⟩ ⟨0, 0, 1⟩ (a + t • (b - a)) → t = 1 / 2 := by
      intro a b hab h
      rcases hab with ⟨ha, hb⟩ | ⟨ha, hb⟩ <;> simp [R3.onPlane, R3.height, R3.dot, ha, hb] at h <;> linarith
    rcases he with (rfl | rfl | rfl) | (rfl | rfl | rfl) | (rfl | rfl | rfl) | (rfl | rfl | rfl)
    all_goals first
      | exact (low rfl rfl hp).elim
      | (obtain rfl := mid (Or.inl ⟨rfl, rfl⟩) hp
         refine ⟨?_, ?_, ?_⟩ <;> norm_num <;> first | exact f0 | exact f1 | exact f2 | exact f5)
      | (obtain rfl := mid (Or.inr ⟨rfl, rfl⟩) hp
         refine ⟨?_, ?_, ?_⟩ <;> norm_num <;> first | exact f0 | exact f1 | exact f2 | exact f5)

end Goosli
