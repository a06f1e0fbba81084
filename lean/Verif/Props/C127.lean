import Verif.Props.C10
import Verif.Props.C15
import Verif.Proofs.Cut
/-!
# C127: the place of the model does not change its layers
-/
set_option autoImplicit false
namespace Goosli
open Flt

/-! ## Spec -/

/-- the sorter looks at the elements only through the comparison -/
def Sorter.Natural (S : Sorter) : Prop := ∀ {β γ : Type} (f : β → γ) (less : β → β → Bool) (less' : γ → γ → Bool) (l : List β),
  (∀ a ∈ l, ∀ b ∈ l, less' (f a) (f b) = less a b) → S.run less' (l.map f) = (S.run less l).map f

/-- a path with every point replaced -/
def Path.mapP {α : Type} (f : Point α → Point α) (p : Path α) : Path α := ⟨p.points.map f⟩

/-- a layer moved by `v` -/
noncomputable def movedLayer (v : R3) (l : Layer XR) : Layer XR := { l with paths := l.paths.map (Path.mapP fun p => p.shift v.vec) }

/-- the model moved by `v` -/
def movedModel (v : R3) (ts : List RTri) : List RTri := ts.map fun r => r.map (· + v)

/-- a multiple of `1e-8` -/
def OnGrid8 (x : ℝ) : Prop := ∃ k : ℤ, x = k / 10 ^ 8

/-- not in the middle between two multiples of `1e-8` -/
def TieFree (x : ℝ) : Prop := ∀ k : ℤ, x ≠ (k + 1 / 2) / 10 ^ 8

/-- where a side of a face meets the plane -/
def SectionPoint (P N : R3) (ts : List RTri) (w : R3) : Prop := ∃ e ∈ dirEdges ts, crosses P N e.1 e.2 w

/-- height of the plane of layer number `m` of `n` -/
noncomputable def levelOf (lo hi : ℝ) (n m : ℕ) : ℝ := lo + (m + 1 / 2) * ((hi - lo) / n)

/-! ## Sorting and joining look at differences only -/

namespace InsSort
theorem ins_map {β γ : Type} (f : β → γ) (less : β → β → Bool) (less' : γ → γ → Bool) (x : β) (l : List β)
    (h : ∀ a ∈ l, less' (f a) (f x) = less a x) : ins less' (f x) (l.map f) = (ins less x l).map f := by
  induction l with
  | nil => rfl
  | cons y t ih =>
    simp only [List.map_cons, ins, h y List.mem_cons_self]
    split
    · rw [ih fun a ha => h a (List.mem_cons_of_mem _ ha)]; rfl
    · rfl
end InsSort

theorem insertion_natural : Sorter.insertion.Natural := by
  intro β γ f less less' l h
  show InsSort.sort less' (l.map f) = (InsSort.sort less l).map f
  induction l with
  | nil => rfl
  | cons x t ih =>
    have ih := ih fun a ha b hb => h a (List.mem_cons_of_mem _ ha) b (List.mem_cons_of_mem _ hb)
    simp only [List.map_cons, InsSort.sort]
    rw [ih]
    apply InsSort.ins_map
    intro a ha
    exact h a (List.mem_cons_of_mem _ ((InsSort.sort_perm less t).mem_iff.1 ha)) x List.mem_cons_self

section
variable {α : Type} [Flt α] (f : Point α → Point α)

theorem goAt_map {β γ : Type} (g : β → γ) (l : List β) (i : ℕ) : goAt (l.map g) i = (goAt l i).map g := by
  unfold goAt
  rw [List.getElem?_map]
  cases l[i]? <;> rfl

theorem goLast_map {β γ : Type} (g : β → γ) (l : List β) : goLast (l.map g) = (goLast l).map g := by
  unfold goLast
  rw [List.getLast?_map]
  cases l.getLast? <;> rfl

theorem goTail_map {β γ : Type} (g : β → γ) (l : List β) : goTail (l.map g) = (goTail l).map (List.map g) := by
  cases l <;> rfl

theorem goInit_map {β γ : Type} (g : β → γ) (l : List β) : goInit (l.map g) = (goInit l).map (List.map g) := by
  cases l with
  | nil => rfl
  | cons x t =>
    show Except.ok _ = Except.ok _
    rw [List.map_dropLast]

theorem tryJoin_map (hE : ∀ p q, (f p).equal (f q) = p.equal q) (p q : Path α) :
    tryJoin (p.mapP f) (q.mapP f) = (tryJoin p q).map (Option.map (Path.mapP f)) := by
  unfold tryJoin Path.mapP
  simp only [goLast_map, goAt_map, goTail_map]
  cases goLast p.points with
  | error e => rfl
  | ok l1 =>
  cases goAt q.points 0 with
  | error e => rfl
  | ok f2 =>
  simp only [Except.map, bind, Except.bind, hE]
  by_cases c : l1.equal f2 = true
  · simp only [c, if_true]
    cases goTail q.points with
    | error e => rfl
    | ok x => simp [pure, Except.pure]
  · simp only [c, Bool.false_eq_true, if_false]
    cases goLast q.points with
    | error e => rfl
    | ok l2 =>
    cases goAt p.points 0 with
    | error e => rfl
    | ok f1 =>
    simp only [hE]
    by_cases c : l2.equal f1 = true
    · simp only [c, if_true]
      cases goTail p.points with
      | error e => rfl
      | ok x => simp [pure, Except.pure]
    · simp only [c, Bool.false_eq_true, if_false]
      rfl

/-- the entry of the sorted slice with its point replaced -/
def SortP.mapP (s : SortP α) : SortP α := ⟨f s.p, s.ind⟩

theorem sortPs_map : ∀ (ps : List (Path α)) (i : ℕ), sortPs i (ps.map (Path.mapP f)) = (sortPs i ps).map (List.map (SortP.mapP f)) := by
  intro ps
  induction ps with
  | nil => intro i; rfl
  | cons p ps ih =>
    intro i
    rw [List.map_cons, sortPs, sortPs, ih]
    simp only [Path.mapP, goAt_map, goLast_map]
    cases goAt p.points 0 with
    | error e => rfl
    | ok x =>
    cases goLast p.points with
    | error e => rfl
    | ok y =>
    simp only [Except.map, bind, Except.bind]
    cases sortPs (i + 1) ps with
    | error e => rfl
    | ok z => rfl

/-- the state of the loop with every point replaced -/
def JState.mapP (st : JState α) : JState α := ⟨st.p.map (Path.mapP f), st.w⟩

theorem joinStep_map (hE : ∀ p q, (f p).equal (f q) = p.equal q) (st : JState α) (b c : SortP α) :
    joinStep (st.mapP f) (b.mapP f) (c.mapP f) = (joinStep st b c).map (JState.mapP f) := by
  unfold joinStep
  simp only [JState.mapP, SortP.mapP, hE, goAt_map]
  split_ifs with h
  swap
  · rfl
  cases findRoot st.w st.w.length b.ind with
  | error e => rfl
  | ok j1 =>
  simp only [bind, Except.bind]
  cases goAt st.p j1 with
  | error e => rfl
  | ok p1 =>
  simp only [Except.map]
  cases findRoot st.w st.w.length c.ind with
  | error e => rfl
  | ok j2 =>
  simp only
  split_ifs with hj
  · rfl
  cases goAt st.p j2 with
  | error e => rfl
  | ok p2 =>
  simp only [tryJoin_map f hE]
  cases tryJoin p1 p2 with
  | error e => rfl
  | ok r =>
  cases r with
  | none => rfl
  | some r => simp [Except.map, pure, Except.pure, List.map_set, JState.mapP]

theorem joinLoop_map (hE : ∀ p q, (f p).equal (f q) = p.equal q) : ∀ (l : List (SortP α)) (st : JState α),
    joinLoop (l.map (SortP.mapP f)) (st.mapP f) = (joinLoop l st).map (JState.mapP f) := by
  intro l
  induction l with
  | nil => intro st; rfl
  | cons b l ih =>
    intro st
    cases l with
    | nil => rfl
    | cons c rest =>
      simp only [List.map_cons, joinLoop]
      rw [joinStep_map f hE]
      cases joinStep st b c with
      | error e => rfl
      | ok st' => exact ih st'

theorem joinCollect_map (st : JState α) : joinCollect (st.mapP f) = (joinCollect st).map (Path.mapP f) := by
  unfold joinCollect JState.mapP
  simp only
  rw [List.zip_map_left, List.zipIdx_map, List.filterMap_map, List.map_filterMap]
  apply List.filterMap_congr
  rintro ⟨⟨p, w⟩, i⟩ _
  simp only [Function.comp, Prod.map]
  by_cases h : w = i
  · simp [h]
  · simp [h]

theorem joinPaths3_map {S : Sorter} (hS : S.Natural) (hE : ∀ p q, (f p).equal (f q) = p.equal q)
    (hL : ∀ b c : SortP α, joinLess (b.mapP f) (c.mapP f) = joinLess b c) (ps : List (Path α)) :
    joinPaths3 S (ps.map (Path.mapP f)) = (joinPaths3 S ps).map (List.map (Path.mapP f)) := by
  unfold joinPaths3
  rw [sortPs_map]
  cases sortPs 0 ps with
  | error e => rfl
  | ok a =>
    simp only [Except.map, bind, Except.bind, List.length_map]
    rw [hS (SortP.mapP f) joinLess joinLess a fun b _ c _ => hL b c]
    have := joinLoop_map f hE (S.run joinLess a) ⟨ps, List.range ps.length⟩
    unfold JState.mapP at this
    simp only at this
    rw [this]
    cases joinLoop (S.run joinLess a) ⟨ps, List.range ps.length⟩ with
    | error e => rfl
    | ok st =>
      show Except.ok _ = Except.ok _
      rw [← joinCollect_map]
      rfl

/-! ## Minimising -/

/-- a line with its ends replaced -/
def Line.mapP (l : Line α) : Line α := ⟨f l.p1, f l.p2⟩

theorem setLast_map {β γ : Type} (g : β → γ) (l : List β) (x : β) : setLast (l.map g) (g x) = (setLast l x).map g := by
  simp [setLast, List.map_dropLast]

theorem minimizeLoop_map (hV : ∀ p q, (f p).vectorTo (f q) = p.vectorTo q) : ∀ (rest res : List (Point α)) (l1 : Line α),
    minimizeLoop (rest.map f) (res.map f) (l1.mapP f) = ((minimizeLoop rest res l1).1.map f, (minimizeLoop rest res l1).2.mapP f) := by
  have hC : ∀ l1 l2 : Line α, (l1.mapP f).isCollinear (l2.mapP f) = l1.isCollinear l2 := fun l1 l2 => by
    have e : ∀ l : Line α, (l.mapP f).toVector = l.toVector := fun l => hV l.p1 l.p2
    simp only [Line.isCollinear, e]
  intro rest
  induction rest with
  | nil => intro res l1; rfl
  | cons pt rest ih =>
    intro res l1
    have hc := hC l1 ⟨l1.p2, pt⟩
    simp only [List.map_cons, minimizeLoop]
    rw [show (⟨(l1.mapP f).p2, f pt⟩ : Line α) = (Line.mk l1.p2 pt).mapP f from rfl, hc]
    split_ifs
    · rw [setLast_map]
      exact ih (setLast res pt) ⟨l1.p1, pt⟩
    · rw [show res.map f ++ [f pt] = (res ++ [pt]).map f by simp]
      exact ih (res ++ [pt]) ⟨l1.p2, pt⟩

theorem isClosed_map (hE : ∀ p q, (f p).equal (f q) = p.equal q) (p : Path α) : (p.mapP f).isClosed = p.isClosed := by
  unfold Path.isClosed Path.mapP
  simp only [List.head?_map, List.getLast?_map, List.length_map]
  cases p.points.head? with
  | none => rfl
  | some a =>
    cases p.points.getLast? with
    | none => rfl
    | some b => simp only [Option.map_some, hE]

theorem minimizeClose_map (hE : ∀ p q, (f p).equal (f q) = p.equal q) (hV : ∀ p q, (f p).vectorTo (f q) = p.vectorTo q)
    (hN : ∀ p q, (Line.mk (f p) (f q)).len = (Line.mk p q).len) (res : List (Point α)) (l1 : Line α) :
    minimizeClose (res.map f) (l1.mapP f) = (minimizeClose res l1).map f := by
  match res with
  | [] => rfl
  | [_] => rfl
  | r0 :: r1 :: t =>
    have h1 := isClosed_map f hE ⟨r0 :: r1 :: t⟩
    have hC : (l1.mapP f).isCollinear ⟨f r0, f r1⟩ = l1.isCollinear ⟨r0, r1⟩ := by
      have e : ∀ l : Line α, (l.mapP f).toVector = l.toVector := fun l => hV l.p1 l.p2
      rw [show (⟨f r0, f r1⟩ : Line α) = (Line.mk r0 r1).mapP f from rfl]
      simp only [Line.isCollinear, e]
    unfold Path.mapP at h1
    simp only [List.map_cons] at h1
    simp only [List.map_cons, minimizeClose]
    rw [h1, hC, hN r0 r1, show (l1.mapP f).len = l1.len from hN l1.p1 l1.p2]
    split_ifs
    · rw [← List.map_cons, setLast_map]
    · have : (f r0 :: f r1 :: t.map f).dropLast.getLast? = ((r0 :: r1 :: t).dropLast.getLast?).map f := by
        rw [← List.getLast?_map, List.map_dropLast]; rfl
      rw [this]
      cases (r0 :: r1 :: t).dropLast.getLast? with
      | none => rfl
      | some x =>
        simp only [Option.map_some]
        rw [List.map_dropLast]; rfl
    · rfl
    · rfl

theorem minimizeLines_map (hE : ∀ p q, (f p).equal (f q) = p.equal q) (hV : ∀ p q, (f p).vectorTo (f q) = p.vectorTo q)
    (hN : ∀ p q, (Line.mk (f p) (f q)).len = (Line.mk p q).len) (p : Path α) : (p.mapP f).minimizeLines = p.minimizeLines.mapP f := by
  obtain ⟨pts⟩ := p
  match pts with
  | [] => rfl
  | [_] => rfl
  | [_, _] => rfl
  | p0 :: p1 :: p2 :: rest =>
    have h := minimizeLoop_map f hV (p2 :: rest) [p0, p1] ⟨p0, p1⟩
    have e : minimizeLoop (f p2 :: rest.map f) [f p0, f p1] ⟨f p0, f p1⟩ = _ := h
    unfold Path.mapP Path.minimizeLines
    simp only [List.map_cons]
    rw [e]
    simp only [minimizeClose_map f hE hV hN]

theorem joinMin_map {S : Sorter} (hS : S.Natural) (hE : ∀ p q, (f p).equal (f q) = p.equal q)
    (hL : ∀ b c : SortP α, joinLess (b.mapP f) (c.mapP f) = joinLess b c) (hV : ∀ p q, (f p).vectorTo (f q) = p.vectorTo q)
    (hN : ∀ p q, (Line.mk (f p) (f q)).len = (Line.mk p q).len) (ps : List (Path α)) :
    joinPaths3AndMinimize S (ps.map (Path.mapP f)) = (joinPaths3AndMinimize S ps).map (List.map (Path.mapP f)) := by
  unfold joinPaths3AndMinimize
  rw [joinPaths3_map f hS hE hL]
  cases joinPaths3 S ps with
  | error e => rfl
  | ok out =>
    show Except.ok _ = Except.ok _
    congr 1
    rw [List.map_map, List.map_map]
    apply List.map_congr_left
    intro p _
    exact minimizeLines_map f hE hV hN p

end

/-! ## Moving -/

theorem add_sub_same (x y : XR) (v : ℝ) : (x + XR.fin v) - (y + XR.fin v) = x - y := by
  cases x <;> cases y <;> first
    | rfl
    | (simp only [XR.fin_add, XR.fin_sub]; congr 1; ring)

theorem add_lt_same (x y : XR) (v : ℝ) : (x + XR.fin v <? y + XR.fin v) = (x <? y) := by
  cases x <;> cases y <;> first
    | rfl
    | (simp only [XR.fin_add, XR.fin_lt, add_lt_add_iff_right])

section
variable (v : R3)

theorem moved_equal (p q : Point XR) : (p.shift v.vec).equal (q.shift v.vec) = p.equal q := by
  simp only [Point.equal, Point.shift, R3.vec, add_sub_same]

theorem moved_vectorTo (p q : Point XR) : (p.shift v.vec).vectorTo (q.shift v.vec) = p.vectorTo q := by
  simp only [Point.vectorTo, Point.shift, R3.vec, add_sub_same]

theorem moved_len (p q : Point XR) : (Line.mk (p.shift v.vec) (q.shift v.vec)).len = (Line.mk p q).len := by
  simp only [Line.len, Point.shift, R3.vec, add_sub_same]

theorem moved_less (b c : SortP XR) : joinLess (b.mapP fun p => p.shift v.vec) (c.mapP fun p => p.shift v.vec) = joinLess b c := by
  simp only [joinLess, SortP.mapP, Point.shift, R3.vec, add_sub_same, add_lt_same]
end

theorem r8_move {x : ℝ} (h : TieFree x) (k : ℤ) : r8 (x + k / 10 ^ 8) = r8 x + k / 10 ^ 8 := by
  have whole : ∀ y, ∃ m : ℤ, r8 y = m / 10 ^ 8 := by
    intro y
    unfold r8
    split_ifs
    · exact ⟨_, rfl⟩
    · exact ⟨_, rfl⟩
  obtain ⟨m, hm⟩ := whole x
  obtain ⟨n, hn⟩ := whole (x + k / 10 ^ 8)
  have b1 := abs_le.1 (r8_bounds x)
  have b2 := abs_le.1 (r8_bounds (x + k / 10 ^ 8))
  rw [hm] at b1
  rw [hn] at b2
  have h8 : (0 : ℝ) < 10 ^ 8 := by norm_num
  have c1 : (m : ℝ) - x * 10 ^ 8 ≤ 1 / 2 ∧ -(1 / 2) ≤ (m : ℝ) - x * 10 ^ 8 := by
    constructor <;> [have := b1.2; have := b1.1] <;> norm_num at this ⊢ <;> linarith
  have c2 : (n : ℝ) - x * 10 ^ 8 - k ≤ 1 / 2 ∧ -(1 / 2) ≤ (n : ℝ) - x * 10 ^ 8 - k := by
    constructor <;> [have := b2.2; have := b2.1] <;> norm_num at this ⊢ <;> linarith
  have t1 : (m : ℝ) - x * 10 ^ 8 ≠ 1 / 2 := by
    intro e
    apply h (m - 1)
    rw [eq_div_iff h8.ne']
    push_cast
    linarith
  have t2 : (m : ℝ) - x * 10 ^ 8 ≠ -(1 / 2) := by
    intro e
    apply h m
    rw [eq_div_iff h8.ne']
    linarith
  have d1 : n - k - m < 1 := by
    have : ((n - k - m : ℤ) : ℝ) < 1 := by
      push_cast
      have := lt_of_le_of_ne c1.2 (Ne.symm t2)
      linarith [c2.1]
    exact_mod_cast this
  have d2 : -1 < n - k - m := by
    have : (-1 : ℝ) < ((n - k - m : ℤ) : ℝ) := by
      push_cast
      have := lt_of_le_of_ne c1.1 t1
      linarith [c2.2]
    exact_mod_cast this
  have : n = m + k := by omega
  rw [hm, hn, this]
  push_cast
  ring

/-- all coordinates can be rounded without a tie -/
def R3.TieFree (w : R3) : Prop := Goosli.TieFree w.x ∧ Goosli.TieFree w.y ∧ Goosli.TieFree w.z

/-- all coordinates are multiples of `1e-8` -/
def R3.OnGrid8 (w : R3) : Prop := Goosli.OnGrid8 w.x ∧ Goosli.OnGrid8 w.y ∧ Goosli.OnGrid8 w.z

theorem round8_move {w v : R3} (hw : w.TieFree) (hv : v.OnGrid8) : (w + v).round8 = w.round8 + v := by
  obtain ⟨⟨a, ha⟩, ⟨b, hb⟩, ⟨c, hc⟩⟩ := hv
  apply R3.ext
  · show r8 (w.x + v.x) = r8 w.x + v.x
    rw [ha, r8_move hw.1]
  · show r8 (w.y + v.y) = r8 w.y + v.y
    rw [hb, r8_move hw.2.1]
  · show r8 (w.z + v.z) = r8 w.z + v.z
    rw [hc, r8_move hw.2.2]

section
variable {P P' N v : R3}

theorem crosses_move (h : P'.dot N = P.dot N + v.dot N) (a b w : R3) : crosses P' N (a + v) (b + v) (w + v) ↔ crosses P N a b w := by
  have hh : ∀ w : R3, R3.height P' N (w + v) = R3.height P N w := by
    intro w
    simp only [R3.height, R3.dot, R3.sub_x, R3.sub_y, R3.sub_z, R3.add_x, R3.add_y, R3.add_z] at h ⊢
    linarith
  have hs : R3.onSegment (a + v) (b + v) (w + v) ↔ R3.onSegment a b w := by
    constructor
    · rintro ⟨t, t0, t1, e⟩
      refine ⟨t, t0, t1, ?_⟩
      have hx := congrArg R3.x e
      have hy := congrArg R3.y e
      have hz := congrArg R3.z e
      simp at hx hy hz
      apply R3.ext <;> simp <;> linarith
    · rintro ⟨t, t0, t1, rfl⟩
      exact ⟨t, t0, t1, by apply R3.ext <;> simp <;> ring⟩
  unfold crosses R3.onPlane
  rw [hh, hh, hh, hs]

theorem segment_move (h : P'.dot N = P.dot N + v.dot N) (a b : R3) :
    (Plane.mk P'.pt N.vec).intersectSegment (a + v).pt (b + v).pt =
      ((Plane.mk P.pt N.vec).intersectSegment a.pt b.pt).map fun p => p.shift v.vec := by
  ext q
  rw [intersectSegment_iff]
  constructor
  · rintro ⟨w, rfl, hc⟩
    have hw : w = (w - v) + v := by apply R3.ext <;> simp
    rw [hw, crosses_move h] at hc
    rw [(intersectSegment_iff P N a b (w - v).pt).2 ⟨_, rfl, hc⟩, Option.map_some, shift_pt, ← hw]
  · intro hq
    obtain ⟨p, hp, rfl⟩ := Option.map_eq_some_iff.1 hq
    obtain ⟨w, rfl, hc⟩ := (intersectSegment_iff P N a b p).1 hp
    exact ⟨w + v, shift_pt _ _, (crosses_move h a b w).2 hc⟩

theorem distinctPair_map {α : Type} [Flt α] (f : Point α → Point α) (hE : ∀ p q, (f p).equal (f q) = p.equal q) (a b : Option (Point α)) :
    Plane.distinctPair (a.map f) (b.map f) = (Plane.distinctPair a b).map fun q => (f q.1, f q.2) := by
  cases a with
  | none => rfl
  | some a =>
    cases b with
    | none => rfl
    | some b =>
      simp only [Option.map_some, Plane.distinctPair, hE]
      split_ifs <;> rfl

theorem chordEnds_move (h : P'.dot N = P.dot N + v.dot N) (r : RTri) :
    (Plane.mk P'.pt N.vec).chordEnds (r.map (· + v)).tri =
      ((Plane.mk P.pt N.vec).chordEnds r.tri).map fun q => (q.1.shift v.vec, q.2.shift v.vec) := by
  unfold Plane.chordEnds
  simp only [RTri.tri, RTri.map, segment_move h]
  simp only [distinctPair_map _ (moved_equal v)]
  cases Plane.distinctPair ((Plane.mk P.pt N.vec).intersectSegment r.a.pt r.b.pt) ((Plane.mk P.pt N.vec).intersectSegment r.b.pt r.c.pt) with
  | some x => rfl
  | none =>
    cases Plane.distinctPair ((Plane.mk P.pt N.vec).intersectSegment r.a.pt r.b.pt) ((Plane.mk P.pt N.vec).intersectSegment r.c.pt r.a.pt) <;> rfl

theorem section_move (h : P'.dot N = P.dot N + v.dot N) (hv : v.OnGrid8) (r : RTri) (hr : r.small) (hr' : (r.map (· + v)).small)
    (ht : ∀ e ∈ r.edges, ∀ w, crosses P N e.1 e.2 w → w.TieFree) :
    (Plane.mk P'.pt N.vec).intersectTriangle (r.map (· + v)).tri =
      ((Plane.mk P.pt N.vec).intersectTriangle r.tri).map (Line.mapP fun p => p.shift v.vec) := by
  unfold Plane.intersectTriangle
  rw [chordEnds_move h]
  cases hc : (Plane.mk P.pt N.vec).chordEnds r.tri with
  | none => rfl
  | some q =>
    obtain ⟨p, q⟩ := q
    obtain ⟨x, y, rfl, rfl, _, hcase⟩ := chordEnds_spec P N r.a r.b r.c _ _ _ hc
    have e1 : (r.a, r.b) ∈ r.edges := by simp [RTri.edges]
    have e2 : (r.b, r.c) ∈ r.edges := by simp [RTri.edges]
    have e3 : (r.c, r.a) ∈ r.edges := by simp [RTri.edges]
    have add_small : ∀ a b w : R3, R3.onSegment a b w → a.small → b.small → (a + v).small → (b + v).small → w.small ∧ (w + v).small := by
      rintro a b w hw ha hb ha' hb'
      refine ⟨small_of_onSegment hw ha hb, small_of_onSegment (a := a + v) (b := b + v) ?_ ha' hb'⟩
      obtain ⟨t, t0, t1, rfl⟩ := hw
      exact ⟨t, t0, t1, by apply R3.ext <;> simp <;> ring⟩
    have key : ∀ w, (crosses P N r.a r.b w ∨ crosses P N r.b r.c w ∨ crosses P N r.c r.a w) →
        (w.pt.shift v.vec).roundPlaces 8 = (w.pt.roundPlaces 8).shift v.vec := by
      intro w hw
      obtain ⟨⟨s1, s2⟩, tf⟩ : (w.small ∧ (w + v).small) ∧ w.TieFree := by
        rcases hw with hw | hw | hw
        · exact ⟨add_small _ _ _ hw.2.1 hr.1 hr.2.1 hr'.1 hr'.2.1, ht _ e1 w hw⟩
        · exact ⟨add_small _ _ _ hw.2.1 hr.2.1 hr.2.2 hr'.2.1 hr'.2.2, ht _ e2 w hw⟩
        · exact ⟨add_small _ _ _ hw.2.1 hr.2.2 hr.1 hr'.2.2 hr'.1, ht _ e3 w hw⟩
      rw [shift_pt, roundPlaces_pt _ s2, roundPlaces_pt _ s1, shift_pt, round8_move tf hv]
    have kx := key x (by rcases hcase with ⟨h1, _⟩ | ⟨h1, _⟩ | ⟨h1, _⟩; exacts [Or.inl h1, Or.inl h1, Or.inr (Or.inl h1)])
    have ky := key y (by rcases hcase with ⟨_, h1⟩ | ⟨_, h1⟩ | ⟨_, h1⟩; exacts [Or.inr (Or.inl h1), Or.inr (Or.inr h1), Or.inr (Or.inr h1)])
    have hn : (r.map (· + v)).tri.n = r.tri.n := by
      show R3.vec _ = R3.vec _
      congr 1
      apply R3.ext <;> simp [RTri.nrm, RTri.map, R3.cross]
    simp only [Option.map_some, kx, ky, moved_equal, moved_vectorTo, hn]
    split_ifs <;> rfl

end

/-! ## The sweep -/

theorem hi_move (r : RTri) (v u : R3) : (r.map (· + v)).hi u = r.hi u + v.dot u := by
  have e : ∀ w : R3, (w + v).dot u = w.dot u + v.dot u := fun w => by simp [R3.dot]; ring
  simp only [RTri.hi, RTri.map, e, max_add_add_right]

theorem lo_move (r : RTri) (v u : R3) : (r.map (· + v)).lo u = r.lo u + v.dot u := by
  have e : ∀ w : R3, (w + v).dot u = w.dot u + v.dot u := fun w => by simp [R3.dot]; ring
  simp only [RTri.lo, RTri.map, e, min_add_add_right]

theorem sweepStep_real (u : R3) (z : ℝ) (A R : List RTri) :
    sweepStep u.vec (XR.fin z) (A.map RTri.tri) (R.map RTri.tri) =
      (((A.filter fun r => decide (z ≤ r.hi u)) ++ R.takeWhile fun r => decide (r.lo u ≤ z)).map RTri.tri,
        (R.dropWhile fun r => decide (r.lo u ≤ z)).map RTri.tri) := by
  unfold sweepStep
  rw [List.filter_map, List.takeWhile_map, List.dropWhile_map, List.map_append]
  have e1 : (fun t : Triangle XR => XR.fin z ≤? t.maxZ u.vec) ∘ RTri.tri = fun r => decide (z ≤ r.hi u) := by
    funext r; simp only [Function.comp, maxZ_tri, XR.fin_le]
  have e2 : (fun t : Triangle XR => t.minZ u.vec ≤? XR.fin z) ∘ RTri.tri = fun r => decide (r.lo u ≤ z) := by
    funext r; simp only [Function.comp, minZ_tri, XR.fin_le]
  rw [e1, e2]

/-- the same job at the other place -/
def SameJob (u v : R3) (all : List RTri) (level : ℕ → ℝ) (j j' : Job XR) : Prop :=
  ∃ (m : ℕ) (w w' : R3) (L : List RTri), j = ⟨m, ⟨w.pt, u.vec⟩, L.map RTri.tri⟩ ∧ j' = ⟨m, ⟨w'.pt, u.vec⟩, (movedModel v L).map RTri.tri⟩ ∧
    w.dot u = level m ∧ w'.dot u = w.dot u + v.dot u ∧ ∀ r ∈ L, r ∈ all

theorem sweep_move (u s v : R3) (all : List RTri) (level : ℕ → ℝ) (hl : ∀ m, level (m + 1) = level m + s.dot u) :
    ∀ (k i : ℕ) (p p' : R3) (A R : List RTri), p.dot u = level i → p'.dot u = p.dot u + v.dot u → (∀ r ∈ A, r ∈ all) → (∀ r ∈ R, r ∈ all) →
    List.Forall₂ (SameJob u v all level) (sweep u.vec s.vec k i p.pt (A.map RTri.tri) (R.map RTri.tri))
      (sweep u.vec s.vec k i p'.pt ((movedModel v A).map RTri.tri) ((movedModel v R).map RTri.tri)) := by
  intro k
  induction k with
  | zero => intro i p p' A R _ _ _ _; exact List.Forall₂.nil
  | succ k ih =>
    intro i p p' A R h1 h2 hA hR
    have d : ∀ w : R3, w.pt.toVector.dot u.vec = XR.fin (w.dot u) := fun w => by
      rw [toVector_pt, dot_vec]
    simp only [sweep, d, sweepStep_real, shift_pt]
    set A' := (A.filter fun r => decide (p.dot u ≤ r.hi u)) ++ R.takeWhile fun r => decide (r.lo u ≤ p.dot u) with hA'
    set R' := R.dropWhile fun r => decide (r.lo u ≤ p.dot u) with hR'
    have eA : ((movedModel v A).filter fun r => decide (p'.dot u ≤ r.hi u)) ++ (movedModel v R).takeWhile (fun r => decide (r.lo u ≤ p'.dot u)) =
        movedModel v A' := by
      unfold movedModel
      rw [hA', List.filter_map, List.takeWhile_map, List.map_append]
      congr 2 <;> · congr 1; funext r; simp only [Function.comp, hi_move, lo_move, h2, add_le_add_iff_right]
    have eR : (movedModel v R).dropWhile (fun r => decide (r.lo u ≤ p'.dot u)) = movedModel v R' := by
      unfold movedModel
      rw [hR', List.dropWhile_map]
      congr 2; funext r; simp only [Function.comp, lo_move, h2, add_le_add_iff_right]
    rw [eA, eR]
    have mA : ∀ r ∈ A', r ∈ all := by
      intro r hr
      rcases List.mem_append.1 hr with h | h
      · exact hA r (List.mem_filter.1 h).1
      · exact hR r (List.takeWhile_subset _ h)
    have mR : ∀ r ∈ R', r ∈ all := fun r hr => hR r (List.dropWhile_subset _ hr)
    refine List.Forall₂.cons ⟨i, p, p', A', rfl, rfl, h1, h2, mA⟩ (ih (i + 1) (p + s) (p' + s) A' R' ?_ ?_ mA mR)
    · rw [hl, ← h1]; simp [R3.dot]; ring
    · have e : ∀ w : R3, (w + s).dot u = w.dot u + s.dot u := fun w => by simp [R3.dot]; ring
      rw [e, e, h2]; ring

theorem runJob_move {S : Sorter} (hS : S.Natural) {u v : R3} {all : List RTri} {level : ℕ → ℝ} (hv : v.OnGrid8)
    (hs : ∀ r ∈ all, r.small ∧ (r.map (· + v)).small) {j j' : Job XR} (hj : SameJob u v all level j j')
    (ht : ∀ w, SectionPoint (level j.order • u) u all w → w.TieFree) (hu : u.normSq = 1) :
    runJob S j' = (runJob S j).map (movedLayer v) := by
  obtain ⟨m, w, w', L, rfl, rfl, h1, h2, hL⟩ := hj
  have lev : (level m • u).dot u = w.dot u := by
    rw [h1]
    have : (level m • u).dot u = level m * u.normSq := by simp [R3.dot, R3.normSq]; ring
    rw [this, hu, mul_one]
  have paths : jobPaths (⟨m, ⟨w'.pt, u.vec⟩, (movedModel v L).map RTri.tri⟩ : Job XR) =
      (jobPaths (⟨m, ⟨w.pt, u.vec⟩, L.map RTri.tri⟩ : Job XR)).map (Path.mapP fun p => p.shift v.vec) := by
    unfold jobPaths movedModel
    simp only [List.filterMap_map, List.map_filterMap]
    apply List.filterMap_congr
    intro r hr
    simp only [Function.comp]
    obtain ⟨s1, s2⟩ := hs r (hL r hr)
    rw [section_move h2 hv r s1 s2]
    · cases (Plane.mk w.pt u.vec).intersectTriangle r.tri <;> rfl
    · intro e he x hx
      apply ht x
      refine ⟨e, List.mem_flatMap.2 ⟨r, hL r hr, he⟩, ?_⟩
      have := (crosses_move (P := level m • u) (P' := w) (N := u) (v := 0) (by rw [lev]; simp [R3.dot]) e.1 e.2 x)
      have z : ∀ a : R3, a + 0 = a := fun a => by apply R3.ext <;> simp
      rw [z, z, z] at this
      exact this.1 hx
  unfold runJob
  rw [paths, joinMin_map _ hS (moved_equal v) (moved_less v) (moved_vectorTo v) (moved_len v)]
  cases joinPaths3AndMinimize S (jobPaths (⟨m, ⟨w.pt, u.vec⟩, L.map RTri.tri⟩ : Job XR)) with
  | error e => rfl
  | ok ps => rfl

theorem trimEmpty_map (v : R3) (l : List (Layer XR)) : trimEmpty (l.map (movedLayer v)) = (trimEmpty l).map (List.map (movedLayer v)) := by
  have he : ∀ l : Layer XR, (movedLayer v l).paths.isEmpty = l.paths.isEmpty := fun l => by
    simp [movedLayer]
  have last : ∀ m : List (Layer XR), (do
      let last ← goLast (m.map (movedLayer v))
      if last.paths.isEmpty then goInit (m.map (movedLayer v)) else pure (m.map (movedLayer v)) : Go _) =
      (do
      let last ← goLast m
      if last.paths.isEmpty then goInit m else pure m : Go _).map (List.map (movedLayer v)) := by
    intro m
    rw [goLast_map, goInit_map]
    cases goLast m with
    | error e => rfl
    | ok x =>
      simp only [Except.map, bind, Except.bind, he]
      split_ifs <;> rfl
  unfold trimEmpty
  rw [goAt_map, goTail_map]
  cases goAt l 0 with
  | error e => rfl
  | ok x =>
    simp only [Except.map, bind, Except.bind, he]
    by_cases c : x.paths.isEmpty = true
    · simp only [c, if_true]
      cases goTail l with
      | error e => rfl
      | ok m => exact last m
    · simp only [c, Bool.false_eq_true, if_false]
      exact last l

theorem mapM_forall₂ {β γ β' γ' : Type} (f : β → Go γ) (f' : β' → Go γ') (g : γ → γ') (l : List β) (l' : List β')
    (h : List.Forall₂ (fun x x' => f' x' = (f x).map g) l l') : l'.mapM f' = (l.mapM f).map (List.map g) := by
  induction h with
  | nil => rfl
  | cons hx _ ih =>
    rename_i x x' l l' _
    rw [List.mapM_cons, List.mapM_cons, hx, ih]
    cases f x with
    | error e => rfl
    | ok y =>
      cases l.mapM f with
      | error e => rfl
      | ok z => rfl

theorem small_reach {w u : R3} (hw : w.small) (hu : u.normSq = 1) : |w.dot u| ≤ XR.maxF64R := by
  have big : 3 * roundLimit ≤ XR.maxF64R := by
    unfold XR.maxF64R roundLimit
    have h1 : (1 : ℝ) ≤ 2 ^ 983 := one_le_pow₀ (by norm_num)
    have e : (2 : ℝ) ^ 1023 = 2 ^ 983 * 2 ^ 40 := by rw [← pow_add]
    rw [e]
    have h2 : (1 : ℝ) ≤ 2 - 2⁻¹ ^ 52 := by norm_num
    generalize (2 : ℝ) ^ 983 = y at h1
    generalize (2 : ℝ) - 2⁻¹ ^ 52 = z at h2
    have h3 : 1 ≤ z * y := by nlinarith
    nlinarith
  have hu' : u.x * u.x + u.y * u.y + u.z * u.z = 1 := hu
  have ux : |u.x| ≤ 1 := abs_le.2 ⟨by nlinarith [sq_nonneg (u.x - 1), sq_nonneg u.y, sq_nonneg u.z], by nlinarith [sq_nonneg (u.x + 1), sq_nonneg u.y, sq_nonneg u.z]⟩
  have uy : |u.y| ≤ 1 := abs_le.2 ⟨by nlinarith [sq_nonneg (u.y - 1), sq_nonneg u.x, sq_nonneg u.z], by nlinarith [sq_nonneg (u.y + 1), sq_nonneg u.x, sq_nonneg u.z]⟩
  have uz : |u.z| ≤ 1 := abs_le.2 ⟨by nlinarith [sq_nonneg (u.z - 1), sq_nonneg u.y, sq_nonneg u.x], by nlinarith [sq_nonneg (u.z + 1), sq_nonneg u.y, sq_nonneg u.x]⟩
  have m : ∀ {a b : ℝ}, |a| ≤ roundLimit → |b| ≤ 1 → |a * b| ≤ roundLimit := fun {a b} ha hb => by
    rw [abs_mul]; nlinarith [abs_nonneg a, abs_nonneg b]
  have := m hw.1 ux
  have := m hw.2.1 uy
  have := m hw.2.2 uz
  calc |w.dot u| = |w.x * u.x + w.y * u.y + w.z * u.z| := rfl
    _ ≤ |w.x * u.x| + |w.y * u.y| + |w.z * u.z| := abs_add_three _ _ _
    _ ≤ _ := by linarith

theorem sortByMinZ_move {S : Sorter} (hS : S.Natural) (u v : R3) (ts : List RTri) : ∃ R : List RTri, (∀ r ∈ R, r ∈ ts) ∧
    sortByMinZ S u.vec (rmesh ts).triangles = R.map RTri.tri ∧ sortByMinZ S u.vec (rmesh (movedModel v ts)).triangles = (movedModel v R).map RTri.tri := by
  refine ⟨S.run (fun a b : RTri => decide (a.lo u < b.lo u)) ts, fun r hr => (S.perm _ _).mem_iff.1 hr, ?_, ?_⟩
  · unfold sortByMinZ rmesh
    apply hS
    intro a _ b _
    simp only [minZ_tri, XR.fin_lt]
  · unfold sortByMinZ rmesh movedModel
    simp only [List.map_map]
    apply hS
    intro a _ b _
    simp only [Function.comp, minZ_tri, XR.fin_lt, lo_move, add_lt_add_iff_right]

theorem extent_move {ts : List RTri} {u : R3} {lo hi : ℝ} (h : Extent ts u lo hi) (v : R3) :
    Extent (movedModel v ts) u (lo + v.dot u) (hi + v.dot u) := by
  have e : ∀ w : R3, (w + v).dot u = w.dot u + v.dot u := fun w => by simp [R3.dot]; ring
  have mv : allVerts (movedModel v ts) = (allVerts ts).map (· + v) := by
    unfold allVerts movedModel
    rw [List.flatMap_map, List.map_flatMap]
    rfl
  obtain ⟨⟨⟨w1, m1, h1⟩, l1⟩, ⟨w2, m2, h2⟩, l2⟩ := h
  refine ⟨⟨⟨w1 + v, by rw [mv]; exact List.mem_map.2 ⟨w1, m1, rfl⟩, by rw [e, h1]⟩, ?_⟩,
    ⟨w2 + v, by rw [mv]; exact List.mem_map.2 ⟨w2, m2, rfl⟩, by rw [e, h2]⟩, ?_⟩
  · rintro x ⟨w, hw, rfl⟩
    rw [mv] at hw
    obtain ⟨w', hw', rfl⟩ := List.mem_map.1 hw
    rw [e]
    linarith [l1 ⟨w', hw', rfl⟩]
  · rintro x ⟨w, hw, rfl⟩
    rw [mv] at hw
    obtain ⟨w', hw', rfl⟩ := List.mem_map.1 hw
    rw [e]
    linarith [l2 ⟨w', hw', rfl⟩]

theorem forall₂_mem {β γ : Type} {P Q : β → γ → Prop} {l : List β} {l' : List γ} (h : List.Forall₂ P l l')
    (hq : ∀ a b, a ∈ l → P a b → Q a b) : List.Forall₂ Q l l' := by
  induction h with
  | nil => exact .nil
  | cons h1 _ ih => exact .cons (hq _ _ (by simp) h1) (ih fun a b ha => hq a b (by simp [ha]))

/-- shift and first point of the sweep -/
theorem sweep_start {ts : List RTri} {u : R3} {lo hi t : ℝ} (he : Extent ts u lo hi) (hr : ∀ w ∈ allVerts ts, |w.dot u| ≤ XR.maxF64R)
    {n : ℕ} (hn : 0 < n) (hc : layerCountOf (rmesh ts) u.vec (XR.fin t) = n) :
    layerShift (rmesh ts) u.vec (XR.fin t) = (((hi - lo) / n) • u).vec ∧
    firstPoint (rmesh ts) u.vec (XR.fin t) = ((lo + 1 / 2 * ((hi - lo) / n)) • u).pt := by
  have hmm := minMaxZ_extent he hr
  have hn' : (n : ℝ) ≠ 0 := by exact_mod_cast hn.ne'
  have hsh : layerShift (rmesh ts) u.vec (XR.fin t) = (((hi - lo) / n) • u).vec := by
    unfold layerShift
    rw [hmm, hc]
    simp only [lit10, XR.ofInt_def, XR.fin_sub]
    rw [XR.fin_div (by push_cast; exact hn'), mulScalar_vec, mulScalar_vec]
    congr 1
    push_cast
    apply R3.ext <;> simp <;> field_simp
  refine ⟨hsh, ?_⟩
  unfold firstPoint
  rw [hmm, hsh, mulScalar_vec, toPoint_vec, XR.lit_def, mulScalar_vec, shift_pt]
  congr 1
  apply R3.ext <;> simp <;> ring

/-- **C127.** Moving a model by a multiple of `1e-8` in every coordinate moves its layers by the same amount and changes nothing else: the
same layers, with the same contours, with the same points in the same order; if one fails, so does the other.
The sorter may look at its elements only through the comparison, supports are off, and no point in which an edge of the model meets
one of the planes is in the middle between two multiples of `1e-8` (without the last condition it fails: `C127_violated`).
Missing from the full claim: models with such points, and supports. -/
theorem C127_place_partial (S : Sorter) (hS : S.Natural) (A : Arrival XR) (ts : List RTri) (d : R3) (hd : d ≠ 0) (v : R3) (hv : v.OnGrid8)
    (sett : Settings XR) (lo hi t : ℝ) (he : Extent ts d.unit lo hi) (hs : ∀ r ∈ ts, r.small) (hs' : ∀ r ∈ movedModel v ts, r.small)
    (h0 : sett.supportsOn = false) (hh : sett.layerHeight = XR.fin t) (t0 : 0 < t) (hb : ⌈(hi - lo) / t⌉ < 2 ^ 63)
    (hties : ∀ m < ⌈(hi - lo) / t⌉.toNat, ∀ w, SectionPoint (levelOf lo hi ⌈(hi - lo) / t⌉.toNat m • d.unit) d.unit ts w → w.TieFree) :
    sliceByVector S A (some (rmesh (movedModel v ts))) d.vec sett = (sliceByVector S A (some (rmesh ts)) d.vec sett).map (List.map (movedLayer v)) := by
  have u1 := R3.unit_ne hd
  set u := d.unit with hu
  have hne : ts ≠ [] := by
    rintro rfl
    obtain ⟨w, hw, _⟩ := he.1.1
    simp [allVerts] at hw
  have hne' : movedModel v ts ≠ [] := by simpa [movedModel] using hne
  have vs : ∀ ts : List RTri, (∀ r ∈ ts, r.small) → ∀ w ∈ allVerts ts, |w.dot u| ≤ XR.maxF64R := by
    intro ts hs w hw
    apply small_reach _ u1
    unfold allVerts at hw
    obtain ⟨r, hr, hw⟩ := List.mem_flatMap.1 hw
    obtain ⟨ha, hb, hc⟩ := hs r hr
    simp only [RTri.verts, List.mem_cons, List.not_mem_nil, or_false] at hw
    rcases hw with rfl | rfl | rfl <;> assumption
  have he' := extent_move he v
  have dif : hi + v.dot u - (lo + v.dot u) = hi - lo := by ring
  have hc := layerCountOf_eq he (vs ts hs) t0 hb
  have hc' := layerCountOf_eq he' (vs _ hs') t0 (by rw [dif]; exact hb)
  rw [dif] at hc'
  have c0 : 0 ≤ ⌈(hi - lo) / t⌉ := Int.ceil_nonneg (div_nonneg (by linarith [he.le]) t0.le)
  set n := ⌈(hi - lo) / t⌉.toNat with hn
  have hcn : ((n : ℕ) : ℤ) = ⌈(hi - lo) / t⌉ := Int.toNat_of_nonneg c0
  obtain ⟨R, hR, r1, r2⟩ := sortByMinZ_move hS u v ts
  have jobs : ∃ js js' : List (Job XR), sliceJobs S (rmesh ts) u.vec sett = .ok js ∧ sliceJobs S (rmesh (movedModel v ts)) u.vec sett = .ok js' ∧
      List.Forall₂ (fun j j' => runJob S j' = (runJob S j).map (movedLayer v)) js js' := by
    have form : ∀ ts : List RTri, layerCountOf (rmesh ts) u.vec (XR.fin t) = ⌈(hi - lo) / t⌉ → sliceJobs S (rmesh ts) u.vec sett =
        .ok (sweep u.vec (layerShift (rmesh ts) u.vec (XR.fin t)) n 0 (firstPoint (rmesh ts) u.vec (XR.fin t)) [] (sortByMinZ S u.vec (rmesh ts).triangles)) := by
      intro ts hc
      unfold sliceJobs supportsOf
      rw [hh, hc, if_neg (not_lt.2 c0), h0]
      rfl
    refine ⟨_, _, form ts hc, form _ hc', ?_⟩
    rcases Nat.eq_zero_or_pos n with h | h
    · rw [h]; exact List.Forall₂.nil
    · obtain ⟨s1, f1⟩ := sweep_start he (vs ts hs) h (by rw [hc, hcn])
      obtain ⟨s2, f2⟩ := sweep_start he' (vs _ hs') h (by rw [hc', hcn])
      rw [s1, s2, f1, f2, r1, r2, dif]
      have du : ∀ x : ℝ, (x • u).dot u = x := fun x => by
        have : (x • u).dot u = x * u.normSq := by simp [R3.dot, R3.normSq]; ring
        rw [this, u1, mul_one]
      have := sweep_move u (((hi - lo) / n) • u) v ts (levelOf lo hi n) (by
        intro m
        rw [du]
        unfold levelOf
        push_cast
        ring) n 0 ((lo + 1 / 2 * ((hi - lo) / n)) • u) ((lo + v.dot u + 1 / 2 * ((hi - lo) / n)) • u) [] R
        (by rw [du]; simp [levelOf]) (by rw [du, du]; ring) (by simp) hR
      have orders : ∀ j ∈ sweep u.vec (((hi - lo) / n) • u).vec n 0 ((lo + 1 / 2 * ((hi - lo) / n)) • u).pt [] (R.map RTri.tri), j.order < n := by
        have : ∀ (k i : ℕ) (p : Point XR) (a r : List (Triangle XR)), ∀ j ∈ sweep u.vec (((hi - lo) / n) • u).vec k i p a r, j.order < i + k := by
          intro k
          induction k with
          | zero => intro i p a r j hj; simp [sweep] at hj
          | succ k ih =>
            intro i p a r j hj
            simp only [sweep, List.mem_cons] at hj
            rcases hj with rfl | hj
            · simp
            · have := ih _ _ _ _ j hj; omega
        intro j hj
        have := this _ _ _ _ _ j hj
        omega
      simp only [List.map_nil, movedModel] at this
      refine forall₂_mem this ?_
      · intro j j' hm hj
        have ho := orders j hm
        exact runJob_move hS hv (fun r hr => ⟨hs r hr, hs' _ (List.mem_map.2 ⟨r, hr, rfl⟩)⟩) hj (hties j.order ho) u1
  obtain ⟨js, js', e1, e2, hf⟩ := jobs
  rw [sliceByVector_real S A _ hne', sliceByVector_real S A _ hne, e1, e2]
  show (js'.mapM (runJob S)).bind trimEmpty = ((js.mapM (runJob S)).bind trimEmpty).map _
  rw [mapM_forall₂ (runJob S) (runJob S) (movedLayer v) js js' hf]
  cases js.mapM (runJob S) with
  | error e => rfl
  | ok ls => exact trimEmpty_map v ls

/-! ## A model with a point in the middle -/

/-- an upright triangle with a vertical side at `x = a` -/
def tieTri (a b : ℝ) : RTri := ⟨⟨a, 0, 0⟩, ⟨b, 0, 0⟩, ⟨a, 0, 2⟩⟩

theorem tieTri_extent (a b : ℝ) : Extent [tieTri a b] (⟨0, 0, 1⟩ : R3) 0 2 := by
  refine ⟨⟨⟨⟨a, 0, 0⟩, by simp [allVerts, RTri.verts, tieTri], by simp [R3.dot]⟩, ?_⟩,
    ⟨⟨a, 0, 2⟩, by simp [allVerts, RTri.verts, tieTri], by simp [R3.dot]⟩, ?_⟩
  all_goals
    rintro x ⟨w, hw, rfl⟩
    simp only [allVerts, RTri.verts, tieTri, List.flatMap_cons, List.flatMap_nil, List.append_nil, List.mem_cons,
      List.not_mem_nil, or_false] at hw
    rcases hw with rfl | rfl | rfl <;> simp [R3.dot]

theorem tieTri_small {a b : ℝ} (ha : |a| ≤ 1 / 4) (hb : |b - 1| ≤ 1 / 4) : (tieTri a b).small := by
  have h2 : |b| ≤ roundLimit := by
    have := abs_le.1 hb
    rw [abs_le]; unfold roundLimit; constructor <;> linarith
  have h1 : |a| ≤ roundLimit := ha.trans (by unfold roundLimit; norm_num)
  have h0 : (0 : ℝ) ≤ roundLimit := by unfold roundLimit; norm_num
  have h3 : |(2 : ℝ)| ≤ roundLimit := by unfold roundLimit; norm_num
  refine ⟨⟨h1, ?_, ?_⟩, ⟨h2, ?_, ?_⟩, ⟨h1, ?_, h3⟩⟩ <;> simpa [tieTri] using h0

theorem tieTri_edges (a b : ℝ) : dirEdges [tieTri a b] =
    [(⟨a, 0, 0⟩, ⟨b, 0, 0⟩), (⟨b, 0, 0⟩, ⟨a, 0, 2⟩), (⟨a, 0, 2⟩, ⟨a, 0, 0⟩)] := rfl

/-- the section of the triangle -/
theorem tieTri_section {a b : ℝ} (ha : |a| ≤ 1 / 4) (hb : |b - 1| ≤ 1 / 4) :
    (Plane.mk (⟨0, 0, 1⟩ : R3).pt (⟨0, 0, 1⟩ : R3).vec).intersectTriangle (tieTri a b).tri =
      some ⟨(⟨(a + b) / 2, 0, 1⟩ : R3).round8.pt, (⟨a, 0, 1⟩ : R3).round8.pt⟩ := by
  obtain ⟨a1, a2⟩ := abs_le.1 ha
  obtain ⟨b1, b2⟩ := abs_le.1 hb
  have sm : ∀ w ∈ allVerts [tieTri a b], w.small := by
    obtain ⟨h1, h2, h3⟩ := tieTri_small ha hb
    intro w hw
    simp only [allVerts, RTri.verts, List.flatMap_cons, List.flatMap_nil, List.append_nil, List.mem_cons, List.not_mem_nil, or_false] at hw
    rcases hw with rfl | rfl | rfl <;> assumption
  have n1 : ¬ (ascends (⟨0, 0, 1⟩ : R3) ⟨0, 0, 1⟩ (⟨a, 0, 0⟩, ⟨b, 0, 0⟩)) := by simp [ascends, R3.height, R3.dot]
  have n1' : ¬ (descends (⟨0, 0, 1⟩ : R3) ⟨0, 0, 1⟩ (⟨a, 0, 0⟩, ⟨b, 0, 0⟩)) := by simp [descends, R3.height, R3.dot]
  have y2 : ascends (⟨0, 0, 1⟩ : R3) ⟨0, 0, 1⟩ (⟨b, 0, 0⟩, ⟨a, 0, 2⟩) := by constructor <;> simp [R3.height, R3.dot] <;> norm_num
  have n2 : ¬ descends (⟨0, 0, 1⟩ : R3) ⟨0, 0, 1⟩ (⟨b, 0, 0⟩, ⟨a, 0, 2⟩) := by simp [descends, R3.height, R3.dot]
  have n3 : ¬ ascends (⟨0, 0, 1⟩ : R3) ⟨0, 0, 1⟩ (⟨a, 0, 2⟩, ⟨a, 0, 0⟩) := by simp [ascends, R3.height, R3.dot]
  have y3 : descends (⟨0, 0, 1⟩ : R3) ⟨0, 0, 1⟩ (⟨a, 0, 2⟩, ⟨a, 0, 0⟩) := by constructor <;> simp [R3.height, R3.dot] <;> norm_num
  have c2 : crossAt (⟨0, 0, 1⟩ : R3) ⟨0, 0, 1⟩ (⟨b, 0, 0⟩, ⟨a, 0, 2⟩) = ⟨(a + b) / 2, 0, 1⟩ := by
    apply R3.ext <;> simp [crossAt, R3.height, R3.dot] <;> ring
  have c3 : crossAt (⟨0, 0, 1⟩ : R3) ⟨0, 0, 1⟩ (⟨a, 0, 2⟩, ⟨a, 0, 0⟩) = ⟨a, 0, 1⟩ := by
    apply R3.ext <;> simp [crossAt, R3.height, R3.dot] <;> norm_num
  have apart : 101 / 10 ^ 8 ≤ |(a + b) / 2 - a| := by
    rw [abs_of_nonneg (by linarith)]; linarith
  have sep : WellSeparated (⟨0, 0, 1⟩ : R3) ⟨0, 0, 1⟩ [tieTri a b] := by
    have cr : ∀ e ∈ dirEdges [tieTri a b], (ascends (⟨0, 0, 1⟩ : R3) ⟨0, 0, 1⟩ e ∨ descends (⟨0, 0, 1⟩ : R3) ⟨0, 0, 1⟩ e) →
        e = (⟨b, 0, 0⟩, ⟨a, 0, 2⟩) ∨ e = (⟨a, 0, 2⟩, ⟨a, 0, 0⟩) := by
      intro e he hc
      rw [tieTri_edges] at he
      simp only [List.mem_cons, List.not_mem_nil, or_false] at he
      rcases he with rfl | h | h
      · exact absurd hc (not_or.2 ⟨n1, n1'⟩)
      · exact Or.inl h
      · exact Or.inr h
    intro e he f hf ce cf
    rcases cr e he ce with rfl | rfl <;> rcases cr f hf cf with rfl | rfl
    · exact ⟨Or.inl rfl, Or.inl rfl, Or.inl rfl, fun _ => Or.inl rfl⟩
    · rw [c2, c3]
      refine ⟨Or.inr apart, Or.inl rfl, Or.inl rfl, fun h => ?_⟩
      have : (a + b) / 2 = a := congrArg R3.x h
      linarith
    · rw [c2, c3]
      refine ⟨Or.inr (by rw [abs_sub_comm]; exact apart), Or.inl rfl, Or.inl rfl, fun h => ?_⟩
      have : a = (a + b) / 2 := congrArg R3.x h
      linarith
    · exact ⟨Or.inl rfl, Or.inl rfl, Or.inl rfl, fun _ => Or.inl rfl⟩
  have deg : (tieTri a b).nrm ≠ 0 := by
    intro h
    have := congrArg R3.y h
    simp [RTri.nrm, tieTri, R3.cross] at this
    linarith
  have off : ∀ w ∈ allVerts [tieTri a b], R3.height (⟨0, 0, 1⟩ : R3) ⟨0, 0, 1⟩ w ≠ 0 := by
    intro w hw
    simp only [allVerts, RTri.verts, tieTri, List.flatMap_cons, List.flatMap_nil, List.append_nil, List.mem_cons, List.not_mem_nil, or_false] at hw
    rcases hw with rfl | rfl | rfl <;> simp [R3.height, R3.dot] <;> norm_num
  have ed : (tieTri a b).edges = [(⟨a, 0, 0⟩, ⟨b, 0, 0⟩), (⟨b, 0, 0⟩, ⟨a, 0, 2⟩), (⟨a, 0, 2⟩, ⟨a, 0, 0⟩)] := rfl
  have up : ups (⟨0, 0, 1⟩ : R3) ⟨0, 0, 1⟩ (tieTri a b).edges = [(⟨b, 0, 0⟩, ⟨a, 0, 2⟩)] := by
    rw [ed, ups_cons_neg n1, ups_cons_pos y2, ups_cons_neg n3]; rfl
  have dn : downs (⟨0, 0, 1⟩ : R3) ⟨0, 0, 1⟩ (tieTri a b).edges = [(⟨a, 0, 2⟩, ⟨a, 0, 0⟩)] := by
    rw [ed, downs_cons_neg n1', downs_cons_neg n2, downs_cons_pos y3]; rfl
  rcases triangle_section (P := ⟨0, 0, 1⟩) (N := ⟨0, 0, 1⟩) (ts := [tieTri a b]) (t := tieTri a b) (by simp) sm off deg sep with ⟨_, h, _⟩ | ⟨e, f, h, h1, h2⟩
  · rw [up] at h; cases h
  · rw [up] at h1
    rw [dn] at h2
    cases h1
    cases h2
    rw [h, c2, c3]

/-- one piece is its own contour -/
theorem join_one {α : Type} [Flt α] (S : Sorter) (x y : Point α) : joinPaths3AndMinimize S [⟨[x, y]⟩] = .ok [⟨[x, y]⟩] := by
  have loop : ∀ l : List (SortP α), l.length = 2 → (∀ s ∈ l, s.ind = 0) → joinLoop l ⟨[(⟨[x, y]⟩ : Path α)], [0]⟩ = .ok ⟨[⟨[x, y]⟩], [0]⟩ := by
    intro l hl hi
    match l, hl with
    | [b, c], _ =>
      have hb : b.ind = 0 := hi b (by simp)
      have hc : c.ind = 0 := hi c (by simp)
      simp only [joinLoop, joinStep, hb, hc]
      split <;> simp [findRoot, goAt, bind, Except.bind, pure, Except.pure]
  have e : sortPs 0 [(⟨[x, y]⟩ : Path α)] = .ok [⟨x, 0⟩, ⟨y, 0⟩] := rfl
  have pm := S.perm (joinLess (α := α)) [⟨x, 0⟩, ⟨y, 0⟩]
  unfold joinPaths3AndMinimize joinPaths3
  rw [e]
  show ((joinLoop (S.run joinLess [⟨x, 0⟩, ⟨y, 0⟩]) ⟨[(⟨[x, y]⟩ : Path α)], [0]⟩).bind _).bind _ = _
  rw [loop _ (by rw [pm.length_eq]; rfl) (fun s hs => by
    have := pm.mem_iff.1 hs
    simp only [List.mem_cons, List.not_mem_nil, or_false] at this
    rcases this with rfl | rfl <;> rfl)]
  rfl

/-- the one layer of the triangle for layer height 2 -/
theorem tieTri_slice (S : Sorter) (A : Arrival XR) {a b : ℝ} (ha : |a| ≤ 1 / 4) (hb : |b - 1| ≤ 1 / 4) :
    sliceByVector S A (some (rmesh [tieTri a b])) (⟨0, 0, 1⟩ : R3).vec (exampleSettings 2) =
      .ok [{ order := 0, norm := (⟨0, 0, 1⟩ : R3).vec, paths := [⟨[(⟨(a + b) / 2, 0, 1⟩ : R3).round8.pt, (⟨a, 0, 1⟩ : R3).round8.pt]⟩] }] := by
  have hr : ∀ w ∈ allVerts [tieTri a b], |w.dot (⟨0, 0, 1⟩ : R3)| ≤ XR.maxF64R := by
    obtain ⟨h1, h2, h3⟩ := tieTri_small ha hb
    intro w hw
    apply small_reach _ (by simp [R3.normSq, R3.dot])
    simp only [allVerts, RTri.verts, List.flatMap_cons, List.flatMap_nil, List.append_nil, List.mem_cons, List.not_mem_nil, or_false] at hw
    rcases hw with rfl | rfl | rfl <;> assumption
  have hc : layerCountOf (rmesh [tieTri a b]) (⟨0, 0, 1⟩ : R3).vec (XR.fin 2) = ((1 : ℕ) : ℤ) := by
    have e : ⌈((2 : ℝ) - 0) / 2⌉ = 1 := by norm_num
    have := layerCountOf_eq (tieTri_extent a b) hr (t := 2) (by norm_num) (by rw [e]; norm_num)
    rw [this, e]; rfl
  obtain ⟨hs, hf⟩ := sweep_start (tieTri_extent a b) hr one_pos hc
  have hf' : firstPoint (rmesh [tieTri a b]) (⟨0, 0, 1⟩ : R3).vec (XR.fin 2) = (⟨0, 0, 1⟩ : R3).pt := by
    rw [hf]; congr 1; apply R3.ext <;> simp
  have sorted : sortByMinZ S (⟨0, 0, 1⟩ : R3).vec (rmesh [tieTri a b]).triangles = [(tieTri a b).tri] := by
    unfold sortByMinZ
    exact List.perm_singleton.1 (S.perm _ _)
  have mz : (tieTri a b).tri.minZ (⟨0, 0, 1⟩ : R3).vec = XR.fin 0 := by
    rw [minZ_tri]; congr 1; simp [RTri.lo, tieTri, R3.dot]
  have jobs : sliceJobs S (rmesh [tieTri a b]) (⟨0, 0, 1⟩ : R3).vec (exampleSettings 2) =
      .ok [⟨0, ⟨(⟨0, 0, 1⟩ : R3).pt, (⟨0, 0, 1⟩ : R3).vec⟩, [(tieTri a b).tri]⟩] := by
    unfold sliceJobs supportsOf
    have e1 : (exampleSettings 2).layerHeight = XR.fin 2 := rfl
    have e2 : (exampleSettings 2).supportsOn = false := rfl
    rw [e1, hc, e2, if_neg (by norm_num), hf', sorted]
    have z : (⟨0, 0, 1⟩ : R3).pt.toVector.dot (⟨0, 0, 1⟩ : R3).vec = XR.fin 1 := by
      rw [toVector_pt, dot_vec]; simp [R3.dot]
    show Except.ok (sweep _ _ 1 0 _ [] [(tieTri a b).tri]) = _
    simp only [sweep, sweepStep, z, mz, List.filter_nil, List.nil_append, List.takeWhile_cons, List.takeWhile_nil]
    simp
  rw [sliceByVector_real S A _ (by simp), upUnit, jobs]
  have run : runJob S (⟨0, ⟨(⟨0, 0, 1⟩ : R3).pt, (⟨0, 0, 1⟩ : R3).vec⟩, [(tieTri a b).tri]⟩ : Job XR) =
      .ok { order := 0, norm := (⟨0, 0, 1⟩ : R3).vec, paths := [⟨[(⟨(a + b) / 2, 0, 1⟩ : R3).round8.pt, (⟨a, 0, 1⟩ : R3).round8.pt]⟩] } := by
    have jp : jobPaths (⟨0, ⟨(⟨0, 0, 1⟩ : R3).pt, (⟨0, 0, 1⟩ : R3).vec⟩, [(tieTri a b).tri]⟩ : Job XR) =
        [⟨[(⟨(a + b) / 2, 0, 1⟩ : R3).round8.pt, (⟨a, 0, 1⟩ : R3).round8.pt]⟩] := by
      unfold jobPaths
      simp only [List.filterMap_cons, List.filterMap_nil, tieTri_section ha hb]
      rfl
    unfold runJob
    rw [jp, join_one]
    rfl
  show (([_] : List (Job XR)).mapM (runJob S)).bind trimEmpty = _
  rw [List.mapM_cons, run]
  rfl

/-- **C127 is violated** without the condition on the middle points: moved by `1e-8` to the right, the layer of this triangle has its end
moved by `2e-8`, because halves are rounded away from zero. -/
theorem C127_violated : ∃ (ts : List RTri) (v : R3) (sett : Settings XR), v.OnGrid8 ∧ sett.supportsOn = false ∧ sett.layerHeight = XR.fin 2 ∧
    (∀ r ∈ ts, r.small) ∧ (∀ r ∈ movedModel v ts, r.small) ∧ Extent ts (⟨0, 0, 1⟩ : R3).unit 0 2 ∧
    ∀ (S : Sorter) (A : Arrival XR), sliceByVector S A (some (rmesh (movedModel v ts))) (⟨0, 0, 1⟩ : R3).vec sett ≠
      (sliceByVector S A (some (rmesh ts)) (⟨0, 0, 1⟩ : R3).vec sett).map (List.map (movedLayer v)) := by
  have mv : movedModel ⟨1 / 10 ^ 8, 0, 0⟩ [tieTri (-(1 / 2) / 10 ^ 8) 1] = [tieTri (1 / 2 / 10 ^ 8) (1 + 1 / 10 ^ 8)] := by
    have : (tieTri (-(1 / 2) / 10 ^ 8) 1).map (· + (⟨1 / 10 ^ 8, 0, 0⟩ : R3)) = tieTri (1 / 2 / 10 ^ 8) (1 + 1 / 10 ^ 8) := by
      unfold tieTri RTri.map
      congr 1 <;> apply R3.ext <;> simp <;> ring
    unfold movedModel
    rw [List.map_cons, List.map_nil, this]
  have s1 : |-(1 / 2) / 10 ^ 8| ≤ (1 : ℝ) / 4 := by rw [abs_le]; constructor <;> norm_num
  have s2 : |(1 / 2 / 10 ^ 8 : ℝ)| ≤ (1 : ℝ) / 4 := by rw [abs_le]; constructor <;> norm_num
  have s3 : |(1 : ℝ) - 1| ≤ 1 / 4 := by norm_num
  have s4 : |(1 : ℝ) + 1 / 10 ^ 8 - 1| ≤ 1 / 4 := by rw [abs_le]; constructor <;> norm_num
  refine ⟨[tieTri (-(1 / 2) / 10 ^ 8) 1], ⟨1 / 10 ^ 8, 0, 0⟩, exampleSettings 2, ⟨⟨1, by simp⟩, ⟨0, by simp⟩, ⟨0, by simp⟩⟩, rfl, rfl,
    by simpa using tieTri_small s1 s3, by rw [mv]; simpa using tieTri_small s2 s4, by rw [upUnit]; exact tieTri_extent _ _, ?_⟩
  intro S A h
  rw [mv, tieTri_slice S A s2 s4, tieTri_slice S A s1 s3] at h
  simp only [Except.map, List.map_cons, List.map_nil, movedLayer, Path.mapP, shift_pt, Except.ok.injEq, List.cons.injEq, Layer.mk.injEq,
    Path.mk.injEq, and_true, true_and] at h
  have hx : r8 (1 / 2 / 10 ^ 8) = r8 (-(1 / 2) / 10 ^ 8) + 1 / 10 ^ 8 := by
    have := congrArg Point.x h.2
    simpa [R3.pt, R3.round8] using this
  have v1 : r8 (1 / 2 / 10 ^ 8) = 1 / 10 ^ 8 := by
    unfold r8; norm_num
  have v2 : r8 (-(1 / 2) / 10 ^ 8) = -1 / 10 ^ 8 := by
    unfold r8; norm_num
  rw [v1, v2] at hx
  norm_num at hx

/-! Non-vacuity: the same triangle with its vertical side at `x = 0`, moved by `(1, 2, 3)`. -/

example (A : Arrival XR) : sliceByVector Sorter.insertion A (some (rmesh (movedModel ⟨1, 2, 3⟩ [tieTri 0 1]))) (⟨0, 0, 1⟩ : R3).vec (exampleSettings 2) =
    .ok [{ order := 0, norm := (⟨0, 0, 1⟩ : R3).vec, paths := [⟨[(⟨3 / 2, 2, 4⟩ : R3).pt, (⟨1, 2, 4⟩ : R3).pt]⟩] }] := by
  have s1 : |(0 : ℝ)| ≤ 1 / 4 := by norm_num
  have s3 : |(1 : ℝ) - 1| ≤ 1 / 4 := by norm_num
  have n : ⌈((2 : ℝ) - 0) / 2⌉ = 1 := by norm_num
  have grid : ∀ k : ℤ, OnGrid8 k := fun k => ⟨k * 10 ^ 8, by push_cast; ring⟩
  have free : ∀ k : ℤ, TieFree (k / 2) := fun k j h => by
    have : (k : ℝ) * 10 ^ 8 = 2 * j + 1 := by field_simp at h; linarith
    have : k * 10 ^ 8 = 2 * j + 1 := by exact_mod_cast this
    omega
  have lv : levelOf 0 2 1 0 • (⟨0, 0, 1⟩ : R3) = ⟨0, 0, 1⟩ := by apply R3.ext <;> simp [levelOf]
  rw [C127_place_partial Sorter.insertion insertion_natural A [tieTri 0 1] ⟨0, 0, 1⟩ (by intro h; have := congrArg R3.z h; simp at this) ⟨1, 2, 3⟩
    ⟨by simpa using grid 1, by simpa using grid 2, by simpa using grid 3⟩ (exampleSettings 2) 0 2 2 (by rw [upUnit]; exact tieTri_extent 0 1)
    (by simpa using tieTri_small s1 s3) (by
      simp only [movedModel, List.map_cons, List.map_nil, List.mem_singleton, forall_eq]
      refine ⟨⟨?_, ?_, ?_⟩, ⟨?_, ?_, ?_⟩, ⟨?_, ?_, ?_⟩⟩ <;> simp [RTri.map, tieTri, roundLimit] <;> norm_num) rfl rfl (by norm_num) (by rw [n]; norm_num) (by
      rw [n, upUnit]
      intro m hm w hw
      obtain rfl : m = 0 := by simpa using hm
      have : (1 : ℤ).toNat = 1 := rfl
      rw [this, lv] at hw
      obtain ⟨e, he, hc⟩ := hw
      rw [tieTri_edges] at he
      obtain ⟨hne, ⟨t, t0, t1, rfl⟩, hp⟩ := hc
      simp only [List.mem_cons, List.not_mem_nil, or_false] at he
      rcases he with rfl | rfl | rfl
      · exact absurd (by simp [R3.height, R3.dot]) hne
      · have ht : t = 1 / 2 := by
          have : t * 2 - 1 = 0 := by simpa [R3.onPlane, R3.height, R3.dot] using hp
          linarith
        subst ht
        refine ⟨?_, ?_, ?_⟩
        · have := free 1; norm_num at this ⊢; exact this
        · have := free 0; norm_num at this ⊢; exact this
        · have := free 2; norm_num at this ⊢; exact this
      · have ht : t = 1 / 2 := by
          have : 2 + t * (0 - 2) - 1 = 0 := by simpa [R3.onPlane, R3.height, R3.dot] using hp
          linarith
        subst ht
        refine ⟨?_, ?_, ?_⟩
        · have := free 0; norm_num at this ⊢; exact this
        · have := free 0; norm_num at this ⊢; exact this
        · have := free 2; norm_num at this ⊢; exact this), tieTri_slice _ A s1 s3]
  have v0 : r8 0 = 0 := by unfold r8; norm_num
  have v1 : r8 1 = 1 := by unfold r8; norm_num
  have v2 : r8 (1 / 2) = 1 / 2 := by unfold r8; norm_num
  simp only [Except.map, List.map_cons, List.map_nil, movedLayer, Path.mapP, shift_pt]
  have e1 : (⟨(0 + 1) / 2, 0, 1⟩ : R3).round8 + ⟨1, 2, 3⟩ = ⟨3 / 2, 2, 4⟩ := by
    rw [zero_add]
    apply R3.ext <;> simp only [R3.round8, v0, v1, v2] <;> norm_num
  have e2 : (⟨0, 0, 1⟩ : R3).round8 + ⟨1, 2, 3⟩ = ⟨1, 2, 4⟩ := by
    apply R3.ext <;> simp only [R3.round8, v0, v1] <;> norm_num
  rw [e1, e2]

end Goosli
