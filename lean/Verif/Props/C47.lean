import Verif.Props.C50
/-! # C47 Walls -/
set_option linter.unusedSectionVars false
namespace Goosli
open Flt

variable {α : Type} [Flt α]

/-- `ws` are the successive offsets of contour `p`, each one made from the one before it: at most `limit` of them, and fewer only if a
contour has no further offset -/
def OffsetsOf (w : α) (n : Vec α) (limit : Int) (p : Path α) (ws : List (Path α)) : Prop :=
  (ws.length : Int) ≤ limit ∧
  (∀ (i : Nat) (q r : Path α), (p :: ws)[i]? = some q → ws[i]? = some r → makeOffset q w n = some r) ∧
  ((ws.length : Int) < limit → ∀ q, (p :: ws)[ws.length]? = some q → makeOffset q w n = none)

theorem offsetLoop_spec (w : α) (n : Vec α) : ∀ (k : Nat) (p : Path α), OffsetsOf w n k p (offsetLoop w n k p) := by
  intro k
  induction k with
  | zero => intro p; exact ⟨by simp [offsetLoop], by simp [offsetLoop], by simp [offsetLoop]⟩
  | succ k ih =>
    intro p
    unfold offsetLoop
    cases h : makeOffset p w n with
    | none =>
      refine ⟨by show ((0 : Nat) : Int) ≤ _; omega, by simp, ?_⟩
      intro _ q hq
      have : p = q := by simpa using hq
      rw [← this]; exact h
    | some q =>
      obtain ⟨h1, h2, h3⟩ := ih q
      refine ⟨by simp only [List.length_cons]; push_cast; omega, ?_, ?_⟩
      · intro i a b ha hb
        cases i with
        | zero =>
          have e1 : p = a := by simpa using ha
          have e2 : q = b := by simpa using hb
          rw [← e1, ← e2]; exact h
        | succ i => exact h2 i a b (by simpa using ha) (by simpa using hb)
      · intro hl a ha
        simp only [List.length_cons] at hl ha
        push_cast at hl
        exact h3 (by omega) a (by simpa using ha)

theorem offsetPaths_spec (p : Path α) (count : Int) (w : α) (n : Vec α) :
    OffsetsOf w n (max count 1) p (offsetPaths p count w n) := by
  have := offsetLoop_spec w n (max count 1).toNat p
  rwa [Int.toNat_of_nonneg (by omega)] at this

/-- the walls of one contour: none unless more than one wall fits, or if the contour is a single point -/
def WallsOf (sett : Settings α) (n : Vec α) (p : Path α) (ws : List (Path α)) : Prop :=
  let count := toInt (sett.wallThickness / sett.gs.lineWidth) - 1
  if 0 < count ∧ 2 ≤ p.points.length then OffsetsOf sett.gs.lineWidth n count p ws else ws = []

/-- **C47.** `PrepareLayers` always returns, and returns the layers it was given in the same order, with number, normal and outer contours
untouched. Each contour gets its walls: successive offsets by one line width, at most `int(wall / line_width) - 1` of them and fewer only
when the contour has no further offset. The last wall of each contour is appended to the inner walls, the others to the middle ones.
What is filled is the inside of the inner walls, or of the outer contours if there are no inner walls. -/
theorem C47_walls (S : Sorter) (layers : List (Layer α)) (sett : Settings α) (sparse full : List (Plane α))
    (hf : ∀ l ∈ layers, ∀ q ∈ l.fill, q.points ≠ []) :
    ∃ out, prepareLayers S layers sett sparse full = .ok out ∧ out.length = layers.length ∧
      ∀ i l, layers[i]? = some l → ∃ o, out[i]? = some o ∧ o.order = l.order ∧ o.norm = l.norm ∧ o.paths = l.paths ∧
        (∃ walls, List.Forall₂ (WallsOf sett l.norm) l.paths walls ∧
          o.middlePs = l.middlePs ++ walls.flatMap List.dropLast ∧ o.innerPs = l.innerPs ++ walls.filterMap List.getLast?) ∧
        o.fill.length = (fillLines S full sparse sett layers.length i { o with fill := l.fill }).length ∧
        ∀ x ∈ o.fill, ∃ q ∈ fillLines S full sparse sett layers.length i { o with fill := l.fill },
          x.points = q.points ∨ x.points = q.points.reverse := by
  obtain ⟨count, hcount⟩ : ∃ c, c = toInt (sett.wallThickness / sett.gs.lineWidth) - 1 := ⟨_, rfl⟩
  obtain ⟨walled, hw⟩ : ∃ w, w = if 0 < count then layers.map (addWalls count sett.gs.lineWidth) else layers := ⟨_, rfl⟩
  have hp : prepareLayers S layers sett sparse full = fillLayers S walled sparse full sett := by
    rw [hw, hcount]; rfl
  have hlen : walled.length = layers.length := by rw [hw]; split <;> simp
  obtain ⟨out, h1, h2, h3⟩ := C42_fill S walled sparse full sett (by
    intro l hl
    rw [hw] at hl
    split at hl
    · obtain ⟨l', hl', rfl⟩ := List.mem_map.1 hl
      exact hf l' hl'
    · exact hf l hl)
  refine ⟨out, by rw [hp, h1], by rw [h2, hlen], ?_⟩
  intro i l hl
  by_cases hc : 0 < count
  · have hwi : walled[i]? = some (addWalls count sett.gs.lineWidth l) := by rw [hw, if_pos hc]; simp [hl]
    obtain ⟨o, ho, e1, e2, e3, e4, e5, e6, e7, _⟩ := h3 i _ hwi
    refine ⟨o, ho, e1, e2, e3, ⟨l.paths.map (wallsOf l.norm count sett.gs.lineWidth), ?_, e4, e5⟩, ?_⟩
    · rw [List.forall₂_map_right_iff, List.forall₂_same]
      intro p _
      unfold WallsOf wallsOf
      simp only [← hcount]
      by_cases hp : p.points.length < 2
      · rw [if_neg (by omega), if_pos hp]
      · rw [if_pos ⟨hc, by omega⟩, if_neg hp]
        have := offsetPaths_spec p count sett.gs.lineWidth l.norm
        rwa [max_eq_left (by omega)] at this
    · have : fillLines S full sparse sett layers.length i { o with fill := l.fill } =
          fillLines S full sparse sett walled.length i (addWalls count sett.gs.lineWidth l) := by
        unfold fillLines fillBetween
        simp only [e3, e5, hlen]
        rfl
      rw [this]
      exact ⟨e6, e7⟩
  · have hwi : walled[i]? = some l := by rw [hw, if_neg hc]; exact hl
    obtain ⟨o, ho, e1, e2, e3, e4, e5, e6, e7, _⟩ := h3 i _ hwi
    refine ⟨o, ho, e1, e2, e3, ⟨l.paths.map fun _ => [], ?_, ?_, ?_⟩, ?_⟩
    · rw [List.forall₂_map_right_iff, List.forall₂_same]
      intro p _
      unfold WallsOf
      simp only [← hcount]
      rw [if_neg (by tauto)]
      trivial
    · rw [e4]; simp
    · rw [e5]; simp
    · have : fillLines S full sparse sett layers.length i { o with fill := l.fill } =
          fillLines S full sparse sett walled.length i l := by
        unfold fillLines fillBetween
        simp only [e3, e5, hlen]
      rw [this]
      exact ⟨e6, e7⟩

/-- the number of walls beside the outer contour, over the reals: how many whole line widths fit into the wall, less one -/
theorem C47_count (sett : Settings XR) (wall lw : ℝ) (h1 : sett.wallThickness = XR.fin wall) (h2 : sett.gs.lineWidth = XR.fin lw)
    (hlw : 0 < lw) (hw : 0 ≤ wall) (hb : wall / lw < 2 ^ 63) :
    toInt (sett.wallThickness / sett.gs.lineWidth) - 1 = ⌊wall / lw⌋ - 1 := by
  rw [h1, h2, XR.fin_div hlw.ne', XR.toInt_def]
  have h0 : 0 ≤ wall / lw := div_nonneg hw hlw.le
  unfold XR.toInt
  have h1 : (0 : Int) ≤ ⌊wall / lw⌋ := Int.floor_nonneg.2 h0
  have h2 : ⌊wall / lw⌋ < 2 ^ 63 := Int.floor_lt.2 (by exact_mod_cast hb)
  simp only [if_pos h0]
  rw [if_pos ⟨by omega, h2⟩]

section Examples
attribute [local instance] Toy.flt
private def wallSett : Settings Int :=
  ⟨⟨1, 1, 1, 1, true, 50, 20, 30, true, 40, 5⟩, 1, 3, 3, 20, ⟨0, 0, 0⟩, "Lines", 30, ⟨0, 0, 1⟩, false, 0, 1, 1, 0⟩

/-- a layer with a triangle and a single point, three line widths of wall: the triangle gets two walls, the second one inner -/
example : (prepareLayers Sorter.insertion [⟨0, ⟨0, 0, 1⟩, [⟨[⟨0, 0, 0⟩, ⟨8, 0, 0⟩, ⟨8, 8, 0⟩, ⟨0, 1, 0⟩]⟩, ⟨[⟨3, 3, 3⟩]⟩], [], [], []⟩]
    wallSett [] []).map (fun ls => ls.map fun l => (l.paths.length, l.middlePs.length, l.innerPs.length)) = .ok [(2, 1, 1)] := by rfl
end Examples

end Goosli
