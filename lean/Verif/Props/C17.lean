import Verif.Proofs.Geom
import Verif.Proofs.GcodeHoare
import Verif.Model.Path
import Verif.Spec.Toy
/-!
# C17: merging collinear lines keeps the path's shape data
-/
set_option linter.unusedSectionVars false
namespace Goosli
open Flt
variable {α : Type} [Flt α]

theorem setLast_sublist {β : Type} (l : List β) (x : β) : (setLast l x).Sublist (l ++ [x]) :=
  (List.dropLast_sublist l).append (List.Sublist.refl _)

theorem minimizeLoop_spec : ∀ (rest res : List (Point α)) (l1 : Line α), 2 ≤ res.length →
    (minimizeLoop rest res l1).1.Sublist (res ++ rest) ∧ 2 ≤ (minimizeLoop rest res l1).1.length ∧
      (minimizeLoop rest res l1).1.head? = res.head? ∧
      (minimizeLoop rest res l1).1.getLast? = (res ++ rest).getLast? := by
  intro rest
  induction rest with
  | nil => intro res l1 h; simp [minimizeLoop, h]
  | cons pt t ih =>
    intro res l1 h
    unfold minimizeLoop
    simp only
    split
    · have hl : 2 ≤ (setLast res pt).length := by simp [setLast]; omega
      obtain ⟨h1, h2, h3, h4⟩ := ih (setLast res pt) ⟨l1.p1, pt⟩ hl
      refine ⟨?_, h2, ?_, ?_⟩
      · refine h1.trans ?_
        have := (setLast_sublist res pt).append (List.Sublist.refl t)
        simpa using this
      · rw [h3]
        rcases res with _ | ⟨a, _ | ⟨b, r⟩⟩
        · simp at h
        · simp at h
        · simp [setLast]
      · rw [h4, show setLast res pt ++ t = res.dropLast ++ (pt :: t) by simp [setLast],
          List.getLast?_append_of_ne_nil _ (by simp), List.getLast?_append_of_ne_nil _ (by simp)]
    · obtain ⟨h1, h2, h3, h4⟩ := ih (res ++ [pt]) ⟨l1.p2, pt⟩ (by simp; omega)
      refine ⟨by simpa using h1, h2, ?_, by rw [h4]; simp⟩
      rw [h3]
      rcases res with _ | ⟨a, r⟩
      · simp at h
      · simp

/-- how the closing step changes the loop's result -/
theorem minimizeClose_cases (res : List (Point α)) (l1 : Line α) (h : 2 ≤ res.length) :
    minimizeClose res l1 = res ∨ ((Path.mk res).isClosed = true ∧
      ∃ core : List (Point α), core.Sublist res ∧ ((∃ x, core = [x] ∧ minimizeClose res l1 = core) ∨
        (∃ x, core.head? = some x ∧ minimizeClose res l1 = core ++ [x]) ∨
        (∃ x, core.getLast? = some x ∧ minimizeClose res l1 = x :: core))) := by
  rcases res with _ | ⟨r0, _ | ⟨r1, t⟩⟩
  · simp at h
  · simp at h
  · unfold minimizeClose
    simp only
    by_cases hc : (Path.mk (r0 :: r1 :: t)).isClosed = true
    · simp only [hc, if_true]
      split
      · right
        refine ⟨trivial, ?_⟩
        split
        · cases t with
          | nil => exact ⟨[r1], by simp, Or.inl ⟨r1, rfl, by simp [setLast]⟩⟩
          | cons a t =>
            refine ⟨(r1 :: a :: t).dropLast, (List.dropLast_sublist _).trans (List.sublist_cons_self _ _), Or.inr (Or.inl ?_)⟩
            exact ⟨r1, by simp, by simp [setLast]⟩
        · cases t with
          | nil => exact ⟨[r0], by simp, Or.inl ⟨r0, rfl, by simp⟩⟩
          | cons a t =>
            have hne : (r1 :: a :: t).dropLast ≠ [] := by simp
            refine ⟨(r1 :: a :: t).dropLast, (List.dropLast_sublist _).trans (List.sublist_cons_self _ _), Or.inr (Or.inr ?_)⟩
            have hx : (r0 :: r1 :: a :: t).dropLast.getLast? = (r1 :: a :: t).dropLast.getLast? := by
              rw [List.dropLast_cons_of_ne_nil (by simp)]
              rw [List.getLast?_cons, List.getLast?_eq_getLast_of_ne_nil hne]; rfl
            refine ⟨_, List.getLast?_eq_getLast_of_ne_nil hne, ?_⟩
            rw [hx, List.getLast?_eq_getLast_of_ne_nil hne]
            simp only
            rw [List.dropLast_cons_of_ne_nil (by simp)]
      · left; trivial
    · simp [hc]

theorem isClosed_ends {p q : Path α} (h1 : p.points.head? = q.points.head?) (h2 : p.points.getLast? = q.points.getLast?)
    (hp : 2 ≤ p.points.length) (hq : 2 ≤ q.points.length) : p.isClosed = q.isClosed := by
  simp only [Path.isClosed, h1, h2]
  split
  · rw [if_neg (by omega), if_neg (by omega)]
  · rfl

/-- **C17 (points).** For every path and every arithmetic the result is a sublist of the input points, or -- only for a
closed path -- a sublist that is closed by repeating its own first (or last) point: nothing is invented or reordered. -/
theorem C17_no_new_points (p : Path α) :
    ∃ core : List (Point α), core.Sublist p.points ∧ (p.minimizeLines.points = core ∨
      (p.isClosed = true ∧ ((∃ x, core.head? = some x ∧ p.minimizeLines.points = core ++ [x]) ∨
        (∃ x, core.getLast? = some x ∧ p.minimizeLines.points = x :: core)))) := by
  rcases hp : p.points with _ | ⟨p0, _ | ⟨p1, _ | ⟨p2, rest⟩⟩⟩
  · exact ⟨[], by simp, Or.inl (by simp [Path.minimizeLines, hp])⟩
  · exact ⟨[p0], by simp, Or.inl (by simp [Path.minimizeLines, hp])⟩
  · exact ⟨[p0, p1], by simp, Or.inl (by simp [Path.minimizeLines, hp])⟩
  · have e : p.minimizeLines.points = minimizeClose (minimizeLoop (p2 :: rest) [p0, p1] ⟨p0, p1⟩).1
        (minimizeLoop (p2 :: rest) [p0, p1] ⟨p0, p1⟩).2 := by simp [Path.minimizeLines, hp]
    obtain ⟨h1, h2, h3, h4⟩ := minimizeLoop_spec (p2 :: rest) [p0, p1] ⟨p0, p1⟩ (by simp)
    rcases minimizeClose_cases _ (minimizeLoop (p2 :: rest) [p0, p1] ⟨p0, p1⟩).2 h2 with h | ⟨hcl, core, hs, h⟩
    · exact ⟨_, h1, Or.inl (by rw [e, h])⟩
    · have hpc : p.isClosed = true := by
        rw [isClosed_ends (q := ⟨(minimizeLoop (p2 :: rest) [p0, p1] ⟨p0, p1⟩).1⟩) (by rw [h3, hp]; rfl)
          (by rw [h4, hp]; rfl) (by simp [hp]) h2]
        exact hcl
      refine ⟨core, hs.trans h1, ?_⟩
      rcases h with ⟨x, _, h⟩ | ⟨x, hx, h⟩ | ⟨x, hx, h⟩
      · exact Or.inl (by rw [e, h])
      · exact Or.inr ⟨hpc, Or.inl ⟨x, hx, by rw [e, h]⟩⟩
      · exact Or.inr ⟨hpc, Or.inr ⟨x, hx, by rw [e, h]⟩⟩

/-- **C17 (open paths).** An open path keeps its first and its last point. -/
theorem C17_open_keeps_ends (p : Path α) (h : p.isClosed = false) :
    p.minimizeLines.points.head? = p.points.head? ∧ p.minimizeLines.points.getLast? = p.points.getLast? ∧
      p.minimizeLines.points.Sublist p.points := by
  rcases hp : p.points with _ | ⟨p0, _ | ⟨p1, _ | ⟨p2, rest⟩⟩⟩
  · simp [Path.minimizeLines, hp]
  · simp [Path.minimizeLines, hp]
  · simp [Path.minimizeLines, hp]
  · obtain ⟨h1, h2, h3, h4⟩ := minimizeLoop_spec (p2 :: rest) [p0, p1] ⟨p0, p1⟩ (by simp)
    have hcl : (Path.mk (minimizeLoop (p2 :: rest) [p0, p1] ⟨p0, p1⟩).1).isClosed = false := by
      rw [isClosed_ends (q := p) (by rw [h3, hp]; rfl) (by rw [h4, hp]; rfl) h2 (by simp [hp])]; exact h
    have e : p.minimizeLines.points = (minimizeLoop (p2 :: rest) [p0, p1] ⟨p0, p1⟩).1 := by
      simp only [Path.minimizeLines, hp]
      rcases minimizeClose_cases _ (minimizeLoop (p2 :: rest) [p0, p1] ⟨p0, p1⟩).2 h2 with h' | ⟨h', _⟩
      · exact h'
      · rw [hcl] at h'; cases h'
    rw [e]
    exact ⟨h3, h4, h1⟩

/-- **C17 (short paths).** A path with fewer than three points is returned unchanged. -/
theorem C17_short_unchanged (p : Path α) (h : p.points.length < 3) : p.minimizeLines = p := by
  rcases hp : p.points with _ | ⟨p0, _ | ⟨p1, _ | ⟨p2, rest⟩⟩⟩
  · simp [Path.minimizeLines, hp]
  · simp [Path.minimizeLines, hp]
  · simp [Path.minimizeLines, hp]
  · rw [hp] at h; simp at h; omega

/-- **C17 (closed paths).** A closed path with finite coordinates stays closed. -/
theorem C17_closed_stays_closed (ws : List R3) (h : (Path.mk (ws.map R3.pt)).isClosed = true) :
    (Path.mk (ws.map R3.pt)).minimizeLines.isClosed = true := by
  rcases hp : ws.map R3.pt with _ | ⟨p0, _ | ⟨p1, _ | ⟨p2, rest⟩⟩⟩
  · simp [Path.minimizeLines, Path.isClosed]
  · simp [Path.minimizeLines, Path.isClosed]
  · rw [hp] at h; simpa [Path.minimizeLines] using h
  · have hfin : ∀ x ∈ p0 :: p1 :: p2 :: rest, ∃ w : R3, x = w.pt := by
      intro x hx; rw [← hp] at hx; obtain ⟨w, _, rfl⟩ := List.mem_map.1 hx; exact ⟨w, rfl⟩
    obtain ⟨h1, h2, h3, h4⟩ := minimizeLoop_spec (p2 :: rest) [p0, p1] ⟨p0, p1⟩ (by simp)
    have hcl : (Path.mk (minimizeLoop (p2 :: rest) [p0, p1] ⟨p0, p1⟩).1).isClosed = true := by
      rw [isClosed_ends (q := ⟨p0 :: p1 :: p2 :: rest⟩) (by rw [h3]; rfl) (by rw [h4]; rfl) h2 (by simp), ← hp]; exact h
    simp only [Path.minimizeLines]
    have refl : ∀ x ∈ p0 :: p1 :: p2 :: rest, x.equal x = true := by
      intro x hx; obtain ⟨w, rfl⟩ := hfin x hx; exact (equal_pt _ _).2 (R3.near_refl w)
    rcases minimizeClose_cases _ (minimizeLoop (p2 :: rest) [p0, p1] ⟨p0, p1⟩).2 h2 with h' | ⟨_, core, hs, h'⟩
    · rw [h']; exact hcl
    · rcases h' with ⟨x, rfl, h'⟩ | ⟨x, hx, h'⟩ | ⟨x, hx, h'⟩
      · rw [h']; simp [Path.isClosed]
      · have hm := refl x (h1.subset (hs.subset (List.mem_of_mem_head? hx)))
        rw [h']
        cases core with
        | nil => simp at hx
        | cons a t =>
          simp at hx; subst hx
          have : (a :: (t ++ [a])).getLast? = some a := List.getLast?_concat (l := a :: t)
          simp [Path.isClosed, this, hm]
      · have hm := refl x (h1.subset (hs.subset (List.mem_of_getLast? hx)))
        rw [h']
        have : (x :: core).getLast? = some x := by
          cases core with
          | nil => simp at hx
          | cons a t => rw [List.getLast?_cons_cons]; exact hx
        simp [Path.isClosed, this, hm]

/-! ## turning paths -/

/-- the turn from `a → b` to `b → c`: length of the vector product -/
noncomputable def turn (a b c : R3) : ℝ := ((b - a).cross (c - b)).norm

theorem isCollinear_pt (a b c d : R3) : (Line.mk a.pt b.pt).isCollinear (Line.mk c.pt d.pt) =
    decide (((b - a).cross (d - c)).norm < tol) := by
  have e : ((Line.mk a.pt b.pt).toVector.cross (Line.mk c.pt d.pt).toVector).length =
      XR.fin (((b - a).cross (d - c)).norm) := by
    simp only [Line.toVector, V, Vec.cross, Vec.length, Vec.lengthSquare, R3.pt, XR.fin_sub, XR.fin_mul, XR.fin_add]
    rw [XR.fin_sqrt (add_nonneg (add_nonneg (mul_self_nonneg _) (mul_self_nonneg _)) (mul_self_nonneg _))]
    simp [R3.norm, R3.normSq, R3.dot, R3.cross]
  rw [Line.isCollinear, e, almostZero_fin, abs_of_nonneg (R3.norm_nonneg _)]

/-- consecutive triples of a list -/
def triples {β : Type} : List β → List (β × β × β)
  | a :: b :: c :: t => (a, b, c) :: triples (b :: c :: t)
  | _ => []

theorem minimizeLoop_turning : ∀ (rest pre : List R3) (a b : R3),
    (∀ t ∈ triples (a :: b :: rest), 1 / 10 ^ 6 ≤ turn t.1 t.2.1 t.2.2) →
    ∃ u v pre', minimizeLoop (rest.map R3.pt) ((pre ++ [a, b]).map R3.pt) ⟨a.pt, b.pt⟩ =
      ((pre ++ [a, b] ++ rest).map R3.pt, ⟨u.pt, v.pt⟩) ∧ pre ++ [a, b] ++ rest = pre' ++ [u, v] := by
  intro rest
  induction rest with
  | nil => intro pre a b _; exact ⟨a, b, pre, by simp [minimizeLoop], by simp⟩
  | cons c t ih =>
    intro pre a b h
    have hc : (Line.mk a.pt b.pt).isCollinear (Line.mk b.pt c.pt) = false := by
      rw [isCollinear_pt]
      have := h (a, b, c) (by simp [triples])
      simp only [turn] at this
      simp [tol]; simpa using this
    obtain ⟨u, v, pre', h1, h2⟩ := ih (pre ++ [a]) b c (fun x hx => h x (by simp [triples, hx]))
    refine ⟨u, v, pre', ?_, by simpa using h2⟩
    simp only [List.map_cons, minimizeLoop, hc]
    simpa using h1

/-- **C17 (turning paths).** A path with finite coordinates that turns at every vertex by more than the tolerance, and --
if it is closed -- also where it closes, is returned unchanged. -/
theorem C17_turning_unchanged (ws : List R3)
    (ht : ∀ t ∈ triples ws, 1 / 10 ^ 6 ≤ turn t.1 t.2.1 t.2.2)
    (hc : (Path.mk (ws.map R3.pt)).isClosed = true → ∀ pre u v a b post, ws = pre ++ [u, v] → ws = a :: b :: post →
      1 / 10 ^ 6 ≤ ((v - u).cross (b - a)).norm) :
    (Path.mk (ws.map R3.pt)).minimizeLines = ⟨ws.map R3.pt⟩ := by
  rcases ws with _ | ⟨p0, _ | ⟨p1, _ | ⟨p2, rest⟩⟩⟩
  · exact C17_short_unchanged _ (by simp)
  · exact C17_short_unchanged _ (by simp)
  · exact C17_short_unchanged _ (by simp)
  · obtain ⟨u, v, pre, h1, h2⟩ := minimizeLoop_turning (p2 :: rest) [] p0 p1 ht
    simp only [Path.minimizeLines, List.map_cons, Path.mk.injEq]
    simp only [List.nil_append, List.map_cons, List.map_nil, List.cons_append] at h1 h2
    rw [h1]
    unfold minimizeClose
    simp only
    by_cases hcl : (Path.mk (p0.pt :: p1.pt :: p2.pt :: rest.map R3.pt)).isClosed = true
    · rw [if_pos hcl]
      have := hc hcl pre u v p0 p1 (p2 :: rest) h2 rfl
      have hnc : (Line.mk u.pt v.pt).isCollinear (Line.mk p0.pt p1.pt) = false := by
        rw [isCollinear_pt]; simp [tol]; simpa using this
      rw [hnc]; rfl
    · rw [if_neg hcl]

section Example
/-- the hypotheses of `C17_turning_unchanged` hold for a closed unit square -/
example : (∀ t ∈ triples [(⟨0, 0, 0⟩ : R3), ⟨1, 0, 0⟩, ⟨1, 1, 0⟩, ⟨0, 1, 0⟩, ⟨0, 0, 0⟩],
    1 / 10 ^ 6 ≤ turn t.1 t.2.1 t.2.2) ∧
    (Path.mk ([(⟨0, 0, 0⟩ : R3), ⟨1, 0, 0⟩, ⟨1, 1, 0⟩, ⟨0, 1, 0⟩, ⟨0, 0, 0⟩].map R3.pt)).isClosed = true := by
  constructor
  · simp only [triples, List.mem_cons, List.not_mem_nil, or_false]
    rintro t (rfl | rfl | rfl) <;> simp [turn, R3.cross, R3.norm, R3.normSq, R3.dot] <;> norm_num
  · have := (equal_pt ⟨0, 0, 0⟩ ⟨0, 0, 0⟩).2 (R3.near_refl _)
    simp [Path.isClosed, this]

attribute [local instance] Toy.flt
/-- an open path with a collinear vertex: the hypothesis of `C17_open_keeps_ends` holds, and a point is dropped -/
example : (Path.mk [(⟨0, 0, 0⟩ : Point Int), ⟨5, 0, 0⟩, ⟨9, 0, 0⟩]).isClosed = false := by decide
end Example

end Goosli
