import Verif.Model.Fill
import Verif.Spec.Fill
import Verif.Spec.Sorters
import Verif.Spec.Toy
import Verif.Proofs.Paths
/-! # C44 The order in which fill lines are printed -/
set_option linter.unusedSectionVars false
namespace Goosli
open Flt

variable {α : Type} [Flt α]

private theorem goLast_ok {β : Type} {l : List β} {e : β} (h : l.getLast? = some e) : goLast l = .ok e := by
  unfold goLast; rw [h]

private theorem goAt_zero_ok {β : Type} {l : List β} {s : β} (h : l.head? = some s) : goAt l 0 = .ok s := by
  cases l with
  | nil => simp at h
  | cons a t => simp at h; subst h; rfl

/-- what one pass over the unused paths finds -/
private theorem nearestFrom_spec (p : Point α) (T : List α) (hT : StrictWeakOn (fun a b : α => a <? b) T) :
    ∀ (L : List (Path α × Bool)) (j : Nat) (acc : NearAcc α),
    (∀ c ∈ L, c.1.points ≠ []) → (∀ c ∈ L, ∀ x ∈ pathEnds c.1, x.distanceTo p ∈ T) → acc.d ∈ T →
    ∃ r, nearestFrom p j L acc = .ok r ∧ r.d ∈ T ∧ (acc.d <? r.d) = false ∧
      (∀ c ∈ L, c.2 = false → ∀ x ∈ pathEnds c.1, (x.distanceTo p <? r.d) = false) ∧
      (r = acc ∨ ∃ k q s, L[k]? = some (q, false) ∧ r.sj = j + k ∧ r.d = s.distanceTo p ∧
        (if r.rev then q.points.reverse else q.points).head? = some s) := by
  intro L
  induction L with
  | nil =>
    intro j acc _ _ ha
    exact ⟨acc, rfl, ha, hT.irrefl _ ha, by simp, Or.inl rfl⟩
  | cons c rest ih =>
    intro j acc hne hd ha
    obtain ⟨q, used⟩ := c
    have hne' : ∀ c ∈ rest, c.1.points ≠ [] := fun c hc => hne c (by simp [hc])
    have hd' : ∀ c ∈ rest, ∀ x ∈ pathEnds c.1, x.distanceTo p ∈ T := fun c hc => hd c (by simp [hc])
    cases used with
    | true =>
      obtain ⟨r, h1, h2, h3, h4, h5⟩ := ih (j + 1) acc hne' hd' ha
      refine ⟨r, by simpa [nearestFrom] using h1, h2, h3, ?_, ?_⟩
      · intro c hc hf
        rcases List.mem_cons.1 hc with rfl | hc
        · cases hf
        · exact h4 c hc hf
      · rcases h5 with h5 | ⟨k, q', s, h5, h6, h7, h8⟩
        · exact Or.inl h5
        · exact Or.inr ⟨k + 1, q', s, by simpa using h5, by omega, h7, h8⟩
    | false =>
      have hq : q.points ≠ [] := hne (q, false) (by simp)
      obtain ⟨f, hf⟩ : ∃ f, q.points.head? = some f := by
        cases h : q.points with
        | nil => exact absurd h hq
        | cons a t => exact ⟨a, rfl⟩
      obtain ⟨l, hl⟩ : ∃ l, q.points.getLast? = some l := ⟨_, List.getLast?_eq_getLast_of_ne_nil hq⟩
      have hfT : f.distanceTo p ∈ T := hd (q, false) (by simp) f (by simp [pathEnds, hf])
      have hlT : l.distanceTo p ∈ T := hd (q, false) (by simp) l (by simp [pathEnds, hl])
      -- the accumulator after the two comparisons
      obtain ⟨a1, ha1⟩ : ∃ a, a = (if f.distanceTo p <? acc.d then NearAcc.mk (f.distanceTo p) j false else acc) := ⟨_, rfl⟩
      obtain ⟨a2, ha2⟩ : ∃ a, a = (if l.distanceTo p <? a1.d then NearAcc.mk (l.distanceTo p) j true else a1) := ⟨_, rfl⟩
      have b1 : a1.d ∈ T ∧ (acc.d <? a1.d) = false ∧ (f.distanceTo p <? a1.d) = false := by
        rw [ha1]
        split
        · rename_i h
          refine ⟨hfT, ?_, hT.irrefl _ hfT⟩
          by_contra hh
          have := hT.trans _ ha _ hfT _ ha (by simpa using hh) h
          rw [hT.irrefl _ ha] at this; cases this
        · rename_i h
          exact ⟨ha, hT.irrefl _ ha, by simpa using h⟩
      have b2 : a2.d ∈ T ∧ (a1.d <? a2.d) = false ∧ (l.distanceTo p <? a2.d) = false := by
        rw [ha2]
        split
        · rename_i h
          refine ⟨hlT, ?_, hT.irrefl _ hlT⟩
          by_contra hh
          have := hT.trans _ b1.1 _ hlT _ b1.1 (by simpa using hh) h
          rw [hT.irrefl _ b1.1] at this; cases this
        · rename_i h
          exact ⟨b1.1, hT.irrefl _ b1.1, by simpa using h⟩
      obtain ⟨r, h1, h2, h3, h4, h5⟩ := ih (j + 1) a2 hne' hd' b2.1
      have hr1 : (a1.d <? r.d) = false := InsSort.neg_trans hT h2 b2.1 b1.1 h3 b2.2.1
      refine ⟨r, ?_, h2, InsSort.neg_trans hT h2 b1.1 ha hr1 b1.2.1, ?_, ?_⟩
      · rw [ha2, ha1] at h1
        simp only [nearestFrom, Bool.false_eq_true, if_false]
        rw [goAt_zero_ok hf, goLast_ok hl]
        exact h1
      · intro c hc hu x hx
        rcases List.mem_cons.1 hc with rfl | hc
        · simp only [pathEnds, hf, hl, Option.toList_some, List.cons_append, List.nil_append, List.mem_cons,
            List.not_mem_nil, or_false] at hx
          rcases hx with rfl | rfl
          · exact InsSort.neg_trans hT h2 b1.1 hfT hr1 b1.2.2
          · exact InsSort.neg_trans hT h2 b2.1 hlT h3 b2.2.2
        · exact h4 c hc hu x hx
      · rcases h5 with h5 | ⟨k, q', s, h5, h6, h7, h8⟩
        · subst h5
          rw [ha2]
          split
          · exact Or.inr ⟨0, q, l, rfl, rfl, rfl, by simpa using hl⟩
          · rw [ha1]
            split
            · exact Or.inr ⟨0, q, f, rfl, rfl, rfl, by simpa using hf⟩
            · exact Or.inl rfl
        · exact Or.inr ⟨k + 1, q', s, by simpa using h5, by omega, h7, h8⟩

/-- the paths not used yet -/
private def remaining (L : List (Path α × Bool)) : List (Path α) :=
  L.filterMap fun c => if c.2 then none else some c.1

private theorem remaining_append (L M : List (Path α × Bool)) : remaining (L ++ M) = remaining L ++ remaining M := by
  simp [remaining, List.filterMap_append]

private theorem remaining_cons (q : Path α) (b : Bool) (M : List (Path α × Bool)) :
    remaining ((q, b) :: M) = (if b then [] else [q]) ++ remaining M := by
  cases b <;> simp [remaining]

private theorem mem_remaining {L : List (Path α × Bool)} {q : Path α} : q ∈ remaining L ↔ (q, false) ∈ L := by
  constructor
  · intro h
    obtain ⟨c, hc, h⟩ := List.mem_filterMap.1 h
    obtain ⟨q', b⟩ := c
    cases b <;> simp at h
    subst h; exact hc
  · intro h
    exact List.mem_filterMap.2 ⟨(q, false), h, by simp⟩

/-- marking position `k` of the flags -/
private theorem zip_set (fill : List (Path α)) (used : List Bool) (k : Nat) (q : Path α) (h : (fill.zip used)[k]? = some (q, false)) :
    ∃ L M, fill.zip used = L ++ (q, false) :: M ∧ fill.zip (used.set k true) = L ++ (q, true) :: M := by
  induction k generalizing fill used with
  | zero =>
    cases fill with
    | nil => simp at h
    | cons a t =>
      cases used with
      | nil => simp at h
      | cons b u =>
        simp at h
        obtain ⟨rfl, rfl⟩ := h
        exact ⟨[], t.zip u, rfl, rfl⟩
  | succ k ih =>
    cases fill with
    | nil => simp at h
    | cons a t =>
      cases used with
      | nil => simp at h
      | cons b u =>
        obtain ⟨L, M, h1, h2⟩ := ih t u (by simpa using h)
        exact ⟨(a, b) :: L, M, by simp [h1], by simp [h2]⟩

private theorem sortFillLoop_spec (a : Path α) (t : List (Path α)) (T : List α)
    (hT : StrictWeakOn (fun a b : α => a <? b) (maxF32 :: T))
    (hne : ∀ q ∈ a :: t, q.points ≠ [])
    (hmax : ∀ d ∈ T, (d <? maxF32) = true) (hTdef : T = endDistances (a :: t)) :
    ∀ (k : Nat) (last : Path α) (used : List Bool) (p : Point α),
    last.points.getLast? = some p → p ∈ (a :: t).flatMap pathEnds →
    used.length = t.length → (remaining (t.zip used)).length = k →
    ∃ out, sortFillLoop (a :: t) k last (true :: used) = .ok out ∧ NearestTour p (remaining (t.zip used)) out := by
  intro k
  induction k with
  | zero =>
    intro last used p _ _ _ hk
    rw [List.length_eq_zero_iff.1 hk]
    exact ⟨[], rfl, .done p⟩
  | succ k ih =>
    intro last used p hlast hp hlen hk
    have hdist : ∀ c ∈ t.zip used, ∀ x ∈ pathEnds c.1, x.distanceTo p ∈ T := by
      intro c hc x hx
      have hc' : c.1 ∈ t := by
        obtain ⟨c1, c2⟩ := c
        exact (List.of_mem_zip hc).1
      rw [hTdef]
      refine List.mem_flatMap.2 ⟨x, List.mem_flatMap.2 ⟨c.1, by simp [hc'], hx⟩, List.mem_map.2 ⟨p, hp, rfl⟩⟩
    have hne' : ∀ c ∈ t.zip used, c.1.points ≠ [] := by
      intro c hc
      obtain ⟨c1, c2⟩ := c
      exact hne _ (by simp [(List.of_mem_zip hc).1])
    obtain ⟨r, h1, h2, h3, h4, h5⟩ := nearestFrom_spec p (maxF32 :: T) hT (t.zip used) 1 ⟨maxF32, 0, false⟩ hne'
      (fun c hc x hx => by simp [hdist c hc x hx]) (by simp)
    -- something is found
    obtain ⟨kk, q, s, g1, g2, g3, g4⟩ : ∃ k q s, (t.zip used)[k]? = some (q, false) ∧ r.sj = 1 + k ∧ r.d = s.distanceTo p ∧
        (if r.rev then q.points.reverse else q.points).head? = some s := by
      rcases h5 with h5 | h5
      · exfalso
        have : remaining (t.zip used) ≠ [] := by intro h; rw [h] at hk; simp at hk
        obtain ⟨q, hq⟩ := List.exists_mem_of_ne_nil _ this
        have hq' := mem_remaining.1 hq
        have hqn := hne' _ hq'
        obtain ⟨l, hl⟩ : ∃ l, q.points.getLast? = some l := ⟨_, List.getLast?_eq_getLast_of_ne_nil hqn⟩
        have hlm : l ∈ pathEnds q := by simp [pathEnds, hl]
        have e1 := h4 _ hq' rfl l hlm
        rw [h5] at e1
        have e2 := hmax _ (hdist _ hq' l hlm)
        rw [e1] at e2; cases e2
      · exact h5
    obtain ⟨L, M, hLM, hLM'⟩ := zip_set t used kk q g1
    have hqmem : q ∈ t := (List.of_mem_zip (show (q, false) ∈ t.zip used by rw [hLM]; simp)).1
    have hqn : q.points ≠ [] := hne _ (by simp [hqmem])
    have hidx : (a :: t)[r.sj]? = some q := by
      rw [g2, Nat.add_comm, List.getElem?_cons_succ]
      have := congrArg (Option.map Prod.fst) g1
      rw [List.getElem?_zip_eq_some] at g1
      exact g1.1
    obtain ⟨o, ho⟩ : ∃ o : Path α, o = if r.rev then q.reverse else q := ⟨_, rfl⟩
    have hop : o.points = if r.rev then q.points.reverse else q.points := by rw [ho]; split <;> rfl
    obtain ⟨e, he⟩ : ∃ e, o.points.getLast? = some e := by
      rw [hop]
      split
      · exact ⟨_, List.getLast?_eq_getLast_of_ne_nil (by simpa using hqn)⟩
      · exact ⟨_, List.getLast?_eq_getLast_of_ne_nil hqn⟩
    have heT : e ∈ (a :: t).flatMap pathEnds := by
      refine List.mem_flatMap.2 ⟨q, by simp [hqmem], ?_⟩
      rw [hop] at he
      split at he
      · rw [List.getLast?_reverse] at he
        simp [pathEnds, he]
      · simp [pathEnds, he]
    have hrem : remaining (t.zip used) = remaining L ++ q :: remaining M := by
      rw [hLM, remaining_append, remaining_cons]; rfl
    have hrem' : remaining (t.zip (used.set kk true)) = remaining L ++ remaining M := by
      rw [hLM', remaining_append, remaining_cons]; simp
    obtain ⟨out, i1, i2⟩ := ih o (used.set kk true) e he heT (by simpa using hlen) (by
      rw [hrem']; rw [hrem] at hk; simp at hk ⊢; omega)
    refine ⟨o :: out, ?_, ?_⟩
    · have hs : (true :: used).set r.sj true = true :: used.set kk true := by
        rw [g2, Nat.add_comm, List.set_cons_succ]
      simp only [sortFillLoop]
      rw [goLast_ok hlast]
      simp only [List.zip_cons_cons, List.tail_cons]
      show (do let r ← nearestFrom p 1 (t.zip used) ⟨maxF32, 0, false⟩; _) = _
      rw [h1]
      show (do let q ← goAt (a :: t) r.sj; _) = _
      have hg : goAt (a :: t) r.sj = .ok q := by unfold goAt; rw [hidx]
      rw [hg]
      show (do let rest ← sortFillLoop (a :: t) k (if r.rev then q.reverse else q) ((true :: used).set r.sj true); _) = _
      rw [hs, ← ho, i1]
      rfl
    · rw [hrem]
      rw [hrem'] at i2
      refine .next (s := s) (e := e) ?_ (by rw [hop]; exact g4) he ?_ i2
      · rw [hop]; split
        · exact Or.inr rfl
        · exact Or.inl rfl
      · intro q' hq' x hx
        have := h4 (q', false) (mem_remaining.1 (by rw [hrem]; exact hq')) rfl x hx
        rwa [g3] at this

/-- C44: reordering never fails on non-empty fill lines, keeps the first line first, and then repeatedly goes to a nearest end of
the remaining lines, so that every line is printed exactly once, in one of its two directions.  Holds for every arithmetic
in which the distances between line ends are below `MaxFloat32` and `<` is a strict weak order on them (for float64: no NaN
among them). -/
theorem C44_tour (fill : List (Path α)) (hne : ∀ q ∈ fill, q.points ≠ [])
    (hord : StrictWeakOn (fun a b : α => a <? b) (maxF32 :: endDistances fill))
    (hmax : ∀ d ∈ endDistances fill, (d <? maxF32) = true) :
    match fill with
    | [] => sortFillPathes fill = .ok []
    | a :: t => ∃ e out, a.points.getLast? = some e ∧ sortFillPathes fill = .ok (a :: out) ∧ NearestTour e t out := by
  match fill with
  | [] => rfl
  | [a] =>
    obtain ⟨e, he⟩ : ∃ e, a.points.getLast? = some e := ⟨_, List.getLast?_eq_getLast_of_ne_nil (hne a (by simp))⟩
    exact ⟨e, [], he, rfl, .done e⟩
  | a :: b :: t =>
    obtain ⟨e, he⟩ : ∃ e, a.points.getLast? = some e := ⟨_, List.getLast?_eq_getLast_of_ne_nil (hne a (by simp))⟩
    have hrem : ∀ l : List (Path α), remaining (l.zip (List.replicate l.length false)) = l := by
      intro l
      induction l with
      | nil => rfl
      | cons q l ih =>
        rw [List.length_cons, List.replicate_succ, List.zip_cons_cons, remaining_cons, ih]; rfl
    obtain ⟨out, h1, h2⟩ := sortFillLoop_spec a (b :: t) (endDistances (a :: b :: t)) hord hne hmax rfl (t.length + 1) a
      (List.replicate (t.length + 1) false) e he (List.mem_flatMap.2 ⟨a, by simp, by simp [pathEnds, he]⟩) (by simp)
      (by have := hrem (b :: t); rw [List.length_cons] at this; rw [this]; rfl)
    have hr := hrem (b :: t)
    rw [List.length_cons] at hr
    rw [hr] at h2
    refine ⟨e, out, he, ?_, h2⟩
    simp only [sortFillPathes]
    rw [h1]
    rfl

/-- the lines of a tour are the given ones, each possibly reversed -/
theorem NearestTour.perm {p : Point α} {l out : List (Path α)} (h : NearestTour p l out) :
    ∃ l', l'.Perm l ∧ List.Forall₂ (fun o q => o.points = q.points ∨ o.points = q.points.reverse) out l' := by
  induction h with
  | done p => exact ⟨[], .refl _, .nil⟩
  | next dir _ _ _ _ ih =>
    obtain ⟨l', h1, h2⟩ := ih
    exact ⟨_ :: l', (h1.cons _).trans List.perm_middle.symm, .cons dir h2⟩

/-- C44, the permutation part on its own -/
theorem C44_perm (fill : List (Path α)) (hne : ∀ q ∈ fill, q.points ≠ [])
    (hord : StrictWeakOn (fun a b : α => a <? b) (maxF32 :: endDistances fill))
    (hmax : ∀ d ∈ endDistances fill, (d <? maxF32) = true) :
    ∃ out l', sortFillPathes fill = .ok out ∧ out.head? = fill.head? ∧ l'.Perm fill ∧
      List.Forall₂ (fun o q => o.points = q.points ∨ o.points = q.points.reverse) out l' := by
  have h := C44_tour fill hne hord hmax
  match fill with
  | [] => exact ⟨[], [], h, rfl, .refl _, .nil⟩
  | a :: t =>
    obtain ⟨e, out, _, h1, h2⟩ := h
    obtain ⟨l', h3, h4⟩ := h2.perm
    exact ⟨a :: out, a :: l', h1, rfl, h3.cons a, .cons (Or.inl rfl) h4⟩

/-- C44 for real coordinates up to 1e37 in absolute value, with distances as ordinary real numbers: no remaining end is nearer
than the one chosen -/
theorem C44_real (a : List R3) (t : List (List R3)) (hne : ∀ q ∈ a :: t, q ≠ [])
    (hb : ∀ q ∈ a :: t, ∀ w ∈ q, |w.x| ≤ 10 ^ 37 ∧ |w.y| ≤ 10 ^ 37 ∧ |w.z| ≤ 10 ^ 37) :
    ∃ e out, a.getLast? = some e ∧ sortFillPathes ((a :: t).map rpath) = .ok (rpath a :: out) ∧
      NearestTour e.pt (t.map rpath) out := by
  have hends : ∀ x ∈ ((a :: t).map rpath).flatMap pathEnds,
      ∃ w : R3, x = w.pt ∧ |w.x| ≤ 10 ^ 37 ∧ |w.y| ≤ 10 ^ 37 ∧ |w.z| ≤ 10 ^ 37 := by
    intro x hx
    obtain ⟨q, hq, hx⟩ := List.mem_flatMap.1 hx
    obtain ⟨ws, hws, rfl⟩ := List.mem_map.1 hq
    have : x ∈ ws.map R3.pt := by
      rcases List.mem_append.1 hx with h | h
      · exact List.mem_of_mem_head? (by simpa using h)
      · exact List.mem_of_getLast? (by simpa using h)
    obtain ⟨w, hw, rfl⟩ := List.mem_map.1 this
    exact ⟨w, rfl, hb ws hws w hw⟩
  have hd : ∀ d ∈ endDistances ((a :: t).map rpath), ∃ r : ℝ, d = XR.fin r ∧ r ≤ 4 * 10 ^ 37 := by
    intro d hd
    obtain ⟨x, hx, hd⟩ := List.mem_flatMap.1 hd
    obtain ⟨y, hy, rfl⟩ := List.mem_map.1 hd
    obtain ⟨u, rfl, u1, u2, u3⟩ := hends x hx
    obtain ⟨v, rfl, v1, v2, v3⟩ := hends y hy
    refine ⟨R3.dist u v, by simp, ?_⟩
    have key : ∀ p q : ℝ, |p| ≤ 10 ^ 37 → |q| ≤ 10 ^ 37 → (q - p) * (q - p) ≤ 4 * 10 ^ 74 := by
      intro p q hp hq
      obtain ⟨p1, p2⟩ := abs_le.1 hp
      obtain ⟨q1, q2⟩ := abs_le.1 hq
      have h1 : -(2 * 10 ^ 37) ≤ q - p := by linarith
      have h2 : q - p ≤ 2 * 10 ^ 37 := by linarith
      nlinarith
    refine R3.norm_le_of_sq (by norm_num) ?_
    have k1 := key u.x v.x u1 v1
    have k2 := key u.y v.y u2 v2
    have k3 := key u.z v.z u3 v3
    simp only [R3.normSq, R3.dot, R3.sub_x, R3.sub_y, R3.sub_z]
    norm_num at k1 k2 k3 ⊢
    linarith
  have h := C44_tour ((a :: t).map rpath) (by
      intro q hq
      obtain ⟨ws, hws, rfl⟩ := List.mem_map.1 hq
      simpa using hne ws hws)
    (strictWeak_fin id _ (by
      intro d hd'
      rcases List.mem_cons.1 hd' with rfl | hd'
      · exact ⟨_, XR.maxF32_def⟩
      · obtain ⟨r, hr, _⟩ := hd d hd'
        exact ⟨r, hr⟩))
    (by
      intro d hd'
      obtain ⟨r, rfl, hr⟩ := hd d hd'
      have : (4 * 10 ^ 37 : ℝ) < XR.maxF32R := by unfold XR.maxF32R; norm_num
      simp; linarith)
  obtain ⟨e, out, h1, h2, h3⟩ := h
  rw [rpath_points, List.getLast?_map] at h1
  cases hl : a.getLast? with
  | none => rw [hl] at h1; simp at h1
  | some w =>
    rw [hl] at h1
    simp only [Option.map_some, Option.some.injEq] at h1
    subst h1
    exact ⟨w, out, rfl, h2, h3⟩

section Examples
attribute [local instance] Toy.flt
/-- three lines; the third starts nearer to the end of the first when it is reversed -/
private def exFill : List (Path Int) :=
  [⟨[⟨0, 0, 0⟩, ⟨0, 9, 0⟩]⟩, ⟨[⟨5, 0, 0⟩, ⟨5, 9, 0⟩]⟩, ⟨[⟨2, 0, 0⟩, ⟨2, 9, 0⟩]⟩]

example : sortFillPathes exFill = .ok
    [⟨[⟨0, 0, 0⟩, ⟨0, 9, 0⟩]⟩, ⟨[⟨2, 9, 0⟩, ⟨2, 0, 0⟩]⟩, ⟨[⟨5, 0, 0⟩, ⟨5, 9, 0⟩]⟩] := by decide

/-- integers are strictly ordered, so the hypotheses hold -/
example : StrictWeakOn (fun a b : Int => a <? b) (maxF32 :: endDistances exFill) ∧
    ∀ d ∈ endDistances exFill, (d <? maxF32) = true := by
  refine ⟨⟨fun a _ => ?_, fun a _ b _ c _ => ?_, fun a _ b _ c _ => ?_⟩, by decide⟩
  · show decide (a < a) = false; simp
  · show decide (a < b) = true → decide (b < c) = true → decide (a < c) = true
    simp only [decide_eq_true_eq]; omega
  · show decide (a < b) = false → decide (b < a) = false → decide (b < c) = false → decide (c < b) = false →
      decide (a < c) = false ∧ decide (c < a) = false
    simp only [decide_eq_false_iff_not]; omega
end Examples

end Goosli
