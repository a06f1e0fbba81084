import Verif.Proofs.Join2
import Verif.Props.C13
import Verif.Proofs.Geom
/-!
# C16: JoinPaths2 conserves segments for every map order
-/
set_option linter.unusedSectionVars false
namespace Goosli
open Flt
variable {α : Type} [Flt α]

/-- the paths `ps` are assembled from `xs`: every element of `xs`, possibly walked backwards, is used exactly once -/
def Assembled (xs ps : List (Path α)) : Prop :=
  ∃ groups : List (List (Path α)), List.Forall₂ Joined groups ps ∧
    ∃ used : List (Path α), used.Perm xs ∧ List.Forall₂ orientedAs used groups.flatten

theorem orientedAs_rev {a b : Path α} (h : orientedAs a b) : orientedAs a b.reverse := by
  rcases h with rfl | rfl
  · exact Or.inr rfl
  · exact Or.inl (by simp [Path.reverse])

theorem Assembled.refl (xs : List (Path α)) : Assembled xs xs := by
  refine ⟨xs.map fun x => [x], ?_, xs, List.Perm.refl _, ?_⟩
  · rw [List.forall₂_map_left_iff]; exact List.forall₂_same.2 fun x _ => .one x
  · have : (xs.map fun x => [x]).flatten = xs := by
      induction xs with
      | nil => rfl
      | cons a t ih => simp [ih]
    rw [this]; exact List.forall₂_same.2 fun x _ => Or.inl rfl

theorem Assembled.rw {xs l l' : List (Path α)} (h : Rw l l') : Assembled xs l → Assembled xs l' := by
  induction h with
  | perm h =>
    rintro ⟨gs, h1, used, h2, h3⟩
    obtain ⟨gs', h4, h5⟩ := List.perm_comp_forall₂ h.symm h1.flip
    obtain ⟨used', h6, h7⟩ := List.perm_comp_forall₂ h5.flatten h3.flip
    exact ⟨gs', h4.flip, used', h7.trans h2, h6.flip⟩
  | join h =>
    rintro ⟨gs, h1, used, h2, h3⟩
    obtain ⟨u, v, hu, hv, huv⟩ := h
    cases h1 with
    | cons a1 h1 =>
      cases h1 with
      | cons a2 h1 =>
        exact ⟨_ :: _, .cons (.join a1 a2 hu hv huv) h1, used, h2, by simpa using h3⟩
  | rev =>
    rintro ⟨gs, h1, used, h2, h3⟩
    cases h1 with
    | @cons g _ gr _ a1 h1 =>
      refine ⟨_ :: _, .cons (.rev a1) h1, ?_⟩
      rw [List.flatten_cons] at h3
      have e := List.forall₂_iff_get.1 h3
      have hs := List.take_append_drop g.length used
      have t1 : List.Forall₂ orientedAs (used.take g.length) g := by
        have := List.forall₂_take g.length h3; simpa using this
      have t2 : List.Forall₂ orientedAs (used.drop g.length) gr.flatten := by
        have := List.forall₂_drop g.length h3; simpa using this
      refine ⟨(used.take g.length).reverse ++ used.drop g.length, ?_, ?_⟩
      · refine List.Perm.trans ?_ h2
        conv_rhs => rw [← hs]
        exact (List.reverse_perm _).append_right _
      · rw [List.flatten_cons]
        refine List.rel_append ?_ t2
        rw [List.forall₂_map_right_iff]
        exact (List.forall₂_reverse_iff.2 t1).imp fun _ _ h => orientedAs_rev h
  | trans _ _ ih1 ih2 => exact fun h => ih2 (ih1 h)

theorem Rw.segCount {l l' : List (Path α)} (h : Rw l l') : (∀ q ∈ l, q.points ≠ []) →
    (l'.map segCount).sum = (l.map segCount).sum := by
  induction h with
  | perm h => intro _; exact (h.map _).sum_eq.symm
  | @join a b r h =>
    intro hn
    have h1 : 1 ≤ a.points.length := List.length_pos_iff.2 (hn a (by simp))
    have h2 : 1 ≤ b.points.length := List.length_pos_iff.2 (hn b (by simp))
    simp [Goosli.segCount]; omega
  | rev => intro _; simp [Goosli.segCount, Path.reverse]
  | trans h _ ih1 ih2 => intro hn; rw [ih2 (h.nonempty hn), ih1 hn]

/-- **C16 (what holds).** For every list of non-empty paths, every arithmetic and every iteration order of the map in
every round, `JoinPaths2` returns (no panic, no infinite loop); the results are assembled from the input paths, each used
exactly once, possibly backwards, neighbours meeting in the same `MapKey`; the number of segments is unchanged; and in
some order of the results neither end of a later one is the end of an earlier one.

Missing from the full claim: the *first* point of an earlier result may still be the end of a later one
(`C16_join2_violated`). -/
theorem C16_join2_partial (ord : MapOrder (Path α)) (p : List (Path α)) (hn : ∀ q ∈ p, q.points ≠ []) :
    ∃ out, joinPaths2 ord p = .ok out ∧ Assembled p out ∧ (out.map segCount).sum = (p.map segCount).sum ∧
      ∃ l : List (Path α), l.Perm out ∧ l.Pairwise fun a b => ∃ la fb lb, a.points.getLast? = some la ∧
        b.points.head? = some fb ∧ b.points.getLast? = some lb ∧
        fb.mapKey.keyEq la.mapKey = false ∧ lb.mapKey.keyEq la.mapKey = false := by
  obtain ⟨out, l, h1, h2, h3, h4⟩ := joinPaths2Loop_spec ord (p.length + 1) 0 p hn (by omega)
  exact ⟨out, h1, (Assembled.refl p).rw h2, h2.segCount hn, l, h3, h4⟩

/-! ## closed loops -/

/-- keys never contain NaN, so `==` on them is equality -/
theorem mapKey_fin (a : Point XR) : ∃ v : R3, a.mapKey = v.pt := by
  have h : ∀ x : XR, ∃ y : ℝ, roundPlaces x 8 = XR.fin y := by
    intro x
    refine ⟨(round (x * powersOfTen 8) : ℝ) / 10 ^ 8, ?_⟩
    simp only [roundPlaces, powersOfTen, XR.ofInt_def, XR.lit_def]
    rw [XR.fin_div (by norm_num)]
    norm_num
  obtain ⟨x, hx⟩ := h a.x
  obtain ⟨y, hy⟩ := h a.y
  obtain ⟨z, hz⟩ := h a.z
  exact ⟨⟨x, y, z⟩, by simp [Point.mapKey, Point.roundPlaces, hx, hy, hz, R3.pt]⟩

theorem keyEq_iff (a b : Point XR) : a.mapKey.keyEq b.mapKey = true ↔ a.mapKey = b.mapKey := by
  obtain ⟨v, hv⟩ := mapKey_fin a
  obtain ⟨w, hw⟩ := mapKey_fin b
  rw [hv, hw]
  simp [Point.keyEq, R3.pt, and_assoc]

open Classical in
/-- joining two ends removes two equal keys; nothing else changes the ends -/
theorem Rw.degree {l l' : List (Path XR)} (h : Rw l l') : (∀ q ∈ l, q.points ≠ []) →
    (∀ k, (l.flatMap endKeys).count k % 2 = 0) → ∀ k, (l'.flatMap endKeys).count k % 2 = 0 := by
  induction h with
  | perm h => intro _ hd k; rw [← (h.flatMap_right endKeys).count_eq k]; exact hd k
  | @join a b r h =>
    obtain ⟨u, v, hu, hv, huv⟩ := h
    intro hn hd k
    obtain ⟨fa, la, ta, ha, hha, hla⟩ := ends_exist (hn a (by simp))
    obtain ⟨fb, lb, tb, hb, hhb, hlb⟩ := ends_exist (hn b (by simp))
    rw [hla] at hu; rw [hhb] at hv
    injection hu with hu; injection hv with hv
    subst hu; subst hv
    have key := (keyEq_iff _ _).1 huv
    have e1 : (Path.mk (a.points ++ b.points.tail)).points.head? = some fa := by simp [ha]
    obtain ⟨lc, hlc, hk⟩ : ∃ lc, (Path.mk (a.points ++ b.points.tail)).points.getLast? = some lc ∧
        lc.mapKey = lb.mapKey := by
      cases tb with
      | nil =>
        refine ⟨la, by simp [hb, hla], ?_⟩
        rw [hb] at hlb; simp at hlb; subst hlb; exact key.symm
      | cons x t =>
        refine ⟨lb, ?_, rfl⟩
        rw [hb, List.getLast?_cons_cons] at hlb
        simp only [hb, List.tail_cons]
        rw [List.getLast?_append_of_ne_nil _ (by simp)]; exact hlb
    have hc : ((a :: b :: r).flatMap endKeys).count k =
        ((Path.mk (a.points ++ b.points.tail) :: r).flatMap endKeys).count k +
          (if la.mapKey = k then 2 else 0) := by
      simp only [List.flatMap_cons, endKeys, hha, hla, hhb, hlb, e1, hlc, Option.toList_some, List.map_append,
        List.map_cons, List.map_nil, List.count_append, List.count_cons, List.count_nil, hk, key, beq_iff_eq]
      by_cases hk' : la.mapKey = k
      · simp only [hk', if_true]; omega
      · simp only [hk', if_false]; omega
    have := hd k
    rw [hc] at this
    split at this <;> omega
  | @rev a r =>
    intro hn hd k
    obtain ⟨fa, la, ta, ha, hha, hla⟩ := ends_exist (hn a (by simp))
    have e : endKeys a.reverse = [la.mapKey, fa.mapKey] := by
      simp [endKeys, Path.reverse, hla, hha]
    have e' : endKeys a = [fa.mapKey, la.mapKey] := by simp [endKeys, hla, hha]
    have := hd k
    simp only [List.flatMap_cons, e, e', List.count_append, List.count_cons, List.count_nil] at this ⊢
    omega
  | trans h _ ih1 ih2 => intro hn hd; exact ih2 (h.nonempty hn) (ih1 hn hd)

open Classical in
theorem closed_of_fresh (l : List (Path XR)) (hn : ∀ q ∈ l, q.points ≠ []) (hp : l.Pairwise freshPair)
    (hd : ∀ k, (l.flatMap endKeys).count k % 2 = 0) :
    ∀ n, ∀ l1 l2, l = l1 ++ l2 → l1.length = n → ∀ q ∈ l1,
      ∃ f la, q.points.head? = some f ∧ q.points.getLast? = some la ∧ f.mapKey = la.mapKey := by
  intro n
  induction n with
  | zero => intro l1 l2 _ h q hq; rw [List.length_eq_zero_iff.1 h] at hq; simp at hq
  | succ n ih =>
    intro l1 l2 hl hlen q hq
    obtain ⟨l0, c, rfl⟩ : ∃ l0 c, l1 = l0 ++ [c] := by
      rcases List.eq_nil_or_concat l1 with h | ⟨l0, c, h⟩
      · rw [h] at hlen; simp at hlen
      · exact ⟨l0, c, by simpa using h⟩
    have hl' : l = l0 ++ (c :: l2) := by rw [hl]; simp
    have hprev := ih l0 (c :: l2) hl' (by simpa using hlen)
    rcases List.mem_append.1 hq with hq | hq
    · exact hprev q hq
    · simp at hq; subst hq
      obtain ⟨f, la, t, ha, hh, hla⟩ := ends_exist (hn q (by rw [hl']; simp))
      refine ⟨f, la, hh, hla, ?_⟩
      by_contra hne
      -- the key of its end occurs evenly often before, once here and never after
      have heven : ∀ l0 : List (Path XR), (∀ q ∈ l0, ∃ f la, q.points.head? = some f ∧ q.points.getLast? = some la ∧
          f.mapKey = la.mapKey) → Even ((l0.flatMap endKeys).count la.mapKey) := by
        intro l0
        induction l0 with
        | nil => intro _; simp
        | cons a t ih =>
          intro h
          obtain ⟨f', la', h1, h2, h3⟩ := h a (by simp)
          rw [List.flatMap_cons, List.count_append]
          refine Even.add ?_ (ih fun q hq => h q (by simp [hq]))
          simp only [endKeys, h1, h2, Option.toList_some, List.map_append, List.map_cons, List.map_nil, h3,
            List.cons_append, List.nil_append, List.count_cons, List.count_nil]
          split <;> decide
      have hafter : (l2.flatMap endKeys).count la.mapKey = 0 := by
        rw [List.count_eq_zero]
        intro hm
        obtain ⟨b, hb, hkb⟩ := List.mem_flatMap.1 hm
        rw [hl', List.pairwise_append, List.pairwise_cons] at hp
        obtain ⟨la', fb, lb, g1, g2, g3, g4, g5⟩ := hp.2.1.1 b hb
        rw [hla] at g1; injection g1 with g1; subst g1
        simp only [endKeys, g2, g3, Option.toList_some, List.cons_append, List.nil_append, List.map_cons, List.map_nil,
          List.mem_cons, List.not_mem_nil, or_false] at hkb
        rcases hkb with hkb | hkb
        · have := (keyEq_iff fb la).2 hkb.symm; rw [g4] at this; cases this
        · have := (keyEq_iff lb la).2 hkb.symm; rw [g5] at this; cases this
      have hhere : (endKeys q).count la.mapKey = 1 := by
        simp [endKeys, hh, hla, List.count_cons, hne]
      have htot := hd la.mapKey
      rw [hl', List.flatMap_append, List.count_append, List.flatMap_cons, List.count_append, hafter, hhere] at htot
      obtain ⟨m, hm⟩ := heven l0 hprev
      omega

open Classical in
/-- **C16 (closed contours).** If every rounded end point occurs an even number of times among the ends of the input paths --
the cut of a watertight mesh, whatever the direction of the segments and also where several contours touch -- every returned path ends in the rounded point it
starts with, for every iteration order of the map. -/
theorem C16_join2_loops (ord : MapOrder (Path XR)) (p : List (Path XR)) (hn : ∀ q ∈ p, q.points ≠ [])
    (hd : ∀ k ∈ p.flatMap endKeys, Even ((p.flatMap endKeys).count k)) :
    ∃ out, joinPaths2 ord p = .ok out ∧ ∀ q ∈ out, ∃ f l, q.points.head? = some f ∧ q.points.getLast? = some l ∧
      f.mapKey = l.mapKey := by
  obtain ⟨out, l, h1, h2, h3, h4⟩ := joinPaths2Loop_spec ord (p.length + 1) 0 p hn (by omega)
  refine ⟨out, h1, fun q hq => ?_⟩
  have hrw : Rw p l := h2.trans (.perm h3.symm)
  exact closed_of_fresh l (hrw.nonempty hn) h4 (hrw.degree hn fun k => by
    by_cases hk : k ∈ p.flatMap endKeys
    · exact Nat.even_iff.1 (hd k hk)
    · rw [List.count_eq_zero.2 hk]) l.length l [] (by simp) rfl q (h3.mem_iff.2 hq)

/-! ## the violation -/

theorem mapKey_int (a b c : Int) (ha : |(a:ℝ)| ≤ 100) (hb : |(b:ℝ)| ≤ 100) (hc : |(c:ℝ)| ≤ 100) :
    (R3.pt ⟨a, b, c⟩).mapKey = R3.pt ⟨a, b, c⟩ := by
  have hl : (100 : ℝ) ≤ roundLimit := by unfold roundLimit; norm_num
  rw [mapKey_pt _ ⟨ha.trans hl, hb.trans hl, hc.trans hl⟩]
  simp [R3.round8, r8_int]

/-- **C16 (violated).** The two paths (1,0,0)→(2,0,0) and (0,0,0)→(1,0,0), in this order, are returned unjoined for
every iteration order, although the second ends exactly where the first starts. -/
theorem C16_join2_violated (ord : MapOrder (Path XR)) :
    let a : Path XR := ⟨[R3.pt ⟨1, 0, 0⟩, R3.pt ⟨2, 0, 0⟩]⟩
    let b : Path XR := ⟨[R3.pt ⟨0, 0, 0⟩, R3.pt ⟨1, 0, 0⟩]⟩
    ∃ out, joinPaths2 ord [a, b] = .ok out ∧ out.Perm [a, b] ∧ b.points.getLast? = a.points.head? := by
  intro a b
  have k0 : (R3.pt ⟨0, 0, 0⟩).mapKey = R3.pt ⟨0, 0, 0⟩ := by simpa using mapKey_int 0 0 0 (by norm_num) (by norm_num) (by norm_num)
  have k1 : (R3.pt ⟨1, 0, 0⟩).mapKey = R3.pt ⟨1, 0, 0⟩ := by simpa using mapKey_int 1 0 0 (by norm_num) (by norm_num) (by norm_num)
  have k2 : (R3.pt ⟨2, 0, 0⟩).mapKey = R3.pt ⟨2, 0, 0⟩ := by simpa using mapKey_int 2 0 0 (by norm_num) (by norm_num) (by norm_num)
  refine ⟨ord.run 0 [a, b], ?_, ord.perm 0 [a, b], rfl⟩
  have h1 : absorb 1 a [] false = .ok ([(R3.pt ⟨2, 0, 0⟩, a)], false) := by
    simp [absorb, a, goAt, goLast, bind, Except.bind, k2, pure, Except.pure]
  have h2 : absorb 3 b [(R3.pt ⟨2, 0, 0⟩, a)] false =
      .ok ([(R3.pt ⟨2, 0, 0⟩, a), (R3.pt ⟨1, 0, 0⟩, b)], false) := by
    have e0 : (R3.pt ⟨0, 0, 0⟩).keyEq (R3.pt ⟨2, 0, 0⟩) = false := by simp [Point.keyEq, R3.pt]
    have e1 : (R3.pt ⟨1, 0, 0⟩).keyEq (R3.pt ⟨2, 0, 0⟩) = false := by simp [Point.keyEq, R3.pt]
    simp [absorb, b, goAt, goLast, bind, Except.bind, k0, k1, pure, Except.pure, e0, e1]
  simp [joinPaths2, joinPaths2Loop, joinRound, h1, h2, bind, Except.bind, pure, Except.pure]

section Example

private noncomputable def tri : List (Path XR) :=
  [⟨[R3.pt ⟨0, 0, 0⟩, R3.pt ⟨5, 0, 0⟩]⟩, ⟨[R3.pt ⟨0, 0, 0⟩, R3.pt ⟨5, 7, 0⟩]⟩, ⟨[R3.pt ⟨5, 0, 0⟩, R3.pt ⟨5, 7, 0⟩]⟩]

open Classical in
/-- a triangle with one side in the wrong direction meets the hypotheses of `C16_join2_loops` -/
example : (∀ q ∈ tri, q.points ≠ []) ∧ ∀ k ∈ tri.flatMap endKeys, Even ((tri.flatMap endKeys).count k) := by
  have k0 : (R3.pt ⟨0, 0, 0⟩).mapKey = R3.pt ⟨0, 0, 0⟩ := by simpa using mapKey_int 0 0 0 (by norm_num) (by norm_num) (by norm_num)
  have k1 : (R3.pt ⟨5, 0, 0⟩).mapKey = R3.pt ⟨5, 0, 0⟩ := by simpa using mapKey_int 5 0 0 (by norm_num) (by norm_num) (by norm_num)
  have k2 : (R3.pt ⟨5, 7, 0⟩).mapKey = R3.pt ⟨5, 7, 0⟩ := by simpa using mapKey_int 5 7 0 (by norm_num) (by norm_num) (by norm_num)
  constructor
  · simp [tri]
  · intro k hk
    simp only [tri, endKeys, List.flatMap_cons, List.flatMap_nil, List.head?_cons, List.getLast?_cons_cons,
      List.getLast?_singleton, Option.toList_some, List.cons_append, List.nil_append, List.map_cons, List.map_nil, k0, k1,
      k2, List.append_nil] at hk ⊢
    simp only [List.mem_cons, List.not_mem_nil, or_false] at hk
    rcases hk with rfl | rfl | rfl | rfl | rfl | rfl <;> simp [List.count_cons, R3.pt] <;> decide
end Example

end Goosli
