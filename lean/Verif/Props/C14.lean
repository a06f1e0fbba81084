import Verif.Props.C13
import Verif.Proofs.Geom
import Verif.Spec.Sorters
/-!
# C14: clean segment soups become closed loops
-/
set_option linter.unusedSectionVars false
namespace Goosli
open Flt

/-! ## list lemmas -/

theorem getD_lt {β : Type} {l : List β} {i : Nat} (d : β) (h : i < l.length) : l.getD i d = l[i] := by
  simp [List.getD_eq_getElem?_getD, h]

theorem isChain_mem_last {β : Type} {R : β → β → Prop} : ∀ {g : List β}, g.IsChain R → ∀ b ∈ g,
    g.getLast? = some b ∨ ∃ x ∈ g, R b x := by
  intro g
  induction g with
  | nil => intro _ b hb; simp at hb
  | cons a t ih =>
    intro h b hb
    cases t with
    | nil => simp at hb; subst hb; left; rfl
    | cons a' t =>
      rw [List.isChain_cons_cons] at h
      rcases List.mem_cons.1 hb with rfl | hb
      · right; exact ⟨a', by simp, h.1⟩
      · rcases ih h.2 b hb with h' | ⟨x, hx, hr⟩
        · left; rw [List.getLast?_cons_cons]; exact h'
        · right; exact ⟨x, by simp [hx], hr⟩

/-- an element of a chain that is not the first one has a predecessor -/
theorem isChain_mem_split {β : Type} {R : β → β → Prop} : ∀ {g : List β}, g.IsChain R → ∀ c ∈ g,
    g.head? = some c ∨ ∃ l1 y l2, g = l1 ++ y :: c :: l2 ∧ R y c := by
  intro g
  induction g with
  | nil => intro _ b hb; simp at hb
  | cons a t ih =>
    intro h c hc
    rcases List.mem_cons.1 hc with rfl | hc
    · left; rfl
    · cases t with
      | nil => simp at hc
      | cons a' t =>
        rw [List.isChain_cons_cons] at h
        rcases ih h.2 c hc with h' | ⟨l1, y, l2, e, hr⟩
        · simp at h'; subst h'; right; exact ⟨[], a, t, rfl, h.1⟩
        · right; exact ⟨a :: l1, y, l2, by rw [e]; rfl, hr⟩

/-- between an `x` and a later `y` in a list of `x`s and `y`s there is an `x` followed by a `y` -/
theorem adjacent_of_two {β : Type} {x y : β} (hxy : x ≠ y) : ∀ mid : List β, (∀ m ∈ mid, m = x ∨ m = y) →
    ∃ l1 l2, x :: mid ++ [y] = l1 ++ x :: y :: l2 := by
  intro mid
  induction mid with
  | nil => intro _; exact ⟨[], [], rfl⟩
  | cons m t ih =>
    intro h
    obtain ⟨l1, l2, e⟩ := ih (fun m hm => h m (by simp [hm]))
    rcases h m (by simp) with rfl | rfl
    · exact ⟨m :: l1, l2, by rw [List.cons_append, List.cons_append, ← List.cons_append, e]; rfl⟩
    · exact ⟨[], t ++ [m], rfl⟩

theorem adjacent_sorted {β : Type} {less : β → β → Bool} {L : List β}
    (hs : L.Pairwise (fun a b => less b a = false)) {x y : β} (hx : x ∈ L) (hy : y ∈ L) (hxy : x ≠ y)
    (hb : ∀ m ∈ L, (less m x = false → less y m = false → m = x ∨ m = y) ∧
      (less m y = false → less x m = false → m = x ∨ m = y)) :
    (∃ l1 l2, L = l1 ++ x :: y :: l2) ∨ (∃ l1 l2, L = l1 ++ y :: x :: l2) := by
  obtain ⟨u, v, rfl⟩ := List.append_of_mem hx
  have key : ∀ (a b : β) (p mid q : List β), a ≠ b →
      (p ++ a :: (mid ++ b :: q)).Pairwise (fun a b => less b a = false) →
      (∀ m ∈ mid, less m a = false → less b m = false → m = a ∨ m = b) →
      ∃ l1 l2, p ++ a :: (mid ++ b :: q) = l1 ++ a :: b :: l2 := by
    intro a b p mid q hab hs hm
    rw [List.pairwise_append, List.pairwise_cons, List.pairwise_append] at hs
    obtain ⟨l1, l2, e⟩ := adjacent_of_two hab mid (fun m hmm =>
      hm m hmm (hs.2.1.1 m (by simp [hmm])) (hs.2.1.2.2.2 m hmm b (by simp)))
    refine ⟨p ++ l1, l2 ++ q, ?_⟩
    have : p ++ a :: (mid ++ b :: q) = p ++ ((a :: mid ++ [b]) ++ q) := by simp
    rw [this, e]; simp
  rcases List.mem_append.1 hy with hy | hy
  · obtain ⟨p, q, rfl⟩ := List.append_of_mem hy
    right
    rw [List.append_assoc, List.cons_append] at hs hb ⊢
    exact key y x p q v hxy.symm hs (fun m hm h1 h2 => ((hb m (by simp [hm])).2 h1 h2).symm)
  · rcases List.mem_cons.1 hy with rfl | hy
    · exact absurd rfl hxy
    · obtain ⟨p, q, rfl⟩ := List.append_of_mem hy
      left
      exact key x y u p q hxy hs (fun m hm h1 h2 => (hb m (by simp [hm])).1 h1 h2)

/-! ## the joining loop when every vertex has one incoming and one outgoing segment -/

theorem joinLoop_together {α : Type} [Flt α] {pf : Nat → Path α} {n : Nat} (h2p : ∀ i < n, 2 ≤ (pf i).points.length)
    (sF eF : Nat → Point α) (hs : ∀ i < n, (pf i).points.head? = some (sF i))
    (he : ∀ i < n, (pf i).points.getLast? = some (eF i))
    (sinj : ∀ i < n, ∀ j < n, sF i = sF j → i = j) (einj : ∀ i < n, ∀ j < n, eF i = eF j → i = j)
    (hmeet : ∀ i < n, ∀ j < n, (eF i).equal (sF j) = true ↔ eF i = sF j)
    (l : List (SortP α)) :
    ∀ st gs, JInv pf n st gs → (∀ s ∈ l, s.ind < n) →
      (∀ l1 b c l2, l = l1 ++ b :: c :: l2 → b.p.equal c.p = true → eF b.ind = sF c.ind ∨ eF c.ind = sF b.ind ∨
        b.ind = c.ind) →
      ∃ st' gs', joinLoop l st = .ok st' ∧ JInv pf n st' gs' ∧
        (∀ i j r, r < n → i ∈ gs r → j ∈ gs r → ∃ r' < n, i ∈ gs' r' ∧ j ∈ gs' r') ∧
        (∀ l1 b c l2, l = l1 ++ b :: c :: l2 → b.p.equal c.p = true → ∃ r < n, b.ind ∈ gs' r ∧ c.ind ∈ gs' r) := by
  have hn : ∀ i < n, (pf i).points ≠ [] := by
    intro i hi hc; have := h2p i hi; rw [hc] at this; simp at this
  induction l with
  | nil =>
    intro st gs h _ _
    exact ⟨st, gs, rfl, h, fun i j r hr hi hj => ⟨r, hr, hi, hj⟩, fun l1 b c l2 e => by simp at e⟩
  | cons b t ih =>
    intro st gs h hl hadj
    cases t with
    | nil =>
      refine ⟨st, gs, rfl, h, fun i j r hr hi hj => ⟨r, hr, hi, hj⟩, fun l1 b c l2 e => ?_⟩
      have := congrArg List.length e
      simp at this
      omega
    | cons c t =>
      have hb := hl b (by simp)
      have hc := hl c (by simp)
      obtain ⟨st', gs', h1, h2, h3, h4⟩ := joinStep_spec h hn b c hb hc
      obtain ⟨st'', gs'', g1, g2, g3, g4⟩ := ih st' gs' h2 (fun s hs => hl s (by simp [hs]))
        (fun l1 b' c' l2 e => hadj (b :: l1) b' c' l2 (by rw [e]; rfl))
      refine ⟨st'', gs'', by simp [joinLoop, h1, bind, Except.bind, g1], g2, ?_, ?_⟩
      · intro i j r hr hi hj
        obtain ⟨r', hr', hi', hj'⟩ := h3 i j r hr hi hj
        exact g3 i j r' hr' hi' hj'
      · intro l1 b' c' l2 e heq
        cases l1 with
        | cons a l1 =>
          simp only [List.cons_append, List.cons.injEq] at e
          exact g4 l1 b' c' l2 e.2 heq
        | nil =>
          simp only [List.nil_append, List.cons.injEq] at e
          obtain ⟨rfl, rfl, rfl⟩ := e
          rcases h4 heq with ⟨r, hr, hi, hj⟩ | ⟨r1, r2, hr1, hr2, hne, hi, hj, m1, m2⟩
          · exact g3 _ _ r hr hi hj
          · exfalso
            -- an end meeting a start in different groups: the groups would have been joined
            have key : ∀ r1 r2 i j, r1 < n → r2 < n → r1 ≠ r2 → i ∈ gs r1 → j ∈ gs r2 → eF i = sF j →
                meets (concatPath ((gs r1).map pf)) (concatPath ((gs r2).map pf)) := by
              intro r1 r2 i j hr1 hr2 hne hi hj hij
              have hin := h.mem_lt hr1 hi
              have hjn := h.mem_lt hr2 hj
              have hm2 : ∀ p ∈ (gs r1).map pf, 2 ≤ p.points.length := by
                intro p hp; obtain ⟨k, hk, rfl⟩ := List.mem_map.1 hp; exact h2p k (h.mem_lt hr1 hk)
              have c1 := h.links h2p r1 hr1
              have c2 := h.links h2p r2 hr2
              rw [List.isChain_map] at c1 c2
              have meet_eq : ∀ a b, a < n → b < n → meets (pf a) (pf b) → eF a = sF b := by
                rintro a b ha hb ⟨x, y, hx, hy, hxy⟩
                rw [he a ha] at hx; rw [hs b hb] at hy
                injection hx with hx; injection hy with hy
                subst hx; subst hy
                exact (hmeet a ha b hb).1 hxy
              have hlast : (gs r1).getLast? = some i := by
                rcases isChain_mem_last c1 i hi with h' | ⟨x, hx, hr⟩
                · exact h'
                · have hxn := h.mem_lt hr1 hx
                  have := meet_eq i x hin hxn hr
                  have := sinj x hxn j hjn (this.symm.trans hij)
                  subst this
                  exact absurd (h.disjoint hr1 hr2 hx hj) hne
              have hhead : (gs r2).head? = some j := by
                rcases isChain_mem_split c2 j hj with h' | ⟨k1, y, k2, e, hr⟩
                · exact h'
                · have hy : y ∈ gs r2 := by rw [e]; simp
                  have hyn := h.mem_lt hr2 hy
                  have := meet_eq y j hyn hjn hr
                  have := einj y hyn i hin (this.trans hij.symm)
                  subst this
                  exact absurd (h.disjoint hr1 hr2 hi hy) hne
              refine ⟨eF i, sF j, ?_, ?_, ?_⟩
              · rw [concatPath_last (p := pf i) (by rw [List.getLast?_map, hlast]; rfl) hm2]; exact he i hin
              · rw [concatPath_head (p := pf j) (by rw [List.head?_map, hhead]; rfl) (hn j hjn)]; exact hs j hjn
              · exact (hmeet i hin j hjn).2 hij
            rcases hadj [] b c t rfl heq with h' | h' | h'
            · exact m1 (key r1 r2 _ _ hr1 hr2 hne hi hj h')
            · exact m2 (key r2 r1 _ _ hr2 hr1 hne.symm hj hi h')
            · rw [h'] at hi; exact hne (h.disjoint hr1 hr2 hi hj)

/-- `q` is a path from `s.1` to `s.2` with at least one segment -/
def pathFromTo {α : Type} (q : Path α) (s : Point α × Point α) : Prop :=
  2 ≤ q.points.length ∧ q.points.head? = some s.1 ∧ q.points.getLast? = some s.2

/-- on the points `vs` the tolerant comparison is equality and the comparator of the sort is the strict linear order `lt` -/
structure CleanPoints {α : Type} [Flt α] (vs : List (Point α)) (lt : Point α → Point α → Prop) : Prop where
  equal : ∀ a ∈ vs, ∀ b ∈ vs, a.equal b = true ↔ a = b
  less : ∀ a ∈ vs, ∀ b ∈ vs, ∀ i j : Nat, joinLess ⟨a, i⟩ ⟨b, j⟩ = true ↔ lt a b
  irrefl : ∀ a ∈ vs, ¬ lt a a
  trans : ∀ a ∈ vs, ∀ b ∈ vs, ∀ c ∈ vs, lt a b → lt b c → lt a c
  tri : ∀ a ∈ vs, ∀ b ∈ vs, ¬ lt a b → ¬ lt b a → a = b

/-- **C14** for every arithmetic.  Let the input be paths running from `s.1` to `s.2` for the pairs `s` of a list `segs`, in
which no point starts two segments, every end is the start of exactly one segment and every start the end of exactly one.
If the comparisons of the program tell the points apart and order them, then for every admissible sort the result
consists of closed paths only. -/
theorem C14_loops {α : Type} [Flt α] (S : Sorter) (segs : List (Point α × Point α)) (p : List (Path α))
    (hp : List.Forall₂ pathFromTo p segs)
    (hstart : (segs.map Prod.fst).Nodup) (hperm : (segs.map Prod.snd).Perm (segs.map Prod.fst))
    (lt : Point α → Point α → Prop) (hclean : CleanPoints (segs.map Prod.fst) lt) :
    ∃ out, joinPaths3 S p = .ok out ∧
      ∀ q ∈ out, q.isClosed = true ∧ 2 ≤ q.points.length ∧ q.points.head? = q.points.getLast? := by
  have hlen : p.length = segs.length := hp.length_eq
  have hget : ∀ i < p.length, pathFromTo (p.getD i ⟨[]⟩) (segs.getD i (originPoint, originPoint)) := by
    intro i hi
    have hi' : i < segs.length := by omega
    rw [getD_lt _ hi, getD_lt _ hi']
    exact (List.forall₂_iff_get.1 hp).2 i hi hi'
  obtain ⟨pf, hpf⟩ : ∃ pf : Nat → Path α, pf = fun i => p.getD i ⟨[]⟩ := ⟨_, rfl⟩
  obtain ⟨sF, hsF⟩ : ∃ sF : Nat → Point α, sF = fun i => (segs.getD i (originPoint, originPoint)).1 := ⟨_, rfl⟩
  obtain ⟨eF, heF⟩ : ∃ eF : Nat → Point α, eF = fun i => (segs.getD i (originPoint, originPoint)).2 := ⟨_, rfl⟩
  have h2p : ∀ i < p.length, 2 ≤ (pf i).points.length := fun i hi => by rw [hpf]; exact (hget i hi).1
  have hs : ∀ i < p.length, (pf i).points.head? = some (sF i) := fun i hi => by rw [hpf, hsF]; exact (hget i hi).2.1
  have he : ∀ i < p.length, (pf i).points.getLast? = some (eF i) := fun i hi => by
    rw [hpf, heF]; exact (hget i hi).2.2
  have smem : ∀ i < p.length, sF i ∈ segs.map Prod.fst := by
    intro i hi; rw [hsF]
    have hi' : i < segs.length := by omega
    simp only [getD_lt _ hi']
    exact List.mem_map.2 ⟨_, List.getElem_mem hi', rfl⟩
  have emem : ∀ i < p.length, eF i ∈ segs.map Prod.fst := by
    intro i hi; rw [heF]
    have hi' : i < segs.length := by omega
    simp only [getD_lt _ hi']
    exact hperm.mem_iff.1 (List.mem_map.2 ⟨_, List.getElem_mem hi', rfl⟩)
  have sinj : ∀ i < p.length, ∀ j < p.length, sF i = sF j → i = j := by
    intro i hi j hj hij
    have hi' : i < segs.length := by omega
    have hj' : j < segs.length := by omega
    rw [hsF] at hij
    simp only [getD_lt _ hi', getD_lt _ hj'] at hij
    exact (List.Nodup.getElem_inj_iff hstart (hi := by simpa using hi') (hj := by simpa using hj')).1 (by simpa using hij)
  have einj : ∀ i < p.length, ∀ j < p.length, eF i = eF j → i = j := by
    intro i hi j hj hij
    have hi' : i < segs.length := by omega
    have hj' : j < segs.length := by omega
    rw [heF] at hij
    simp only [getD_lt _ hi', getD_lt _ hj'] at hij
    have hend : (segs.map Prod.snd).Nodup := hperm.nodup_iff.2 hstart
    exact (List.Nodup.getElem_inj_iff hend (hi := by simpa using hi') (hj := by simpa using hj')).1 (by simpa using hij)
  have hsurj : ∀ i < p.length, ∃ j < p.length, sF j = eF i := by
    intro i hi
    obtain ⟨s, hsm, hse⟩ := List.mem_map.1 (emem i hi)
    obtain ⟨j, hj, rfl⟩ := List.getElem_of_mem hsm
    refine ⟨j, by omega, ?_⟩
    rw [hsF]; simp only [getD_lt _ hj]; exact hse
  have hn : ∀ q ∈ p, q.points ≠ [] := by
    intro q hq hc
    obtain ⟨i, hi, rfl⟩ := List.getElem_of_mem hq
    have := (hget i hi).1
    rw [getD_lt _ hi, hc] at this; simp at this
  obtain ⟨a, ha, hm⟩ := sortPs_ok p hn 0
  -- every sort entry is the start or the end of a path
  have hent : ∀ s ∈ a, s.ind < p.length ∧ ((s.p = sF s.ind) ∨ (s.p = eF s.ind)) := by
    intro s hsa
    obtain ⟨k, q, hk, hi, hor⟩ := (hm s).1 hsa
    have hkl : k < p.length := by
      by_contra hc; rw [List.getElem?_eq_none (by omega)] at hk; cases hk
    have hik : s.ind = k := by omega
    have hq : q = pf k := by rw [hpf]; simp [List.getD_eq_getElem?_getD, hk]
    subst hq
    rw [hik]
    refine ⟨hkl, hor.imp (fun h => ?_) (fun h => ?_)⟩
    · rw [hs k hkl] at h; injection h with h; exact h.symm
    · rw [he k hkl] at h; injection h with h; exact h.symm
  have hv : ∀ s ∈ a, s.p ∈ segs.map Prod.fst := by
    intro s hsa
    obtain ⟨hl, h | h⟩ := hent s hsa
    · rw [h]; exact smem _ hl
    · rw [h]; exact emem _ hl
  have hless : ∀ s ∈ a, ∀ t ∈ a, (joinLess s t = true ↔ lt s.p t.p) := fun s hsa t hta =>
    hclean.less _ (hv s hsa) _ (hv t hta) s.ind t.ind
  have fal : ∀ s ∈ a, ∀ t ∈ a, (joinLess s t = false ↔ ¬ lt s.p t.p) := by
    intro s hsa t hta
    rw [← hless s hsa t hta]; simp
  have hswo : StrictWeakOn joinLess a := by
    refine ⟨?_, ?_, ?_⟩
    · intro s hsa
      exact (fal s hsa s hsa).2 (hclean.irrefl _ (hv s hsa))
    · intro s hsa t hta u hua h1 h2
      exact (hless s hsa u hua).2 (hclean.trans _ (hv s hsa) _ (hv t hta) _ (hv u hua) ((hless s hsa t hta).1 h1) ((hless t hta u hua).1 h2))
    · intro s hsa t hta u hua h1 h2 h3 h4
      have e1 := hclean.tri _ (hv s hsa) _ (hv t hta) ((fal s hsa t hta).1 h1) ((fal t hta s hsa).1 h2)
      have e2 := hclean.tri _ (hv t hta) _ (hv u hua) ((fal t hta u hua).1 h3) ((fal u hua t hta).1 h4)
      have hi := hclean.irrefl _ (hv s hsa)
      refine ⟨(fal s hsa u hua).2 ?_, (fal u hua s hsa).2 ?_⟩
      · rw [← e2, ← e1]; exact hi
      · rw [← e2, ← e1]; exact hi
  have hsorted := S.sorted joinLess a hswo
  have hLperm := S.perm joinLess a
  obtain ⟨st, gs, h1, h2, _, h4⟩ := joinLoop_together h2p sF eF hs he sinj einj
    (fun i hi j hj => hclean.equal _ (emem i hi) _ (smem j hj))
    (S.run joinLess a) ⟨p, List.range p.length⟩ (fun i => [i]) (by rw [hpf]; exact JInv.init p)
    (fun s hsl => (hent s (hLperm.mem_iff.1 hsl)).1)
    (by
      intro l1 b c l2 hL heq
      have hb : b ∈ a := hLperm.mem_iff.1 (by rw [hL]; simp)
      have hc : c ∈ a := hLperm.mem_iff.1 (by rw [hL]; simp)
      have hvw : b.p = c.p := (hclean.equal _ (hv b hb) _ (hv c hc)).1 heq
      obtain ⟨lb, ob⟩ := hent b hb
      obtain ⟨lc, oc⟩ := hent c hc
      rw [hvw] at ob
      rcases ob with ob | ob <;> rcases oc with oc | oc
      · right; right; exact sinj _ lb _ lc (by rw [← ob, ← oc])
      · right; left; rw [← ob, ← oc]
      · left; rw [← ob, ← oc]
      · right; right; exact einj _ lb _ lc (by rw [← ob, ← oc]))
  refine ⟨joinCollect st, by simp [joinPaths3, ha, h1, bind, Except.bind, pure, Except.pure], ?_⟩
  intro q hq
  rw [joinCollect_eq h2] at hq
  obtain ⟨r, hr, rfl⟩ := List.mem_map.1 hq
  simp only [List.mem_filter, List.mem_range, decide_eq_true_eq] at hr
  obtain ⟨hr, hwr⟩ := hr
  have hg := (h2.roots r hr hwr).2
  obtain ⟨b, hbl⟩ : ∃ b, (gs r).getLast? = some b := ⟨_, List.getLast?_eq_getLast_of_ne_nil hg⟩
  have hbm : b ∈ gs r := List.mem_of_getLast? hbl
  have hbn := h2.mem_lt hr hbm
  obtain ⟨c, hcn, hcb⟩ := hsurj b hbn
  -- the segment starting at the end of the group is in the same group
  have hcm : c ∈ gs r := by
    by_cases hbc : b = c
    · rw [← hbc]; exact hbm
    · have mb : (⟨eF b, b⟩ : SortP α) ∈ a :=
        (hm _).2 ⟨b, pf b, by rw [hpf]; simp [hbn], by simp, Or.inr (he b hbn)⟩
      have mc : (⟨eF b, c⟩ : SortP α) ∈ a :=
        (hm _).2 ⟨c, pf c, by rw [hpf]; simp [hcn], by simp, Or.inl (by rw [← hcb]; exact hs c hcn)⟩
      have only : ∀ m ∈ a, m.p = eF b → m = ⟨eF b, b⟩ ∨ m = ⟨eF b, c⟩ := by
        intro m hma hve
        obtain ⟨lm, om | om⟩ := hent m hma
        · right
          have : m.ind = c := sinj _ lm _ hcn (by rw [← om, hve, hcb])
          rw [← hve, ← this]
        · left
          have : m.ind = b := einj _ lm _ hbn (by rw [← om, hve])
          rw [← hve, ← this]
      have between : ∀ m ∈ a, ∀ i j : Nat, (⟨eF b, i⟩ : SortP α) ∈ a → (⟨eF b, j⟩ : SortP α) ∈ a →
          joinLess m ⟨eF b, i⟩ = false → joinLess ⟨eF b, j⟩ m = false →
          m = ⟨eF b, b⟩ ∨ m = ⟨eF b, c⟩ := by
        intro m hma i j hia hja k1 k2
        exact only m hma (hclean.tri _ (hv m hma) _ (emem b hbn) ((fal m hma _ hia).1 k1) ((fal _ hja m hma).1 k2))
      have := adjacent_sorted hsorted (hLperm.mem_iff.2 mb) (hLperm.mem_iff.2 mc) (by simp [hbc])
        (fun m hmL => ⟨fun k1 k2 => between m (hLperm.mem_iff.1 hmL) b c mb mc k1 k2,
          fun k1 k2 => between m (hLperm.mem_iff.1 hmL) c b mc mb k1 k2⟩)
      have heq : ((eF b).equal (eF b)) = true := (hclean.equal _ (emem b hbn) _ (emem b hbn)).2 rfl
      rcases this with ⟨l1, l2, e⟩ | ⟨l1, l2, e⟩
      · obtain ⟨r', hr', hb', hc'⟩ := h4 l1 _ _ l2 e heq
        rw [h2.disjoint hr hr' hbm hb']; exact hc'
      · obtain ⟨r', hr', hc', hb'⟩ := h4 l1 _ _ l2 e heq
        rw [h2.disjoint hr hr' hbm hb']; exact hc'
  -- and it is the first one
  have hch := h2.links h2p r hr
  rw [List.isChain_map] at hch
  have hhead : (gs r).head? = some c := by
    rcases isChain_mem_split hch c hcm with h | ⟨l1, y, l2, e, x, z, hx, hz, hxz⟩
    · exact h
    · exfalso
      have hym : y ∈ gs r := by rw [e]; simp
      have hyn := h2.mem_lt hr hym
      rw [he y hyn] at hx; rw [hs c hcn] at hz
      injection hx with hx; injection hz with hz
      subst hx; subst hz
      have hyc := (hclean.equal _ (emem y hyn) _ (smem c hcn)).1 hxz
      have hyb : y = b := einj y hyn b hbn (hyc.trans hcb)
      have nd := h2.nodup hr
      rw [e] at nd hbl
      rw [List.getLast?_append_of_ne_nil _ (by simp), List.getLast?_cons_cons] at hbl
      have : b ∈ c :: l2 := List.mem_of_getLast? hbl
      rw [List.nodup_append, List.nodup_cons] at nd
      exact nd.2.1.1 (hyb ▸ this)
  have hall : ∀ q ∈ (gs r).map pf, 2 ≤ q.points.length := by
    intro q hq; obtain ⟨k, hk, rfl⟩ := List.mem_map.1 hq; exact h2p k (h2.mem_lt hr hk)
  have hH : (concatPath ((gs r).map pf)).points.head? = some (eF b) := by
    rw [concatPath_head (p := pf c) (by rw [List.head?_map, hhead]; rfl) (by
      intro hc; have := h2p c hcn; rw [hc] at this; simp at this), hs c hcn, hcb]
  have hL : (concatPath ((gs r).map pf)).points.getLast? = some (eF b) := by
    rw [concatPath_last (p := pf b) (by rw [List.getLast?_map, hbl]; rfl) hall, he b hbn]
  have hlen2 : 2 ≤ (concatPath ((gs r).map pf)).points.length := by
    have h1 : 1 ≤ ((gs r).map pf).length := by
      rw [List.length_map]; exact List.length_pos_iff.2 hg
    cases hgs : (gs r).map pf with
    | nil => rw [hgs] at h1; simp at h1
    | cons q t =>
      have := hall q (by rw [hgs]; simp)
      simp only [concatPath, List.length_append]; omega
  refine ⟨?_, hlen2, hH.trans hL.symm⟩
  simp only [Path.isClosed, hH, hL]
  rw [if_neg (by omega)]
  exact (hclean.equal _ (emem b hbn) _ (emem b hbn)).2 rfl

/-! ## the specification -/

/-- coordinates of two points are the same or at least 1e-6 apart -/
def R3.sep (a b : R3) : Prop :=
  (a.x = b.x ∨ 1 / 10 ^ 6 ≤ |a.x - b.x|) ∧ (a.y = b.y ∨ 1 / 10 ^ 6 ≤ |a.y - b.y|) ∧
    (a.z = b.z ∨ 1 / 10 ^ 6 ≤ |a.z - b.z|)

/-- `q` is a path from `s.1` to `s.2` with at least one segment -/
def runsFromTo (q : Path XR) (s : R3 × R3) : Prop :=
  2 ≤ q.points.length ∧ q.points.head? = some s.1.pt ∧ q.points.getLast? = some s.2.pt

/-- lexicographic order -/
def R3.lexLt (a b : R3) : Prop := a.x < b.x ∨ (a.x = b.x ∧ a.y < b.y) ∨ (a.x = b.x ∧ a.y = b.y ∧ a.z < b.z)

theorem sep_near {a b : R3} (h : a.sep b) (hn : a.near b) : a = b := by
  obtain ⟨hx, hy, hz⟩ := h
  obtain ⟨nx, ny, nz⟩ := hn
  unfold tol at nx ny nz
  exact R3.ext (hx.resolve_right (by linarith)) (hy.resolve_right (by linarith)) (hz.resolve_right (by linarith))

theorem sep_almost {x y : ℝ} (h : x = y ∨ 1 / 10 ^ 6 ≤ |x - y|) : |x - y| < tol ↔ x = y := by
  constructor
  · intro hn; unfold tol at hn; exact h.resolve_right (by linarith)
  · rintro rfl; simp [tol_pos]

theorem joinLess_sep {a b : R3} {i j : Nat} (h : a.sep b) :
    joinLess ⟨a.pt, i⟩ ⟨b.pt, j⟩ = true ↔ a.lexLt b := by
  obtain ⟨hx, hy, hz⟩ := h
  simp only [joinLess, R3.pt, XR.fin_sub, XR.fin_lt, almostZero_fin, sep_almost hx, sep_almost hy, R3.lexLt]
  simp [or_assoc, and_assoc]

theorem lexLt_irrefl (a : R3) : ¬ a.lexLt a := by
  rintro (h | ⟨_, h⟩ | ⟨_, _, h⟩) <;> exact lt_irrefl _ h

theorem lexLt_trans {a b c : R3} (h1 : a.lexLt b) (h2 : b.lexLt c) : a.lexLt c := by
  rcases h1 with h1 | ⟨e1, h1⟩ | ⟨e1, f1, h1⟩ <;> rcases h2 with h2 | ⟨e2, h2⟩ | ⟨e2, f2, h2⟩
  · exact Or.inl (h1.trans h2)
  · exact Or.inl (e2 ▸ h1)
  · exact Or.inl (e2 ▸ h1)
  · exact Or.inl (e1 ▸ h2)
  · exact Or.inr (Or.inl ⟨e1.trans e2, h1.trans h2⟩)
  · exact Or.inr (Or.inl ⟨e1.trans e2, f2 ▸ h1⟩)
  · exact Or.inl (e1 ▸ h2)
  · exact Or.inr (Or.inl ⟨e1.trans e2, f1 ▸ h2⟩)
  · exact Or.inr (Or.inr ⟨e1.trans e2, f1.trans f2, h1.trans h2⟩)

theorem lexLt_tri {a b : R3} (h1 : ¬ a.lexLt b) (h2 : ¬ b.lexLt a) : a = b := by
  unfold R3.lexLt at h1 h2
  push Not at h1 h2
  have ex : a.x = b.x := le_antisymm h2.1 h1.1
  have ey : a.y = b.y := le_antisymm (h2.2.1 ex.symm) (h1.2.1 ex)
  exact R3.ext ex ey (le_antisymm (h2.2.2 ex.symm ey.symm) (h1.2.2 ex ey))

/-- **C14.** Let the input be paths running from `s.1` to `s.2` for the pairs `s` of a list `segs`, in which no point
starts two segments, every end is the start of exactly one segment and every start the end of exactly one, and distinct
coordinates are at least 1e-6 apart.  Then for every admissible sort the result consists of closed paths only: each ends
in exactly the point it starts with. -/
theorem C14_loops_close (S : Sorter) (segs : List (R3 × R3)) (p : List (Path XR))
    (hp : List.Forall₂ runsFromTo p segs)
    (hstart : (segs.map Prod.fst).Nodup) (hperm : (segs.map Prod.snd).Perm (segs.map Prod.fst))
    (hsep : ∀ a ∈ segs.map Prod.fst, ∀ b ∈ segs.map Prod.fst, a.sep b) :
    ∃ out, joinPaths3 S p = .ok out ∧
      ∀ q ∈ out, q.isClosed = true ∧ 2 ≤ q.points.length ∧ q.points.head? = q.points.getLast? := by
  have hd : ∀ a b : R3, a.pt = b.pt → a = b := fun a b h => R3.pt_inj h
  have hp' : List.Forall₂ pathFromTo p (segs.map fun s => (s.1.pt, s.2.pt)) := by
    rw [List.forall₂_map_right_iff]; exact hp
  have m1 : (segs.map fun s => (s.1.pt, s.2.pt)).map Prod.fst = (segs.map Prod.fst).map R3.pt := by
    simp [List.map_map, Function.comp_def]
  have m2 : (segs.map fun s => (s.1.pt, s.2.pt)).map Prod.snd = (segs.map Prod.snd).map R3.pt := by
    simp [List.map_map, Function.comp_def]
  refine C14_loops S _ p hp' ?_ ?_ (fun a b => ∃ v w : R3, a = v.pt ∧ b = w.pt ∧ v.lexLt w) ?_
  · rw [m1]; exact hstart.map hd
  · rw [m1, m2]; exact hperm.map _
  · rw [m1]
    have hm : ∀ a ∈ (segs.map Prod.fst).map R3.pt, ∃ v ∈ segs.map Prod.fst, v.pt = a := fun a ha => List.mem_map.1 ha
    have hlt : ∀ v w : R3, (∃ v' w' : R3, v.pt = v'.pt ∧ w.pt = w'.pt ∧ v'.lexLt w') ↔ v.lexLt w := by
      intro v w
      constructor
      · rintro ⟨v', w', h1, h2, h3⟩; rw [hd _ _ h1, hd _ _ h2]; exact h3
      · intro h; exact ⟨v, w, rfl, rfl, h⟩
    refine ⟨?_, ?_, ?_, ?_, ?_⟩
    · intro a ha b hb
      obtain ⟨v, hv, rfl⟩ := hm a ha
      obtain ⟨w, hw, rfl⟩ := hm b hb
      rw [equal_pt]
      exact ⟨fun h => by rw [sep_near (hsep v hv w hw) h], fun h => by rw [hd _ _ h]; exact R3.near_refl _⟩
    · intro a ha b hb i j
      obtain ⟨v, hv, rfl⟩ := hm a ha
      obtain ⟨w, hw, rfl⟩ := hm b hb
      rw [hlt]; exact joinLess_sep (hsep v hv w hw)
    · intro a ha
      obtain ⟨v, hv, rfl⟩ := hm a ha
      rw [hlt]; exact lexLt_irrefl v
    · intro a ha b hb c hc
      obtain ⟨v, hv, rfl⟩ := hm a ha
      obtain ⟨w, hw, rfl⟩ := hm b hb
      obtain ⟨x, hx, rfl⟩ := hm c hc
      rw [hlt, hlt, hlt]; exact lexLt_trans
    · intro a ha b hb
      obtain ⟨v, hv, rfl⟩ := hm a ha
      obtain ⟨w, hw, rfl⟩ := hm b hb
      rw [hlt, hlt]; exact fun h1 h2 => by rw [lexLt_tri h1 h2]

section Example

private noncomputable def exSegs : List (R3 × R3) :=
  [(⟨0, 0, 0⟩, ⟨5, 0, 0⟩), (⟨5, 7, 0⟩, ⟨0, 0, 0⟩), (⟨5, 0, 0⟩, ⟨5, 7, 0⟩)]

/-- a triangle, its sides in mixed order, meets the hypotheses -/
example : List.Forall₂ runsFromTo (exSegs.map fun s => ⟨[s.1.pt, s.2.pt]⟩) exSegs ∧ (exSegs.map Prod.fst).Nodup ∧
    (exSegs.map Prod.snd).Perm (exSegs.map Prod.fst) ∧
    ∀ a ∈ exSegs.map Prod.fst, ∀ b ∈ exSegs.map Prod.fst, a.sep b := by
  refine ⟨?_, ?_, ?_, ?_⟩
  · simp [exSegs, runsFromTo]
  · simp [exSegs]
  · simp only [exSegs, List.map_cons, List.map_nil]
    exact ((List.Perm.swap _ _ _).trans (List.Perm.cons _ (List.Perm.swap _ _ _))).trans (List.Perm.refl _)
  · simp only [exSegs, List.map_cons, List.map_nil, List.mem_cons, List.not_mem_nil, or_false]
    rintro a (rfl | rfl | rfl) b (rfl | rfl | rfl) <;> simp [R3.sep] <;> norm_num
end Example

end Goosli
