import Verif.Proofs.Base
import Verif.Proofs.GcodeHoare
import Verif.Model.Join2
import Verif.Spec.Chain
/-!
# JoinPaths2 as rewriting
-/
set_option linter.unusedSectionVars false
namespace Goosli
open Flt
variable {α : Type} [Flt α]

/-- `b` starts (up to rounding to 8 decimals) where `a` ends -/
def keyMeets (a b : Path α) : Prop :=
  ∃ u v, a.points.getLast? = some u ∧ b.points.head? = some v ∧ v.mapKey.keyEq u.mapKey = true

/-- what the algorithm does to the list of paths: reorder, join two that meet, reverse one -/
inductive Rw : List (Path α) → List (Path α) → Prop
  | perm {l l'} : l.Perm l' → Rw l l'
  | join {a b r} : keyMeets a b → Rw (a :: b :: r) (⟨a.points ++ b.points.tail⟩ :: r)
  | rev {a r} : Rw (a :: r) (a.reverse :: r)
  | trans {l l' l''} : Rw l l' → Rw l' l'' → Rw l l''

theorem Rw.refl (l : List (Path α)) : Rw l l := .perm (List.Perm.refl l)

theorem Rw.nonempty {l l' : List (Path α)} (h : Rw l l') : (∀ q ∈ l, q.points ≠ []) → ∀ q ∈ l', q.points ≠ [] := by
  induction h with
  | perm h => intro hn q hq; exact hn q (h.mem_iff.2 hq)
  | join _ =>
    intro hn q hq
    rcases List.mem_cons.1 hq with rfl | hq
    · have := hn _ (List.mem_cons_self); simp [this]
    · exact hn q (by simp [hq])
  | rev =>
    intro hn q hq
    rcases List.mem_cons.1 hq with rfl | hq
    · have := hn _ (List.mem_cons_self); simpa [Path.reverse] using this
    · exact hn q (by simp [hq])
  | trans _ _ ih1 ih2 => intro hn; exact ih2 (ih1 hn)

theorem Rw.append_right {l l' : List (Path α)} (h : Rw l l') (r : List (Path α)) : Rw (l ++ r) (l' ++ r) := by
  induction h with
  | perm h => exact .perm (h.append_right r)
  | join h => exact .join h
  | rev => exact .rev
  | trans _ _ ih1 ih2 => exact ih1.trans ih2

/-- entries are stored under the key of their last point -/
def KeyOk (lk : Lookup α) : Prop := ∀ e ∈ lk, ∃ l, e.2.points.getLast? = some l ∧ e.1 = l.mapKey

/-- neither end of `c` is the end of a stored path -/
def Fresh (lk : Lookup α) (c : Path α) : Prop :=
  ∃ f l, c.points.head? = some f ∧ c.points.getLast? = some l ∧
    ∀ e ∈ lk, f.mapKey.keyEq e.1 = false ∧ l.mapKey.keyEq e.1 = false

theorem ends_exist {c : Path α} (hc : c.points ≠ []) :
    ∃ f l t, c.points = f :: t ∧ c.points.head? = some f ∧ c.points.getLast? = some l := by
  cases h : c.points with
  | nil => exact absurd h hc
  | cons f t =>
    exact ⟨f, _, t, rfl, rfl, List.getLast?_eq_getLast_of_ne_nil (by simp)⟩

theorem find_erase_perm {β : Type} (P : β → Bool) {l : List β} {e : β} (h : l.find? P = some e) :
    l.Perm (e :: l.eraseP P) := by
  induction l with
  | nil => simp at h
  | cons a t ih =>
    by_cases c : P a = true
    · simp [c] at h; subst h; simp [c]
    · simp only [Bool.not_eq_true] at c
      rw [List.find?_cons_of_neg (by simp [c])] at h
      rw [List.eraseP_cons_of_neg (by simp [c])]
      exact ((ih h).cons a).trans (List.Perm.swap _ _ _)

theorem absorb_spec : ∀ (fuel : Nat) (cur : Path α) (lk : Lookup α) (yes : Bool), cur.points ≠ [] → KeyOk lk →
    2 * lk.length + 1 ≤ fuel →
    ∃ lk' yes', absorb fuel cur lk yes = .ok (lk', yes') ∧ KeyOk lk' ∧
      Rw (cur :: lk.map Prod.snd) (lk'.map Prod.snd) ∧ lk'.length ≤ lk.length + 1 ∧
      ((yes' = yes ∧ (∃ l, cur.points.getLast? = some l ∧ lk' = lk ++ [(l.mapKey, cur)]) ∧ Fresh lk cur) ∨
        (yes' = true ∧ lk'.length ≤ lk.length)) := by
  intro fuel
  induction fuel using Nat.strong_induction_on with
  | _ fuel ih =>
  intro cur lk yes hc hk hf
  obtain ⟨fu, rfl⟩ : ∃ fu, fuel = fu + 1 := ⟨fuel - 1, by omega⟩
  obtain ⟨f, l, t, hp, hh, hl⟩ := ends_exist hc
  cases h1 : lk.find? fun e => f.mapKey.keyEq e.1 with
  | some e =>
    have hperm := find_erase_perm _ h1
    have hlen : (lk.eraseP fun e => f.mapKey.keyEq e.1).length + 1 = lk.length := by
      have := hperm.length_eq; simp at this; omega
    have hem : e ∈ lk := List.mem_of_find?_eq_some h1
    obtain ⟨le, hle, hke⟩ := hk e hem
    have hen : e.2.points ≠ [] := by intro h; rw [h] at hle; simp at hle
    obtain ⟨lk', yes', r1, r2, r3, r4, r5⟩ := ih fu (by omega) ⟨e.2.points ++ t⟩
      (lk.eraseP fun e => f.mapKey.keyEq e.1) true (by simp [hen])
      (fun e' he' => hk e' (List.mem_of_mem_eraseP he')) (by omega)
    refine ⟨lk', yes', ?_, r2, ?_, by omega, Or.inr ⟨?_, by omega⟩⟩
    · simp only [absorb, goAt, hp, List.getElem?_cons_zero, h1, goTail, bind, Except.bind]
      exact r1
    · refine Rw.trans (.perm ((hperm.map Prod.snd).cons cur)) ?_
      refine Rw.trans (.perm (List.Perm.swap _ _ _)) ?_
      refine Rw.trans (.join ⟨le, f, hle, by rw [hp]; rfl, ?_⟩) ?_
      · have := List.find?_some h1; rw [← hke]; exact this
      · simpa [hp] using r3
    · rcases r5 with h | h
      · exact h.1
      · exact h.1
  | none =>
    cases h2 : lk.find? fun e => l.mapKey.keyEq e.1 with
    | none =>
      refine ⟨lk ++ [(l.mapKey, cur)], yes, ?_, ?_, ?_, by simp, Or.inl ⟨rfl, ⟨l, hl, rfl⟩, f, l, hh, hl, ?_⟩⟩
      · simp only [absorb, goAt, hp, List.getElem?_cons_zero, h1, bind, Except.bind, goLast]
        rw [hp] at hl
        simp only [hl, h2, pure, Except.pure]
      · intro e he
        rcases List.mem_append.1 he with he | he
        · exact hk e he
        · simp at he; subst he; exact ⟨l, hl, rfl⟩
      · refine .perm ?_
        rw [List.map_append]
        exact (List.perm_append_singleton cur (lk.map Prod.snd)).symm
      · intro e he
        rw [List.find?_eq_none] at h1 h2
        exact ⟨by simpa using h1 e he, by simpa using h2 e he⟩
    | some e =>
      -- reversed, then joined at once
      have hrp : cur.reverse.points.head? = some l := by simp [Path.reverse, hl]
      obtain ⟨f', l', t', hp', hh', hl'⟩ := ends_exist (c := cur.reverse) (by simpa [Path.reverse] using hc)
      have hfl : f' = l := by rw [hrp] at hh'; injection hh' with h; exact h.symm
      subst hfl
      have hperm := find_erase_perm _ h2
      have hlen : (lk.eraseP fun e => f'.mapKey.keyEq e.1).length + 1 = lk.length := by
        have := hperm.length_eq; simp at this; omega
      obtain ⟨fv, rfl⟩ : ∃ fv, fu = fv + 1 := ⟨fu - 1, by omega⟩
      have hem : e ∈ lk := List.mem_of_find?_eq_some h2
      obtain ⟨le, hle, hke⟩ := hk e hem
      have hen : e.2.points ≠ [] := by intro h; rw [h] at hle; simp at hle
      obtain ⟨lk', yes', r1, r2, r3, r4, r5⟩ := ih fv (by omega) ⟨e.2.points ++ t'⟩
        (lk.eraseP fun e => f'.mapKey.keyEq e.1) true (by simp [hen])
        (fun e' he' => hk e' (List.mem_of_mem_eraseP he')) (by omega)
      refine ⟨lk', yes', ?_, r2, ?_, by omega, Or.inr ⟨?_, by omega⟩⟩
      · rw [absorb]
        simp only [goAt, hp, List.getElem?_cons_zero, h1, bind, Except.bind, goLast]
        rw [hp] at hl
        simp only [hl, h2]
        rw [absorb]
        simp only [goAt, hp', List.getElem?_cons_zero, h2, goTail, bind, Except.bind]
        exact r1
      · refine Rw.trans .rev ?_
        refine Rw.trans (.perm ((hperm.map Prod.snd).cons _)) ?_
        refine Rw.trans (.perm (List.Perm.swap _ _ _)) ?_
        refine Rw.trans (.join ⟨le, f', hle, hrp, ?_⟩) ?_
        · have := List.find?_some h2; rw [← hke]; exact this
        · simpa [hp'] using r3
      · rcases r5 with h | h
        · exact h.1
        · exact h.1

/-- the entries a round without a join leaves: the paths themselves -/
def plainEntries (cs : List (Path α)) : Lookup α :=
  cs.filterMap fun c => c.points.getLast?.map fun l => (l.mapKey, c)

/-- later paths are fresh with respect to earlier ones -/
def freshPair (a b : Path α) : Prop :=
  ∃ la fb lb, a.points.getLast? = some la ∧ b.points.head? = some fb ∧ b.points.getLast? = some lb ∧
    fb.mapKey.keyEq la.mapKey = false ∧ lb.mapKey.keyEq la.mapKey = false

theorem joinRound_spec : ∀ (cs : List (Path α)) (lk : Lookup α) (yes : Bool), (∀ c ∈ cs, c.points ≠ []) → KeyOk lk →
    ∃ lk' yes', joinRound cs lk yes = .ok (lk', yes') ∧ KeyOk lk' ∧
      Rw (cs ++ lk.map Prod.snd) (lk'.map Prod.snd) ∧ lk'.length ≤ lk.length + cs.length ∧
      ((yes' = yes ∧ lk'.map Prod.snd = lk.map Prod.snd ++ cs ∧
          ((lk.map Prod.snd).Pairwise freshPair → (lk'.map Prod.snd).Pairwise freshPair)) ∨
        (yes' = true ∧ lk'.length < lk.length + cs.length)) := by
  intro cs
  induction cs with
  | nil =>
    intro lk yes _ hk
    exact ⟨lk, yes, rfl, hk, Rw.refl _, by simp, Or.inl ⟨rfl, by simp, fun h => h⟩⟩
  | cons c cs ih =>
    intro lk yes hn hk
    obtain ⟨lk1, y1, a1, a2, a3, a4, a5⟩ := absorb_spec (2 * lk.length + 1) c lk yes (hn c (by simp)) hk le_rfl
    obtain ⟨lk2, y2, b1, b2, b3, b4, b5⟩ := ih lk1 y1 (fun c hc => hn c (by simp [hc])) a2
    refine ⟨lk2, y2, ?_, b2, ?_, by simp; omega, ?_⟩
    · simp only [joinRound, a1, bind, Except.bind]; exact b1
    · refine Rw.trans ?_ b3
      refine Rw.trans (.perm (List.perm_append_comm (l₁ := c :: cs))) ?_
      refine Rw.trans ?_ (.perm List.perm_append_comm)
      refine Rw.trans ?_ (Rw.append_right a3 cs)
      refine .perm ?_
      rw [List.cons_append]
      exact List.perm_middle
    · rcases a5 with ⟨e1, ⟨l, hl, e2⟩, hfresh⟩ | ⟨e1, e2⟩
      · rcases b5 with ⟨d1, d2, d3⟩ | ⟨d1, d2⟩
        · left
          refine ⟨d1.trans e1, ?_, fun hpw => d3 ?_⟩
          · rw [d2, e2]; simp
          · rw [e2, List.map_append, List.pairwise_append]
            refine ⟨hpw, by simp, ?_⟩
            intro a ha b hb
            simp at hb; subst hb
            obtain ⟨e, he, rfl⟩ := List.mem_map.1 ha
            obtain ⟨f, l', hf, hl', hfr⟩ := hfresh
            obtain ⟨la, hla, hka⟩ := hk e he
            refine ⟨la, f, l', hla, hf, hl', ?_⟩
            rw [← hka]; exact hfr e he
        · right; refine ⟨d1, ?_⟩; simp; omega
      · right
        rcases b5 with ⟨d1, d2, d3⟩ | ⟨d1, d2⟩
        · refine ⟨d1.trans e1, ?_⟩
          have := congrArg List.length d2
          simp at this
          simp; omega
        · refine ⟨d1, ?_⟩; simp; omega

theorem joinPaths2Loop_spec (ord : MapOrder (Path α)) : ∀ (fuel n : Nat) (p : List (Path α)),
    (∀ c ∈ p, c.points ≠ []) → p.length < fuel →
    ∃ out, ∃ l : List (Path α), joinPaths2Loop ord fuel n p = .ok out ∧ Rw p out ∧ l.Perm out ∧ l.Pairwise freshPair := by
  intro fuel
  induction fuel with
  | zero => intro n p _ h; omega
  | succ fuel ih =>
    intro n p hn hf
    obtain ⟨lk, y, h1, h2, h3, h4, h5⟩ := joinRound_spec p [] false hn (by intro e he; simp at he)
    simp only [List.map_nil, List.append_nil] at h3
    have hperm := ord.perm n (lk.map Prod.snd)
    have hrw : Rw p (ord.run n (lk.map Prod.snd)) := h3.trans (.perm hperm.symm)
    rcases h5 with ⟨e1, e2, e3⟩ | ⟨e1, e2⟩
    · subst e1
      exact ⟨_, lk.map Prod.snd, by simp [joinPaths2Loop, h1, bind, Except.bind, pure, Except.pure], hrw, hperm.symm,
        e3 (by simp)⟩
    · subst e1
      have hlen : (ord.run n (lk.map Prod.snd)).length < fuel := by
        rw [hperm.length_eq]; simp at e2 ⊢; omega
      obtain ⟨out, l, g1, g2, g3, g4⟩ := ih (n + 1) _ (hrw.nonempty hn) hlen
      exact ⟨out, l, by simp [joinPaths2Loop, h1, bind, Except.bind, g1], hrw.trans g2, g3, g4⟩

end Goosli
