import Verif.Model.Conc
import Verif.Proofs.Base
/-!
# Invariants of the goroutine machines
-/
namespace Goosli.Conc

theorem Exec.induct {ε σ : Type} {step : ε → σ → σ → Prop} {s0 : σ} {P : List ε → σ → Prop} (h0 : P [] s0)
    (hs : ∀ evs e t u, Exec step evs s0 t → P evs t → step e t u → P (evs ++ [e]) u) :
    ∀ {evs t}, Exec step evs s0 t → P evs t := by
  intro evs t h
  induction h with
  | refl => exact h0
  | snoc h hst ih => exact hs _ _ _ _ h (ih h0 hs) hst

theorem sum_set {β : Type} (g : β → Nat) (b a : β) : ∀ (l : List β) (w : Nat), l[w]? = some a →
    ((l.set w b).map g).sum + g a = (l.map g).sum + g b
  | [], w, h => by simp at h
  | c :: t, 0, h => by simp at h; subst h; simp; omega
  | c :: t, w + 1, h => by
    have := sum_set g b a t w (by simpa using h)
    simp only [List.set_cons_succ, List.map_cons, List.sum_cons]; omega

theorem countP_set {β : Type} (g : β → Bool) (b a : β) (l : List β) (w : Nat) (h : l[w]? = some a) :
    (l.set w b).countP g + (if g a then 1 else 0) = l.countP g + (if g b then 1 else 0) := by
  have e : ∀ l : List β, l.countP g = (l.map fun x => if g x then 1 else 0).sum := by
    intro l
    induction l with
    | nil => rfl
    | cons c t ih => rw [List.countP_cons, ih]; simp; omega
  rw [e, e]
  exact sum_set (fun x => if g x then 1 else 0) b a l w h

/-! ## striped loops -/

variable {β : Type}

/-- the slots written, in order -/
def writes (evs : List FEv) : List Nat :=
  evs.filterMap fun e => match e with
    | .write _ i => some i
    | _ => none

theorem writes_snoc (evs : List FEv) (e : FEv) : writes (evs ++ [e]) = writes evs ++ writes [e] := by
  simp [writes]

structure Fill.Inv (f : Nat → β) (n wn : Nat) (evs : List FEv) (s : Fill β) : Prop where
  len : s.slots.length = n
  pcsLe : s.pcs.length ≤ wn
  wg : s.wg = s.pcs.countP (·.isSome)
  ret : s.returned = true → s.pcs.length = wn ∧ s.wg = 0
  pc : ∀ w i : Nat, s.pcs[w]? = some (some i) → i % wn = w
  hist : ∀ j : Nat, j ∈ writes evs ↔ j < n ∧ ∃ o, s.pcs[j % wn]? = some o ∧ ∀ i, o = some i → j < i
  nodup : (writes evs).Nodup
  slot : ∀ j ∈ writes evs, s.slots[j]? = some (f j)

theorem add_mod_lt {i j wn : Nat} (hw : 0 < wn) (h : j % wn = i % wn) : j < i + wn ↔ j < i ∨ j = i := by
  constructor
  · intro hj
    by_contra hc
    have h1 : i < j := by omega
    have h2 : j - i < wn := by omega
    have h3 : (j - i) % wn = 0 := by
      exact Nat.sub_mod_eq_zero_of_mod_eq h
    rw [Nat.mod_eq_of_lt h2] at h3
    omega
  · rintro (h | h) <;> omega

theorem Fill.inv (f : Nat → β) (zero : β) (n wn : Nat) (hw : 0 < wn) {evs : List FEv} {s : Fill β}
    (h : Exec (Fill.Step f n wn) evs (Fill.init zero n) s) : Fill.Inv f n wn evs s := by
  refine Exec.induct (P := fun evs s => Fill.Inv f n wn evs s) ?_ ?_ h
  · constructor <;> simp [Fill.init, writes]
  · intro evs e t u _ I st
    cases st with
    | spawn _ h =>
      constructor
      · exact I.len
      · simp; omega
      · simp [I.wg]
      · intro hr; have := I.ret hr; omega
      · intro w i hi
        rcases Nat.lt_trichotomy w t.pcs.length with c | c | c
        · exact I.pc w i (by simpa [List.getElem?_append_left c] using hi)
        · subst c; simp at hi; subst hi; exact Nat.mod_eq_of_lt h
        · rw [List.getElem?_eq_none (by simp; omega)] at hi; cases hi
      · intro j
        rw [writes_snoc]
        simp only [writes, List.filterMap_cons, List.filterMap_nil, List.append_nil]
        rw [show List.filterMap _ evs = writes evs from rfl, I.hist j]
        refine and_congr_right fun hj => ?_
        rcases Nat.lt_trichotomy (j % wn) t.pcs.length with c | c | c
        · rw [List.getElem?_append_left c]
        · rw [List.getElem?_eq_none (by omega), List.getElem?_append_right (by omega)]
          simp [c]
          have := Nat.mod_le j wn
          omega
        · rw [List.getElem?_eq_none (by omega), List.getElem?_eq_none (by simp; omega)]
      · rw [writes_snoc]; simpa [writes] using I.nodup
      · intro j hj; rw [writes_snoc] at hj; exact I.slot j (by simpa [writes] using hj)
    | write _ w i hw' hi =>
      have hpc := I.pc w i hw'
      have hwl : w < t.pcs.length := by
        by_contra c; rw [List.getElem?_eq_none (by omega)] at hw'; cases hw'
      have hnew : i ∉ writes evs := by
        intro hm
        obtain ⟨_, o, ho, hlt⟩ := (I.hist i).1 hm
        rw [hpc, hw'] at ho
        have := hlt i (by simpa using ho.symm)
        omega
      constructor
      · simpa using I.len
      · simpa using I.pcsLe
      · have := countP_set (·.isSome) (some (i + wn)) (some i) t.pcs w hw'
        simp at this
        simpa [this] using I.wg
      · intro hr
        simpa using I.ret hr
      · intro w' i' hi'
        by_cases c : w' = w
        · subst c
          simp [List.getElem?_set_self hwl] at hi'
          subst hi'
          simpa using hpc
        · rw [List.getElem?_set_ne (by omega)] at hi'; exact I.pc w' i' hi'
      · intro j
        rw [writes_snoc]
        simp only [writes, List.filterMap_cons, List.filterMap_nil]
        rw [show List.filterMap _ evs = writes evs from rfl, List.mem_append, I.hist j, List.mem_singleton]
        by_cases c : j % wn = w
        · rw [c, List.getElem?_set_self hwl, hw']
          simp only [Option.some.injEq, exists_eq_left', forall_eq']
          rw [add_mod_lt hw (by omega)]
          constructor
          · rintro (h | h)
            · exact ⟨h.1, Or.inl h.2⟩
            · exact ⟨by omega, Or.inr h⟩
          · rintro ⟨h1, h2 | h2⟩
            · exact Or.inl ⟨h1, h2⟩
            · exact Or.inr h2
        · rw [List.getElem?_set_ne (by omega)]
          constructor
          · rintro (h | h)
            · exact h
            · subst h; exact absurd hpc c
          · exact Or.inl
      · rw [writes_snoc]
        simp only [writes, List.filterMap_cons, List.filterMap_nil]
        rw [show List.filterMap _ evs = writes evs from rfl]
        exact List.nodup_append.2 ⟨I.nodup, by simp, by intro a ha b hb; simp at hb; subst hb; rintro rfl; exact hnew ha⟩
      · intro j hj
        rw [writes_snoc] at hj
        simp only [writes, List.filterMap_cons, List.filterMap_nil] at hj
        rw [show List.filterMap _ evs = writes evs from rfl, List.mem_append, List.mem_singleton] at hj
        by_cases c : j = i
        · subst c
          exact List.getElem?_set_self (by rw [I.len]; exact hi)
        · show (t.slots.set i (f i))[j]? = some (f j)
          rw [List.getElem?_set_ne (by omega)]
          exact I.slot j (by tauto)
    | done _ w i hw' hi =>
      have hpc := I.pc w i hw'
      have hwl : w < t.pcs.length := by
        by_contra c; rw [List.getElem?_eq_none (by omega)] at hw'; cases hw'
      constructor
      · exact I.len
      · simpa using I.pcsLe
      · have := countP_set (·.isSome) none (some i) t.pcs w hw'
        simp at this
        show t.wg - 1 = (t.pcs.set w none).countP _
        rw [I.wg]; omega
      · intro hr
        obtain ⟨h1, h2⟩ := I.ret hr
        exact ⟨by simpa using h1, by show t.wg - 1 = 0; omega⟩
      · intro w' i' hi'
        by_cases c : w' = w
        · subst c
          simp [List.getElem?_set_self hwl] at hi'
        · rw [List.getElem?_set_ne (by omega)] at hi'; exact I.pc w' i' hi'
      · intro j
        rw [writes_snoc]
        simp only [writes, List.filterMap_cons, List.filterMap_nil, List.append_nil]
        rw [show List.filterMap _ evs = writes evs from rfl, I.hist j]
        refine and_congr_right fun hj => ?_
        by_cases c : j % wn = w
        · rw [c, List.getElem?_set_self hwl, hw']
          simp
          omega
        · rw [List.getElem?_set_ne (by omega)]
      · rw [writes_snoc]; simpa [writes] using I.nodup
      · intro j hj; rw [writes_snoc] at hj; exact I.slot j (by simpa [writes] using hj)
    | wait _ h hz hr =>
      constructor
      · exact I.len
      · exact I.pcsLe
      · exact I.wg
      · intro _; exact ⟨h, hz⟩
      · exact I.pc
      · intro j
        rw [writes_snoc]
        simp only [writes, List.filterMap_cons, List.filterMap_nil, List.append_nil]
        exact I.hist j
      · rw [writes_snoc]; simpa [writes] using I.nodup
      · intro j hj; rw [writes_snoc] at hj; exact I.slot j (by simpa [writes] using hj)

/-- work left: never increases, decreases with every action -/
def Fill.work (n wn : Nat) (s : Fill β) : Nat :=
  (wn - s.pcs.length) * (n + 2) + (s.pcs.map fun o => match o with
    | some i => n - i + 1
    | none => 0).sum + (if s.returned then 0 else 1)

theorem Fill.work_step (f : Nat → β) (n wn : Nat) (hw : 0 < wn) {e : FEv} {s t : Fill β} (h : Fill.Step f n wn e s t) :
    Fill.work n wn t < Fill.work n wn s := by
  cases h with
  | spawn _ h =>
    simp only [Fill.work, List.map_append, List.sum_append, List.length_append, List.length_singleton, List.map_cons,
      List.map_nil, List.sum_cons, List.sum_nil]
    obtain ⟨k, hk⟩ : ∃ k, wn - s.pcs.length = k + 1 := ⟨wn - s.pcs.length - 1, by omega⟩
    rw [hk, show wn - (s.pcs.length + 1) = k by omega, Nat.succ_mul]
    omega
  | write _ w i hw' hi =>
    have := sum_set (fun o : Option Nat => match o with
      | some i => n - i + 1
      | none => 0) (some (i + wn)) (some i) s.pcs w hw'
    simp only [Fill.work, List.length_set]
    dsimp only at this
    omega
  | done _ w i hw' hi =>
    have := sum_set (fun o : Option Nat => match o with
      | some i => n - i + 1
      | none => 0) none (some i) s.pcs w hw'
    simp only [Fill.work, List.length_set]
    dsimp only at this
    omega
  | wait _ h hz hr => simp [Fill.work, hr]

theorem Fill.exec_bound (f : Nat → β) (zero : β) (n wn : Nat) (hw : 0 < wn) {evs : List FEv} {s : Fill β}
    (h : Exec (Fill.Step f n wn) evs (Fill.init zero n) s) :
    evs.length + Fill.work n wn s ≤ wn * (n + 2) + 1 := by
  refine Exec.induct (P := fun evs s => evs.length + Fill.work n wn s ≤ wn * (n + 2) + 1) ?_ ?_ h
  · simp [Fill.work, Fill.init]
  · intro evs e t u _ ih st
    have := Fill.work_step f n wn hw st
    simp only [List.length_append, List.length_singleton]
    omega

theorem Fill.progress (f : Nat → β) (n wn : Nat) {evs : List FEv} {s : Fill β} (I : Fill.Inv f n wn evs s)
    (hr : s.returned = false) : ∃ e t, Fill.Step f n wn e s t := by
  by_cases c : s.pcs.length < wn
  · exact ⟨_, _, .spawn s c⟩
  · by_cases z : s.wg = 0
    · exact ⟨_, _, .wait s (by have := I.pcsLe; omega) z hr⟩
    · have : 0 < s.pcs.countP (·.isSome) := by rw [← I.wg]; omega
      obtain ⟨o, ho, hs⟩ := List.countP_pos_iff.1 this
      obtain ⟨i, rfl⟩ := Option.isSome_iff_exists.1 hs
      obtain ⟨w, hw, he⟩ := List.mem_iff_getElem.1 ho
      have hw' : s.pcs[w]? = some (some i) := by rw [List.getElem?_eq_getElem hw, he]
      by_cases hi : i < n
      · exact ⟨_, _, .write s w i hw' hi⟩
      · exact ⟨_, _, .done s w i hw' hi⟩

theorem Fill.returned_spec (f : Nat → β) (n wn : Nat) (hw : 0 < wn) {evs : List FEv} {s : Fill β}
    (I : Fill.Inv f n wn evs s) (hr : s.returned = true) :
    s.slots = (List.range n).map f ∧ (writes evs).Perm (List.range n) := by
  obtain ⟨h1, h2⟩ := I.ret hr
  have hall : ∀ j : Nat, j ∈ writes evs ↔ j < n := by
    intro j
    rw [I.hist j]
    refine and_iff_left_of_imp fun hj => ?_
    have hl : j % wn < s.pcs.length := by rw [h1]; exact Nat.mod_lt _ hw
    refine ⟨s.pcs[j % wn], List.getElem?_eq_getElem hl, fun i hi => ?_⟩
    exfalso
    have hz : s.pcs.countP (·.isSome) = 0 := by rw [← I.wg]; exact h2
    have := List.countP_eq_zero.1 hz _ (List.getElem_mem hl)
    rw [hi] at this
    simp at this
  constructor
  · refine List.ext_getElem? fun j => ?_
    by_cases hj : j < n
    · rw [I.slot j ((hall j).2 hj)]; simp [hj]
    · rw [List.getElem?_eq_none (by rw [I.len]; omega), List.getElem?_eq_none (by simp; omega)]
  · exact (List.perm_ext_iff_of_nodup I.nodup List.nodup_range).2 fun j => by rw [hall, List.mem_range]

/-! ## worker pool -/

variable {J R : Type}

/-- results a worker holds -/
def Worker.held : Worker R → List R
  | .busy r => [r]
  | _ => []

structure Pool.Inv (f : J → R) (jobs : List J) (wn : Nat) (s : Pool J R) : Prop where
  perm : (s.todo.map f ++ s.inq.map f ++ s.ws.flatMap Worker.held ++ s.outq ++ s.got).Perm (jobs.map f)
  workers : s.ws.length = wn
  closed : s.closed = true → s.todo = []
  stopped : Worker.stopped ∈ s.ws → s.closed = true ∧ s.inq = []

theorem flatMap_set {γ δ : Type} (g : γ → List δ) (b a : γ) : ∀ (l : List γ) (w : Nat), l[w]? = some a →
    ((l.set w b).flatMap g ++ g a).Perm (l.flatMap g ++ g b)
  | [], w, h => by simp at h
  | c :: t, 0, h => by
    simp at h; subst h
    simp only [List.set_cons_zero, List.flatMap_cons]
    have h1 : (g b ++ t.flatMap g ++ g c).Perm (g c ++ (g b ++ t.flatMap g)) := List.perm_append_comm
    refine h1.trans ?_
    rw [List.append_assoc]
    exact List.Perm.append_left _ List.perm_append_comm
  | c :: t, w + 1, h => by
    have := flatMap_set g b a t w (by simpa using h)
    simp only [List.set_cons_succ, List.flatMap_cons, List.append_assoc]
    exact List.Perm.append_left _ this

theorem perm_of_count {γ : Type} [DecidableEq γ] {a b : List γ} (h : ∀ x, a.count x = b.count x) : a.Perm b :=
  List.perm_iff_count.2 h

theorem Pool.inv (f : J → R) (n : Nat) (jobs : List J) (wn : Nat) {evs : List PEv} {s : Pool J R}
    (h : Exec (Pool.Step f n) evs (Pool.init jobs wn) s) : Pool.Inv f jobs wn s := by
  classical
  refine Exec.induct (P := fun _ s => Pool.Inv f jobs wn s) ?_ ?_ h
  · constructor
    · have : (List.replicate wn (Worker.idle : Worker R)).flatMap Worker.held = [] := by
        rw [List.flatMap_eq_nil_iff]; intro x hx; rw [(List.mem_replicate.1 hx).2]; rfl
      simp [Pool.init, this]
    · simp [Pool.init]
    · simp [Pool.init]
    · intro h; exact absurd (List.mem_replicate.1 h).2 (by simp)
  · intro evs e t u _ I st
    have hp := List.perm_iff_count.1 I.perm
    cases st with
    | send _ j l h hc =>
      refine ⟨perm_of_count fun x => ?_, I.workers, fun hcl => ?_, fun hs => ?_⟩
      · have := hp x
        rw [h] at this
        simp only [List.count_append, List.map_cons, List.count_cons, List.map_append, List.map_nil, List.count_nil] at this ⊢
        omega
      · have := I.closed hcl; rw [h] at this; cases this
      · have := I.closed (I.stopped hs).1; rw [h] at this; cases this
    | close _ h hc =>
      refine ⟨I.perm, I.workers, fun _ => h, fun hs => ?_⟩
      have := (I.stopped hs).1; rw [hc] at this; cases this
    | take _ w j l hw h =>
      refine ⟨perm_of_count fun x => ?_, by simpa using I.workers, I.closed, fun hs => ?_⟩
      · have := hp x
        have h2 := (flatMap_set Worker.held (Worker.busy (f j)) Worker.idle t.ws w hw).count_eq x
        rw [h] at this
        simp only [List.count_append, List.map_cons, List.count_cons, Worker.held, List.count_nil] at this h2 ⊢
        omega
      · have : Worker.stopped ∈ t.ws := by
          rcases List.mem_or_eq_of_mem_set hs with h | h
          · exact h
          · cases h
        have := (I.stopped this).2; rw [h] at this; cases this
    | put _ w r hw hc =>
      refine ⟨perm_of_count fun x => ?_, by simpa using I.workers, I.closed, fun hs => ?_⟩
      · have := hp x
        have h2 := (flatMap_set Worker.held (Worker.idle : Worker R) (Worker.busy r) t.ws w hw).count_eq x
        simp only [List.count_append, List.count_cons, Worker.held, List.count_nil] at this h2 ⊢
        omega
      · have : Worker.stopped ∈ t.ws := by
          rcases List.mem_or_eq_of_mem_set hs with h | h
          · exact h
          · cases h
        exact I.stopped this
    | stop _ w hw h hc =>
      refine ⟨perm_of_count fun x => ?_, by simpa using I.workers, I.closed, fun _ => ⟨hc, h⟩⟩
      have := hp x
      have h2 := (flatMap_set Worker.held (Worker.stopped : Worker R) Worker.idle t.ws w hw).count_eq x
      simp only [List.count_append, Worker.held, List.count_nil] at this h2 ⊢
      omega
    | recv _ r l h hc hn =>
      refine ⟨perm_of_count fun x => ?_, I.workers, I.closed, I.stopped⟩
      have := hp x
      rw [h] at this
      simp only [List.count_append, List.count_cons, List.count_nil] at this ⊢
      omega

def Worker.weight : Worker R → Nat
  | .idle => 1
  | .busy _ => 3
  | .stopped => 0

/-- work left -/
def Pool.work (s : Pool J R) : Nat :=
  4 * s.todo.length + 3 * s.inq.length + (s.ws.map Worker.weight).sum + s.outq.length + (if s.closed then 0 else 1)

theorem Pool.work_step (f : J → R) (n : Nat) {e : PEv} {s t : Pool J R} (h : Pool.Step f n e s t) :
    Pool.work t < Pool.work s := by
  cases h with
  | send _ j l h hc => simp only [Pool.work, h, List.length_append, List.length_cons, List.length_nil]; omega
  | close _ h hc => simp [Pool.work, hc]
  | take _ w j l hw h =>
    have := sum_set Worker.weight (Worker.busy (f j)) Worker.idle s.ws w hw
    simp only [Pool.work, h, List.length_cons, Worker.weight] at this ⊢
    omega
  | put _ w r hw hc =>
    have := sum_set Worker.weight (Worker.idle : Worker R) (Worker.busy r) s.ws w hw
    simp only [Pool.work, List.length_append, List.length_cons, List.length_nil, Worker.weight] at this ⊢
    omega
  | stop _ w hw h hc =>
    have := sum_set Worker.weight (Worker.stopped : Worker R) Worker.idle s.ws w hw
    simp only [Pool.work, Worker.weight] at this ⊢
    omega
  | recv _ r l h hc hn => simp only [Pool.work, h, List.length_cons]; omega

theorem Pool.exec_bound (f : J → R) (n : Nat) (jobs : List J) (wn : Nat) {evs : List PEv} {s : Pool J R}
    (h : Exec (Pool.Step f n) evs (Pool.init jobs wn) s) :
    evs.length + Pool.work s ≤ 4 * jobs.length + wn + 1 := by
  refine Exec.induct (P := fun evs s => evs.length + Pool.work s ≤ 4 * jobs.length + wn + 1) ?_ ?_ h
  · simp [Pool.work, Pool.init, Worker.weight]
  · intro evs e t u _ ih st
    have := Pool.work_step f n st
    simp only [List.length_append, List.length_singleton]
    omega

/-- while anything is left to do, some goroutine can act -/
theorem Pool.progress (f : J → R) (jobs : List J) (wn : Nat) (hw : 0 < wn) {s : Pool J R} (I : Pool.Inv f jobs wn s)
    (hs : ¬ (Pool.finished jobs.length s ∧ ∀ w ∈ s.ws, w = .stopped)) : ∃ e t, Pool.Step f jobs.length e s t := by
  have hlen := I.perm.length_eq
  simp only [List.length_append, List.length_map] at hlen
  by_contra hno
  have hno : ∀ e t, ¬ Pool.Step f jobs.length e s t := fun e t h => hno ⟨e, t, h⟩
  have htodo : s.todo = [] := by
    cases c : s.todo with
    | nil => rfl
    | cons j l =>
      rw [c] at hlen
      exact absurd (Pool.Step.send s j l c (by simp only [List.length_cons] at hlen; omega)) (hno _ _)
  have hcl : s.closed = true := by
    by_contra c
    exact hno _ _ (.close s htodo (by simpa using c))
  have hbusy : ∀ r, Worker.busy r ∉ s.ws := by
    intro r hr
    obtain ⟨w, hw, he⟩ := List.mem_iff_getElem.1 hr
    have hheld : 1 ≤ (s.ws.flatMap Worker.held).length := by
      apply List.length_pos_iff.2
      intro h
      have := List.flatMap_eq_nil_iff.1 h _ hr
      simp [Worker.held] at this
    exact hno _ _ (.put s w r (by rw [List.getElem?_eq_getElem hw, he]) (by omega))
  have hidle : Worker.idle ∉ s.ws := by
    intro hr
    obtain ⟨w, hw, he⟩ := List.mem_iff_getElem.1 hr
    have hw' : s.ws[w]? = some .idle := by rw [List.getElem?_eq_getElem hw, he]
    cases c : s.inq with
    | nil => exact hno _ _ (.stop s w hw' c hcl)
    | cons j l => exact hno _ _ (.take s w j l hw' c)
  have hall : ∀ w ∈ s.ws, w = .stopped := by
    intro w hm
    cases w with
    | idle => exact absurd hm hidle
    | busy r => exact absurd hm (hbusy r)
    | stopped => rfl
  obtain ⟨w, hm⟩ : ∃ w, w ∈ s.ws := List.exists_mem_of_length_pos (by rw [I.workers]; exact hw)
  have hin := (I.stopped (by rw [hall w hm] at hm; exact hm)).2
  have hheld : s.ws.flatMap Worker.held = [] := by
    rw [List.flatMap_eq_nil_iff]; intro x hx; rw [hall x hx]; rfl
  rw [htodo, hin, hheld] at hlen
  simp only [List.length_nil] at hlen
  cases c : s.outq with
  | nil => rw [c] at hlen; exact hs ⟨⟨hcl, by simpa using hlen⟩, hall⟩
  | cons r l => exact hno _ _ (.recv s r l c hcl (by rw [c] at hlen; simp only [List.length_cons] at hlen; omega))

theorem Pool.finished_spec (f : J → R) (jobs : List J) (wn : Nat) {s : Pool J R} (I : Pool.Inv f jobs wn s)
    (h : Pool.finished jobs.length s) : s.got.Perm (jobs.map f) := by
  have hlen := I.perm.length_eq
  simp only [List.length_append, List.length_map] at hlen
  have hg := h.2
  have e1 : s.todo = [] := List.length_eq_zero_iff.1 (by omega)
  have e2 : s.inq = [] := List.length_eq_zero_iff.1 (by omega)
  have e3 : s.ws.flatMap Worker.held = [] := List.length_eq_zero_iff.1 (by omega)
  have e4 : s.outq = [] := List.length_eq_zero_iff.1 (by omega)
  have := I.perm
  rw [e1, e2, e3, e4] at this
  simpa using this

end Goosli.Conc
