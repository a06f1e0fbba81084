import Verif.Model.Num
import Verif.Proofs.Base
/-!
# The contract of `sort.Slice` is satisfiable: insertion sort meets it
-/
namespace Goosli
namespace InsSort
variable {β : Type} (less : β → β → Bool)

def ins (x : β) : List β → List β
  | [] => [x]
  | y :: t => if less y x then y :: ins x t else x :: y :: t

def sort : List β → List β
  | [] => []
  | x :: t => ins less x (sort t)

theorem ins_perm (x : β) (l : List β) : (ins less x l).Perm (x :: l) := by
  induction l with
  | nil => exact List.Perm.refl _
  | cons y t ih =>
    unfold ins
    split
    · exact (ih.cons y).trans (List.Perm.swap x y t)
    · exact List.Perm.refl _

theorem sort_perm (l : List β) : (sort less l).Perm l := by
  induction l with
  | nil => exact List.Perm.refl _
  | cons x t ih => exact (ins_perm less x _).trans (ih.cons x)

/-- "not less" is transitive on the elements of a strict weak order -/
theorem neg_trans {less : β → β → Bool} {l : List β} (h : StrictWeakOn less l) {a b c : β} (ha : a ∈ l) (hb : b ∈ l)
    (hc : c ∈ l) (h1 : less b a = false) (h2 : less c b = false) : less c a = false := by
  by_contra hca
  have hca : less c a = true := by simpa using hca
  have hbc : less b c = false := by
    by_contra hbc
    have := h.trans b hb c hc a ha (by simpa using hbc) hca
    rw [h1] at this; cases this
  have hab : less a b = false := by
    by_contra hab
    have := h.trans c hc a ha b hb hca (by simpa using hab)
    rw [h2] at this; cases this
  have := (h.incomp a ha b hb c hc hab h1 hbc h2).2
  rw [hca] at this; cases this

theorem asymm {less : β → β → Bool} {l : List β} (h : StrictWeakOn less l) {a b : β} (ha : a ∈ l) (hb : b ∈ l)
    (h1 : less a b = true) : less b a = false := by
  by_contra hba
  have := h.trans a ha b hb a ha h1 (by simpa using hba)
  rw [h.irrefl a ha] at this; cases this

theorem ins_sorted {less : β → β → Bool} {L : List β} (h : StrictWeakOn less L) {x : β} (hx : x ∈ L) :
    ∀ l : List β, (∀ y ∈ l, y ∈ L) → l.Pairwise (fun a b => less b a = false) →
      (ins less x l).Pairwise (fun a b => less b a = false) := by
  intro l
  induction l with
  | nil => intro _ _; simp [ins]
  | cons y t ih =>
    intro hl hs
    have hy := hl y (by simp)
    rw [List.pairwise_cons] at hs
    unfold ins
    by_cases c : less y x = true
    · rw [if_pos c, List.pairwise_cons]
      refine ⟨fun z hz => ?_, ih (fun z hz => hl z (by simp [hz])) hs.2⟩
      rcases List.mem_cons.1 ((ins_perm less x t).mem_iff.1 hz) with rfl | hz
      · exact asymm h hy hx c
      · exact hs.1 z hz
    · rw [if_neg c, List.pairwise_cons]
      have c' : less y x = false := by simpa using c
      refine ⟨fun z hz => ?_, List.pairwise_cons.2 hs⟩
      rcases List.mem_cons.1 hz with rfl | hz
      · exact c'
      · exact neg_trans h hx hy (hl z (by simp [hz])) c' (hs.1 z hz)

theorem sort_sorted {less : β → β → Bool} {L : List β} (h : StrictWeakOn less L) :
    ∀ l : List β, (∀ y ∈ l, y ∈ L) → (sort less l).Pairwise (fun a b => less b a = false) := by
  intro l
  induction l with
  | nil => intro _; simp [sort]
  | cons x t ih =>
    intro hl
    exact ins_sorted h (hl x (by simp)) _
      (fun y hy => hl y (by simp [(sort_perm less t).mem_iff.1 hy])) (ih fun y hy => hl y (by simp [hy]))

end InsSort

/-- insertion sort as a `Sorter`: the contract is not empty -/
def Sorter.insertion : Sorter where
  run := fun less l => InsSort.sort less l
  perm := fun less l => InsSort.sort_perm less l
  sorted := fun _ l h => InsSort.sort_sorted h l (fun _ hy => hy)

end Goosli
