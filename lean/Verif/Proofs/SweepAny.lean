import Verif.Proofs.Sweep
import Verif.Props.C17
/-!
# The sweep and the merging of lines for every arithmetic
-/
set_option linter.unusedSectionVars false
set_option autoImplicit false
namespace Goosli
open Flt
variable {α : Type} [Flt α]

/-- the point of the plane number `m` -/
def sweepPoint (sh : Vec α) (P : Point α) : Nat → Point α
  | 0 => P
  | m + 1 => (sweepPoint sh P m).shift sh

theorem sweepPoint_shift (sh : Vec α) (P : Point α) (m : Nat) : sweepPoint sh (P.shift sh) m = sweepPoint sh P (m + 1) := by
  induction m with
  | zero => rfl
  | succ m ih => rw [sweepPoint, ih]; rfl

/-- the position of the plane number `m` along `Z` -/
def sweepZ (Z sh : Vec α) (P : Point α) (m : Nat) : α := (sweepPoint sh P m).toVector.dot Z

theorem dropWhile_false {β : Type} (p : β → Bool) (l : List β) (h : l.Pairwise fun a b => p a = false → p b = false) :
    ∀ x ∈ l.dropWhile p, p x = false := by
  induction l with
  | nil => simp
  | cons a t ih =>
    intro x hx
    rw [List.pairwise_cons] at h
    by_cases c : p a = true
    · rw [List.dropWhile_cons_of_pos c] at hx
      exact ih h.2 x hx
    · rw [List.dropWhile_cons_of_neg c] at hx
      have c : p a = false := by simpa using c
      rcases List.mem_cons.1 hx with rfl | hx
      · exact c
      · exact h.1 x hx c

/-- What the sweep needs of the arithmetic: a triangle that is below a plane stays below, and the order of the list agrees
with the comparisons.  Then each job has all triangles its plane can meet. -/
theorem sweep_any (Z sh : Vec α) (all : List (Triangle α)) :
    ∀ (k i : Nat) (P : Point α) (act rest dropped : List (Triangle α)),
      all.Perm (dropped ++ act ++ rest) →
      (∀ t ∈ dropped, (sweepZ Z sh P 0 ≤? t.maxZ Z) = false) →
      (∀ m, m + 1 < k → ∀ t ∈ all, (sweepZ Z sh P m ≤? t.maxZ Z) = false → (sweepZ Z sh P (m + 1) ≤? t.maxZ Z) = false) →
      (∀ m, m < k → rest.Pairwise fun a b => (a.minZ Z ≤? sweepZ Z sh P m) = false → (b.minZ Z ≤? sweepZ Z sh P m) = false) →
      ∀ (m : Nat) (j : Job α), (sweep Z sh k i P act rest)[m]? = some j →
        m < k ∧ j.plane = ⟨sweepPoint sh P m, Z⟩ ∧ j.order = i + m ∧
        ((∀ t ∈ all, (sweepZ Z sh P m ≤? t.maxZ Z) = false ∨ (t.minZ Z ≤? sweepZ Z sh P m) = false →
            j.plane.intersectTriangle t = none) →
          (jobPaths j).Perm (sectionPaths j.plane all)) := by
  intro k
  induction k with
  | zero => intro i P act rest dropped _ _ _ _ m j hj; simp [sweep] at hj
  | succ k ih =>
    intro i P act rest dropped hp hd hmono hsort m j hj
    set z : α := P.toVector.dot Z with hz
    set act' := act.filter (fun t => z ≤? t.maxZ Z) ++ rest.takeWhile (fun t => t.minZ Z ≤? z) with hact
    set rest' := rest.dropWhile (fun t => t.minZ Z ≤? z) with hrest'
    set dropped' := dropped ++ act.filter (fun t => !(z ≤? t.maxZ Z)) with hdr
    have hsplit : all.Perm (dropped' ++ act' ++ rest') := by
      refine hp.trans ?_
      classical
      rw [List.perm_iff_count]
      intro x
      have h1 := (List.filter_append_perm (fun t => z ≤? t.maxZ Z) act).count_eq x
      have h2 : List.count x rest = List.count x (rest.takeWhile (fun t => t.minZ Z ≤? z)) + List.count x rest' := by
        conv_lhs => rw [takeWhile_append_dropWhile' (fun t => t.minZ Z ≤? z) rest]
        rw [List.count_append]
      rw [hdr, hact]
      simp only [List.count_append] at h1 h2 ⊢
      omega
    have hmem : ∀ t ∈ dropped' ++ act' ++ rest', t ∈ all := fun t ht => hsplit.mem_iff.2 ht
    have hd' : ∀ t ∈ dropped', (z ≤? t.maxZ Z) = false := by
      intro t ht
      rw [hdr, List.mem_append] at ht
      rcases ht with ht | ht
      · exact hd t ht
      · simpa using (List.mem_filter.1 ht).2
    have hrz : ∀ t ∈ rest', (t.minZ Z ≤? z) = false := dropWhile_false _ _ (hsort 0 (by omega))
    have hstep : sweep Z sh (k + 1) i P act rest =
        ⟨i, ⟨P, Z⟩, act'⟩ :: sweep Z sh k (i + 1) (P.shift sh) act' rest' := rfl
    rw [hstep] at hj
    cases m with
    | zero =>
      simp only [List.getElem?_cons_zero, Option.some.injEq] at hj
      subst hj
      refine ⟨by omega, rfl, rfl, fun hn => ?_⟩
      refine List.Perm.trans ?_ (sectionPaths_perm _ hsplit).symm
      show (sectionPaths ⟨P, Z⟩ act').Perm _
      have h1 : sectionPaths ⟨P, Z⟩ dropped' = [] :=
        sectionPaths_none _ _ fun t ht => hn t (hmem t (by simp [ht])) (Or.inl (hd' t ht))
      have h2 : sectionPaths ⟨P, Z⟩ rest' = [] :=
        sectionPaths_none _ _ fun t ht => hn t (hmem t (by simp [ht])) (Or.inr (hrz t ht))
      have happ : sectionPaths ⟨P, Z⟩ (dropped' ++ act' ++ rest') =
          sectionPaths ⟨P, Z⟩ dropped' ++ sectionPaths ⟨P, Z⟩ act' ++ sectionPaths ⟨P, Z⟩ rest' := by
        unfold sectionPaths; rw [List.filterMap_append, List.filterMap_append]
      rw [happ, h1, h2]
      simp
    | succ m =>
      simp only [List.getElem?_cons_succ] at hj
      have hzz : ∀ n, sweepZ Z sh (P.shift sh) n = sweepZ Z sh P (n + 1) := fun n => by
        unfold sweepZ; rw [sweepPoint_shift]
      have hd2 : ∀ t ∈ dropped', (sweepZ Z sh (P.shift sh) 0 ≤? t.maxZ Z) = false := by
        intro t ht
        cases k with
        | zero => simp [sweep] at hj
        | succ k =>
          rw [hzz]
          exact hmono 0 (by omega) t (hmem t (by simp [ht])) (hd' t ht)
      obtain ⟨g0, g1, g2, g3⟩ := ih (i + 1) (P.shift sh) act' rest' dropped' hsplit hd2
        (fun n hn t ht => by rw [hzz, hzz]; exact hmono (n + 1) (by omega) t ht)
        (fun n hn => by rw [hzz]; exact (hsort (n + 1) (by omega)).sublist (List.dropWhile_sublist _)) m j hj
      rw [sweepPoint_shift] at g1
      refine ⟨by omega, g1, by omega, fun hn => g3 ?_⟩
      rw [hzz]
      exact hn

/-- **merging.** A path whose last point is its first one keeps this property, in every arithmetic. -/
theorem minimize_exact (p : Path α) (h : p.points.head? = p.points.getLast?) :
    p.minimizeLines.points.head? = p.minimizeLines.points.getLast? := by
  rcases hp : p.points with _ | ⟨p0, _ | ⟨p1, _ | ⟨p2, rest⟩⟩⟩
  · simp [Path.minimizeLines, hp]
  · simp [Path.minimizeLines, hp]
  · rw [hp] at h; simpa [Path.minimizeLines, hp] using h
  · have e : p.minimizeLines.points = minimizeClose (minimizeLoop (p2 :: rest) [p0, p1] ⟨p0, p1⟩).1
        (minimizeLoop (p2 :: rest) [p0, p1] ⟨p0, p1⟩).2 := by simp [Path.minimizeLines, hp]
    obtain ⟨h1, h2, h3, h4⟩ := minimizeLoop_spec (p2 :: rest) [p0, p1] ⟨p0, p1⟩ (by simp)
    rw [e]
    rcases minimizeClose_cases _ (minimizeLoop (p2 :: rest) [p0, p1] ⟨p0, p1⟩).2 h2 with h' | ⟨_, core, _, h'⟩
    · rw [h', h3, h4]; rw [hp] at h; simpa using h
    · rcases h' with ⟨x, rfl, h'⟩ | ⟨x, hx, h'⟩ | ⟨x, hx, h'⟩
      · rw [h']; simp
      · rw [h']; simp [List.head?_append, hx]
      · rw [h', List.getLast?_cons, hx]; simp

/-- the points of a merged path are points of the path -/
theorem minimize_mem (p : Path α) : ∀ x ∈ p.minimizeLines.points, x ∈ p.points := by
  obtain ⟨core, hs, h | ⟨_, ⟨x, hx, h⟩ | ⟨x, hx, h⟩⟩⟩ := C17_no_new_points p
  · rw [h]; exact fun x hx => hs.subset hx
  · rw [h]; intro y hy
    rcases List.mem_append.1 hy with hy | hy
    · exact hs.subset hy
    · simp at hy; subst hy; exact hs.subset (List.mem_of_mem_head? hx)
  · rw [h]; intro y hy
    rcases List.mem_cons.1 hy with rfl | hy
    · exact hs.subset (List.mem_of_mem_getLast? hx)
    · exact hs.subset hy

/-- a path that ends where it began, at a point equal to itself, is closed for the program -/
theorem isClosed_exact {p : Path α} (h : p.points.head? = p.points.getLast?) (hs : ∀ x ∈ p.points, x.equal x = true) :
    p.isClosed = true := by
  cases hp : p.points.head? with
  | none => simp only [Path.isClosed, hp]
  | some x =>
    have hx : x ∈ p.points := List.mem_of_mem_head? hp
    simp only [Path.isClosed, ← h, hp]
    split
    · rfl
    · exact hs x hx

end Goosli
