import Verif.Model.FiveAxes
import Verif.Proofs.Space
import Mathlib.Data.List.Forall2
import Mathlib.Tactic.Linarith
/-! # C53 The middle of failed directions is a direction -/
set_option linter.unusedSectionVars false
namespace Goosli
open Flt

theorem raiseRing_real (last B : ℝ) (hB : 0 < B) : ∀ arr : List ℝ, arr ≠ [] → arr.getLast? = some last →
    arr.Pairwise (· ≤ ·) → (∀ a ∈ arr, 0 ≤ a ∧ a < B) →
    ∃ reps : List ℝ, raiseRing (XR.fin last) (XR.fin B) (arr.map XR.fin) = .ok (reps.map XR.fin) ∧
      List.Forall₂ (fun a r => r = a ∨ r = a + B) arr reps ∧ ∀ r ∈ reps, |r - last| ≤ B / 2 := by
  have half : (XR.fin B / lit 2 0 : XR) = XR.fin (B / 2) := by
    rw [XR.lit_def, XR.fin_div (by norm_num)]; norm_num
  have tail_ok : ∀ arr : List ℝ, arr.getLast? = some last → arr.Pairwise (· ≤ ·) → (∀ a ∈ arr, last - a ≤ B / 2) →
      List.Forall₂ (fun a r => r = a ∨ r = a + B) arr arr ∧ ∀ r ∈ arr, |r - last| ≤ B / 2 := by
    intro arr hl hs ha
    refine ⟨List.forall₂_same.2 fun a _ => Or.inl rfl, ?_⟩
    intro r hr
    have hle : r ≤ last := by
      obtain ⟨init, rfl⟩ := List.getLast?_eq_some_iff.1 hl
      rcases List.mem_append.1 hr with h | h
      · exact (List.pairwise_append.1 hs).2.2 r h last (by simp)
      · simp at h; exact h.le
    rw [abs_le]
    exact ⟨by linarith [ha r hr], by linarith⟩
  intro arr
  induction arr with
  | nil => intro h; exact absurd rfl h
  | cons a t ih =>
    intro _ hl hs hr
    cases t with
    | nil =>
      have : a = last := by simpa using hl
      subst this
      refine ⟨[a], ?_, ?_⟩
      · simp only [List.map_cons, List.map_nil, raiseRing, half, XR.fin_sub, XR.fin_lt, sub_self]
        rw [if_neg (by simp; linarith)]
      · exact tail_ok [a] hl hs (by simp; linarith)
    | cons b t =>
      obtain ⟨h1, h2⟩ := List.pairwise_cons.1 hs
      have hlt : (b :: t).getLast? = some last := by simpa [List.getLast?_cons_cons] using hl
      simp only [List.map_cons, raiseRing, half, XR.fin_sub, XR.fin_lt, decide_eq_true_eq]
      by_cases hc : B / 2 < last - a
      · rw [if_pos hc]
        obtain ⟨reps, e1, e2, e3⟩ := ih (by simp) hlt h2 (fun x hx => hr x (List.mem_cons_of_mem _ hx))
        simp only [List.map_cons] at e1
        refine ⟨(a + B) :: reps, ?_, List.Forall₂.cons (Or.inr rfl) e2, ?_⟩
        · rw [e1, XR.fin_add]; rfl
        · intro r hr'
          rcases List.mem_cons.1 hr' with rfl | hr'
          · have ha := hr a (by simp)
            have hlast := hr last (List.mem_of_getLast? hl)
            rw [abs_le]
            exact ⟨by linarith, by linarith⟩
          · exact e3 r hr'
      · rw [if_neg hc]
        refine ⟨a :: b :: t, by simp, ?_⟩
        refine tail_ok _ hl hs ?_
        intro x hx
        push Not at hc
        rcases List.mem_cons.1 hx with rfl | hx
        · exact hc
        · have := h1 x hx; linarith

theorem foldl_fin_sum : ∀ (l : List ℝ) (s : ℝ), (l.map XR.fin).foldl (· + ·) (XR.fin s) = XR.fin (s + l.sum)
  | [], s => by simp
  | a :: l, s => by
    simp only [List.map_cons, List.foldl_cons, XR.fin_add, List.sum_cons]
    rw [foldl_fin_sum l (s + a), add_assoc]

/-- C53: for a non-empty ascending list of angles in `[0, B)` the loop ends, every angle is represented by itself or by itself plus
one turn, within half a turn of the last one, and the result is the whole part of the mean of the representatives, taken modulo one
turn; so it is in `[0, B)`. -/
theorem C53_middle (arr : List ℝ) (B : Int) (hB : 0 < B) (hB2 : B < 2 ^ 62) (hne : arr ≠ []) (hs : arr.Pairwise (· ≤ ·))
    (hr : ∀ a ∈ arr, 0 ≤ a ∧ a < B) :
    ∃ (reps : List ℝ) (last : ℝ) (r : Int), middleOnTheRing (arr.map XR.fin) B = .ok r ∧ arr.getLast? = some last ∧
      List.Forall₂ (fun a r : ℝ => r = a ∨ r = a + B) arr reps ∧ (∀ x ∈ reps, |x - last| ≤ B / 2) ∧
      r = ⌊reps.sum / reps.length⌋ % B ∧ 0 ≤ r ∧ r < B := by
  obtain ⟨last, hl⟩ : ∃ last, arr.getLast? = some last := ⟨_, List.getLast?_eq_some_getLast hne⟩
  have hBR : (0 : ℝ) < B := by exact_mod_cast hB
  obtain ⟨reps, e1, e2, e3⟩ := raiseRing_real last B hBR arr hne hl hs hr
  have hlen : reps.length = arr.length := e2.length_eq.symm
  have hpos : 0 < reps.length := by rw [hlen]; exact List.length_pos_of_ne_nil hne
  have hposR : (0 : ℝ) < (reps.length : ℝ) := by exact_mod_cast hpos
  have hrange : ∀ x ∈ reps, 0 ≤ x ∧ x < 2 * B := by
    intro x hx
    obtain ⟨i, hi, rfl⟩ := List.mem_iff_getElem.1 hx
    have hi' : i < arr.length := by omega
    have := (List.forall₂_iff_get.1 e2).2 i hi' hi
    simp only [List.get_eq_getElem] at this
    have ha := hr arr[i] (List.getElem_mem _)
    rcases this with h | h <;> rw [h] <;> constructor <;> linarith
  have hsum : ∀ l : List ℝ, (∀ x ∈ l, 0 ≤ x ∧ x < 2 * B) → 0 ≤ l.sum ∧ l.sum ≤ l.length * (2 * B) := by
    intro l
    induction l with
    | nil => simp
    | cons a l ih =>
      intro h
      have h1 := ih (fun x hx => h x (List.mem_cons_of_mem _ hx))
      have h2 := h a (by simp)
      simp only [List.sum_cons, List.length_cons, Nat.cast_add, Nat.cast_one]
      constructor <;> nlinarith [h1.1, h1.2, h2.1, h2.2]
  obtain ⟨s0, s1⟩ := hsum reps hrange
  have hm0 : 0 ≤ reps.sum / reps.length := div_nonneg s0 hposR.le
  have hm1 : reps.sum / reps.length ≤ 2 * B := by
    rw [div_le_iff₀ hposR]; linarith
  have hto : XR.toInt (XR.fin (reps.sum / reps.length)) = ⌊reps.sum / reps.length⌋ := by
    have hb : (B : ℝ) < 2 ^ 62 := by exact_mod_cast hB2
    have h1 : |reps.sum / ↑reps.length| < 2 ^ 63 := by
      rw [abs_of_nonneg hm0]
      have : (2 : ℝ) ^ 63 = 2 * 2 ^ 62 := by norm_num
      linarith
    unfold XR.toInt
    dsimp only
    rw [if_pos hm0, if_pos]
    constructor
    · have := Int.floor_nonneg.2 hm0
      omega
    · rw [Int.floor_lt]
      push_cast
      have := lt_of_le_of_lt (le_abs_self _) h1
      norm_num at this
      exact this
  refine ⟨reps, last, ⌊reps.sum / reps.length⌋ % B, ?_, hl, e2, e3, rfl, Int.emod_nonneg _ hB.ne', Int.emod_lt_of_pos _ hB⟩
  have hgl : goLast (arr.map XR.fin) = .ok (XR.fin last) := by
    unfold goLast
    rw [List.getLast?_map, hl]; rfl
  unfold middleOnTheRing
  rw [hgl]
  show (do let arr ← raiseRing (XR.fin last) (ofInt B) (arr.map XR.fin); _) = _
  rw [XR.ofInt_def, e1]
  show (if B = 0 then Except.error GoErr.divZero else _) = _
  rw [if_neg hB.ne']
  have hz : (lit 0 0 : XR) = XR.fin 0 := by rw [XR.lit_def]; norm_num
  rw [hz, foldl_fin_sum, zero_add, List.length_map, XR.ofInt_def, XR.fin_div (by rw [Int.cast_natCast]; exact hposR.ne'), XR.toInt_def]
  rw [Int.cast_natCast, hto, Int.tmod_eq_emod_of_nonneg (Int.floor_nonneg.2 hm0)]
  rfl

/-- the failed directions 10 and 350: the representatives are 370 and 350, the middle is 0 -/
example : middleOnTheRing [XR.fin 10, XR.fin 350] 360 = .ok 0 := by
  have h : middleOnTheRing ([10, 350].map XR.fin) 360 = .ok 0 := by
    unfold middleOnTheRing
    simp only [List.map_cons, List.map_nil, goLast, List.getLast?_cons_cons, List.getLast?_singleton]
    have half : (ofInt 360 / lit 2 0 : XR) = XR.fin 180 := by
      rw [XR.ofInt_def, XR.lit_def, XR.fin_div (by norm_num)]; norm_num
    have hring : raiseRing (XR.fin 350) (ofInt 360) [XR.fin 10, XR.fin 350] = .ok [XR.fin 370, XR.fin 350] := by
      simp only [raiseRing, half]
      simp only [XR.fin_sub, XR.fin_lt, XR.ofInt_def, XR.fin_add]
      norm_num
      try rfl
    show (do let arr ← raiseRing (XR.fin 350) (ofInt 360) [XR.fin 10, XR.fin 350]; _) = _
    rw [hring]
    have hq : (([XR.fin 370, XR.fin 350] : List XR).foldl (· + ·) (lit 0 0) / ofInt (([XR.fin 370, XR.fin 350] : List XR).length : Int) : XR) = XR.fin 360 := by
      simp only [List.foldl_cons, List.foldl_nil, XR.lit_def, XR.ofInt_def, XR.fin_add, List.length_cons, List.length_nil]
      rw [XR.fin_div (by norm_num)]
      norm_num
    show (if (360 : Int) = 0 then Except.error GoErr.divZero
      else Except.ok ((toInt (List.foldl (· + ·) (lit 0 0) [XR.fin 370, XR.fin 350] / ofInt (([XR.fin 370, XR.fin 350] : List XR).length : Int))).tmod 360)) = _
    rw [hq, XR.toInt_def]
    unfold XR.toInt
    norm_num
  exact h

end Goosli
