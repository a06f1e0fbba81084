import Verif.Props.C19
import Verif.Props.C26
import Mathlib.Data.List.Chain
/-!
# C18: line simplification error bound
-/
set_option linter.unusedSectionVars false
namespace Goosli
open Flt

/-- `p` is within `eps` of the line through `a` and `b` (of the point `a` if they coincide) -/
def nearLine (eps : ℝ) (a b p : R3) : Prop := ∃ t : ℝ, R3.dist p (a + t • (b - a)) ≤ eps

/-- the points of `ps` from position `i` to position `j` are within `eps` of the line through the two ends -/
def Encloses (eps : ℝ) (ps : List R3) (i j : Nat) : Prop :=
  i < j ∧ ∃ a b, ps[i]? = some a ∧ ps[j]? = some b ∧ ∀ (k : Nat) (p : R3), i ≤ k → k ≤ j → ps[k]? = some p → nearLine eps a b p

theorem R3.dist_comm' (a b : R3) : R3.dist a b = R3.dist b a := by
  unfold R3.dist R3.norm; congr 1; simp [R3.normSq, R3.dot]; ring

/-- the distance to the line computed by the code -/
theorem distanceToLine_pt (p a b : R3) : ∃ d : ℝ, p.pt.distanceToLine a.pt b.pt = XR.fin d ∧ ∀ eps, d ≤ eps → nearLine eps a b p := by
  obtain ⟨w, h1, ⟨t, h2⟩, _, _⟩ := C26_point_on_line p a b
  refine ⟨R3.dist w p, ?_, ?_⟩
  · unfold Point.distanceToLine; rw [h1, distanceTo_pt]
  · intro eps h; exact ⟨t, by rw [← h2, R3.dist_comm']; exact h⟩

theorem farthest_real (a b : R3) (t : List R3) : ∀ (i : Nat) (k : Nat) (m : ℝ),
    ∃ D : ℝ, (farthest a.pt b.pt i (t.map R3.pt) (k, XR.fin m)).2 = XR.fin D ∧ m ≤ D ∧
      ∀ p ∈ t, ∀ eps, D ≤ eps → nearLine eps a b p := by
  induction t with
  | nil => intro i k m; exact ⟨m, rfl, le_refl _, by simp⟩
  | cons p t ih =>
    intro i k m
    obtain ⟨d, hd, hn⟩ := distanceToLine_pt p a b
    rw [List.map_cons, farthest]
    rw [hd, XR.fin_lt]
    by_cases h : m < d
    · rw [if_pos (by simpa using h)]
      obtain ⟨D, h1, h2, h3⟩ := ih (i + 1) i d
      refine ⟨D, h1, by linarith, ?_⟩
      intro q hq eps he
      rcases List.mem_cons.1 hq with rfl | hq
      · exact hn eps (by linarith)
      · exact h3 q hq eps he
    · rw [if_neg (by simpa using h)]
      obtain ⟨D, h1, h2, h3⟩ := ih (i + 1) k m
      refine ⟨D, h1, h2, ?_⟩
      intro q hq eps he
      rcases List.mem_cons.1 hq with rfl | hq
      · exact hn eps (by push Not at h; linarith)
      · exact h3 q hq eps he

theorem nearLine_ends (eps : ℝ) (he : 0 ≤ eps) (a b : R3) : nearLine eps a b a ∧ nearLine eps a b b := by
  have z : ∀ x : R3, R3.dist x x = 0 := by
    intro x; unfold R3.dist
    have : x - x = 0 := by apply R3.ext <;> simp
    rw [this]; exact R3.norm_eq_zero.2 rfl
  constructor
  · refine ⟨0, ?_⟩
    have : a + (0 : ℝ) • (b - a) = a := by apply R3.ext <;> simp
    rw [this, z]; exact he
  · refine ⟨1, ?_⟩
    have : a + (1 : ℝ) • (b - a) = b := by apply R3.ext <;> simp
    rw [this, z]; exact he

/-- without recursion everything is near the line through the ends -/
theorem farthestOf_real (ps : List R3) (h2 : 2 ≤ ps.length) (eps : ℝ) (he : 0 ≤ eps) :
    ∃ D : ℝ, (farthestOf (ps.map R3.pt)).2 = XR.fin D ∧ (D ≤ eps → Encloses eps ps 0 (ps.length - 1)) := by
  obtain ⟨a, rest, rfl⟩ := List.exists_cons_of_length_pos (show 0 < ps.length by omega)
  have hr : rest ≠ [] := by intro h; rw [h] at h2; simp at h2
  obtain ⟨mid, b, rfl⟩ : ∃ mid b, rest = mid ++ [b] := ⟨rest.dropLast, rest.getLast hr, (List.dropLast_append_getLast hr).symm⟩
  have e : farthestOf ((a :: (mid ++ [b])).map R3.pt) = farthest a.pt b.pt 1 (mid.map R3.pt) (0, lit 0 0) := by
    unfold farthestOf
    have e1 : ((a :: (mid ++ [b])).map R3.pt).head? = some a.pt := rfl
    have e2 : ((a :: (mid ++ [b])).map R3.pt).getLast? = some b.pt := by
      rw [List.map_cons, List.map_append, List.map_singleton, ← List.cons_append, List.getLast?_append]; simp
    have e3 : ((a :: (mid ++ [b])).map R3.pt).tail.dropLast = mid.map R3.pt := by simp
    rw [e1, e2, e3]
  rw [e, lit00]
  obtain ⟨D, h1, _, h3⟩ := farthest_real a b mid 1 0 0
  refine ⟨D, h1, fun hD => ⟨by simp, a, b, rfl, by simp, ?_⟩⟩
  intro k p _ hk hp
  match k with
  | 0 => cases hp; exact (nearLine_ends eps he a b).1
  | k + 1 =>
    rw [List.getElem?_cons_succ] at hp
    by_cases hk' : k < mid.length
    · rw [List.getElem?_append_left hk'] at hp
      exact h3 p (List.mem_of_getElem? hp) eps hD
    · have : k = mid.length := by simp at hk; omega
      subst this
      simp at hp; subst hp
      exact (nearLine_ends eps he a b).2

theorem Encloses.take {eps : ℝ} {ps : List R3} {m i j : Nat} (h : Encloses eps (ps.take m) i j) : Encloses eps ps i j := by
  obtain ⟨h1, a, b, ha, hb, h2⟩ := h
  have hj : j < (ps.take m).length := (List.getElem?_eq_some_iff.1 hb).1
  simp at hj
  have e : ∀ k, k < m → (ps.take m)[k]? = ps[k]? := fun k hk => List.getElem?_take_of_lt hk
  refine ⟨h1, a, b, ?_, ?_, ?_⟩
  · rw [← e i (by omega)]; exact ha
  · rw [← e j (by omega)]; exact hb
  · intro k p hk1 hk2 hp
    exact h2 k p hk1 hk2 (by rw [e k (by omega)]; exact hp)

theorem Encloses.drop {eps : ℝ} {ps : List R3} {m i j : Nat} (h : Encloses eps (ps.drop m) i j) : Encloses eps ps (i + m) (j + m) := by
  obtain ⟨h1, a, b, ha, hb, h2⟩ := h
  rw [List.getElem?_drop] at ha hb
  refine ⟨by omega, a, b, by rw [Nat.add_comm]; exact ha, by rw [Nat.add_comm]; exact hb, ?_⟩
  intro k p hk1 hk2 hp
  exact h2 (k - m) p (by omega) (by omega) (by rw [List.getElem?_drop, show m + (k - m) = k by omega]; exact hp)

theorem C18_aux (eps : ℝ) (he : 0 ≤ eps) : ∀ (n : Nat) (ps : List R3), ps.length = n → 2 ≤ ps.length →
    ∃ (kept : List Nat) (out : List R3), kept.head? = some 0 ∧ kept.getLast? = some (ps.length - 1) ∧
      kept.IsChain (Encloses eps ps) ∧ kept.map (fun k => ps[k]?) = out.map some ∧
      ∀ fuel, ps.length ≤ fuel → simplifyLine fuel (ps.map R3.pt) (XR.fin eps) = .ok (out.map R3.pt) := by
  intro n
  induction n using Nat.strong_induction_on with
  | _ n ih =>
    intro ps hn h2
    obtain ⟨D, hD, hE⟩ := farthestOf_real ps h2 eps he
    by_cases hc : eps < D
    · have hneg : ((XR.fin eps : XR) <? lit 0 0) = false := by simp; exact he
      have hcond : ((XR.fin eps : XR) <? (farthestOf (ps.map R3.pt)).2) = true := by rw [hD]; simpa using hc
      rcases farthestOf_index (ps.map R3.pt) with h | ⟨h1, h3⟩
      · rw [h, hneg] at hcond; exact absurd hcond (by simp)
      · set m := (farthestOf (ps.map R3.pt)).1 with hm
        simp only [List.length_map] at h3
        have l1 : (ps.take (m + 1)).length = m + 1 := by simp; omega
        have l2 : (ps.drop m).length = ps.length - m := by simp
        obtain ⟨k1, o1, hh1, hl1, hch1, hmap1, hrun1⟩ := ih (m + 1) (by omega) (ps.take (m + 1)) l1 (by omega)
        obtain ⟨k2, o2, hh2, hl2, hch2, hmap2, hrun2⟩ := ih (ps.length - m) (by omega) (ps.drop m) l2 (by omega)
        rw [l1] at hl1 hrun1
        rw [l2] at hl2 hrun2
        -- shapes of the two index lists
        obtain ⟨i1, rfl⟩ : ∃ i1, k1 = i1 ++ [m] := by
          have hne : k1 ≠ [] := by intro h; rw [h] at hh1; simp at hh1
          refine ⟨k1.dropLast, ?_⟩
          have := List.getLast?_eq_some_getLast hne
          rw [hl1] at this
          have := Option.some.inj this
          rw [show m = k1.getLast hne by omega, List.dropLast_append_getLast]
        obtain ⟨i2, rfl⟩ : ∃ i2, k2 = 0 :: i2 := by
          cases k2 with
          | nil => simp at hh2
          | cons x t => simp at hh2; exact ⟨t, by rw [hh2]⟩
        obtain ⟨o1', x1, rfl⟩ : ∃ o1' x1, o1 = o1' ++ [x1] := by
          have hl := congrArg List.length hmap1
          simp at hl
          have hne : o1 ≠ [] := by intro h; rw [h] at hl; simp at hl
          exact ⟨o1.dropLast, o1.getLast hne, (List.dropLast_append_getLast hne).symm⟩
        have hm1 : i1.map (fun k => (ps.take (m + 1))[k]?) = o1'.map some := by
          rw [List.map_append, List.map_append] at hmap1
          exact (List.append_inj' hmap1 (by simp)).1
        -- all indices of the first list are at most m
        have hlt1 : ∀ k ∈ i1, k < m + 1 := by
          intro k hk
          have : (ps.take (m + 1))[k]? ∈ i1.map (fun k => (ps.take (m + 1))[k]?) := List.mem_map_of_mem hk
          rw [hm1] at this
          obtain ⟨y, _, hy⟩ := List.mem_map.1 this
          have := (List.getElem?_eq_some_iff.1 hy.symm).1
          omega
        refine ⟨i1 ++ m :: i2.map (· + m), o1' ++ o2, ?_, ?_, ?_, ?_, ?_⟩
        · cases i1 with
          | nil => simp at hh1; omega
          | cons x t => simpa using hh1
        · cases i2 with
          | nil => simp at hl2; omega
          | cons y t =>
            rw [List.getLast?_cons_cons] at hl2
            rw [List.map_cons, List.getLast?_append_of_ne_nil _ (by simp), List.getLast?_cons_cons,
              show (y + m) :: t.map (· + m) = (y :: t).map (· + m) from rfl, List.getLast?_map, hl2]
            simp; omega
        · rw [List.isChain_split]
          refine ⟨hch1.imp (fun _ _ h => h.take), ?_⟩
          have : m :: i2.map (· + m) = (0 :: i2).map (· + m) := by simp
          rw [this, List.isChain_map]
          exact hch2.imp (fun _ _ h => h.drop)
        · rw [List.map_append, List.map_append, ← hm1]
          congr 1
          · apply List.map_congr_left
            intro k hk
            exact (List.getElem?_take_of_lt (hlt1 k hk)).symm
          · have : m :: i2.map (· + m) = (0 :: i2).map (· + m) := by simp
            rw [this, ← hmap2, List.map_map]
            apply List.map_congr_left
            intro k _
            simp only [Function.comp]
            rw [List.getElem?_drop, Nat.add_comm]
        · intro fuel hf
          obtain ⟨f, rfl⟩ : ∃ f, fuel = f + 1 := ⟨fuel - 1, by omega⟩
          rw [simplifyLine]
          dsimp only
          rw [if_pos hcond, ← hm, if_neg (by simp; omega), ← List.map_take, ← List.map_drop, hrun1 f (by omega), hrun2 f (by omega)]
          simp only [bind, Except.bind, pure, Except.pure]
          rw [goInit_ok (by simp)]
          simp
    · have hcond : ¬ ((XR.fin eps : XR) <? (farthestOf (ps.map R3.pt)).2) = true := by rw [hD]; simpa using hc
      obtain ⟨a, rest, rfl⟩ := List.exists_cons_of_length_pos (show 0 < ps.length by omega)
      have hne : (a :: rest) ≠ [] := by simp
      refine ⟨[0, (a :: rest).length - 1], [a, (a :: rest).getLast hne], rfl, by simp, ?_, ?_, ?_⟩
      · simpa using hE (by linarith)
      · simp only [List.map_cons, List.map_nil, List.getElem?_cons_zero]
        rw [← List.getLast?_eq_getElem?, List.getLast?_eq_some_getLast hne]
      · intro fuel hf
        obtain ⟨f, rfl⟩ : ∃ f, fuel = f + 1 := ⟨fuel - 1, by omega⟩
        rw [simplifyLine]
        dsimp only
        rw [if_neg hcond]
        have e1 : goAt ((a :: rest).map R3.pt) 0 = .ok a.pt := rfl
        have e2 : goLast ((a :: rest).map R3.pt) = .ok ((a :: rest).getLast hne).pt := by
          unfold goLast; rw [List.getLast?_map, List.getLast?_eq_some_getLast hne]; rfl
        rw [e1, e2]; rfl

/-- **C18.** For at least two finite points and `eps ≥ 0` the result is the sequence of input points at some positions
that begin with the first, end with the last and increase; between two consecutive kept positions every input point is
within `eps` of the line through the two kept points. -/
theorem C18_bound (eps : ℝ) (he : 0 ≤ eps) (ps : List R3) (h2 : 2 ≤ ps.length) :
    ∃ (kept : List Nat) (out : List R3),
      (∀ fuel, ps.length ≤ fuel → simplifyLine fuel (ps.map R3.pt) (XR.fin eps) = .ok (out.map R3.pt)) ∧
      kept.map (fun k => ps[k]?) = out.map some ∧ kept.head? = some 0 ∧ kept.getLast? = some (ps.length - 1) ∧
      kept.IsChain (fun i j => i < j ∧ ∃ a b, ps[i]? = some a ∧ ps[j]? = some b ∧
        ∀ (k : Nat) (p : R3), i ≤ k → k ≤ j → ps[k]? = some p → ∃ t : ℝ, R3.dist p (a + t • (b - a)) ≤ eps) := by
  obtain ⟨kept, out, h1, h3, h4, h5, h6⟩ := C18_aux eps he _ ps rfl h2
  exact ⟨kept, out, h6, h5, h1, h3, h4⟩

/-- **C18 (segments).** The bound does not hold for the segments between kept points, only for the lines: a polyline
that runs out by any length `r > 1` and back along itself is reduced to its two ends for every `eps ≥ 0`, although its middle
point is `r - 1` away from every point between them. -/
theorem C18_segment_violated (eps r : ℝ) (he : 0 ≤ eps) (hr : 1 < r) (fuel : Nat) :
    simplifyLine (fuel + 1) [(R3.mk 0 0 0).pt, (R3.mk r 0 0).pt, (R3.mk 1 0 0).pt] (XR.fin eps) =
        .ok [(R3.mk 0 0 0).pt, (R3.mk 1 0 0).pt] ∧
      ∀ t : ℝ, 0 ≤ t → t ≤ 1 → r - 1 ≤ R3.dist ⟨r, 0, 0⟩ ((⟨0, 0, 0⟩ : R3) + t • ((⟨1, 0, 0⟩ : R3) - ⟨0, 0, 0⟩)) := by
  constructor
  · have hu : ((⟨1, 0, 0⟩ : R3) - ⟨0, 0, 0⟩).unit = ⟨1, 0, 0⟩ := by
      have : ((⟨1, 0, 0⟩ : R3) - ⟨0, 0, 0⟩).norm = 1 := by simp [R3.norm, R3.normSq, R3.dot]
      apply R3.ext <;> simp [R3.unit, this]
    have hd : (R3.mk r 0 0).pt.distanceToLine (R3.mk 0 0 0).pt (R3.mk 1 0 0).pt = XR.fin 0 := by
      unfold Point.distanceToLine
      rw [projectOnLine_pt, hu, distanceTo_pt]
      congr 1
      simp [R3.dist, R3.norm, R3.normSq, R3.dot]
    have hf : farthestOf [(R3.mk 0 0 0).pt, (R3.mk r 0 0).pt, (R3.mk 1 0 0).pt] = (0, lit 0 0) := by
      show farthest (R3.mk 0 0 0).pt (R3.mk 1 0 0).pt 1 [(R3.mk r 0 0).pt] (0, lit 0 0) = _
      rw [farthest, farthest, hd]
      simp
    rw [simplifyLine]
    dsimp only
    rw [hf, if_neg (by simp; exact he)]
    rfl
  · intro t h0 h1
    unfold R3.dist R3.norm
    apply Real.le_sqrt_of_sq_le
    simp [R3.normSq, R3.dot]
    nlinarith

end Goosli
