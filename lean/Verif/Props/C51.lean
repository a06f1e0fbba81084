import Verif.Model.Vip
import Verif.Proofs.Cut
import Verif.Spec.Toy
/-! # C51 Analysis terminates with alternating planes -/
set_option linter.unusedSectionVars false
namespace Goosli
open Flt

variable {α : Type} [Flt α]

theorem go_ok_bind {β γ : Type} (a : β) (f : β → Go γ) : ((Except.ok a : Go β) >>= f) = f a := rfl

/-- the cut lines of a triangle have two points -/
theorem cutTriangle_inters (p : Plane α) (t : Triangle α) : ∀ q ∈ (cutTriangle p t).inters, q.points.length = 2 := by
  intro q hq
  unfold cutTriangle at hq
  dsimp only at hq
  split at hq
  · split at hq <;> simp at hq
    subst hq; rfl
  · split at hq <;> simp at hq
    subst hq; rfl
  · simp at hq
  · simp at hq

/-- cutting never fails, in any arithmetic -/
theorem cutMesh_total (S : Sorter) (m : Option (Mesh α)) (p : Plane α) : ∃ up down, cutMesh S m p = .ok (up, down) := by
  cases m with
  | none => exact ⟨_, _, rfl⟩
  | some m =>
    obtain ⟨out, h, _⟩ := joinMin_ok S ((m.triangles.map (cutTriangle p)).flatMap (·.inters)) (by
      intro q hq
      obtain ⟨c, hc, hq⟩ := List.mem_flatMap.1 hq
      obtain ⟨t, _, rfl⟩ := List.mem_map.1 hc
      have := cutTriangle_inters p t q hq
      intro h
      rw [h] at this
      cases this)
    have hc : cutMesh S (some m) p = .ok (⟨(m.triangles.map (cutTriangle p)).flatMap (·.up) ++ (out.flatMap (capTriangles p)).map (·.1)⟩,
        ⟨(m.triangles.map (cutTriangle p)).flatMap (·.down) ++ (out.flatMap (capTriangles p)).map (·.2)⟩) := by
      unfold cutMesh
      dsimp only
      rw [h]
      rfl
    exact ⟨_, _, hc⟩

/-- the search for the lowest failing triangle finds a triangle of the mesh that is not at the very bottom, or none, or runs past the
end of the mesh -/
theorem lowestFail_spec (mesh : Mesh α) (v : Vec α) : ∀ (flags : List Bool) (i : Nat) (t : Option (Triangle α)),
    (∀ x, t = some x → x ∈ mesh.triangles ∧ ¬ ((x.p1.z <? lit 1 2) ∧ (x.p2.z <? lit 1 2) ∧ (x.p3.z <? lit 1 2))) →
    (∃ r, lowestFail mesh v i flags t = .ok r ∧ ∀ x, r = some x → x ∈ mesh.triangles ∧
      ¬ ((x.p1.z <? lit 1 2) ∧ (x.p2.z <? lit 1 2) ∧ (x.p3.z <? lit 1 2))) ∨
    (lowestFail mesh v i flags t = .error .index ∧ ∃ k : Nat, flags[k]? = some true ∧ mesh.triangles.length ≤ i + k)
  | [], i, t, h => Or.inl ⟨t, rfl, h⟩
  | f :: rest, i, t, h => by
    have lift : ∀ t', (∀ x, t' = some x → x ∈ mesh.triangles ∧ ¬ ((x.p1.z <? lit 1 2) ∧ (x.p2.z <? lit 1 2) ∧ (x.p3.z <? lit 1 2))) →
        (∃ r, lowestFail mesh v (i + 1) rest t' = .ok r ∧ ∀ x, r = some x → x ∈ mesh.triangles ∧
          ¬ ((x.p1.z <? lit 1 2) ∧ (x.p2.z <? lit 1 2) ∧ (x.p3.z <? lit 1 2))) ∨
        (lowestFail mesh v (i + 1) rest t' = .error .index ∧ ∃ k : Nat, (f :: rest)[k]? = some true ∧
          mesh.triangles.length ≤ i + k) := by
      intro t' ht'
      rcases lowestFail_spec mesh v rest (i + 1) t' ht' with h | ⟨h1, k, h2, h3⟩
      · exact Or.inl h
      · exact Or.inr ⟨h1, k + 1, by simpa using h2, by omega⟩
    unfold lowestFail
    cases f with
    | false => exact lift t h
    | true =>
      simp only [if_true]
      unfold goAt
      cases hg : mesh.triangles[i]? with
      | none =>
        exact Or.inr ⟨rfl, 0, rfl, by simpa using hg⟩
      | some t2 =>
        simp only [go_ok_bind]
        by_cases hlow : ((t2.p1.z <? lit 1 2) && (t2.p2.z <? lit 1 2) && (t2.p3.z <? lit 1 2)) = true
        · rw [if_pos hlow]; exact lift t h
        · rw [if_neg hlow]
          apply lift
          intro x hx
          have hcase : some t2 = some x ∨ t = some x := by
            cases t with
            | none => exact Or.inl (by simpa using hx)
            | some t' =>
              dsimp only at hx
              split at hx
              · exact Or.inl hx
              · exact Or.inr hx
          rcases hcase with hx | hx
          · cases hx
            refine ⟨List.mem_of_getElem? hg, ?_⟩
            simpa [Bool.and_eq_true, and_assoc] using hlow
          · exact h x hx

/-- the lowest vertex is a vertex -/
theorem lowestVertex_mem (t : Triangle α) (v : Vec α) : lowestVertex t v ∈ [t.p1, t.p2, t.p3] := by
  unfold lowestVertex
  dsimp only
  split <;> split <;> simp

/-- what is said about the planes found -/
def planesOk (mesh : Mesh α) (ans : List (AnalyzedPlane α)) : Prop :=
  ans.length ≤ 6 ∧ ∀ i p, ans[i]? = some p →
    p.tilted = decide (i % 2 = 0) ∧
    (p.tilted = false → p.plane.n = axisZ ∧ p.rotz = lit 0 0) ∧
    ∃ t ∈ mesh.triangles, p.plane.p ∈ [t.p1, t.p2, t.p3] ∧
      ¬ ((t.p1.z <? lit 1 2) ∧ (t.p2.z <? lit 1 2) ∧ (t.p3.z <? lit 1 2))

theorem planesOk_snoc {mesh : Mesh α} {ans : List (AnalyzedPlane α)} (h : planesOk mesh ans) (hl : ans.length < 6)
    {cur : AnalyzedPlane α} (hc : cur.tilted = decide (ans.length % 2 = 1)) {t : Triangle α} (ht : t ∈ mesh.triangles)
    (hb : ¬ ((t.p1.z <? lit 1 2) ∧ (t.p2.z <? lit 1 2) ∧ (t.p3.z <? lit 1 2))) :
    planesOk mesh (ans ++ [nextPlane cur t]) ∧ (nextPlane cur t).tilted = decide ((ans ++ [nextPlane cur t]).length % 2 = 1) := by
  have ht1 : (nextPlane cur t).tilted = !cur.tilted := by
    unfold nextPlane; dsimp only; split <;> simp_all
  have hpar : decide ((ans.length + 1) % 2 = 1) = !decide (ans.length % 2 = 1) := by
    rcases Nat.mod_two_eq_zero_or_one ans.length with h | h <;> simp [Nat.add_mod, h]
  refine ⟨⟨by simp; omega, ?_⟩, by rw [ht1, hc, List.length_append, List.length_singleton, hpar]⟩
  intro i p hp
  rcases Nat.lt_or_ge i ans.length with hi | hi
  · rw [List.getElem?_append_left hi] at hp
    exact h.2 i p hp
  · rw [List.getElem?_append_right hi] at hp
    have h0 : i = ans.length := by
      rcases Nat.eq_zero_or_pos (i - ans.length) with h | h
      · omega
      · rw [List.getElem?_eq_none (by simp; omega)] at hp; cases hp
    subst h0
    simp at hp
    subst hp
    refine ⟨?_, ?_, t, ht, ?_, hb⟩
    · rw [ht1, hc]
      rcases Nat.mod_two_eq_zero_or_one ans.length with h | h <;> simp [h]
    · unfold nextPlane; dsimp only; split <;> simp
    · unfold nextPlane; dsimp only; split <;> exact lowestVertex_mem _ _

theorem analyzeLoop_spec (S : Sorter) (mesh : Mesh α) (angle : α) : ∀ (k : Nat) (ans : List (AnalyzedPlane α))
    (cur : AnalyzedPlane α) (m : Mesh α), 6 < ans.length + k → planesOk mesh ans → cur.tilted = decide (ans.length % 2 = 1) →
    (∃ out, analyzeLoop S mesh angle k ans cur m = .ok out ∧ planesOk mesh out) ∨
      analyzeLoop S mesh angle k ans cur m = .error .index
  | 0, ans, cur, m, hk, h, _ => by have := h.1; omega
  | k + 1, ans, cur, m, hk, h, hc => by
    unfold analyzeLoop
    by_cases hstop : 5 < ans.length ∨ m.triangles.length = 0
    · rw [if_pos hstop]; exact Or.inl ⟨ans, rfl, h⟩
    · rw [if_neg hstop]
      rcases lowestFail_spec mesh cur.plane.n (colorizeTriangles m angle cur.plane.n) 0 none (by simp) with ⟨r, hr, h2⟩ | ⟨hr, _⟩
      · rw [hr]
        cases r with
        | none => exact Or.inl ⟨ans, rfl, h⟩
        | some t =>
          obtain ⟨up, down, hcut⟩ := cutMesh_total S (some m) (nextPlane cur t).plane
          obtain ⟨ht, hb⟩ := h2 t rfl
          obtain ⟨h3, h4⟩ := planesOk_snoc h (by omega) hc ht hb
          simp only [go_ok_bind, hcut]
          exact analyzeLoop_spec S mesh angle k _ _ up (by simp; omega) h3 h4
      · rw [hr]; exact Or.inr rfl

/-- C51: on every mesh, with every angle, every sort and every arithmetic the analysis ends. It returns at most six planes: the first,
third and fifth are tilted, the others are horizontal; every plane passes through a vertex of a triangle of the mesh that is not in
the first layer. The only other way to end is an index out of range. -/
theorem C51_planes (S : Sorter) (mesh : Mesh α) (angle : α) :
    (∃ ans, analyze S mesh angle = .ok ans ∧ ans.length ≤ 6 ∧ ∀ i p, ans[i]? = some p →
      p.tilted = decide (i % 2 = 0) ∧ (p.tilted = false → p.plane.n = axisZ ∧ p.rotz = lit 0 0) ∧
      ∃ t ∈ mesh.triangles, p.plane.p ∈ [t.p1, t.p2, t.p3] ∧
        ¬ ((t.p1.z <? lit 1 2) ∧ (t.p2.z <? lit 1 2) ∧ (t.p3.z <? lit 1 2))) ∨
    analyze S mesh angle = .error .index :=
  analyzeLoop_spec S mesh angle 7 [] ⟨planeXY, false, lit 0 0⟩ mesh (by simp) ⟨by simp, by simp⟩ rfl

/-- the seven rounds of the model are no limit: with more rounds the result is the same -/
theorem C51_rounds (S : Sorter) (mesh : Mesh α) (angle : α) (more : Nat) :
    analyzeLoop S mesh angle (7 + more) [] ⟨planeXY, false, lit 0 0⟩ mesh = analyze S mesh angle := by
  have key : ∀ (k : Nat) (ans : List (AnalyzedPlane α)) (cur : AnalyzedPlane α) (m : Mesh α), 6 < ans.length + k →
      analyzeLoop S mesh angle (k + more) ans cur m = analyzeLoop S mesh angle k ans cur m ∨ 6 < ans.length := by
    intro k
    induction k with
    | zero => intro ans cur m h; right; omega
    | succ k ih =>
      intro ans cur m h
      by_cases h6 : 6 < ans.length
      · exact Or.inr h6
      left
      rw [show k + 1 + more = (k + more) + 1 by omega]
      unfold analyzeLoop
      by_cases hstop : 5 < ans.length ∨ m.triangles.length = 0
      · rw [if_pos hstop, if_pos hstop]
      · rw [if_neg hstop, if_neg hstop]
        cases hr : lowestFail mesh cur.plane.n 0 (colorizeTriangles m angle cur.plane.n) none with
        | error e => rfl
        | ok r =>
          cases r with
          | none => rfl
          | some t =>
            obtain ⟨up, down, hcut⟩ := cutMesh_total S (some m) (nextPlane cur t).plane
            simp only [go_ok_bind, hcut]
            rcases ih (ans ++ [nextPlane cur t]) (nextPlane cur t) up (by simp; omega) with h | h
            · exact h
            · simp at h; omega
  rcases key 7 [] ⟨planeXY, false, lit 0 0⟩ mesh (by simp) with h | h
  · exact h
  · simp at h

section Example
attribute [local instance] Toy.flt
/-- six planes are found (in the toy arithmetic) for two triangles -/
example : (analyze Sorter.insertion (⟨[newTriangle ⟨0, 0, 5⟩ ⟨3, 0, 9⟩ ⟨0, 7, 8⟩, newTriangle ⟨0, 0, -4⟩ ⟨5, -3, 0⟩ ⟨2, 7, 8⟩]⟩ : Mesh Int)
    0).map (·.map (·.tilted)) = .ok [true, false, true, false, true, false] := by rfl
end Example

end Goosli
