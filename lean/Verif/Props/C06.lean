import Verif.Model.Helpers
import Verif.Props.C04
import Verif.Props.C05
/-!
# C06: stored normals match the vertices
-/
set_option linter.unusedSectionVars false
namespace Goosli
open Flt

variable {α : Type} [Flt α]

/-- the stored normal is `(P2-P1)×(P3-P1)`, written out in coordinates -/
def Triangle.Consistent (t : Triangle α) : Prop :=
  t.n.x = (t.p2.y - t.p1.y) * (t.p3.z - t.p1.z) - (t.p2.z - t.p1.z) * (t.p3.y - t.p1.y) ∧
  t.n.y = (t.p2.z - t.p1.z) * (t.p3.x - t.p1.x) - (t.p2.x - t.p1.x) * (t.p3.z - t.p1.z) ∧
  t.n.z = (t.p2.x - t.p1.x) * (t.p3.y - t.p1.y) - (t.p2.y - t.p1.y) * (t.p3.x - t.p1.x)

/-- every triangle of the mesh stores its own normal -/
def Mesh.Consistent (m : Mesh α) : Prop := ∀ t ∈ m.triangles, t.Consistent

/-- **C06 (constructor).** -/
theorem C06_newTriangle (a b c : Point α) : (newTriangle a b c).Consistent ∧
    (newTriangle a b c).p1 = a ∧ (newTriangle a b c).p2 = b ∧ (newTriangle a b c).p3 = c :=
  ⟨⟨rfl, rfl, rfl⟩, rfl, rfl, rfl⟩

/-- **C06 (Shift).** -/
theorem C06_shift (t : Triangle α) (v : Vec α) : (t.shift v).Consistent := (C06_newTriangle _ _ _).1

/-- **C06 (Mesh.Rotate).** -/
theorem C06_mesh_rotate (m : Mesh α) (rm : RotationMatrix α) (c : Point α) : (m.rotate rm c).Consistent := by
  intro t ht
  simp only [Mesh.rotate, List.mem_map] at ht
  obtain ⟨_, _, rfl⟩ := ht
  exact (C06_newTriangle _ _ _).1

/-- **C06 (Mesh.Shift).** -/
theorem C06_mesh_shift (m m' : Mesh α) (v : Vec α) (h : Mesh.shift (some m) v = some m') : m'.Consistent := by
  simp only [Mesh.shift, Option.map_some, Option.some.injEq] at h
  subst h
  intro t ht
  obtain ⟨s, _, rfl⟩ := List.mem_map.1 ht
  exact C06_shift s v

/-- **C06 (simplifier wrapper).** -/
theorem C06_simplify (f : List (STri α) → α → List (STri α)) (m m' : Mesh α) (k : Int) (hm : m.Consistent)
    (h : simplifyMesh f (some m) k = some m') : m'.Consistent := by
  simp only [simplifyMesh] at h
  split at h
  · cases h; exact hm
  · cases h
    intro t ht
    obtain ⟨_, _, rfl⟩ := List.mem_map.1 ht
    exact (C06_newTriangle _ _ _).1

theorem splitOnThree_consistent (p : Point α) (l : Line α) (t : Triangle α) :
    (splitOnThree p l t).1.Consistent ∧ (splitOnThree p l t).2.1.Consistent ∧ (splitOnThree p l t).2.2.Consistent := by
  unfold splitOnThree
  exact ⟨(C06_newTriangle _ _ _).1, (C06_newTriangle _ _ _).1, (C06_newTriangle _ _ _).1⟩

theorem cutTriangle_consistent (p : Plane α) (t : Triangle α) (ht : t.Consistent) :
    (∀ s ∈ (cutTriangle p t).up, s.Consistent) ∧ (∀ s ∈ (cutTriangle p t).down, s.Consistent) := by
  unfold cutTriangle
  dsimp only
  have hs := fun o l => splitOnThree_consistent o l t
  split
  · split
    · simp
    · simp only [List.mem_cons, List.not_mem_nil, or_false]
      exact ⟨by rintro s (rfl | rfl); exacts [(hs _ _).2.1, (hs _ _).2.2], by rintro s rfl; exact (hs _ _).1⟩
  · split
    · simp
    · simp only [List.mem_cons, List.not_mem_nil, or_false]
      exact ⟨by rintro s rfl; exact (hs _ _).1, by rintro s (rfl | rfl); exacts [(hs _ _).2.1, (hs _ _).2.2]⟩
  · simp [ht]
  · simp [ht]

theorem capTriangles_consistent (p : Plane α) (pth : Path α) : ∀ q ∈ capTriangles p pth, q.1.Consistent ∧ q.2.Consistent := by
  intro q hq
  unfold capTriangles at hq
  split at hq
  · cases hq
  · obtain ⟨r, _, rfl⟩ := List.mem_map.1 hq
    dsimp only
    split
    · exact ⟨(C06_newTriangle _ _ _).1, (C06_newTriangle _ _ _).1⟩
    · exact ⟨(C06_newTriangle _ _ _).1, (C06_newTriangle _ _ _).1⟩

/-- **C06 (CutMesh).** -/
theorem C06_cutMesh (S : Sorter) (m up down : Mesh α) (p : Plane α) (hm : m.Consistent)
    (h : cutMesh S (some m) p = .ok (up, down)) : up.Consistent ∧ down.Consistent := by
  unfold cutMesh at h
  dsimp only at h
  rcases e : joinPaths3AndMinimize S ((m.triangles.map (cutTriangle p)).flatMap (·.inters)) with err | joined
  · rw [e] at h; cases h
  · rw [e] at h
    cases h
    constructor
    · intro t ht
      rcases List.mem_append.1 ht with ht | ht
      · obtain ⟨_, hc, ht⟩ := List.mem_flatMap.1 ht
        obtain ⟨s, hs, rfl⟩ := List.mem_map.1 hc
        exact (cutTriangle_consistent p s (hm s hs)).1 t ht
      · obtain ⟨q, hq, rfl⟩ := List.mem_map.1 ht
        obtain ⟨pth, _, hq⟩ := List.mem_flatMap.1 hq
        exact (capTriangles_consistent p pth q hq).1
    · intro t ht
      rcases List.mem_append.1 ht with ht | ht
      · obtain ⟨_, hc, ht⟩ := List.mem_flatMap.1 ht
        obtain ⟨s, hs, rfl⟩ := List.mem_map.1 hc
        exact (cutTriangle_consistent p s (hm s hs)).2 t ht
      · obtain ⟨q, hq, rfl⟩ := List.mem_map.1 ht
        obtain ⟨pth, _, hq⟩ := List.mem_flatMap.1 hq
        exact (capTriangles_consistent p pth q hq).2

variable [FltText α] [FltBits α]

/-- **C06 (loader).** Whatever the file contains. -/
theorem C06_loadSTL (b : Bytes) (m : Mesh α) (e : Option LoadErr) (h : loadSTL b = .ok (some m, e)) : m.Consistent := by
  by_cases h84 : b.length < 84
  · rw [C04_short b h84] at h; cases h
  · by_cases hb : b.length = 84 + 50 * wordAt b 80
    · rw [(C04_binary b hb).1] at h
      cases h
      intro t ht
      obtain ⟨_, _, rfl⟩ := List.mem_map.1 ht
      exact (C06_newTriangle _ _ _).1
    · rw [C04_ascii b (by omega) hb] at h
      obtain ⟨ts, h1, h2, _⟩ := C05_any_text (α := α) b
      have : (loadSTLAscii b : Option (Mesh α) × Option LoadErr) = (some m, e) := by cases h; rfl
      rw [this] at h1
      cases h1
      intro t ht
      rw [show (⟨ts⟩ : Mesh α).triangles = ts from rfl, h2] at ht
      obtain ⟨_, _, rfl⟩ := List.mem_map.1 ht
      exact (C06_newTriangle _ _ _).1

/-- meshes obtainable by loading files and applying the operations of the library in any order -/
inductive Obtained : Mesh α → Prop
  | load {b m e} : loadSTL b = .ok (some m, e) → Obtained m
  | build {ps : List (STri α)} : Obtained ⟨ps.map fun q => newTriangle q.1 q.2.1 q.2.2⟩
  | rotate {m} (rm c) : Obtained m → Obtained (m.rotate rm c)
  | shift {m m'} (v) : Obtained m → Mesh.shift (some m) v = some m' → Obtained m'
  | simplify {m m'} (f k) : Obtained m → simplifyMesh f (some m) k = some m' → Obtained m'
  | cutUp {m up down} (S p) : Obtained m → cutMesh S (some m) p = .ok (up, down) → Obtained up
  | cutDown {m up down} (S p) : Obtained m → cutMesh S (some m) p = .ok (up, down) → Obtained down

/-- **C06.** After any sequence of operations every stored normal matches the vertices. -/
theorem C06_all_meshes (m : Mesh α) (h : Obtained m) : m.Consistent := by
  induction h with
  | load h => exact C06_loadSTL _ _ _ h
  | build =>
    intro t ht
    obtain ⟨_, _, rfl⟩ := List.mem_map.1 ht
    exact (C06_newTriangle _ _ _).1
  | rotate rm c _ _ => exact C06_mesh_rotate _ rm c
  | shift v _ h _ => exact C06_mesh_shift _ _ v h
  | simplify f k _ h ih => exact C06_simplify f _ _ k ih h
  | cutUp S p _ h ih => exact (C06_cutMesh S _ _ _ p ih h).1
  | cutDown S p _ h ih => exact (C06_cutMesh S _ _ _ p ih h).2

theorem wordAt_congr (b b' : Bytes) (k : Nat) (hl : b.length = b'.length)
    (h : ∀ j, k ≤ j → j < k + 4 → b[j]? = b'[j]?) : wordAt b k = wordAt b' k := by
  have : (b.drop k).take 4 = (b'.drop k).take 4 := by
    apply List.ext_getElem?
    intro i
    by_cases hi : i < 4
    · rw [List.getElem?_take_of_lt hi, List.getElem?_take_of_lt hi, List.getElem?_drop, List.getElem?_drop]
      exact h _ (by omega) (by omega)
    · rw [List.getElem?_eq_none (by simp; omega), List.getElem?_eq_none (by simp; omega)]
  unfold wordAt
  rw [this]

/-- **C06 (normals of the file).** Two binary files that differ only in the 12 normal bytes of records give the same
result. -/
theorem C06_file_normal_ignored (b b' : Bytes) (h : b.length = 84 + 50 * wordAt b 80) (hl : b'.length = b.length)
    (hd : ∀ j, (j < 84 ∨ 12 ≤ (j - 84) % 50) → b'[j]? = b[j]?) :
    (loadSTL b' : Go (Option (Mesh α) × Option LoadErr)) = loadSTL b := by
  have hw : wordAt b' 80 = wordAt b 80 := wordAt_congr _ _ _ hl (fun j _ _ => hd j (by omega))
  rw [(C04_binary b h).1, (C04_binary b' (by omega)).1, hw]
  have hp : ∀ i k, 12 ≤ k → k + 12 ≤ 50 → (pointAt b' (84 + 50 * i + k) : Point α) = pointAt b (84 + 50 * i + k) := by
    intro i k h1 h2
    unfold pointAt
    rw [wordAt_congr b' b (84 + 50 * i + k) hl (fun j _ _ => hd j (by omega)),
      wordAt_congr b' b (84 + 50 * i + k + 4) hl (fun j _ _ => hd j (by omega)),
      wordAt_congr b' b (84 + 50 * i + k + 8) hl (fun j _ _ => hd j (by omega))]
  unfold binaryTriangles
  simp only [hp _ 12 (by omega) (by omega), hp _ 24 (by omega) (by omega), hp _ 36 (by omega) (by omega)]

section
attribute [local instance] Toy.flt Toy.txt
/-- a non-degenerate triangle and its normal -/
example : (newTriangle (⟨1, 0, 0⟩ : Point Int) ⟨0, 2, 0⟩ ⟨0, 0, 3⟩).n = ⟨6, 3, 2⟩ := by decide
/-- an inconsistent triangle: the claim is not true of every triangle value -/
example : ¬ (⟨⟨0, 0, 1⟩, ⟨1, 0, 0⟩, ⟨0, 2, 0⟩, ⟨0, 0, 3⟩⟩ : Triangle Int).Consistent := by
  intro h; exact absurd h.1 (by decide)
end

end Goosli
