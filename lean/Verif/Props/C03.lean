import Verif.Proofs.Stl
import Verif.Spec.Toy
/-!
# C03: binary STL round trip
-/
set_option linter.unusedSectionVars false
namespace Goosli
open Flt

variable {α : Type} [Flt α] [FltText α] [FltBits α]

/-- the mesh with every coordinate converted to `float32` and back and the normals computed from the converted vertices -/
def Mesh.via32 (m : Mesh α) : Mesh α := ⟨m.triangles.map (fun t => newTriangle t.p1.via32 t.p2.via32 t.p3.via32)⟩

theorem saveSTL_length (m : Mesh α) : (saveSTL m).length = m.triangles.length * 50 + 84 := by
  rw [saveSTL, stlHeader, List.length_append, List.length_append, flatMap_length, leBytes_length, List.length_replicate]; omega

theorem saveSTL_drop80 (m : Mesh α) :
    (saveSTL m).drop 80 = leBytes (BitVec.ofNat 32 m.triangles.length) ++ m.triangles.flatMap stlTriangle := by
  rw [saveSTL, stlHeader, List.append_assoc, List.drop_left' (by simp)]

theorem saveSTL_drop84 (m : Mesh α) : (saveSTL m).drop 84 = m.triangles.flatMap stlTriangle := by
  rw [saveSTL, List.drop_left' (by simp [stlHeader, leBytes_length])]

theorem loadSTLBinary_flatMap (ts : List (Triangle α)) :
    (loadSTLBinary (ts.flatMap stlTriangle) ts.length : Go (Option (Mesh α) × Option LoadErr)) =
      .ok (some (Mesh.mk ts).via32, none) := by
  have hl := flatMap_length ts
  unfold loadSTLBinary
  rw [if_neg (by omega), List.take_of_length_le (by omega)]
  by_cases h0 : ts = []
  · subst h0; rfl
  have t0 : Triangle α := ts.head h0
  dsimp only
  rw [mapM_ok (decodeAt (ts.flatMap stlTriangle)) (fun i => match ts[i]? with
    | some t => newTriangle t.p1.via32 t.p2.via32 t.p3.via32
    | none => t0)]
  · simp only [bind, Except.bind, pure, Except.pure, Mesh.via32]
    congr 4
    apply List.ext_getElem (by simp)
    intro i h1 h2
    have hi : i < ts.length := by simpa using h1
    simp [List.getElem?_eq_getElem hi]
  · intro i hi
    have hi : i < ts.length := by simpa using hi
    have e : ts = ts.take i ++ ts[i] :: ts.drop (i + 1) := by rw [List.getElem_cons_drop, List.take_append_drop]
    have := decodeAt_flatMap (ts.take i) (ts.drop (i + 1)) ts[i]
    rw [← e, List.length_take, Nat.min_eq_left hi.le] at this
    rw [this, List.getElem?_eq_getElem hi]

/-- **C03.** Loading the bytes written by `SaveSTL` gives the same triangles in the same order, every vertex coordinate
converted to `float32` and back, every normal recomputed. Any arithmetic, any conversion. -/
theorem C03_round_trip (m : Mesh α) (h : m.triangles.length < 2 ^ 32) :
    (loadSTL (saveSTL m) : Go (Option (Mesh α) × Option LoadErr)) = .ok (some m.via32, none) := by
  unfold loadSTL
  rw [saveSTL_drop80, saveSTL_drop84, saveSTL_length, leWord_leBytes, if_neg (by omega)]
  simp only [bind, Except.bind, BitVec.toNat_ofNat, Nat.mod_eq_of_lt h, if_true]
  exact loadSTLBinary_flatMap _

/-- **C03 (second round trip).** If conversion to `float32` and back is idempotent, a second save and load changes
nothing. -/
theorem C03_second_trip (m : Mesh α) (h : m.triangles.length < 2 ^ 32)
    (hid : ∀ x : α, FltBits.ofBits (FltBits.toBits (FltBits.ofBits (FltBits.toBits x) : α)) = (FltBits.ofBits (FltBits.toBits x) : α)) :
    (loadSTL (saveSTL m.via32) : Go (Option (Mesh α) × Option LoadErr)) = .ok (some m.via32, none) := by
  rw [C03_round_trip _ (by simpa [Mesh.via32] using h)]
  have hp : ∀ p : Point α, p.via32.via32 = p.via32 := by
    intro p; simp [Point.via32, hid]
  simp only [Mesh.via32, List.map_map]
  congr 4
  apply List.map_congr_left
  intro t _
  simp [newTriangle, hp]

/-- **C03 (limit).** With 2^32 or more triangles the count in the header wraps and the file is not recognised as binary. -/
theorem C03_too_many (m : Mesh α) (h : 2 ^ 32 ≤ m.triangles.length) :
    (loadSTL (saveSTL m) : Go (Option (Mesh α) × Option LoadErr)) = .ok (loadSTLAscii (saveSTL m)) := by
  unfold loadSTL
  rw [saveSTL_drop80, saveSTL_drop84, saveSTL_length, leWord_leBytes, if_neg (by omega)]
  simp only [bind, Except.bind, BitVec.toNat_ofNat, pure, Except.pure]
  rw [if_neg]
  have : m.triangles.length % 2 ^ 32 < 2 ^ 32 := Nat.mod_lt _ (by norm_num)
  omega

section
attribute [local instance] Toy.flt Toy.txt
/-- 32-bit two's complement integers as the narrow format -/
local instance bits03 : FltBits Int := ⟨fun i => BitVec.ofInt 32 i, fun b => b.toInt⟩

/-- a mesh with one triangle that is changed by the round trip, and an idempotent conversion -/
example : (Mesh.mk [newTriangle (⟨0, 0, 0⟩ : Point Int) ⟨2 ^ 32 + 5, 0, 0⟩ ⟨0, 1, 0⟩]).triangles.length < 2 ^ 32 ∧
    (∀ x : Int, (FltBits.ofBits (FltBits.toBits (FltBits.ofBits (FltBits.toBits x) : Int)) : Int) = FltBits.ofBits (FltBits.toBits x)) := by
  refine ⟨by simp, fun x => ?_⟩
  show ((BitVec.ofInt 32 (BitVec.ofInt 32 x).toInt)).toInt = (BitVec.ofInt 32 x).toInt
  rw [BitVec.ofInt_toInt]
end

end Goosli
