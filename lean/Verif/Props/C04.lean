import Verif.Proofs.Stl
import Verif.Spec.Toy
/-!
# C04: the loader is total
-/
set_option linter.unusedSectionVars false
namespace Goosli
open Flt

variable {α : Type} [Flt α] [FltText α] [FltBits α]

/-- little-endian number in the four bytes at offset `k` -/
def wordAt (b : Bytes) (k : Nat) : Nat :=
  match (b.drop k).take 4 with
  | [b0, b1, b2, b3] => b0.toNat + b1.toNat * 2 ^ 8 + b2.toNat * 2 ^ 16 + b3.toNat * 2 ^ 24
  | _ => 0

/-- three consecutive `float32` at offset `k` -/
def pointAt (b : Bytes) (k : Nat) : Point α :=
  ⟨FltBits.ofBits (BitVec.ofNat 32 (wordAt b k)), FltBits.ofBits (BitVec.ofNat 32 (wordAt b (k + 4))),
    FltBits.ofBits (BitVec.ofNat 32 (wordAt b (k + 8)))⟩

theorem leWord_wordAt (b : Bytes) (k : Nat) (h : k + 4 ≤ b.length) :
    leWord (b.drop k) = .ok (BitVec.ofNat 32 (wordAt b k)) := by
  unfold wordAt
  have hl : 4 ≤ (b.drop k).length := by simp; omega
  rcases e : b.drop k with _ | ⟨b0, _ | ⟨b1, _ | ⟨b2, _ | ⟨b3, r⟩⟩⟩⟩ <;> rw [e] at hl <;> simp at hl
  simp only [leWord, List.take_succ_cons, List.take_zero]
  congr 2; ring

theorem wordAt_lt (b : Bytes) (k : Nat) : wordAt b k < 2 ^ 32 := by
  unfold wordAt
  split
  · rename_i b0 b1 b2 b3 _
    have h0 := b0.toNat_lt; have h1 := b1.toNat_lt; have h2 := b2.toNat_lt; have h3 := b3.toNat_lt
    omega
  · norm_num

theorem makeFloat_slice (b : Bytes) (k : Nat) (h : k + 4 ≤ b.length) :
    (do makeFloat (← goSlice b k (k + 4)) : Go α) = .ok (FltBits.ofBits (BitVec.ofNat 32 (wordAt b k))) := by
  rw [goSlice_ok (by omega) h]
  have e : (b.take (k + 4)).drop k = (b.drop k).take 4 := by rw [List.drop_take]; congr 1; omega
  have hl : 4 ≤ (b.drop k).length := by simp; omega
  have hw : leWord ((b.take (k + 4)).drop k) = leWord (b.drop k) := by
    rw [e]
    rcases e' : b.drop k with _ | ⟨b0, _ | ⟨b1, _ | ⟨b2, _ | ⟨b3, r⟩⟩⟩⟩ <;> rw [e'] at hl <;> simp at hl
    simp [leWord]
  simp only [bind, Except.bind, makeFloat, hw, leWord_wordAt b k h, pure, Except.pure]

theorem makePoint_pointAt (b : Bytes) (k : Nat) (h : k + 12 ≤ b.length) :
    (makePoint b k : Go (Point α)) = .ok (pointAt b k) := by
  have e1 := makeFloat_slice (α := α) b k (by omega)
  have e2 := makeFloat_slice (α := α) b (k + 4) (by omega)
  have e3 := makeFloat_slice (α := α) b (k + 8) (by omega)
  unfold makePoint
  rw [goSlice_ok (by omega) (by omega)] at e1 e2 e3 ⊢
  rw [goSlice_ok (by omega) (by omega), goSlice_ok (by omega) (by omega)]
  simp only [bind, Except.bind] at e1 e2 e3 ⊢
  rw [e1]
  simp only
  rw [e2]
  simp only
  rw [e3]
  rfl

theorem wordAt_take (b : Bytes) (k n : Nat) (h : k + 4 ≤ n) : wordAt (b.take n) k = wordAt b k := by
  unfold wordAt
  have : ((b.take n).drop k).take 4 = (b.drop k).take 4 := by
    rw [List.drop_take, List.take_take, Nat.min_eq_left (by omega)]
  rw [this]

theorem wordAt_drop (b : Bytes) (k n : Nat) : wordAt (b.drop n) k = wordAt b (n + k) := by
  unfold wordAt
  rw [List.drop_drop]

theorem decodeAt_pointAt (b : Bytes) (i : Nat) (h : i * 50 + 50 ≤ b.length) :
    (decodeAt b i : Go (Triangle α)) =
      .ok (newTriangle (pointAt b (i * 50 + 12)) (pointAt b (i * 50 + 24)) (pointAt b (i * 50 + 36))) := by
  simp only [decodeAt, makePoint_pointAt b (i * 50 + 12) (by omega), makePoint_pointAt b (i * 50 + 24) (by omega),
    makePoint_pointAt b (i * 50 + 36) (by omega), bind, Except.bind, pure, Except.pure]

/-- the triangles of a binary file: record `i` is at offset `84 + 50 i`, its vertices at offsets 12, 24 and 36 in it -/
def binaryTriangles (b : Bytes) (count : Nat) : List (Triangle α) :=
  (List.range count).map (fun i => newTriangle (pointAt b (84 + 50 * i + 12)) (pointAt b (84 + 50 * i + 24)) (pointAt b (84 + 50 * i + 36)))

/-- **C04 (short file).** -/
theorem C04_short (b : Bytes) (h : b.length < 84) :
    (loadSTL b : Go (Option (Mesh α) × Option LoadErr)) = .ok (none, some .eof) := by
  rw [loadSTL, if_pos h]; rfl

/-- **C04 (binary file).** Exactly `count` triangles, record by record. -/
theorem C04_binary (b : Bytes) (h : b.length = 84 + 50 * wordAt b 80) :
    (loadSTL b : Go (Option (Mesh α) × Option LoadErr)) = .ok (some ⟨binaryTriangles b (wordAt b 80)⟩, none) ∧
      (binaryTriangles b (wordAt b 80) : List (Triangle α)).length = wordAt b 80 := by
  refine ⟨?_, by simp [binaryTriangles]⟩
  unfold loadSTL
  rw [if_neg (by omega), leWord_wordAt b 80 (by omega)]
  simp only [bind, Except.bind, BitVec.toNat_ofNat, Nat.mod_eq_of_lt (wordAt_lt b 80)]
  rw [if_pos (by omega)]
  unfold loadSTLBinary
  rw [if_neg (by simp; omega), List.take_of_length_le (by simp; omega)]
  dsimp only
  rw [mapM_ok _ (fun i => newTriangle (pointAt b (84 + 50 * i + 12)) (pointAt b (84 + 50 * i + 24)) (pointAt b (84 + 50 * i + 36)))]
  · rfl
  · intro i hi
    have hi : i < wordAt b 80 := by simpa using hi
    rw [decodeAt_pointAt _ _ (by simp; omega)]
    have e : ∀ k, (pointAt (b.drop 84) (i * 50 + k) : Point α) = pointAt b (84 + 50 * i + k) := by
      intro k
      simp only [pointAt, wordAt_drop]
      have : ∀ j, 84 + (i * 50 + k + j) = 84 + 50 * i + k + j := by intro j; ring
      rw [this 4, this 8, show 84 + (i * 50 + k) = 84 + 50 * i + k by ring]
    rw [e, e, e]

/-- **C04 (other file).** -/
theorem C04_ascii (b : Bytes) (h84 : 84 ≤ b.length) (h : b.length ≠ 84 + 50 * wordAt b 80) :
    (loadSTL b : Go (Option (Mesh α) × Option LoadErr)) = .ok (loadSTLAscii b) := by
  unfold loadSTL
  rw [if_neg (by omega), leWord_wordAt b 80 (by omega)]
  simp only [bind, Except.bind, BitVec.toNat_ofNat, Nat.mod_eq_of_lt (wordAt_lt b 80)]
  rw [if_neg (by omega)]; rfl

/-- **C04.** `LoadSTL` never panics: on every content it returns a mesh or an error. -/
theorem C04_total (b : Bytes) : ∃ r : Option (Mesh α) × Option LoadErr, loadSTL b = .ok r ∧
    (b.length < 84 → r = (none, some .eof)) ∧ (84 ≤ b.length → ∃ m, r.1 = some m) := by
  by_cases h : b.length < 84
  · exact ⟨_, C04_short b h, fun _ => rfl, fun h' => absurd h (by omega)⟩
  · by_cases h2 : b.length = 84 + 50 * wordAt b 80
    · exact ⟨_, (C04_binary b h2).1, fun h' => absurd h' h, fun _ => ⟨_, rfl⟩⟩
    · exact ⟨_, C04_ascii b (by omega) h2, fun h' => absurd h' h, fun _ => ⟨_, rfl⟩⟩

/-- a binary file with one record: 84 bytes of header with count 1, then 50 bytes -/
example : let b : Bytes := List.replicate 80 0 ++ ([1, 0, 0, 0] ++ List.replicate 50 7)
    b.length = 84 + 50 * wordAt b 80 := by
  have e : (List.replicate 80 (0 : UInt8) ++ ([1, 0, 0, 0] ++ List.replicate 50 7)).drop 80 = [1, 0, 0, 0] ++ List.replicate 50 7 :=
    List.drop_left' (by simp)
  show _ = 84 + 50 * wordAt _ 80
  unfold wordAt
  rw [e]
  simp

/-- 84 blanks are not a binary file of 0 triangles: the blanks at offset 80 make a large count -/
example : let b : Bytes := List.replicate 84 32
    84 ≤ b.length ∧ b.length ≠ 84 + 50 * wordAt b 80 := by
  have e : wordAt (List.replicate 84 32) 80 = 538976288 := by
    unfold wordAt
    rw [List.drop_replicate, List.take_replicate]
    rfl
  refine ⟨by simp, ?_⟩
  show (List.replicate 84 (32 : UInt8)).length ≠ 84 + 50 * wordAt (List.replicate 84 32) 80
  rw [e, List.length_replicate]; norm_num

end Goosli
