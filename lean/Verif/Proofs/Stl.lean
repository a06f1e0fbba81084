import Verif.Model.Stl
import Verif.Proofs.Base
/-!
# Bytes of STL files
-/
set_option linter.unusedSectionVars false
namespace Goosli
open Flt

variable {α : Type} [Flt α] [FltText α] [FltBits α]

theorem leBytes_length (w : BitVec 32) : (leBytes w).length = 4 := rfl

theorem leWord_leBytes (w : BitVec 32) (r : Bytes) : leWord (leBytes w ++ r) = .ok w := by
  have hw := w.isLt
  simp only [leBytes, List.cons_append, List.nil_append, leWord, UInt8.toNat_ofNat']
  congr 1
  apply BitVec.eq_of_toNat_eq
  rw [BitVec.toNat_ofNat]
  omega

theorem goSlice_ok {b : Bytes} {lo hi : Nat} (h1 : lo ≤ hi) (h2 : hi ≤ b.length) :
    goSlice b lo hi = .ok ((b.take hi).drop lo) := by
  rw [goSlice, if_pos ⟨h1, h2⟩]

theorem goSlice_append (pre x post : Bytes) {lo hi : Nat} (h1 : lo = pre.length) (h2 : hi = pre.length + x.length) :
    goSlice (pre ++ (x ++ post)) lo hi = .ok x := by
  subst h1 h2
  rw [goSlice_ok (by omega) (by simp)]
  congr 1
  rw [← List.append_assoc, List.take_append_of_le_length (by simp), List.take_of_length_le (by simp), List.drop_append_of_le_length (by simp)]
  simp

theorem makeFloat_leBytes (x : α) : (makeFloat (leBytes (FltBits.toBits x)) : Go α) = .ok (FltBits.ofBits (FltBits.toBits x)) := by
  have := leWord_leBytes (FltBits.toBits x) []
  rw [List.append_nil] at this
  rw [makeFloat, this]; rfl

/-- the bytes of a point -/
def ptBytes (p : Point α) : Bytes :=
  leBytes (FltBits.toBits p.x) ++ (leBytes (FltBits.toBits p.y) ++ leBytes (FltBits.toBits p.z))

theorem ptBytes_length (p : Point α) : (ptBytes p).length = 12 := by simp [ptBytes, leBytes_length]

/-- converted to `float32` and back -/
def Point.via32 (p : Point α) : Point α :=
  ⟨FltBits.ofBits (FltBits.toBits p.x), FltBits.ofBits (FltBits.toBits p.y), FltBits.ofBits (FltBits.toBits p.z)⟩

theorem makePoint_at (pre post : Bytes) (p : Point α) {k : Nat} (h : k = pre.length) :
    (makePoint (pre ++ (ptBytes p ++ post)) k : Go (Point α)) = .ok p.via32 := by
  have e1 : goSlice (pre ++ (ptBytes p ++ post)) k (k + 4) = .ok (leBytes (FltBits.toBits p.x)) := by
    have := goSlice_append pre (leBytes (FltBits.toBits p.x)) (leBytes (FltBits.toBits p.y) ++ (leBytes (FltBits.toBits p.z) ++ post)) (lo := k) (hi := k + 4)
      h (by rw [leBytes_length, h])
    simpa [ptBytes] using this
  have e2 : goSlice (pre ++ (ptBytes p ++ post)) (k + 4) (k + 8) = .ok (leBytes (FltBits.toBits p.y)) := by
    have := goSlice_append (pre ++ leBytes (FltBits.toBits p.x)) (leBytes (FltBits.toBits p.y)) (leBytes (FltBits.toBits p.z) ++ post) (lo := k + 4) (hi := k + 8)
      (by simp [leBytes_length, h]) (by simp [leBytes_length, h])
    simpa [ptBytes] using this
  have e3 : goSlice (pre ++ (ptBytes p ++ post)) (k + 8) (k + 12) = .ok (leBytes (FltBits.toBits p.z)) := by
    have := goSlice_append (pre ++ (leBytes (FltBits.toBits p.x) ++ leBytes (FltBits.toBits p.y))) (leBytes (FltBits.toBits p.z)) post (lo := k + 8) (hi := k + 12)
      (by simp [leBytes_length, h]) (by simp [leBytes_length, h])
    simpa [ptBytes] using this
  simp only [makePoint, e1, e2, e3, makeFloat_leBytes, bind, Except.bind, pure, Except.pure, Point.via32]

theorem stlTriangle_eq (t : Triangle α) :
    stlTriangle t = ptBytes t.n.toPoint ++ (ptBytes t.p1 ++ (ptBytes t.p2 ++ (ptBytes t.p3 ++ [0, 0]))) := by
  simp [stlTriangle, ptBytes, Vec.toPoint]

theorem stlTriangle_length (t : Triangle α) : (stlTriangle t).length = 50 := by
  simp [stlTriangle_eq, ptBytes_length]

theorem flatMap_length (ts : List (Triangle α)) : (ts.flatMap stlTriangle).length = ts.length * 50 := by
  induction ts with
  | nil => rfl
  | cons t ts ih => simp only [List.flatMap_cons, List.length_append, ih, stlTriangle_length, List.length_cons]; omega

theorem decodeAt_flatMap (ts1 ts2 : List (Triangle α)) (t : Triangle α) :
    (decodeAt ((ts1 ++ t :: ts2).flatMap stlTriangle) ts1.length : Go (Triangle α)) =
      .ok (newTriangle t.p1.via32 t.p2.via32 t.p3.via32) := by
  have e : (ts1 ++ t :: ts2).flatMap stlTriangle = ts1.flatMap stlTriangle ++ (ptBytes t.n.toPoint ++ (ptBytes t.p1 ++
      (ptBytes t.p2 ++ (ptBytes t.p3 ++ ([0, 0] ++ ts2.flatMap stlTriangle))))) := by
    simp [List.flatMap_append, stlTriangle_eq]
  have k := flatMap_length ts1
  rw [e]
  have e1 := makePoint_at (ts1.flatMap stlTriangle ++ ptBytes t.n.toPoint) (ptBytes t.p2 ++ (ptBytes t.p3 ++ ([0, 0] ++ ts2.flatMap stlTriangle))) t.p1
    (k := ts1.length * 50 + 12) (by simp [k, ptBytes_length])
  have e2 := makePoint_at (ts1.flatMap stlTriangle ++ (ptBytes t.n.toPoint ++ ptBytes t.p1)) (ptBytes t.p3 ++ ([0, 0] ++ ts2.flatMap stlTriangle)) t.p2
    (k := ts1.length * 50 + 24) (by simp [k, ptBytes_length])
  have e3 := makePoint_at (ts1.flatMap stlTriangle ++ (ptBytes t.n.toPoint ++ (ptBytes t.p1 ++ ptBytes t.p2))) ([0, 0] ++ ts2.flatMap stlTriangle) t.p3
    (k := ts1.length * 50 + 36) (by simp [k, ptBytes_length])
  simp only [List.append_assoc] at e1 e2 e3 ⊢
  simp only [decodeAt, e1, e2, e3, bind, Except.bind, pure, Except.pure]

theorem mapM_ok {β γ : Type} (f : β → Go γ) (g : β → γ) (l : List β) (h : ∀ x ∈ l, f x = .ok (g x)) :
    l.mapM f = .ok (l.map g) := by
  induction l with
  | nil => rfl
  | cons a l ih =>
    rw [List.mapM_cons, h a List.mem_cons_self, ih (fun x hx => h x (List.mem_cons_of_mem _ hx))]; rfl

end Goosli
