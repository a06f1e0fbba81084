import Verif.Proofs.Words
import Verif.Props.C03
import Verif.Props.C04
import Verif.Props.C94
/-!
# C97: binary STL files in `float64`

C03 and C04 hold for any arithmetic and say what is loaded in terms of the conversions `float32` to `float64` and back. Here
the conversions are those of IEEE-754, and the claims are about numbers.
-/
set_option linter.unusedSectionVars false
set_option autoImplicit false
namespace Goosli
open Flt

/-- the nine vertex coordinates of a triangle, in the order of the file -/
def Triangle.coords {α : Type} (t : Triangle α) : List α :=
  [t.p1.x, t.p1.y, t.p1.z, t.p2.x, t.p2.y, t.p2.z, t.p3.x, t.p3.y, t.p3.z]

/-- the offset in the file of coordinate `j` of triangle `i` -/
def coordOffset (i j : ℕ) : ℕ := 84 + 50 * i + 12 + 4 * j

/-! ## the bytes written -/

section Any
variable {α : Type} [Flt α] [FltText α] [FltBits α]

theorem wordAt_leBytes (w : BitVec 32) (r : Bytes) : wordAt (leBytes w ++ r) 0 = w.toNat := by
  have hw := w.isLt
  simp only [wordAt, leBytes, List.cons_append, List.nil_append, List.drop_zero, List.take_succ_cons, List.take_zero,
    UInt8.toNat_ofNat']
  omega

theorem wordAt_append (a r : Bytes) (k : ℕ) (h : k = a.length) : wordAt (a ++ r) k = wordAt r 0 := by
  subst h
  have : wordAt (a ++ r) (a.length + 0) = wordAt ((a ++ r).drop a.length) 0 := (wordAt_drop _ _ _).symm
  rw [List.drop_left] at this
  exact this

theorem wordAt_stlTriangle (t : Triangle α) (r : Bytes) (j : ℕ) (c : α) (h : t.coords[j]? = some c) :
    wordAt (stlTriangle t ++ r) (12 + 4 * j) = (FltBits.toBits c).toNat := by
  have hj : j < 9 := by
    have := (List.getElem?_eq_some_iff.1 h).1
    simpa [Triangle.coords] using this
  have key : ∃ a r', stlTriangle t ++ r = a ++ (leBytes (FltBits.toBits c) ++ r') ∧ a.length = 12 + 4 * j := by
    unfold stlTriangle
    interval_cases j <;> simp only [Triangle.coords, List.getElem?_cons_zero, List.getElem?_cons_succ, Option.some.injEq] at h <;>
      subst h
    · exact ⟨leBytes (FltBits.toBits t.n.x) ++ leBytes (FltBits.toBits t.n.y) ++ leBytes (FltBits.toBits t.n.z), _,
        by simp only [List.append_assoc]; rfl, rfl⟩
    · exact ⟨leBytes (FltBits.toBits t.n.x) ++ leBytes (FltBits.toBits t.n.y) ++ leBytes (FltBits.toBits t.n.z) ++
        leBytes (FltBits.toBits t.p1.x), _, by simp only [List.append_assoc]; rfl, rfl⟩
    · exact ⟨leBytes (FltBits.toBits t.n.x) ++ leBytes (FltBits.toBits t.n.y) ++ leBytes (FltBits.toBits t.n.z) ++
        leBytes (FltBits.toBits t.p1.x) ++ leBytes (FltBits.toBits t.p1.y), _, by simp only [List.append_assoc]; rfl, rfl⟩
    · exact ⟨leBytes (FltBits.toBits t.n.x) ++ leBytes (FltBits.toBits t.n.y) ++ leBytes (FltBits.toBits t.n.z) ++
        leBytes (FltBits.toBits t.p1.x) ++ leBytes (FltBits.toBits t.p1.y) ++ leBytes (FltBits.toBits t.p1.z), _,
        by simp only [List.append_assoc]; rfl, rfl⟩
    · exact ⟨leBytes (FltBits.toBits t.n.x) ++ leBytes (FltBits.toBits t.n.y) ++ leBytes (FltBits.toBits t.n.z) ++
        leBytes (FltBits.toBits t.p1.x) ++ leBytes (FltBits.toBits t.p1.y) ++ leBytes (FltBits.toBits t.p1.z) ++
        leBytes (FltBits.toBits t.p2.x), _, by simp only [List.append_assoc]; rfl, rfl⟩
    · exact ⟨leBytes (FltBits.toBits t.n.x) ++ leBytes (FltBits.toBits t.n.y) ++ leBytes (FltBits.toBits t.n.z) ++
        leBytes (FltBits.toBits t.p1.x) ++ leBytes (FltBits.toBits t.p1.y) ++ leBytes (FltBits.toBits t.p1.z) ++
        leBytes (FltBits.toBits t.p2.x) ++ leBytes (FltBits.toBits t.p2.y), _, by simp only [List.append_assoc]; rfl, rfl⟩
    · exact ⟨leBytes (FltBits.toBits t.n.x) ++ leBytes (FltBits.toBits t.n.y) ++ leBytes (FltBits.toBits t.n.z) ++
        leBytes (FltBits.toBits t.p1.x) ++ leBytes (FltBits.toBits t.p1.y) ++ leBytes (FltBits.toBits t.p1.z) ++
        leBytes (FltBits.toBits t.p2.x) ++ leBytes (FltBits.toBits t.p2.y) ++ leBytes (FltBits.toBits t.p2.z), _,
        by simp only [List.append_assoc]; rfl, rfl⟩
    · exact ⟨leBytes (FltBits.toBits t.n.x) ++ leBytes (FltBits.toBits t.n.y) ++ leBytes (FltBits.toBits t.n.z) ++
        leBytes (FltBits.toBits t.p1.x) ++ leBytes (FltBits.toBits t.p1.y) ++ leBytes (FltBits.toBits t.p1.z) ++
        leBytes (FltBits.toBits t.p2.x) ++ leBytes (FltBits.toBits t.p2.y) ++ leBytes (FltBits.toBits t.p2.z) ++
        leBytes (FltBits.toBits t.p3.x), _, by simp only [List.append_assoc]; rfl, rfl⟩
    · exact ⟨leBytes (FltBits.toBits t.n.x) ++ leBytes (FltBits.toBits t.n.y) ++ leBytes (FltBits.toBits t.n.z) ++
        leBytes (FltBits.toBits t.p1.x) ++ leBytes (FltBits.toBits t.p1.y) ++ leBytes (FltBits.toBits t.p1.z) ++
        leBytes (FltBits.toBits t.p2.x) ++ leBytes (FltBits.toBits t.p2.y) ++ leBytes (FltBits.toBits t.p2.z) ++
        leBytes (FltBits.toBits t.p3.x) ++ leBytes (FltBits.toBits t.p3.y), _, by simp only [List.append_assoc]; rfl, rfl⟩
  obtain ⟨a, r', e, hl⟩ := key
  rw [e, wordAt_append _ _ _ hl.symm, wordAt_leBytes]

/-- what is written at the place of a coordinate -/
theorem wordAt_saveSTL (m : Mesh α) (i j : ℕ) (t : Triangle α) (c : α) (hi : m.triangles[i]? = some t)
    (hj : t.coords[j]? = some c) : wordAt (saveSTL m) (coordOffset i j) = (FltBits.toBits c).toNat := by
  obtain ⟨hil, rfl⟩ := List.getElem?_eq_some_iff.1 hi
  have e : m.triangles = m.triangles.take i ++ m.triangles[i] :: m.triangles.drop (i + 1) := by
    rw [List.getElem_cons_drop, List.take_append_drop]
  have h1 : wordAt (saveSTL m) (coordOffset i j) = wordAt (m.triangles.flatMap stlTriangle) (50 * i + (12 + 4 * j)) := by
    rw [← saveSTL_drop84, wordAt_drop]
    congr 1
    unfold coordOffset
    omega
  have h2 : m.triangles.flatMap stlTriangle = (m.triangles.take i).flatMap stlTriangle ++
      (stlTriangle m.triangles[i] ++ (m.triangles.drop (i + 1)).flatMap stlTriangle) := by
    have := congrArg (fun l => l.flatMap stlTriangle) e
    simp only [List.flatMap_append, List.flatMap_cons] at this
    exact this
  have h3 : ((m.triangles.take i).flatMap stlTriangle).length = 50 * i := by
    rw [flatMap_length, List.length_take, Nat.min_eq_left hil.le]; omega
  rw [h1, h2, ← wordAt_drop, ← h3, List.drop_left]
  exact wordAt_stlTriangle _ _ j c hj

/-- the coordinates read -/
theorem binary_coords (b : Bytes) (n i j : ℕ) (hi : i < n) (hj : j < 9) :
    ∃ t : Triangle α, (binaryTriangles b n)[i]? = some t ∧
      t.coords[j]? = some (FltBits.ofBits (BitVec.ofNat 32 (wordAt b (coordOffset i j)))) := by
  refine ⟨newTriangle (pointAt b (84 + 50 * i + 12)) (pointAt b (84 + 50 * i + 24)) (pointAt b (84 + 50 * i + 36)), ?_, ?_⟩
  · unfold binaryTriangles
    simp [hi]
  · unfold coordOffset
    interval_cases j <;> rfl

end Any

section Float
variable [FltText B64]

/-! ## reading -/

/-- a word that is a finite number -/
def finiteWord (n : ℕ) : Prop := n / 2 ^ 23 % 2 ^ 8 ≠ 255

/-- `x` is the value of the word `n` of IEEE-754 binary32: sign, exponent, fraction -/
def IsWord (n : ℕ) (x : ℝ) : Prop :=
  ∃ s : ℝ, (s = if n / 2 ^ 31 = 0 then 1 else -1) ∧
    x = if n / 2 ^ 23 % 2 ^ 8 = 0 then s * (n % 2 ^ 23 : ℕ) * 2 ^ (-149 : ℤ)
      else s * (1 + ((n % 2 ^ 23 : ℕ) : ℝ) / 2 ^ 23) * 2 ^ (((n / 2 ^ 23 % 2 ^ 8 : ℕ) : ℤ) - 127)

theorem read_word (n : ℕ) (hn : n < 2 ^ 32) (h : finiteWord n) :
    ∃ x : ℝ, IsWord n x ∧ Rep32 x ∧ |x| < 2 ^ 128 ∧ IsF x ∧ (FltBits.ofBits (BitVec.ofNat 32 n) : B64) = B64.of x := by
  have ht : (BitVec.ofNat 32 n).toNat = n := by rw [BitVec.toNat_ofNat, Nat.mod_eq_of_lt hn]
  have he : wordExp (BitVec.ofNat 32 n) = n / 2 ^ 23 % 2 ^ 8 := by unfold wordExp; rw [ht]; norm_num
  have hf : wordFrac (BitVec.ofNat 32 n) = n % 2 ^ 23 := by unfold wordFrac; rw [ht]; norm_num
  have hs : wordNeg (BitVec.ofNat 32 n) = decide (2147483648 ≤ n) := by unfold wordNeg; rw [ht]
  obtain ⟨x, h1, h2, h3⟩ := word_finite (BitVec.ofNat 32 n) (by rw [he]; exact h)
  have hF : IsF x := ⟨h2.rep, h3.le.trans pow128_le_max⟩
  refine ⟨x, ⟨_, rfl, ?_⟩, h2, h3, hF, ?_⟩
  · unfold wordVal at h1
    rw [he, hf, hs, if_neg h] at h1
    injection h1 with h1
    rw [← h1]
    have key : magVal (n / 2 ^ 23 % 2 ^ 8) (n % 2 ^ 23) =
        if n / 2 ^ 23 % 2 ^ 8 = 0 then ((n % 2 ^ 23 : ℕ) : ℝ) * 2 ^ (-149 : ℤ)
        else (1 + ((n % 2 ^ 23 : ℕ) : ℝ) / 2 ^ 23) * 2 ^ (((n / 2 ^ 23 % 2 ^ 8 : ℕ) : ℤ) - 127) := by
      unfold magVal
      generalize n / 2 ^ 23 % 2 ^ 8 = e
      generalize n % 2 ^ 23 = m
      split_ifs
      · rfl
      · have : (2 : ℝ) ^ ((e : ℤ) - 127) = 2 ^ 23 * 2 ^ ((e : ℤ) - 150) := by
          rw [show (e : ℤ) - 127 = 23 + ((e : ℤ) - 150) by ring, zpow_add₀ (by norm_num)]; norm_num
        rw [this]; push_cast; ring
    rw [key]
    have hd : n / 2 ^ 31 = 0 ↔ ¬ 2147483648 ≤ n := by norm_num
    simp only [hd, decide_eq_true_eq]
    by_cases hneg : 2147483648 ≤ n
    · simp only [hneg, not_true_eq_false, if_true, if_false]
      split_ifs <;> ring
    · simp only [hneg, not_false_eq_true, if_true, if_false]
      split_ifs <;> ring
  · apply Subtype.ext
    show wordVal _ = _
    rw [h1, B64.of_val hF]

/-- **C97 (loading).** A binary file whose vertex words are all finite is loaded as the mesh of exactly the points written in
it: every coordinate is the number the IEEE-754 word denotes, in magnitude below `2^128`, without rounding. -/
theorem C97_load (b : Bytes) (h : b.length = 84 + 50 * wordAt b 80)
    (hfin : ∀ i j : ℕ, i < wordAt b 80 → j < 9 → finiteWord (wordAt b (coordOffset i j))) :
    ∃ ts : List RTri, loadSTL b = .ok (some (fmesh ts), none) ∧ ts.length = wordAt b 80 ∧ (∀ w ∈ allVerts ts, w.isF) ∧
      ∀ (i : ℕ) (t : RTri), ts[i]? = some t → ∀ (j : ℕ) (x : ℝ),
        [t.a.x, t.a.y, t.a.z, t.b.x, t.b.y, t.b.z, t.c.x, t.c.y, t.c.z][j]? = some x →
          IsWord (wordAt b (coordOffset i j)) x ∧ Rep32 x ∧ |x| < 2 ^ 128 := by
  choose! f hf using fun (i j : ℕ) (hi : i < wordAt b 80) (hj : j < 9) => read_word _ (wordAt_lt b _) (hfin i j hi hj)
  let tri : ℕ → RTri := fun i => ⟨⟨f i 0, f i 1, f i 2⟩, ⟨f i 3, f i 4, f i 5⟩, ⟨f i 6, f i 7, f i 8⟩⟩
  refine ⟨(List.range (wordAt b 80)).map tri, ?_, by simp, ?_, ?_⟩
  · rw [(C04_binary b h).1]
    congr 3
    unfold fmesh binaryTriangles
    rw [List.map_map]
    congr 1
    apply List.map_congr_left
    intro i hi
    have hi : i < wordAt b 80 := List.mem_range.1 hi
    have e := fun j hj => (hf i j hi hj).2.2.2.2
    have e0 := e 0 (by norm_num); have e1 := e 1 (by norm_num); have e2 := e 2 (by norm_num)
    have e3 := e 3 (by norm_num); have e4 := e 4 (by norm_num); have e5 := e 5 (by norm_num)
    have e6 := e 6 (by norm_num); have e7 := e 7 (by norm_num); have e8 := e 8 (by norm_num)
    unfold coordOffset at e0 e1 e2 e3 e4 e5 e6 e7 e8
    simp only [Function.comp, tri, RTri.f64, R3.f64, pointAt]
    rw [← e0, ← e1, ← e2, ← e3, ← e4, ← e5, ← e6, ← e7, ← e8]
  · intro w hw
    simp only [allVerts, List.mem_flatMap, List.mem_map, List.mem_range] at hw
    obtain ⟨t, ⟨i, hi, rfl⟩, hw⟩ := hw
    have e := fun j hj => (hf i j hi hj).2.2.2.1
    simp only [tri, RTri.verts, List.mem_cons, List.not_mem_nil, or_false] at hw
    rcases hw with rfl | rfl | rfl
    · exact ⟨e 0 (by norm_num), e 1 (by norm_num), e 2 (by norm_num)⟩
    · exact ⟨e 3 (by norm_num), e 4 (by norm_num), e 5 (by norm_num)⟩
    · exact ⟨e 6 (by norm_num), e 7 (by norm_num), e 8 (by norm_num)⟩
  · intro i t ht j x hx
    rw [List.getElem?_map] at ht
    obtain ⟨i', hi', rfl⟩ := Option.map_eq_some_iff.1 ht
    obtain ⟨hi1, hi2⟩ := List.getElem?_eq_some_iff.1 hi'
    rw [List.getElem_range] at hi2
    subst hi2
    have hi : i < wordAt b 80 := by simpa using hi1
    have hj : j < 9 := by have := (List.getElem?_eq_some_iff.1 hx).1; simpa using this
    have hxf : x = f i j := by
      interval_cases j <;> simp only [tri, List.getElem?_cons_zero, List.getElem?_cons_succ, Option.some.injEq] at hx <;>
        exact hx.symm
    rw [hxf]
    have := hf i j hi hj
    exact ⟨this.1, this.2.1, this.2.2.1⟩

/-! ## reading and writing again -/

/-- **C97 (bytes).** Loading a binary file and saving it gives a file of the same length and count, in which every vertex word
is what it was, unless it is a NaN or `-0`. -/
theorem C97_bytes (b : Bytes) (h : b.length = 84 + 50 * wordAt b 80) :
    ∃ m : Mesh B64, loadSTL b = .ok (some m, none) ∧ (saveSTL m).length = b.length ∧ wordAt (saveSTL m) 80 = wordAt b 80 ∧
      ∀ i j : ℕ, i < wordAt b 80 → j < 9 → (finiteWord (wordAt b (coordOffset i j)) ∨ wordAt b (coordOffset i j) % 2 ^ 23 = 0) →
        wordAt b (coordOffset i j) ≠ 2 ^ 31 → wordAt (saveSTL m) (coordOffset i j) = wordAt b (coordOffset i j) := by
  obtain ⟨h1, h2⟩ := C04_binary (α := B64) b h
  refine ⟨_, h1, ?_, ?_, ?_⟩
  · rw [saveSTL_length]
    show (binaryTriangles b (wordAt b 80) : List (Triangle B64)).length * 50 + 84 = b.length
    rw [h2]; omega
  · have := wordAt_drop (saveSTL (⟨binaryTriangles b (wordAt b 80)⟩ : Mesh B64)) 0 80
    rw [Nat.add_zero] at this
    rw [← this, saveSTL_drop80, wordAt_leBytes, BitVec.toNat_ofNat]
    show (binaryTriangles b (wordAt b 80) : List (Triangle B64)).length % 2 ^ 32 = _
    rw [h2]
    exact Nat.mod_eq_of_lt (wordAt_lt b 80)
  · intro i j hi hj hn hz
    obtain ⟨t, ht, hc⟩ := binary_coords (α := B64) b (wordAt b 80) i j hi hj
    rw [wordAt_saveSTL ⟨binaryTriangles b (wordAt b 80)⟩ i j t _ ht hc]
    have hlt := wordAt_lt b (coordOffset i j)
    generalize wordAt b (coordOffset i j) = n at *
    have ht : (BitVec.ofNat 32 n).toNat = n := by rw [BitVec.toNat_ofNat, Nat.mod_eq_of_lt hlt]
    have : (FltBits.toBits (FltBits.ofBits (BitVec.ofNat 32 n) : B64)) = BitVec.ofNat 32 n := by
      show wordOf (wordVal _) = _
      refine wordOf_wordVal _ ?_ ?_
      · unfold wordVal
        have he : wordExp (BitVec.ofNat 32 n) = n / 2 ^ 23 % 2 ^ 8 := by unfold wordExp; rw [ht]; norm_num
        have hf : wordFrac (BitVec.ofNat 32 n) = n % 2 ^ 23 := by unfold wordFrac; rw [ht]; norm_num
        rw [he, hf]
        rcases hn with hn | hn
        · rw [if_neg hn]; simp
        · rw [hn]
          simp only [ne_eq, not_true_eq_false, if_false]
          split_ifs <;> simp
      · intro hc
        have := congrArg BitVec.toNat hc
        rw [ht, BitVec.toNat_ofNat] at this
        exact hz (by simpa using this)
    rw [this, ht]

/-! ## writing and reading again -/

/-- what is stored of a number -/
theorem narrow_of {x : ℝ} (hF : IsF x) (h : |rd32 x| < 2 ^ 128) :
    (FltBits.ofBits (FltBits.toBits (B64.of x)) : B64) = B64.of (rd32 x) := by
  have hF' : IsF (rd32 x) := ⟨(rep32_rd32 x).rep, h.le.trans pow128_le_max⟩
  apply Subtype.ext
  show wordVal (wordOf (B64.of x).1) = _
  rw [B64.of_val hF, B64.of_val hF', wordVal_wordOf h]

theorem rd32_small {x : ℝ} (h : |x| ≤ 2 ^ 127) : |rd32 x| < 2 ^ 128 := by
  have hr : Rep32 ((2 : ℝ) ^ 127) := by
    have := rep32_zpow (e := 127) (by norm_num)
    exact_mod_cast this
  rw [abs_le] at h
  have h1 := rd32_le hr h.2
  have h2 := le_rd32 hr.neg h.1
  refine lt_of_le_of_lt (abs_le.2 ⟨h2, h1⟩) ?_
  norm_num

/-- the point with every coordinate rounded to binary32 -/
noncomputable def R3.round32 (w : R3) : R3 := ⟨rd32 w.x, rd32 w.y, rd32 w.z⟩

/-- the triangle with every coordinate rounded to binary32 -/
noncomputable def RTri.round32 (t : RTri) : RTri := ⟨t.a.round32, t.b.round32, t.c.round32⟩

/-- `y` is the number of binary32 nearest to `x` -/
def NearestSingle (x y : ℝ) : Prop :=
  Rep32 y ∧ (∀ v, Rep32 v → |y - x| ≤ |v - x|) ∧ |y - x| ≤ |x| / 2 ^ 24 + 1 / 2 ^ 150

theorem nearest_rd32 (x : ℝ) : NearestSingle x (rd32 x) :=
  ⟨rep32_rd32 x, fun _ hv => rd32_nearest x hv, rd32_error x⟩

/-- **C97 (saving).** Saving a mesh with coordinates of at most `2^127` and loading it gives the mesh with every coordinate
replaced by the nearest number of binary32, which is off by at most a part in `2^24`; doing it again changes nothing. -/
theorem C97_save (ts : List RTri) (hlen : ts.length < 2 ^ 32) (hF : ∀ w ∈ allVerts ts, w.isF)
    (hR : ∀ w ∈ allVerts ts, |w.x| ≤ 2 ^ 127 ∧ |w.y| ≤ 2 ^ 127 ∧ |w.z| ≤ 2 ^ 127) :
    loadSTL (saveSTL (fmesh ts)) = .ok (some (fmesh (ts.map RTri.round32)), none) ∧
      loadSTL (saveSTL (fmesh (ts.map RTri.round32))) = .ok (some (fmesh (ts.map RTri.round32)), none) ∧
      ∀ w ∈ allVerts ts, NearestSingle w.x w.round32.x ∧ NearestSingle w.y w.round32.y ∧ NearestSingle w.z w.round32.z := by
  have hp : ∀ w ∈ allVerts ts, w.f64.via32 = w.round32.f64 := by
    intro w hw
    have h1 := hF w hw
    have h2 := hR w hw
    unfold Point.via32 R3.f64 R3.round32
    dsimp only
    rw [narrow_of h1.1 (rd32_small h2.1), narrow_of h1.2.1 (rd32_small h2.2.1), narrow_of h1.2.2 (rd32_small h2.2.2)]
  have hvia : (fmesh ts).via32 = fmesh (ts.map RTri.round32) := by
    unfold Mesh.via32 fmesh
    rw [List.map_map, List.map_map]
    congr 1
    apply List.map_congr_left
    intro t ht
    have hv : ∀ w ∈ t.verts, w ∈ allVerts ts := fun w hw => List.mem_flatMap.2 ⟨t, ht, hw⟩
    simp only [Function.comp, RTri.f64, RTri.round32, newTriangle]
    rw [hp t.a (hv _ (by simp [RTri.verts])), hp t.b (hv _ (by simp [RTri.verts])), hp t.c (hv _ (by simp [RTri.verts]))]
  have h1 := C03_round_trip (fmesh ts) (by simpa [fmesh] using hlen)
  have h2 := C03_second_trip (fmesh ts) (by simpa [fmesh] using hlen) (fun x => Subtype.ext (wordVal_idem x.1))
  rw [hvia] at h1 h2
  exact ⟨h1, h2, fun w _ => ⟨nearest_rd32 _, nearest_rd32 _, nearest_rd32 _⟩⟩

/-- **C97 (any mesh).** Also with infinities and NaN, saving and loading a second time changes nothing. -/
theorem C97_stable (m : Mesh B64) (h : m.triangles.length < 2 ^ 32) :
    loadSTL (saveSTL m) = .ok (some m.via32, none) ∧ loadSTL (saveSTL m.via32) = .ok (some m.via32, none) :=
  ⟨C03_round_trip m h, C03_second_trip m h fun x => Subtype.ext (wordVal_idem x.1)⟩

end Float

/-! ## Non-vacuity -/

/-- a binary file of one triangle whose words are all `0x07070707` -/
example : ∃ b : Bytes, b.length = 84 + 50 * wordAt b 80 ∧ wordAt b 80 = 1 ∧
    ∀ i j : ℕ, i < wordAt b 80 → j < 9 → finiteWord (wordAt b (coordOffset i j)) ∧ wordAt b (coordOffset i j) = 0x07070707 := by
  have e : (List.replicate 80 (0 : UInt8) ++ ([1, 0, 0, 0] ++ List.replicate 50 7)).drop 80 = [1, 0, 0, 0] ++ List.replicate 50 7 :=
    List.drop_left' (by simp)
  have h1 : wordAt (List.replicate 80 (0 : UInt8) ++ ([1, 0, 0, 0] ++ List.replicate 50 7)) 80 = 1 := by
    unfold wordAt; rw [e]; simp
  refine ⟨_, by rw [h1]; simp, h1, ?_⟩
  intro i j hi hj
  rw [h1] at hi
  obtain rfl : i = 0 := by omega
  have hw : wordAt (List.replicate 80 (0 : UInt8) ++ ([1, 0, 0, 0] ++ List.replicate 50 7)) (coordOffset 0 j) = 0x07070707 := by
    unfold wordAt coordOffset
    have e2 : 84 + 50 * 0 + 12 + 4 * j = 80 + (4 + (12 + 4 * j)) := by ring
    rw [e2, ← List.drop_drop, e, ← List.drop_drop, List.drop_left' (by rfl), List.drop_replicate, List.take_replicate,
      Nat.min_eq_left (by omega)]
    rfl
  rw [hw]
  exact ⟨by unfold finiteWord; norm_num, rfl⟩

/-- the tetrahedron can be saved -/
example : exTetra.length < 2 ^ 32 ∧ (∀ w ∈ allVerts exTetra, w.isF) ∧
    ∀ w ∈ allVerts exTetra, |w.x| ≤ 2 ^ 127 ∧ |w.y| ≤ 2 ^ 127 ∧ |w.z| ≤ 2 ^ 127 := by
  refine ⟨by simp [exTetra], exTetra_safe.isF, fun w hw => ?_⟩
  have h := exTetra_safe.range w hw
  have h3 : (1000 : ℝ) ≤ 2 ^ 127 := by norm_num
  exact ⟨h.1.trans h3, h.2.1.trans h3, h.2.2.trans h3⟩

/-- one and a half: word `0x3fc00000` -/
example : finiteWord 0x3fc00000 ∧ IsWord 0x3fc00000 (3 / 2) := by
  refine ⟨by unfold finiteWord; norm_num, 1, by norm_num, ?_⟩
  norm_num

/-- a tenth is not a number of binary32: saving changes it -/
example : ¬ Rep32 (1 / 10) ∧ (1 / 10 : ℝ) ≤ 2 ^ 127 := by
  refine ⟨?_, by norm_num⟩
  rintro ⟨m, e, hm, he, h⟩
  have h1 : (m : ℝ) * 10 * 2 ^ e = 1 := by rw [← mul_right_comm, ← h]; norm_num
  rcases lt_or_ge e 0 with h0 | h0
  · obtain ⟨n, rfl⟩ : ∃ n : ℕ, e = -(n : ℤ) := ⟨e.natAbs, by omega⟩
    rw [zpow_neg, zpow_natCast] at h1
    have h2 : (m : ℝ) * 10 = 2 ^ n := by
      have := pow_pos (show (0 : ℝ) < 2 by norm_num) n
      field_simp at h1; linarith
    have h3 : m * 10 = 2 ^ n := by exact_mod_cast h2
    have h4 : ∀ n : ℕ, (2 : ℤ) ^ n % 5 ≠ 0 := by
      intro n
      induction n with
      | zero => norm_num
      | succ n ih => rw [pow_succ]; omega
    have := h4 n
    omega
  · obtain ⟨n, rfl⟩ := Int.eq_ofNat_of_zero_le h0
    have h2 : m * 10 * 2 ^ n = 1 := by
      have : (m : ℝ) * 10 * 2 ^ n = 1 := by exact_mod_cast h1
      exact_mod_cast this
    have h4 : (2 : ℤ) ∣ 1 := ⟨m * 5 * 2 ^ n, by rw [← h2]; ring⟩
    omega

end Goosli
