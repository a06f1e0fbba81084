import Verif.Proofs.B64Text
import Verif.Props.C52
import Verif.Props.C97
/-!
# C98: numbers as text in `float64`

The text of a number in the output (`StrF`), the reading of a number from an ASCII STL file or a plane file (`ParseFloat`), and
both together, with the number formats of package `strconv` on binary64 numbers.
-/
set_option autoImplicit false
namespace Goosli
open Flt Spec

/-! ## printing -/

/-- `v` is a number of thousandths and none is nearer to `x` -/
def NearestThousandth (x v : ℝ) : Prop := ∃ k : ℤ, v = k / 1000 ∧ ∀ m : ℤ, |v - x| ≤ |(m : ℝ) / 1000 - x|

theorem fmt3_of {x : ℝ} (h : IsF x) : FltText.fmt3 (B64.of x) = fmtFixed3 (.fin x) := by
  show fmtFixed3 (B64.of x).1 = _
  rw [B64.of_val h]

/-- **C98 (printing).** The text of a finite number is made of digits, a point and perhaps a minus sign, and denotes the nearest
thousandth. -/
theorem C98_printed (x : ℝ) (h : IsF x) :
    NearestThousandth x (readDec (FltText.fmt3 (B64.of x)).toList) ∧ |readDec (FltText.fmt3 (B64.of x)).toList - x| ≤ 1 / 2000 ∧
      ∀ c ∈ (FltText.fmt3 (B64.of x)).toList, c = '-' ∨ c = '.' ∨ c.isDigit = true := by
  rw [fmt3_of h]
  refine ⟨⟨roundEven (1000 * x), readDec_fmtFixed3 x, ?_⟩, fmtFixed3_near x, fmtFixed3_chars x⟩
  intro m
  rw [readDec_fmtFixed3]
  have := roundEven_nearest (1000 * x) m
  have e : ∀ n : ℤ, |(n : ℝ) / 1000 - x| = |(n : ℝ) - 1000 * x| / 1000 := by
    intro n
    rw [show (n : ℝ) / 1000 - x = ((n : ℝ) - 1000 * x) / 1000 by ring, abs_div, abs_of_pos (by norm_num : (0 : ℝ) < 1000)]
  rw [e, e]
  linarith

/-- **C98 (order).** Printing does not exchange two numbers. -/
theorem C98_order (x y : ℝ) (hx : IsF x) (hy : IsF y) (h : x ≤ y) :
    readDec (FltText.fmt3 (B64.of x)).toList ≤ readDec (FltText.fmt3 (B64.of y)).toList := by
  rw [fmt3_of hx, fmt3_of hy]
  exact fmtFixed3_mono h

theorem fmtFixed3_any (x : XR) (c : Char) (hc : c ∈ (fmtFixed3 x).toList) :
    c ∈ ['N', 'a', 'I', 'n', 'f', '+', '-', '.'] ∨ c.isDigit = true := by
  cases x with
  | nan => left; revert c; decide
  | pinf => left; revert c; decide
  | ninf => left; revert c; decide
  | fin x =>
    rcases fmtFixed3_chars x c hc with rfl | rfl | h
    · left; decide
    · left; decide
    · exact Or.inr h

theorem isDigit_range {c : Char} (h : c.isDigit = true) : 48 ≤ c.toNat ∧ c.toNat ≤ 57 := by
  simp only [Char.isDigit, Bool.and_eq_true, decide_eq_true_eq] at h
  exact ⟨UInt32.le_iff_toNat_le.1 h.1, UInt32.le_iff_toNat_le.1 h.2⟩

instance : PrintableText B64 where
  printable x c hc := by
    rcases fmtFixed3_any x.1 c hc with h | h
    · clear hc; revert c; decide
    · have := isDigit_range h; omega

instance : CleanText B64 where
  clean x c hc := by
    rcases fmtFixed3_any x.1 c hc with h | h
    · clear hc; revert c; decide
    · exact isDigit_clean h

/-! ## reading -/

/-- **C98 (reading).** A decimal number, with sign, point and exponent as desired, is read as the nearest number of binary32, if
it is at most `2^127`. -/
theorem C98_read (d : DecimalText32) (h : d.Ok) (hb : |d.value| ≤ 2 ^ 127) :
    ∃ y : ℝ, (FltText.parse32 d.bytes : B64) = B64.of y ∧ NearestSingle d.value y ∧ IsF y := by
  have h1 : |rd32 d.value| ≤ 2 ^ 127 := by
    have hrep : Rep32 ((2 : ℝ) ^ 127) := by
      have := rep32_zpow (e := 127) (by norm_num)
      exact_mod_cast this
    rw [abs_le] at hb ⊢
    exact ⟨le_rd32 hrep.neg hb.1, rd32_le hrep hb.2⟩
  have h2 : |rd32 d.value| < 2 ^ 128 := lt_of_le_of_lt h1 (by norm_num)
  have hF : IsF (rd32 d.value) := ⟨(rep32_rd32 _).rep, h2.le.trans pow128_le_max⟩
  refine ⟨rd32 d.value, ?_, nearest_rd32 _, hF⟩
  apply Subtype.ext
  show parseFloat32 d.bytes = (B64.of _).1
  rw [parse_decimal d h, B64.of_val hF]
  unfold single
  rw [if_pos h2]

/-! ## ASCII STL files -/

/-- the coordinates of the vertex are decimal numbers of at most `2^127`, and `w` has the nearest numbers of binary32 -/
def VertexText.Denotes (v : VertexText) (w : R3) : Prop :=
  ∃ dx dy dz : DecimalText32, (dx.Ok ∧ dy.Ok ∧ dz.Ok) ∧ (v.x = dx.bytes ∧ v.y = dy.bytes ∧ v.z = dz.bytes) ∧
    NearestSingle dx.value w.x ∧ NearestSingle dy.value w.y ∧ NearestSingle dz.value w.z

/-- the coordinates of the vertex are decimal numbers of at most `2^127` -/
def VertexText.Decimal (v : VertexText) : Prop :=
  ∃ dx dy dz : DecimalText32, (dx.Ok ∧ dy.Ok ∧ dz.Ok) ∧ (v.x = dx.bytes ∧ v.y = dy.bytes ∧ v.z = dz.bytes) ∧
    |dx.value| ≤ 2 ^ 127 ∧ |dy.value| ≤ 2 ^ 127 ∧ |dz.value| ≤ 2 ^ 127

theorem vertex_denotes (v : VertexText) (h : v.Decimal) :
    ∃ w : R3, (v.point : Point B64) = w.f64 ∧ w.isF ∧ v.Denotes w := by
  obtain ⟨dx, dy, dz, hok, hb, hx, hy, hz⟩ := h
  obtain ⟨x, ex, nx, fx⟩ := C98_read dx hok.1 hx
  obtain ⟨y, ey, ny, fy⟩ := C98_read dy hok.2.1 hy
  obtain ⟨z, ez, nz, fz⟩ := C98_read dz hok.2.2 hz
  refine ⟨⟨x, y, z⟩, ?_, ⟨fx, fy, fz⟩, dx, dy, dz, hok, hb, nx, ny, nz⟩
  unfold VertexText.point R3.f64
  rw [hb.1, hb.2.1, hb.2.2, ex, ey, ez]

/-- **C98 (ASCII STL).** A document in the standard layout with decimal coordinates is loaded as the mesh with the nearest numbers
of binary32, facet by facet and vertex by vertex. -/
theorem C98_ascii (head tail : List Bytes) (fs : List FacetText) (hh : ∀ l ∈ head, OtherLine l) (ht : ∀ l ∈ tail, OtherLine l)
    (hf : ∀ f ∈ fs, f.Ok) (hd : ∀ f ∈ fs, f.v1.Decimal ∧ f.v2.Decimal ∧ f.v3.Decimal) :
    ∃ ts : List RTri, loadSTLAscii (docText (head ++ fs.flatMap FacetText.lines ++ tail)) = (some (fmesh ts), none) ∧
      List.Forall₂ (fun f t => f.v1.Denotes t.a ∧ f.v2.Denotes t.b ∧ f.v3.Denotes t.c) fs ts ∧
      ∀ t ∈ ts, t.a.isF ∧ t.b.isF ∧ t.c.isF := by
  have key : ∃ ts : List RTri, fs.map (fun f => newTriangle (f.v1.point : Point B64) f.v2.point f.v3.point) = ts.map RTri.f64 ∧
      List.Forall₂ (fun f t => f.v1.Denotes t.a ∧ f.v2.Denotes t.b ∧ f.v3.Denotes t.c) fs ts ∧
      ∀ t ∈ ts, t.a.isF ∧ t.b.isF ∧ t.c.isF := by
    clear hf
    induction fs with
    | nil => exact ⟨[], rfl, .nil, by simp⟩
    | cons f fs ih =>
      obtain ⟨ts, e, hts, hF⟩ := ih (fun g hg => hd g (List.mem_cons_of_mem _ hg))
      obtain ⟨h1, h2, h3⟩ := hd f List.mem_cons_self
      obtain ⟨a, ea, fa, da⟩ := vertex_denotes _ h1
      obtain ⟨b, eb, fb, db⟩ := vertex_denotes _ h2
      obtain ⟨c, ec, fc, dc⟩ := vertex_denotes _ h3
      refine ⟨⟨a, b, c⟩ :: ts, ?_, .cons ⟨da, db, dc⟩ hts, ?_⟩
      · rw [List.map_cons, List.map_cons, e, ea, eb, ec]; rfl
      · intro t ht
        rcases List.mem_cons.1 ht with rfl | ht
        · exact ⟨fa, fb, fc⟩
        · exact hF t ht
  obtain ⟨ts, e, hts, hF⟩ := key
  refine ⟨ts, ?_, hts, hF⟩
  rw [C05_document head tail fs hh ht hf, e]
  rfl

/-! ## printing and reading -/

theorem byte_digit {c : Char} (h : c.isDigit = true) :
    DigitByte (UInt8.ofNat c.toNat) ∧ (UInt8.ofNat c.toNat).toNat - 48 = c.toNat - '0'.toNat := by
  obtain ⟨h1, h2⟩ := isDigit_range h
  have e : (UInt8.ofNat c.toNat).toNat = c.toNat := by
    rw [UInt8.toNat_ofNat']; exact Nat.mod_eq_of_lt (by omega)
  refine ⟨⟨?_, ?_⟩, by rw [e]; rfl⟩
  · rw [UInt8.le_iff_toNat_le, e]; exact h1
  · rw [UInt8.le_iff_toNat_le, e]; exact h2

theorem decVal_chars (cs : List Char) (h : ∀ c ∈ cs, c.isDigit = true) (n : ℕ) :
    decVal n (cs.map fun c => UInt8.ofNat c.toNat) = Nat.ofDigitChars 10 cs n := by
  induction cs generalizing n with
  | nil => rfl
  | cons c t ih =>
    rw [List.map_cons, decVal_cons, ih (fun c hc => h c (by simp [hc])), (byte_digit (h c (by simp))).2]
    unfold Nat.ofDigitChars
    rw [List.foldl_cons, Nat.mul_comm]

/-- the printed number as a decimal text -/
noncomputable def printedText (x : ℝ) : DecimalText32 :=
  let k := (roundEven (1000 * |x|)).toNat
  ⟨if x < 0 then some false else none, (Nat.toDigits 10 (k / 1000)).map fun c => UInt8.ofNat c.toNat,
    some ((lastThree k).map fun c => UInt8.ofNat c.toNat), none⟩

theorem lastThree_digits (k : ℕ) : ∀ c ∈ lastThree k, c.isDigit = true := by
  have hd : ∀ d < 10, (Nat.digitChar d).isDigit = true := by decide
  intro c hc
  simp only [lastThree, List.mem_cons, List.not_mem_nil, or_false] at hc
  rcases hc with rfl | rfl | rfl <;> apply hd <;> omega

theorem printed_bytes (x : ℝ) : asciiBytes (fmtFixed3 (.fin x)) = (printedText x).bytes := by
  unfold asciiBytes fmtFixed3 printedText DecimalText32.bytes DecimalText32.body DecimalText32.tail
  dsimp only
  rw [String.toList_ofList]
  split_ifs <;> simp [signBytes]

theorem printed_ok (x : ℝ) : (printedText x).Ok := by
  have hm : ∀ cs : List Char, (∀ c ∈ cs, c.isDigit = true) → ∀ b ∈ cs.map (fun c => UInt8.ofNat c.toNat), DigitByte b := by
    intro cs h b hb
    obtain ⟨c, hc, rfl⟩ := List.mem_map.1 hb
    exact (byte_digit (h c hc)).1
  refine ⟨hm _ (fun c hc => Nat.isDigit_of_mem_toDigits (by decide) (by decide) hc), hm _ (lastThree_digits _), ?_, ?_⟩
  · simp [printedText, DecimalText32.fracDigits, lastThree]
  · intro q hq; cases hq

theorem printed_value (x : ℝ) : (printedText x).value = roundEven (1000 * x) / 1000 := by
  have h := readDec_fmtFixed3 x
  have hk := thousandths_abs x
  have h1 : ∀ k : ℕ, (decVal 0 ((Nat.toDigits 10 (k / 1000)).map fun c => UInt8.ofNat c.toNat) : ℝ) +
      (decVal 0 ((lastThree k).map fun c => UInt8.ofNat c.toNat) : ℝ) / 10 ^ 3 = k / 1000 := by
    intro k
    rw [decVal_chars _ (fun c hc => Nat.isDigit_of_mem_toDigits (by decide) (by decide) hc), decVal_chars _ (lastThree_digits k),
      Nat.ofDigitChars_ten_toDigits, lastThree_eq, ofDigitChars_digits3 _ (Nat.mod_lt _ (by norm_num))]
    have := Nat.div_add_mod k 1000
    have h : (1000 : ℝ) * ((k / 1000 : ℕ) : ℝ) + ((k % 1000 : ℕ) : ℝ) = k := by exact_mod_cast this
    rw [← h]; ring
  have e : (printedText x).value = (if x < 0 then -1 else 1) * (((roundEven (1000 * |x|)).toNat : ℝ) / 1000) := by
    rw [← h1]
    unfold printedText DecimalText32.value DecimalText32.fracDigits DecimalText32.expVal
    by_cases hx : x < 0 <;> simp [hx, lastThree]
  rw [e, hk]
  split_ifs with hx
  · have : roundEven (1000 * x) ≤ 0 := roundEven_le (by push_cast; linarith)
    rw [abs_of_nonpos (by exact_mod_cast this)]; ring
  · have : 0 ≤ roundEven (1000 * x) := roundEven_nonneg (by linarith)
    rw [abs_of_nonneg (by exact_mod_cast this)]; ring

/-- what a printed number is read as -/
theorem reread_of {x : ℝ} (h : IsF x) (hb : |x| ≤ 2 ^ 126) :
    reread (B64.of x) = B64.of (rd32 (roundEven (1000 * x) / 1000)) ∧ IsF (rd32 (roundEven (1000 * x) / 1000)) := by
  have hv : |(printedText x).value| ≤ 2 ^ 127 := by
    have h1 := fmtFixed3_near x
    rw [readDec_fmtFixed3] at h1
    rw [printed_value]
    have h2 : |(roundEven (1000 * x) : ℝ) / 1000| ≤ |(roundEven (1000 * x) : ℝ) / 1000 - x| + |x| := by
      have := abs_add_le ((roundEven (1000 * x) : ℝ) / 1000 - x) x
      rwa [sub_add_cancel] at this
    have : (1 : ℝ) / 2000 + 2 ^ 126 ≤ 2 ^ 127 := by norm_num
    linarith
  have hrd : |rd32 (printedText x).value| < 2 ^ 128 := by
    have hrep : Rep32 ((2 : ℝ) ^ 127) := by
      have := rep32_zpow (e := 127) (by norm_num)
      exact_mod_cast this
    rw [abs_le] at hv
    have : |rd32 (printedText x).value| ≤ 2 ^ 127 := abs_le.2 ⟨le_rd32 hrep.neg hv.1, rd32_le hrep hv.2⟩
    exact lt_of_le_of_lt this (by norm_num)
  have hF : IsF (rd32 (printedText x).value) := ⟨(rep32_rd32 _).rep, hrd.le.trans pow128_le_max⟩
  rw [← printed_value]
  refine ⟨?_, hF⟩
  apply Subtype.ext
  show parseFloat32 (asciiBytes (FltText.fmt3 (B64.of x))) = (B64.of _).1
  rw [fmt3_of h, printed_bytes, parse_decimal _ (printed_ok x), B64.of_val hF]
  unfold single
  rw [if_pos hrd]

/-- **C98 (printing and reading).** A number that is printed and read is off by at most half a thousandth and the rounding to
binary32; a NaN stays a NaN, an infinity an infinity. -/
theorem C98_reread (x : ℝ) (h : IsF x) (hb : |x| ≤ 2 ^ 126) :
    ∃ y : ℝ, reread (B64.of x) = B64.of y ∧ IsF y ∧ NearestSingle (readDec (FltText.fmt3 (B64.of x)).toList) y ∧
      |y - x| ≤ 1 / 1999 + |x| / 2 ^ 24 := by
  obtain ⟨e, hF⟩ := reread_of h hb
  refine ⟨_, e, hF, ?_, ?_⟩
  · rw [fmt3_of h, readDec_fmtFixed3]; exact nearest_rd32 _
  · have h1 := fmtFixed3_near x
    rw [readDec_fmtFixed3] at h1
    have h2 := rd32_error (roundEven (1000 * x) / 1000)
    generalize (roundEven (1000 * x) : ℝ) / 1000 = v at h1 h2 ⊢
    have h3 : |rd32 v - x| ≤ |rd32 v - v| + |v - x| := abs_sub_le _ _ _
    have h4 : |v| ≤ |v - x| + |x| := by
      have := abs_add_le (v - x) x
      rwa [sub_add_cancel] at this
    have h5 : (1 : ℝ) / 2 ^ 150 ≤ 1 / 10 ^ 9 := by norm_num
    have h6 : |v| / 2 ^ 24 ≤ |x| / 2 ^ 24 + 1 / 10 ^ 9 := by
      have : (1 : ℝ) / 2000 ≤ 2 ^ 24 * (1 / 10 ^ 9) := by norm_num
      have h7 : |v| ≤ |x| + 2 ^ 24 * (1 / 10 ^ 9) := by linarith
      calc |v| / 2 ^ 24 ≤ (|x| + 2 ^ 24 * (1 / 10 ^ 9)) / 2 ^ 24 := by gcongr
        _ = _ := by ring
    have h8 : (1 : ℝ) / 2000 + 2 / 10 ^ 9 ≤ 1 / 1999 := by norm_num
    linarith

theorem C98_special : (reread ⟨.nan, trivial⟩ : B64) = ⟨.nan, trivial⟩ ∧ (reread ⟨.pinf, trivial⟩ : B64) = ⟨.pinf, trivial⟩ ∧
    (reread ⟨.ninf, trivial⟩ : B64) = ⟨.ninf, trivial⟩ := by
  have e1 : asciiBytes "NaN" = [78, 97, 78] := by decide
  have e2 : asciiBytes "+Inf" = [43, 73, 110, 102] := by decide
  have e3 : asciiBytes "-Inf" = [45, 73, 110, 102] := by decide
  refine ⟨Subtype.ext ?_, Subtype.ext ?_, Subtype.ext ?_⟩
  · show parseFloat32 (asciiBytes "NaN") = _
    rw [e1]; simp [parseFloat32, specialVal, smallLetter]
  · show parseFloat32 (asciiBytes "+Inf") = _
    rw [e2]; simp [parseFloat32, specialVal, smallLetter]
  · show parseFloat32 (asciiBytes "-Inf") = _
    rw [e3]; simp [parseFloat32, specialVal, smallLetter]

theorem roundEven_unique {y : ℝ} {k : ℤ} (h : |y - k| < 1 / 2) : roundEven y = k := by
  have h1 := roundEven_near y
  have h2 : |((roundEven y - k : ℤ) : ℝ)| < 1 := by
    push_cast
    have := abs_sub_le (roundEven y : ℝ) y k
    linarith
  have h3 : |roundEven y - k| < 1 := by exact_mod_cast h2
  rw [Int.abs_lt_one_iff] at h3
  omega

/-- not a negative number printed as zero; the model has no negative zero, the text would lose its sign -/
def KeepsSign (x : ℝ) : Prop := 0 ≤ x ∨ readDec (FltText.fmt3 (B64.of x)).toList ≠ 0

/-- **C98 (stable text).** Below 16000 the text of a number that was printed and read is the same text. -/
theorem C98_same_text (x : ℝ) (h : IsF x) (hb : |x| ≤ 16000) (hs : KeepsSign x) :
    FltText.fmt3 (reread (B64.of x)) = FltText.fmt3 (B64.of x) := by
  obtain ⟨e, hF⟩ := reread_of h (hb.trans (by norm_num))
  rw [e, fmt3_of hF, fmt3_of h]
  unfold KeepsSign at hs
  rw [fmt3_of h, readDec_fmtFixed3] at hs
  have h1 := fmtFixed3_near x
  rw [readDec_fmtFixed3] at h1
  have hlt : |rd32 ((roundEven (1000 * x) : ℝ) / 1000) - roundEven (1000 * x) / 1000| ≤ 1 / 2048 := by
    by_cases h0 : (roundEven (1000 * x) : ℝ) / 1000 = 0
    · rw [h0, rd32_zero]; norm_num
    have h2 := rd32_half ((roundEven (1000 * x) : ℝ) / 1000)
    have h3 : lastExp32 ((roundEven (1000 * x) : ℝ) / 1000) ≤ -10 := by
      apply lastExp32_le (by norm_num) h0
      have h4 : |(roundEven (1000 * x) : ℝ) / 1000| ≤ |(roundEven (1000 * x) : ℝ) / 1000 - x| + |x| := by
        have := abs_add_le ((roundEven (1000 * x) : ℝ) / 1000 - x) x
        rwa [sub_add_cancel] at this
      have h5 : (2 : ℝ) ^ (-10 + 24 : ℤ) = 16384 := by norm_num
      rw [h5]
      linarith
    have h6 : (2 : ℝ) ^ lastExp32 ((roundEven (1000 * x) : ℝ) / 1000) ≤ 2 ^ (-10 : ℤ) := zpow_le_zpow_right₀ (by norm_num) h3
    have h7 : (2 : ℝ) ^ (-10 : ℤ) = 1 / 1024 := by norm_num
    rw [h7] at h6
    linarith
  set y := rd32 ((roundEven (1000 * x) : ℝ) / 1000) with hy
  have hk : roundEven (1000 * y) = roundEven (1000 * x) := by
    apply roundEven_unique
    have e : 1000 * y - (roundEven (1000 * x) : ℝ) = 1000 * (y - roundEven (1000 * x) / 1000) := by ring
    rw [e, abs_mul, abs_of_pos (by norm_num : (0 : ℝ) < 1000)]
    linarith
  have hsign : y < 0 ↔ x < 0 := by
    constructor
    · intro hy0
      by_contra hx
      have : 0 ≤ roundEven (1000 * x) := roundEven_nonneg (by linarith)
      have : 0 ≤ y := le_rd32 rep32_zero (by
        have : (0 : ℝ) ≤ roundEven (1000 * x) := by exact_mod_cast this
        positivity)
      linarith
    · intro hx
      have h2 : roundEven (1000 * x) ≤ 0 := roundEven_le (by push_cast; linarith)
      have h3 : roundEven (1000 * x) ≠ 0 := by
        rcases hs with hs | hs
        · linarith
        · intro h0; rw [h0] at hs; simp at hs
      have h4 : (roundEven (1000 * x) : ℝ) ≤ -1 := by exact_mod_cast (by omega : roundEven (1000 * x) ≤ -1)
      have := (abs_le.1 hlt).2
      linarith
  have hn : (roundEven (1000 * |y|)).toNat = (roundEven (1000 * |x|)).toNat := by
    have := thousandths_abs y
    rw [hk, ← thousandths_abs x] at this
    exact_mod_cast this
  unfold fmtFixed3
  dsimp only
  rw [hn]
  simp only [hsign]

/-! ## plane files -/

theorem fmtFixed3_length (x : ℝ) (h : IsF x) : (fmtFixed3 (.fin x)).toList.length ≤ 530 := by
  have hx : |x| ≤ 10 ^ 512 := by
    have h1 : |x| ≤ 2 ^ 1024 := h.2.trans (by
      unfold XR.maxF64R
      rw [show (1024 : ℕ) = 1 + 1023 by norm_num, pow_add]
      gcongr
      norm_num)
    refine h1.trans ?_
    rw [show (1024 : ℕ) = 2 * 512 by norm_num, pow_mul]
    exact pow_le_pow_left₀ (by norm_num) (by norm_num) _
  have hk : (roundEven (1000 * |x|)).toNat ≤ 10 ^ 515 := by
    have h1 : roundEven (1000 * |x|) ≤ ((10 ^ 515 : ℕ) : ℤ) := roundEven_le (by
      rw [Int.cast_natCast, Nat.cast_pow, Nat.cast_ofNat]
      rw [show (515 : ℕ) = 3 + 512 by norm_num, pow_add]
      nlinarith)
    generalize (10 ^ 515 : ℕ) = N at h1 ⊢
    omega
  have hl : (Nat.toDigits 10 ((roundEven (1000 * |x|)).toNat / 1000)).length ≤ 516 := by
    rw [Nat.length_toDigits_le_iff (by norm_num) (by norm_num)]
    refine lt_of_le_of_lt (Nat.div_le_self _ _) (lt_of_le_of_lt hk ?_)
    exact Nat.pow_lt_pow_right (by norm_num) (by norm_num)
  unfold fmtFixed3
  dsimp only
  rw [String.toList_ofList, List.length_append, List.length_append, List.length_cons]
  have h3 : (lastThree (roundEven (1000 * |x|)).toNat).length = 3 := rfl
  split_ifs <;> simp [h3] <;> omega

theorem fmt3_length (a : B64) : (asciiBytes (FltText.fmt3 a)).length ≤ 530 := by
  unfold asciiBytes
  rw [List.length_map]
  show (fmtFixed3 a.1).toList.length ≤ 530
  obtain ⟨a, ha⟩ := a
  cases a with
  | nan => show (fmtFixed3 .nan).toList.length ≤ 530; decide
  | pinf => show (fmtFixed3 .pinf).toList.length ≤ 530; decide
  | ninf => show (fmtFixed3 .ninf).toList.length ≤ 530; decide
  | fin x => exact fmtFixed3_length x ha

theorem planeText_short (p : AnalyzedPlane B64) : p.text.length < 65536 := by
  rw [planeText_words]
  have h1 := fmt3_length p.plane.p.x
  have h2 := fmt3_length p.plane.p.y
  have h3 := fmt3_length p.plane.p.z
  have h4 := fmt3_length p.rotz
  have h5 : (asciiBytes (if p.tilted then "true" else "false")).length ≤ 5 := by cases p.tilted <;> decide
  simp only [List.length_append, List.length_cons]
  omega

theorem planeText_congr {α : Type} [Flt α] [FltText α] (p q : AnalyzedPlane α)
    (h1 : FltText.fmt3 q.plane.p.x = FltText.fmt3 p.plane.p.x) (h2 : FltText.fmt3 q.plane.p.y = FltText.fmt3 p.plane.p.y)
    (h3 : FltText.fmt3 q.plane.p.z = FltText.fmt3 p.plane.p.z) (h4 : q.tilted = p.tilted)
    (h5 : FltText.fmt3 q.rotz = FltText.fmt3 p.rotz) : q.text = p.text := by
  unfold AnalyzedPlane.text
  rw [h1, h2, h3, h4, h5]

theorem planeText_reread {α : Type} [Flt α] [FltText α] (p : AnalyzedPlane α) (P : α → Prop)
    (key : ∀ a, P a → FltText.fmt3 (reread a) = FltText.fmt3 a)
    (h : P p.plane.p.x ∧ P p.plane.p.y ∧ P p.plane.p.z ∧ P p.rotz) : p.reread.text = p.text :=
  planeText_congr p p.reread (key _ h.1) (key _ h.2.1) (key _ h.2.2.1) rfl (key _ h.2.2.2)

/-- a finite number below 16000 that is not a negative number printed as zero -/
def PlainNumber (a : B64) : Prop := ∃ x : ℝ, a = B64.of x ∧ IsF x ∧ |x| ≤ 16000 ∧ KeepsSign x

theorem plainNumber_text (a : B64) (h : PlainNumber a) : FltText.fmt3 (reread a) = FltText.fmt3 a := by
  obtain ⟨x, e, hF, hb, hs⟩ := h
  rw [e]
  exact C98_same_text x hF hb hs

/-- **C98 (plane files).** Every file of planes is read back, plane by plane; and if the planes read are written again the file is
the same. -/
theorem C98_planes (ps : List (AnalyzedPlane B64))
    (h : ∀ p ∈ ps, PlainNumber p.plane.p.x ∧ PlainNumber p.plane.p.y ∧ PlainNumber p.plane.p.z ∧ PlainNumber p.rotz) :
    ∃ qs : List (AnalyzedPlane B64), readPlanes (some (docText (ps.map AnalyzedPlane.text))) = .ok qs ∧ qs.length = ps.length ∧
      docText (qs.map AnalyzedPlane.text) = docText (ps.map AnalyzedPlane.text) := by
  refine ⟨ps.map AnalyzedPlane.reread, C52_file ps (fun p _ => planeText_short p), by simp, ?_⟩
  have e : (ps.map AnalyzedPlane.reread).map AnalyzedPlane.text = ps.map AnalyzedPlane.text := by
    rw [List.map_map]
    apply List.map_congr_left
    intro p hp
    have h1 : p.reread.text = p.text := planeText_reread p PlainNumber plainNumber_text (h p hp)
    rw [Function.comp_apply]
    exact h1
  rw [e]

/-! ## the hypotheses are met -/

/-- `-12.5e1` -/
def exNumber : DecimalText32 := ⟨some false, [49, 50], some [53], some (false, none, [49])⟩

example : exNumber.bytes = asciiBytes "-12.5e1" := by decide

theorem exNumber_ok : exNumber.Ok := by
  refine ⟨?_, ?_, by decide, ?_⟩
  · intro c hc
    simp only [exNumber, List.mem_cons, List.not_mem_nil, or_false] at hc
    rcases hc with rfl | rfl <;> exact ⟨by decide, by decide⟩
  · intro c hc
    simp only [exNumber, DecimalText32.fracDigits, Option.getD_some, List.mem_cons, List.not_mem_nil, or_false] at hc
    rcases hc with rfl; exact ⟨by decide, by decide⟩
  · intro q hq
    simp only [exNumber, Option.mem_def, Option.some.injEq] at hq
    subst hq
    refine ⟨by decide, ?_, by decide⟩
    intro c hc
    simp only [List.mem_cons, List.not_mem_nil, or_false] at hc
    rcases hc with rfl; exact ⟨by decide, by decide⟩

theorem exNumber_value : exNumber.value = -125 := by
  have h1 : decVal 0 [49, 50] = 12 := by decide
  have h2 : decVal 0 [53] = 5 := by decide
  have h3 : decVal 0 [49] = 1 := by decide
  simp only [exNumber, DecimalText32.value, DecimalText32.fracDigits, DecimalText32.expVal, Option.getD_some, h1, h2, h3]
  norm_num

/-- the text `-12.5e1` is read as the number -125 -/
example : (FltText.parse32 (asciiBytes "-12.5e1") : B64) = B64.of (-125) := by
  have e : asciiBytes "-12.5e1" = exNumber.bytes := by decide
  obtain ⟨y, h1, h2, -⟩ := C98_read exNumber exNumber_ok (by rw [exNumber_value]; norm_num)
  rw [e, h1]
  congr 1
  have h3 := h2.2.1 (-125) (by have := rep32_int (n := -125) (by norm_num); exact_mod_cast this)
  rw [exNumber_value] at h3
  simp at h3
  linarith

instance (c : UInt8) : Decidable (DigitByte c) := by unfold DigitByte; infer_instance

theorem simple_ok (sign : Option Bool) (a : Bytes) (f : Option Bytes) (h : (∀ c ∈ a, DigitByte c) ∧ (∀ c ∈ f.getD [], DigitByte c) ∧
    a ++ f.getD [] ≠ []) : (DecimalText32.mk sign a f none).Ok :=
  ⟨h.1, h.2.1, h.2.2, by intro q hq; cases hq⟩

/-- the numbers of `demoFacet`, the facet of C05: `0`, `1.5`, `1e3`, `-1` -/
example : demoFacet.v1.Decimal ∧ demoFacet.v2.Decimal ∧ demoFacet.v3.Decimal := by
  have z : (DecimalText32.mk none [48] none none).Ok := simple_ok _ _ _ ⟨by decide, by decide, by decide⟩
  have zv : (DecimalText32.mk none [48] none none).value = 0 := by
    have h1 : decVal 0 [48] = 0 := by decide
    simp [DecimalText32.value, DecimalText32.fracDigits, DecimalText32.expVal, h1, decVal_nil]
  have a : (DecimalText32.mk none [49] (some [53]) none).Ok := simple_ok _ _ _ ⟨by decide, by decide, by decide⟩
  have av : (DecimalText32.mk none [49] (some [53]) none).value = 3 / 2 := by
    have h1 : decVal 0 [49] = 1 := by decide
    have h2 : decVal 0 [53] = 5 := by decide
    simp [DecimalText32.value, DecimalText32.fracDigits, DecimalText32.expVal, h1, h2]; norm_num
  have m : (DecimalText32.mk (some false) [49] none none).Ok := simple_ok _ _ _ ⟨by decide, by decide, by decide⟩
  have mv : (DecimalText32.mk (some false) [49] none none).value = -1 := by
    have h1 : decVal 0 [49] = 1 := by decide
    simp [DecimalText32.value, DecimalText32.fracDigits, DecimalText32.expVal, h1, decVal_nil]
  have e : (DecimalText32.mk none [49] none (some (false, none, [51]))).Ok := by
    refine ⟨by decide, by decide, by decide, ?_⟩
    intro q hq
    simp only [Option.mem_def, Option.some.injEq] at hq
    subst hq
    exact ⟨by decide, by decide, by decide⟩
  have ev : (DecimalText32.mk none [49] none (some (false, none, [51]))).value = 1000 := by
    have h1 : decVal 0 [49] = 1 := by decide
    have h2 : decVal 0 [51] = 3 := by decide
    simp [DecimalText32.value, DecimalText32.fracDigits, DecimalText32.expVal, h1, h2, decVal_nil]; norm_num
  refine ⟨⟨_, _, _, ⟨z, z, z⟩, ⟨rfl, rfl, rfl⟩, ?_⟩, ⟨_, _, _, ⟨a, z, z⟩, ⟨rfl, rfl, rfl⟩, ?_⟩, ⟨_, _, _, ⟨z, e, m⟩, ⟨rfl, rfl, rfl⟩, ?_⟩⟩
  · rw [zv]; norm_num
  · rw [zv, av]; norm_num
  · rw [zv, ev, mv]; norm_num

instance : PrintsConstants B64 where
  zero := by
    rw [B64.lit_of, fmt3_of (by simpa using isF_int (n := 0) (by norm_num)), readDec_fmtFixed3]
    have : roundEven 0 = 0 := by have := roundEven_int 0; simpa using this
    simp [this]
  sixty := by
    rw [B64.lit_of, fmt3_of (by simpa using isF_int (n := 60) (by norm_num)), readDec_fmtFixed3]
    have : roundEven 60000 = 60000 := by have := roundEven_int 60000; simpa using this
    norm_num [this]

/-- a negative and a positive number as in `PlainNumber` -/
example : PlainNumber (B64.of (-90)) ∧ PlainNumber (B64.of 71) := by
  have h1 : IsF (-90) := by simpa using isF_int (n := -90) (by norm_num)
  refine ⟨⟨-90, rfl, h1, by norm_num, Or.inr ?_⟩, ⟨71, rfl, by simpa using isF_int (n := 71) (by norm_num), by norm_num, Or.inl (by norm_num)⟩⟩
  rw [fmt3_of h1, readDec_fmtFixed3]
  have : roundEven (-90000) = -90000 := by have := roundEven_int (-90000); simpa using this
  norm_num [this]

end Goosli
