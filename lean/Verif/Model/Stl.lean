import Verif.Model.Prim
/-!
# Model of primitives/stl.go

A file is its content, a list of bytes; failures of the operating system (open, stat, seek, write, flush) are not
modelled.  Go strings are byte strings, so the text functions of `strings` and `bufio` are modelled on bytes.
-/
namespace Goosli
open Flt

variable {α : Type} [Flt α] [FltText α] [FltBits α]

/-- a Go `[]byte` or `string` -/
abbrev Bytes := List UInt8

/-- `b[lo:hi]` with Go bounds check (the capacity of the slices used here is their length) -/
def goSlice (b : Bytes) (lo hi : Nat) : Go Bytes :=
  if lo ≤ hi ∧ hi ≤ b.length then .ok ((b.take hi).drop lo) else .error .slice

/-! ## encoding/binary, little endian -/

/-- the four bytes `binary.Write(w, binary.LittleEndian, ...)` writes for a `uint32` or `float32` -/
def leBytes (w : BitVec 32) : Bytes :=
  [UInt8.ofNat (w.toNat % 256), UInt8.ofNat (w.toNat / 256 % 256), UInt8.ofNat (w.toNat / 65536 % 256),
    UInt8.ofNat (w.toNat / 16777216 % 256)]

/-- `binary.LittleEndian.Uint32(b)`; panics on fewer than four bytes -/
def leWord : Bytes → Go (BitVec 32)
  | b0 :: b1 :: b2 :: b3 :: _ =>
    .ok (BitVec.ofNat 32 (b0.toNat + 256 * b1.toNat + 65536 * b2.toNat + 16777216 * b3.toNat))
  | _ => .error .index

/-- primitives/stl.go:86-88 -/
def makeFloat (b : Bytes) : Go α := do return FltBits.ofBits (← leWord b)

/-! ## binary files -/

/-- one `Point{makeFloat(b[k:k+4]), makeFloat(b[k+4:k+8]), makeFloat(b[k+8:k+12])}` of primitives/stl.go:102-104 -/
def makePoint (b : Bytes) (k : Nat) : Go (Point α) := do
  let x ← makeFloat (← goSlice b k (k + 4))
  let y ← makeFloat (← goSlice b (k + 4) (k + 8))
  let z ← makeFloat (← goSlice b (k + 8) (k + 12))
  return ⟨x, y, z⟩

/-- body of the worker loop for index `i`, primitives/stl.go:101-105: the value written to `triangles[i]` -/
def decodeAt (b : Bytes) (i : Nat) : Go (Triangle α) := do
  let j := i * 50
  let p1 ← makePoint b (j + 12)
  let p2 ← makePoint b (j + 24)
  let p3 ← makePoint b (j + 36)
  return newTriangle p1 p2 p3

/-- errors returned (not panics) by the loader -/
inductive LoadErr where
  /-- `io.EOF` / `io.ErrUnexpectedEOF` from `binary.Read` or `io.ReadFull` -/
  | eof
  /-- `bufio.ErrTooLong` -/
  | tooLong
  deriving DecidableEq, Repr

/-- primitives/stl.go:90-113; `rest` is what follows the header. The workers' writes are taken in index order here; that
the order and the number of workers do not matter is theorem `C02_fill`. -/
def loadSTLBinary (rest : Bytes) (count : Nat) : Go (Option (Mesh α) × Option LoadErr) := do
  if rest.length < count * 50 then return (none, some .eof)
  let b := rest.take (count * 50)
  let ts ← (List.range count).mapM (decodeAt b)
  return (some ⟨ts⟩, none)

/-- the bytes of one `stlTriangle`, primitives/stl.go:16-19, 127-140 -/
def stlTriangle (t : Triangle α) : Bytes :=
  leBytes (FltBits.toBits t.n.x) ++ leBytes (FltBits.toBits t.n.y) ++ leBytes (FltBits.toBits t.n.z) ++
  leBytes (FltBits.toBits t.p1.x) ++ leBytes (FltBits.toBits t.p1.y) ++ leBytes (FltBits.toBits t.p1.z) ++
  leBytes (FltBits.toBits t.p2.x) ++ leBytes (FltBits.toBits t.p2.y) ++ leBytes (FltBits.toBits t.p2.z) ++
  leBytes (FltBits.toBits t.p3.x) ++ leBytes (FltBits.toBits t.p3.y) ++ leBytes (FltBits.toBits t.p3.z) ++ [0, 0]

/-- the bytes of `stlHeader`, primitives/stl.go:12-15, 122-123; `uint32(len(..))` wraps -/
def stlHeader (n : Nat) : Bytes := List.replicate 80 0 ++ leBytes (BitVec.ofNat 32 n)

/-- primitives/stl.go:115-147: the content of the file -/
def saveSTL (m : Mesh α) : Bytes := stlHeader m.triangles.length ++ m.triangles.flatMap stlTriangle

/-! ## text files -/

/-- `dropCR` of bufio -/
def dropCR (l : Bytes) : Bytes := if l.getLast? = some 13 then l.dropLast else l

/-- `bufio.Scanner` with `ScanLines`: the lines, and whether it stopped with `ErrTooLong` (the default buffer holds
64*1024 bytes, so a line of that many bytes without its newline does not fit). `cur` is the line read so far. -/
def scanLines (cur : Bytes) : Bytes → List Bytes × Bool
  | [] => if cur = [] then ([], false) else if 65536 ≤ cur.length then ([], true) else ([dropCR cur], false)
  | c :: t =>
    if c = 10 then
      if 65536 ≤ cur.length then ([], true)
      else
        let r := scanLines [] t
        (dropCR cur :: r.1, r.2)
    else scanLines (cur ++ [c]) t

/-- number of bytes of the white space character (`unicode.IsSpace`) a text starts with, 0 if it starts with another -/
def wsLen : Bytes → Nat
  | [] => 0
  | c :: t =>
    if c = 32 ∨ (9 ≤ c ∧ c ≤ 13) then 1
    else if c < 128 then 0
    else match c, t with
      | 0xC2, 0x85 :: _ => 2
      | 0xC2, 0xA0 :: _ => 2
      | 0xE1, 0x9A :: 0x80 :: _ => 3
      | 0xE2, 0x80 :: x :: _ => if (0x80 ≤ x ∧ x ≤ 0x8A) ∨ x = 0xA8 ∨ x = 0xA9 ∨ x = 0xAF then 3 else 0
      | 0xE2, 0x81 :: 0x9F :: _ => 3
      | 0xE3, 0x80 :: 0x80 :: _ => 3
      | _, _ => 0

/-- mark the bytes that belong to white space; the first `k` bytes are the rest of a white space character -/
def markWs : Nat → Bytes → List (UInt8 × Bool)
  | _, [] => []
  | k + 1, c :: t => (c, true) :: markWs k t
  | 0, c :: t =>
    match wsLen (c :: t) with
    | 0 => (c, false) :: markWs 0 t
    | k + 1 => (c, true) :: markWs k t

/-- `strings.TrimSpace` -/
def trimSpace (s : Bytes) : Bytes :=
  ((((markWs 0 s).dropWhile (·.2)).reverse.dropWhile (·.2)).reverse).map (·.1)

/-- `strings.Fields` on marked bytes; `cur` is the field read so far -/
def fieldsAux (cur : Bytes) : List (UInt8 × Bool) → List Bytes
  | [] => if cur = [] then [] else [cur]
  | (c, w) :: t => if w then (if cur = [] then fieldsAux [] t else cur :: fieldsAux [] t) else fieldsAux (cur ++ [c]) t

/-- `strings.Fields` -/
def fields (s : Bytes) : List Bytes := fieldsAux [] (markWs 0 s)

/-- primitives/stl.go:61-69: the point of a line, `none` for a line that is skipped. The two index expressions are in
range because of the length test before them. -/
def vertexLine (text : Bytes) : Option (Point α) :=
  let line := trimSpace text
  if line.length < 12 ∨ line.head? ≠ some 118 then none
  else match fields (line.drop 7) with
    | [a, b, c] => some ⟨FltText.parse32 a, FltText.parse32 b, FltText.parse32 c⟩
    | _ => none

/-- the variables of the loop, primitives/stl.go:56-58 -/
structure AsciiSt (α : Type) where
  p1 : Point α
  p2 : Point α
  i : Nat
  tris : List (Triangle α)

/-- primitives/stl.go:69-79 -/
def asciiStep (st : AsciiSt α) (px : Point α) : AsciiSt α :=
  match st.i % 3 with
  | 0 => { st with p1 := px, i := st.i + 1 }
  | 1 => { st with p2 := px, i := st.i + 1 }
  | _ => { st with tris := st.tris ++ [newTriangle st.p1 st.p2 px], i := st.i + 1 }

/-- primitives/stl.go:55-83 -/
def loadSTLAscii (b : Bytes) : Option (Mesh α) × Option LoadErr :=
  let r := scanLines [] b
  let st := (r.1.filterMap vertexLine).foldl asciiStep ⟨originPoint, originPoint, 0, []⟩
  (some ⟨st.tris⟩, if r.2 then some .tooLong else none)

/-- primitives/stl.go:21-53 on the content of the file -/
def loadSTL (b : Bytes) : Go (Option (Mesh α) × Option LoadErr) := do
  if b.length < 84 then return (none, some .eof)
  let count := (← leWord (b.drop 80)).toNat
  if b.length = count * 50 + 84 then loadSTLBinary (b.drop 84) count
  else return loadSTLAscii b

end Goosli
