import Verif.Proofs.Stl
import Verif.Spec.Toy
/-!
# C05: ASCII STL
-/
set_option linter.unusedSectionVars false
namespace Goosli
open Flt

variable {α : Type} [Flt α] [FltText α]

/-! ## specification of documents -/

/-- blank, tab, carriage return, vertical tab or form feed: white space inside a line -/
def Blank (c : UInt8) : Prop := c = 32 ∨ c = 9 ∨ c = 11 ∨ c = 12 ∨ c = 13

/-- printable ASCII, not blank -/
def Printable (c : UInt8) : Prop := 33 ≤ c ∧ c ≤ 126

/-- a number token: not empty, printable -/
def Token (t : Bytes) : Prop := t ≠ [] ∧ ∀ c ∈ t, Printable c

/-- a separator: not empty, blanks only -/
def Sep (s : Bytes) : Prop := s ≠ [] ∧ ∀ c ∈ s, Blank c

/-- `vertex x y z` with any indentation, separators and trailing blanks -/
structure VertexText where
  indent : Bytes
  s1 : Bytes
  x : Bytes
  s2 : Bytes
  y : Bytes
  s3 : Bytes
  z : Bytes
  trail : Bytes

/-- the word "vertex" -/
def vertexWord : Bytes := [118, 101, 114, 116, 101, 120]

def VertexText.line (v : VertexText) : Bytes :=
  v.indent ++ (vertexWord ++ (v.s1 ++ (v.x ++ (v.s2 ++ (v.y ++ (v.s3 ++ (v.z ++ v.trail)))))))

structure VertexText.Ok (v : VertexText) : Prop where
  indent : ∀ c ∈ v.indent, Blank c
  s1 : Sep v.s1
  x : Token v.x
  s2 : Sep v.s2
  y : Token v.y
  s3 : Sep v.s3
  z : Token v.z
  trail : ∀ c ∈ v.trail, Blank c
  short : v.line.length < 65536

/-- any other line of the format: indentation, then a printable character other than `v` and anything; or blanks only -/
def OtherLine (l : Bytes) : Prop :=
  l.length < 65536 ∧ 10 ∉ l ∧
    ∃ i r : Bytes, l = i ++ r ∧ (∀ c ∈ i, Blank c) ∧ (r = [] ∨ ∃ c r', r = c :: r' ∧ Printable c ∧ c ≠ 118)

/-- a facet: lines before the vertices ("facet normal ...", "outer loop"), three vertices, lines after them -/
structure FacetText where
  before : List Bytes
  v1 : VertexText
  v2 : VertexText
  v3 : VertexText
  after : List Bytes

structure FacetText.Ok (f : FacetText) : Prop where
  before : ∀ l ∈ f.before, OtherLine l
  v1 : f.v1.Ok
  v2 : f.v2.Ok
  v3 : f.v3.Ok
  after : ∀ l ∈ f.after, OtherLine l

def FacetText.lines (f : FacetText) : List Bytes := f.before ++ [f.v1.line, f.v2.line, f.v3.line] ++ f.after

/-- the text of a list of lines, every line ended by a newline -/
def docText (ls : List Bytes) : Bytes := ls.flatMap (fun l => l ++ [10])

/-- the point written on a vertex line -/
def VertexText.point (v : VertexText) : Point α :=
  ⟨FltText.parse32 v.x, FltText.parse32 v.y, FltText.parse32 v.z⟩

/-! ## white space -/

theorem wsLen_blank {c : UInt8} (h : Blank c) (t : Bytes) : wsLen (c :: t) = 1 := by
  rcases h with h | h | h | h | h <;> subst h <;> rfl

theorem wsLen_printable {c : UInt8} (h : Printable c) (t : Bytes) : wsLen (c :: t) = 0 := by
  obtain ⟨h1, h2⟩ := h
  have a1 : ¬ (c = 32 ∨ (9 ≤ c ∧ c ≤ 13)) := by
    rw [UInt8.le_iff_toNat_le] at *
    rintro (h | ⟨_, h⟩)
    · subst h; simp at h1
    · rw [UInt8.le_iff_toNat_le] at h; simp at h1 h; omega
  have a2 : c < 128 := by
    rw [UInt8.le_iff_toNat_le] at h2
    rw [UInt8.lt_iff_toNat_lt]; simp at h2 ⊢; omega
  rw [wsLen, if_neg a1, if_pos a2]
  all_goals (intros; subst c; exact absurd a2 (by decide))

theorem markWs_blanks (s t : Bytes) (h : ∀ c ∈ s, Blank c) : markWs 0 (s ++ t) = s.map (·, true) ++ markWs 0 t := by
  induction s with
  | nil => rfl
  | cons c s ih =>
    rw [List.cons_append, markWs, wsLen_blank (h c List.mem_cons_self), List.map_cons, List.cons_append]
    simp only
    rw [ih (fun c hc => h c (List.mem_cons_of_mem _ hc))]

theorem markWs_printable (s t : Bytes) (h : ∀ c ∈ s, Printable c) : markWs 0 (s ++ t) = s.map (·, false) ++ markWs 0 t := by
  induction s with
  | nil => rfl
  | cons c s ih =>
    rw [List.cons_append, markWs, wsLen_printable (h c List.mem_cons_self), List.map_cons, List.cons_append]
    simp only
    rw [ih (fun c hc => h c (List.mem_cons_of_mem _ hc))]

theorem markWs_map (k : Nat) (s : Bytes) : (markWs k s).map (·.1) = s := by
  induction s generalizing k with
  | nil => cases k <;> rfl
  | cons c t ih =>
    cases k with
    | succ k => simp [markWs, ih]
    | zero =>
      rw [markWs]
      split <;> simp [ih]

theorem dropWhile_blanks (s : Bytes) (t : List (UInt8 × Bool)) :
    (s.map (fun c => (c, true)) ++ t).dropWhile (·.2) = t.dropWhile (·.2) := by
  induction s with
  | nil => rfl
  | cons c s ih => simp [ih]

/-- trimming a printable text surrounded by blanks -/
theorem trimSpace_core (i m e : Bytes) (hi : ∀ c ∈ i, Blank c) (he : ∀ c ∈ e, Blank c) (mm : List (UInt8 × Bool))
    (hm : markWs 0 (m ++ e) = mm ++ e.map (·, true)) (hmm : mm.map (·.1) = m)
    (h1 : ∀ a, mm.head? = some a → a.2 = false) (h2 : ∀ a, mm.getLast? = some a → a.2 = false) :
    trimSpace (i ++ (m ++ e)) = m := by
  unfold trimSpace
  rw [markWs_blanks i _ hi, hm, dropWhile_blanks]
  cases mm with
  | nil =>
    have : (([] : List (UInt8 × Bool)) ++ e.map (·, true)).dropWhile (·.2) = [] := by
      have := dropWhile_blanks e []
      simpa using this
    rw [this]; simpa using hmm
  | cons a mm' =>
    have ha : a.2 = false := h1 a rfl
    have e1 : ((a :: mm') ++ e.map (·, true)).dropWhile (·.2) = (a :: mm') ++ e.map (·, true) := by
      rw [List.cons_append, List.dropWhile_cons, if_neg (by simp [ha])]
    rw [e1, List.reverse_append, ← List.map_reverse, dropWhile_blanks]
    have e2 : ((a :: mm').reverse).dropWhile (·.2) = (a :: mm').reverse := by
      have hl : (a :: mm').reverse.head? = (a :: mm').getLast? := by rw [List.head?_reverse]
      rcases hr : (a :: mm').reverse with _ | ⟨b, r⟩
      · rfl
      · rw [hr] at hl
        have hb := h2 b (by rw [← hl]; rfl)
        rw [List.dropWhile_cons, if_neg (by simp [hb])]
    rw [e2, List.reverse_reverse, hmm]

theorem fieldsAux_token (cur t : Bytes) (r : List (UInt8 × Bool)) :
    fieldsAux cur (t.map (·, false) ++ r) = fieldsAux (cur ++ t) r := by
  induction t generalizing cur with
  | nil => simp
  | cons c t ih => simp [fieldsAux, ih]

theorem fieldsAux_blanks (s : Bytes) (r : List (UInt8 × Bool)) : fieldsAux [] (s.map (·, true) ++ r) = fieldsAux [] r := by
  induction s with
  | nil => rfl
  | cons c s ih => simp [fieldsAux, ih]

theorem fieldsAux_sep (cur s : Bytes) (hc : cur ≠ []) (hs : s ≠ []) (r : List (UInt8 × Bool)) :
    fieldsAux cur (s.map (·, true) ++ r) = cur :: fieldsAux [] r := by
  cases s with
  | nil => exact absurd rfl hs
  | cons c s => simp [fieldsAux, hc, fieldsAux_blanks]

theorem vertexWord_printable : ∀ c ∈ vertexWord, Printable c := by
  intro c hc
  simp only [vertexWord, List.mem_cons, List.not_mem_nil, or_false] at hc
  rcases hc with h | h | h | h | h | h <;> subst h <;> exact ⟨by decide, by decide⟩

/-- what the loader makes of a vertex line, for any trailing blanks -/
theorem vertexLine_line (v : VertexText) (h : v.Ok) (e : Bytes) (he : ∀ c ∈ e, Blank c) :
    (vertexLine ({ v with trail := e } : VertexText).line : Option (Point α)) = some v.point := by
  obtain ⟨i0, s1, x, s2, y, s3, z, tr⟩ := v
  obtain ⟨hi, hs1, hx, hs2, hy, hs3, hz, -, -⟩ := h
  simp only at hi hs1 hx hs2 hy hs3 hz
  have hm : markWs 0 ((vertexWord ++ (s1 ++ (x ++ (s2 ++ (y ++ (s3 ++ z)))))) ++ e) =
      (vertexWord.map (·, false) ++ (s1.map (·, true) ++ (x.map (·, false) ++ (s2.map (·, true) ++ (y.map (·, false) ++
        (s3.map (·, true) ++ z.map (·, false))))))) ++ e.map (·, true) := by
    simp only [List.append_assoc]
    rw [markWs_printable _ _ vertexWord_printable, markWs_blanks _ _ hs1.2, markWs_printable _ _ hx.2, markWs_blanks _ _ hs2.2,
      markWs_printable _ _ hy.2, markWs_blanks _ _ hs3.2, markWs_printable _ _ hz.2]
    have := markWs_blanks e [] he
    rw [List.append_nil] at this
    rw [this]
    simp [markWs]
  have ht : trimSpace (i0 ++ ((vertexWord ++ (s1 ++ (x ++ (s2 ++ (y ++ (s3 ++ z)))))) ++ e)) =
      vertexWord ++ (s1 ++ (x ++ (s2 ++ (y ++ (s3 ++ z))))) := by
    apply trimSpace_core _ _ _ hi he _ hm
    · simp [Function.comp_def]
    · intro a ha
      simp only [vertexWord, List.map_cons, List.cons_append, List.head?_cons, Option.some.injEq] at ha
      rw [← ha]
    · intro a ha
      obtain ⟨z', c, rfl⟩ : ∃ z' c, z = z' ++ [c] := ⟨z.dropLast, z.getLast hz.1, (List.dropLast_append_getLast hz.1).symm⟩
      simp only [List.map_append, List.map_cons, List.map_nil, ← List.append_assoc, List.getLast?_concat, Option.some.injEq] at ha
      rw [← ha]
  have hline : ({ indent := i0, s1 := s1, x := x, s2 := s2, y := y, s3 := s3, z := z, trail := e } : VertexText).line =
      i0 ++ ((vertexWord ++ (s1 ++ (x ++ (s2 ++ (y ++ (s3 ++ z)))))) ++ e) := by
    simp [VertexText.line]
  unfold vertexLine
  show (let line := trimSpace ({ indent := i0, s1 := s1, x := x, s2 := s2, y := y, s3 := s3, z := z, trail := e } : VertexText).line; _) = _
  rw [hline, ht]
  have l1 := List.length_pos_iff.2 hs1.1
  have l2 := List.length_pos_iff.2 hx.1
  have l3 := List.length_pos_iff.2 hs2.1
  have l4 := List.length_pos_iff.2 hy.1
  have l5 := List.length_pos_iff.2 hs3.1
  have l6 := List.length_pos_iff.2 hz.1
  rw [if_neg]
  swap
  · intro hc
    rcases hc with hc | hc
    · simp [vertexWord] at hc; omega
    · simp [vertexWord] at hc
  obtain ⟨c1, s1', rfl⟩ : ∃ c s', s1 = c :: s' := List.exists_cons_of_ne_nil hs1.1
  have hd : (vertexWord ++ ((c1 :: s1') ++ (x ++ (s2 ++ (y ++ (s3 ++ z)))))).drop 7 = s1' ++ (x ++ (s2 ++ (y ++ (s3 ++ z)))) := by
    simp [vertexWord]
  rw [hd]
  have hf : fields (s1' ++ (x ++ (s2 ++ (y ++ (s3 ++ z))))) = [x, y, z] := by
    unfold fields
    rw [markWs_blanks _ _ (fun c hc => hs1.2 c (List.mem_cons_of_mem _ hc)), markWs_printable _ _ hx.2, markWs_blanks _ _ hs2.2,
      markWs_printable _ _ hy.2, markWs_blanks _ _ hs3.2]
    have := markWs_printable z [] hz.2
    rw [List.append_nil] at this
    rw [this, fieldsAux_blanks, fieldsAux_token, List.nil_append, fieldsAux_sep _ _ hx.1 hs2.1, fieldsAux_token, List.nil_append,
      fieldsAux_sep _ _ hy.1 hs3.1, fieldsAux_token, List.nil_append]
    simp [markWs, fieldsAux, hz.1]
  rw [hf]
  rfl

theorem dropWhile_head_false (l : List (UInt8 × Bool)) (h : ∀ a ∈ l, a.2 = true) : l.dropWhile (·.2) = [] := by
  rw [List.dropWhile_eq_nil_iff]; exact h

/-- lines that do not start with `v` are skipped -/
theorem vertexLine_other (i r : Bytes) (hi : ∀ c ∈ i, Blank c)
    (hr : r = [] ∨ ∃ c r', r = c :: r' ∧ Printable c ∧ c ≠ 118) : (vertexLine (i ++ r) : Option (Point α)) = none := by
  have key : (trimSpace (i ++ r)).head? ≠ some 118 ∨ (trimSpace (i ++ r)).length < 12 := by
    unfold trimSpace
    rw [markWs_blanks i _ hi, dropWhile_blanks]
    rcases hr with rfl | ⟨c, r', rfl, hp, hc⟩
    · right; simp [markWs]
    · left
      have e := markWs_printable [c] r' (by intro x hx; rw [List.mem_singleton] at hx; exact hx ▸ hp)
      rw [List.singleton_append] at e
      rw [e]
      simp only [List.map_cons, List.map_nil, List.singleton_append]
      rw [List.dropWhile_cons, if_neg (by simp)]
      -- the first byte survives trimming on the right
      have : ∀ m : List (UInt8 × Bool), (((((c, false) :: m).reverse).dropWhile (·.2)).reverse.map (·.1)).head? = some c := by
        intro m
        rw [List.reverse_cons]
        have : ∀ l : List (UInt8 × Bool), ((l ++ [(c, false)]).dropWhile (·.2)).reverse.head? = some (c, false) := by
          intro l
          induction l with
          | nil => simp [List.dropWhile_cons]
          | cons a l ih =>
            rw [List.cons_append, List.dropWhile_cons]
            split_ifs
            · exact ih
            · simp
        rw [List.head?_map, this]; rfl
      rw [this]
      simpa using hc
  unfold vertexLine
  dsimp only
  rw [if_pos]
  rcases key with h | h
  · exact Or.inr h
  · exact Or.inl h

/-! ## lines -/

theorem scanLines_step (cur l t : Bytes) (hl : 10 ∉ l) : scanLines cur (l ++ t) = scanLines (cur ++ l) t := by
  induction l generalizing cur with
  | nil => simp
  | cons c l ih =>
    have hc : c ≠ 10 := fun h => hl (by simp [h])
    rw [List.cons_append, scanLines, if_neg hc, ih _ (fun h => hl (List.mem_cons_of_mem _ h))]
    simp

theorem scanLines_doc (ls : List Bytes) (h : ∀ l ∈ ls, 10 ∉ l ∧ l.length < 65536) :
    scanLines [] (docText ls) = (ls.map dropCR, false) := by
  induction ls with
  | nil => rfl
  | cons l ls ih =>
    obtain ⟨h1, h2⟩ := h l List.mem_cons_self
    have e : docText (l :: ls) = l ++ (10 :: docText ls) := by simp [docText]
    rw [e, scanLines_step [] l _ h1, List.nil_append, scanLines, if_pos rfl, if_neg (by omega)]
    rw [ih (fun l hl => h l (List.mem_cons_of_mem _ hl))]
    rfl

theorem dropCR_append (l e : Bytes) (h : e ≠ []) : dropCR (l ++ e) = l ++ dropCR e := by
  unfold dropCR
  obtain ⟨e', c, rfl⟩ : ∃ e' c, e = e' ++ [c] := ⟨e.dropLast, e.getLast h, (List.dropLast_append_getLast h).symm⟩
  rw [← List.append_assoc, List.getLast?_concat, List.getLast?_concat, List.dropLast_concat, List.dropLast_concat]
  split_ifs <;> simp

theorem dropCR_sub (l : Bytes) {P : UInt8 → Prop} (h : ∀ c ∈ l, P c) : ∀ c ∈ dropCR l, P c := by
  intro c hc
  unfold dropCR at hc
  split_ifs at hc
  · exact h c (List.mem_of_mem_dropLast hc)
  · exact h c hc

theorem printable_not_cr {t : Bytes} (h : Token t) (l : Bytes) : dropCR (l ++ t) = l ++ t := by
  rw [dropCR_append _ _ h.1]
  congr 1
  unfold dropCR
  rw [if_neg]
  intro hc
  have := h.2 13 (List.mem_of_getLast? hc)
  exact absurd this.1 (by decide)

theorem vertexLine_dropCR (v : VertexText) (h : v.Ok) : (vertexLine (dropCR v.line) : Option (Point α)) = some v.point := by
  by_cases he : v.trail = []
  · have : dropCR v.line = ({ v with trail := [] } : VertexText).line := by
      have e : v.line = (v.indent ++ (vertexWord ++ (v.s1 ++ (v.x ++ (v.s2 ++ (v.y ++ v.s3)))))) ++ v.z := by
        simp [VertexText.line, he]
      rw [e, printable_not_cr h.z]
      simp [VertexText.line]
    rw [this]
    exact vertexLine_line v h [] (by simp)
  · have : dropCR v.line = ({ v with trail := dropCR v.trail } : VertexText).line := by
      have e : v.line = (v.indent ++ (vertexWord ++ (v.s1 ++ (v.x ++ (v.s2 ++ (v.y ++ (v.s3 ++ v.z))))))) ++ v.trail := by
        simp [VertexText.line]
      rw [e, dropCR_append _ _ he]
      simp [VertexText.line]
    rw [this]
    exact vertexLine_line v h _ (dropCR_sub _ h.trail)

theorem vertexLine_otherCR (l : Bytes) (h : OtherLine l) : (vertexLine (dropCR l) : Option (Point α)) = none := by
  obtain ⟨-, -, i, r, rfl, hi, hr⟩ := h
  rcases hr with rfl | ⟨c, r', rfl, hp, hc⟩
  · rw [List.append_nil]
    have := vertexLine_other (α := α) (dropCR i) [] (dropCR_sub _ hi) (Or.inl rfl)
    rwa [List.append_nil] at this
  · rw [dropCR_append _ _ (by simp)]
    apply vertexLine_other _ _ hi
    right
    by_cases h0 : r' = []
    · subst h0
      refine ⟨c, [], ?_, hp, hc⟩
      have := printable_not_cr (t := [c]) ⟨by simp, by simpa using hp⟩ []
      simpa using this
    · refine ⟨c, dropCR r', ?_, hp, hc⟩
      have := dropCR_append [c] r' h0
      simpa using this

theorem filterMap_other (ls : List Bytes) (h : ∀ l ∈ ls, OtherLine l) :
    (ls.map dropCR).filterMap (vertexLine (α := α)) = [] := by
  rw [List.filterMap_eq_nil_iff]
  intro l hl
  obtain ⟨l', hl', rfl⟩ := List.mem_map.1 hl
  exact vertexLine_otherCR l' (h l' hl')

theorem no_newline (v : VertexText) (h : v.Ok) : 10 ∉ v.line := by
  have hb : ∀ {s : Bytes}, (∀ c ∈ s, Blank c) → 10 ∉ s := by
    intro s hs hc
    rcases hs 10 hc with h | h | h | h | h <;> exact absurd h (by decide)
  have hp : ∀ {s : Bytes}, (∀ c ∈ s, Printable c) → 10 ∉ s := by
    intro s hs hc
    exact absurd (hs 10 hc).1 (by decide)
  simp only [VertexText.line, List.mem_append, not_or]
  exact ⟨hb h.indent, hp vertexWord_printable, hb h.s1.2, hp h.x.2, hb h.s2.2, hp h.y.2, hb h.s3.2, hp h.z.2, hb h.trail⟩

/-! ## grouping -/

/-- cut a list into consecutive byThree, dropping an incomplete rest -/
def byThree {β : Type} : List β → List (β × β × β)
  | a :: b :: c :: t => (a, b, c) :: byThree t
  | _ => []

theorem asciiStep_byThree (ps : List (Point α)) (st : AsciiSt α) (h : st.i % 3 = 0) :
    (ps.foldl asciiStep st).tris = st.tris ++ (byThree ps).map (fun q => newTriangle q.1 q.2.1 q.2.2) := by
  induction ps using byThree.induct generalizing st with
  | case1 a b c t ih =>
    have h1 : (st.i + 1) % 3 = 1 := by omega
    have h2 : (st.i + 1 + 1) % 3 = 2 := by omega
    simp only [List.foldl_cons, asciiStep, h, h1, h2]
    rw [ih _ (by show (st.i + 1 + 1 + 1) % 3 = 0; omega)]
    simp [byThree]
  | case2 ps hps =>
    rcases ps with _ | ⟨a, _ | ⟨b, _ | ⟨c, t⟩⟩⟩
    · simp [byThree]
    · simp [byThree, asciiStep, h]
    · have h1 : (st.i + 1) % 3 = 1 := by omega
      simp [byThree, asciiStep, h, h1]
    · exact absurd rfl (hps a b c t)

theorem byThree_length {β : Type} (l : List β) : (byThree l).length = l.length / 3 := by
  induction l using byThree.induct with
  | case1 a b c t ih => simp [byThree, ih]; omega
  | case2 l hl =>
    rcases l with _ | ⟨a, _ | ⟨b, _ | ⟨c, t⟩⟩⟩ <;> simp [byThree]
    exact absurd rfl (hl a b c t)

theorem byThree_append3 {β : Type} (a b c : β) (t : List β) : byThree (a :: b :: c :: t) = (a, b, c) :: byThree t := rfl

/-- **C05 (arbitrary text).** The triangles are the accepted vertices taken three at a time; their number is a third of
the number of accepted vertex lines, rounded down. -/
theorem C05_any_text (b : Bytes) : ∃ ts : List (Triangle α), (loadSTLAscii b : Option (Mesh α) × Option LoadErr).1 = some ⟨ts⟩ ∧
    ts = (byThree ((scanLines [] b).1.filterMap vertexLine)).map (fun q => newTriangle q.1 q.2.1 q.2.2) ∧
    ts.length = ((scanLines [] b).1.countP (fun l => (vertexLine l : Option (Point α)).isSome)) / 3 := by
  refine ⟨_, rfl, ?_, ?_⟩
  · rw [asciiStep_byThree _ _ rfl, List.nil_append]
  · rw [asciiStep_byThree _ _ rfl, List.nil_append, List.length_map, byThree_length, List.length_filterMap_eq_countP]

/-- **C05 (documents).** For every document in the standard layout the loader returns its facets in order with their
vertices in order. -/
theorem C05_document (head tail : List Bytes) (fs : List FacetText) (hh : ∀ l ∈ head, OtherLine l) (ht : ∀ l ∈ tail, OtherLine l)
    (hf : ∀ f ∈ fs, f.Ok) :
    (loadSTLAscii (docText (head ++ fs.flatMap FacetText.lines ++ tail)) : Option (Mesh α) × Option LoadErr) =
      (some ⟨fs.map (fun f => newTriangle f.v1.point f.v2.point f.v3.point)⟩, none) := by
  have hlines : ∀ l ∈ head ++ fs.flatMap FacetText.lines ++ tail, 10 ∉ l ∧ l.length < 65536 := by
    intro l hl
    simp only [List.mem_append, List.mem_flatMap] at hl
    rcases hl with (hl | ⟨f, hf', hl⟩) | hl
    · exact ⟨(hh l hl).2.1, (hh l hl).1⟩
    · have ho := hf f hf'
      simp only [FacetText.lines, List.mem_append, List.mem_cons, List.not_mem_nil, or_false] at hl
      rcases hl with (hl | hl | hl | hl) | hl
      · exact ⟨(ho.before l hl).2.1, (ho.before l hl).1⟩
      · subst hl; exact ⟨no_newline _ ho.v1, ho.v1.short⟩
      · subst hl; exact ⟨no_newline _ ho.v2, ho.v2.short⟩
      · subst hl; exact ⟨no_newline _ ho.v3, ho.v3.short⟩
      · exact ⟨(ho.after l hl).2.1, (ho.after l hl).1⟩
    · exact ⟨(ht l hl).2.1, (ht l hl).1⟩
  have hps : ∀ fs : List FacetText, (∀ f ∈ fs, f.Ok) →
      ((fs.flatMap FacetText.lines).map dropCR).filterMap (vertexLine (α := α)) =
        fs.flatMap (fun f => [f.v1.point, f.v2.point, f.v3.point]) := by
    intro fs hf
    induction fs with
    | nil => rfl
    | cons f fs ih =>
      have ho := hf f List.mem_cons_self
      rw [List.flatMap_cons, List.map_append, List.filterMap_append, ih (fun g hg => hf g (List.mem_cons_of_mem _ hg)), List.flatMap_cons]
      congr 1
      simp only [FacetText.lines, List.map_append, List.filterMap_append]
      rw [filterMap_other _ ho.before, filterMap_other _ ho.after]
      simp [vertexLine_dropCR _ ho.v1, vertexLine_dropCR _ ho.v2, vertexLine_dropCR _ ho.v3]
  have htr : ∀ fs : List FacetText, (byThree (fs.flatMap (fun f => [(f.v1.point : Point α), f.v2.point, f.v3.point]))).map
      (fun q => newTriangle q.1 q.2.1 q.2.2) = fs.map (fun f => newTriangle f.v1.point f.v2.point f.v3.point) := by
    intro fs
    induction fs with
    | nil => rfl
    | cons f fs ih =>
      rw [List.flatMap_cons]
      show (byThree (f.v1.point :: f.v2.point :: f.v3.point :: fs.flatMap _)).map _ = _
      rw [byThree_append3, List.map_cons, ih]; rfl
  unfold loadSTLAscii
  rw [scanLines_doc _ hlines]
  simp only [List.map_append, List.filterMap_append, filterMap_other _ hh, filterMap_other _ ht, List.nil_append, List.append_nil, hps fs hf,
    Bool.false_eq_true, if_false]
  rw [asciiStep_byThree _ _ rfl, List.nil_append, htr]

/-- a facet as written by common tools: "facet normal 0 0 1", "  outer loop\r", three vertices in different styles,
"  endloop", "endfacet" -/
def demoFacet : FacetText where
  before := [[102, 97, 99, 101, 116, 32, 110, 111, 114, 109, 97, 108, 32, 48, 32, 48, 32, 49],
    [32, 32, 111, 117, 116, 101, 114, 32, 108, 111, 111, 112, 13]]
  v1 := ⟨[32, 32], [32], [48], [32], [48], [32], [48], []⟩
  v2 := ⟨[9], [32, 32], [49, 46, 53], [9], [48], [32], [48], [13]⟩
  v3 := ⟨[], [32], [48], [32], [49, 101, 51], [32], [45, 49], [32, 13]⟩
  after := [[32, 32, 101, 110, 100, 108, 111, 111, 112], [101, 110, 100, 102, 97, 99, 101, 116]]

instance (c : UInt8) : Decidable (Blank c) := by unfold Blank; infer_instance
instance (c : UInt8) : Decidable (Printable c) := by unfold Printable; infer_instance
instance (c : Bytes) : Decidable (Token c) := by unfold Token; infer_instance
instance (c : Bytes) : Decidable (Sep c) := by unfold Sep; infer_instance

theorem otherLine_intro (i : Bytes) (c : UInt8) (r : Bytes) (h : (i ++ c :: r).length < 65536 ∧ 10 ∉ i ++ c :: r ∧
    (∀ c ∈ i, Blank c) ∧ Printable c ∧ c ≠ 118) : OtherLine (i ++ c :: r) :=
  ⟨h.1, h.2.1, i, c :: r, rfl, h.2.2.1, Or.inr ⟨c, r, rfl, h.2.2.2.1, h.2.2.2.2⟩⟩

/-- the hypotheses of `C05_document` are met -/
example : demoFacet.Ok := by
  refine ⟨?_, ⟨by decide, by decide, by decide, by decide, by decide, by decide, by decide, by decide, by decide⟩,
    ⟨by decide, by decide, by decide, by decide, by decide, by decide, by decide, by decide, by decide⟩,
    ⟨by decide, by decide, by decide, by decide, by decide, by decide, by decide, by decide, by decide⟩, ?_⟩
  · intro l hl
    simp only [demoFacet, List.mem_cons, List.not_mem_nil, or_false] at hl
    rcases hl with rfl | rfl
    · exact otherLine_intro [] 102 _ (by decide)
    · exact otherLine_intro [32, 32] 111 _ (by decide)
  · intro l hl
    simp only [demoFacet, List.mem_cons, List.not_mem_nil, or_false] at hl
    rcases hl with rfl | rfl
    · exact otherLine_intro [32, 32] 101 _ (by decide)
    · exact otherLine_intro [] 101 _ (by decide)

/-- five accepted vertex lines give one triangle -/
example : (byThree [1, 2, 3, 4, 5]).length = 1 := by rw [byThree_length]; rfl

end Goosli
