import Verif.Props.C112
import Verif.Props.C100
import Verif.Proofs.ShippedFile
/-!
# C113: the debug file shows what the run drew
-/
set_option autoImplicit false
namespace Goosli
open Spec

/-! ## specification: reading the file -/

/-- a shape in the file: what it is, its colour and its points -/
structure Shape where
  kind : List Char
  color : List Char
  points : List R3

/-- the word for a colour -/
def colorWord : DebugColor → List Char
  | .red => ['R', 'e', 'd']
  | .blue => ['B', 'l', 'u', 'e']
  | .green => ['G', 'r', 'e', 'e', 'n']
  | .black => ['B', 'l', 'a', 'c', 'k']

theorem colorWord_eq (c : DebugColor) : c.name.toList = colorWord c := by cases c <;> rfl

/-- three numbers at a time -/
noncomputable def readPoints : List (List Char) → List R3
  | x :: y :: z :: t => ⟨readDec x, readDec y, readDec z⟩ :: readPoints t
  | _ => []

/-- the shape of a line of the file -/
noncomputable def readShape (line : List Char) : Option Shape :=
  match splitAtChar ' ' line with
  | kind :: color :: nums => some ⟨kind, color, readPoints nums⟩
  | _ => none

/-- the shapes of a file: one for each line that is not empty -/
noncomputable def readShapes (text : List Char) : List (Option Shape) := ((splitAtChar '\n' text).filter (· ≠ [])).map readShape

section
variable {α : Type} [FltText α]

/-- a point as it can be read from the text -/
noncomputable def seen (p : Point α) : R3 :=
  ⟨readDec (FltText.fmt3 p.x).toList, readDec (FltText.fmt3 p.y).toList, readDec (FltText.fmt3 p.z).toList⟩

/-- the segments between consecutive points -/
noncomputable def segmentShapes (c : DebugColor) (ps : List (Point α)) : List Shape :=
  (ps.zip ps.tail).map fun q => ⟨"line".toList, colorWord c, [seen q.1, seen q.2]⟩

/-- the shapes of a drawing -/
noncomputable def shapesOf : Drawing α → List Shape
  | .points ps c => segmentShapes c ps
  | .line l c => [⟨"line".toList, colorWord c, [seen l.p1, seen l.p2]⟩]
  | .triangle t c => [⟨"triangle".toList, colorWord c, [seen t.p1, seen t.p2, seen t.p3]⟩]
  | .corners p1 p2 p3 c => [⟨"triangle".toList, colorWord c, [seen p1, seen p2, seen p3]⟩]
  | .layer paths c => paths.flatMap fun p => segmentShapes c p.points
  | .path p c => segmentShapes c p.points

/-! ## the text of a drawing -/

/-- words, each with a blank after it -/
def spaced (ws : List (List Char)) : List Char := ws.flatMap fun w => w ++ [' ']

theorem split_spaced (ws : List (List Char)) (h : ∀ w ∈ ws, ∀ c ∈ w, c ≠ ' ') : splitAtChar ' ' (spaced ws) = ws ++ [[]] := by
  induction ws with
  | nil => rfl
  | cons w t ih =>
    have e : spaced (w :: t) = w ++ ' ' :: spaced t := by simp [spaced]
    rw [e, splitAtChar_append (h w (by simp)), ih fun w hw => h w (by simp [hw])]
    rfl

/-- the words of a point -/
def pointWords (p : Point α) : List (List Char) := [(FltText.fmt3 p.x).toList, (FltText.fmt3 p.y).toList, (FltText.fmt3 p.z).toList]

theorem pointText_words (p : Point α) : (pointText p).toList = spaced (pointWords p) := by
  simp [pointText, spaced, pointWords, String.toList_append]

/-- the line of the file for a shape with the given points -/
def shapeWords (kind : String) (c : DebugColor) (ps : List (Point α)) : List (List Char) := kind.toList :: c.name.toList :: ps.flatMap pointWords

theorem spaced_append (a b : List (List Char)) : spaced (a ++ b) = spaced a ++ spaced b := by simp [spaced]

theorem lineText_words (c : DebugColor) (a b : Point α) : (lineText c a b).toList = spaced (shapeWords "line" c [a, b]) ++ ['\n'] := by
  have e : shapeWords "line" c [a, b] = ["line".toList, c.name.toList] ++ (pointWords a ++ pointWords b) := by simp [shapeWords]
  rw [e, spaced_append, spaced_append, ← pointText_words, ← pointText_words]
  simp [lineText, spaced, String.toList_append]

theorem triangleText_words (c : DebugColor) (p1 p2 p3 : Point α) :
    (triangleText c p1 p2 p3).toList = spaced (shapeWords "triangle" c [p1, p2, p3]) ++ ['\n'] := by
  have e : shapeWords "triangle" c [p1, p2, p3] = ["triangle".toList, c.name.toList] ++ (pointWords p1 ++ (pointWords p2 ++ pointWords p3)) := by
    simp [shapeWords]
  rw [e, spaced_append, spaced_append, spaced_append, ← pointText_words, ← pointText_words, ← pointText_words]
  simp [triangleText, spaced, String.toList_append]

theorem readPoints_words (ps : List (Point α)) : readPoints (ps.flatMap pointWords ++ [[]]) = ps.map seen := by
  induction ps with
  | nil => rfl
  | cons p t ih =>
    rw [List.map_cons, ← ih]
    rfl

variable [CleanText α]

theorem pointWords_clean {ps : List (Point α)} {w : List Char} (h : w ∈ ps.flatMap pointWords) : ∀ c ∈ w, c ≠ ' ' ∧ c ≠ '\n' := by
  obtain ⟨p, -, hw⟩ := List.mem_flatMap.1 h
  simp only [pointWords, List.mem_cons, List.not_mem_nil, or_false] at hw
  rcases hw with rfl | rfl | rfl <;> exact fun c hc => ⟨(CleanText.clean _ c hc).1, (CleanText.clean _ c hc).2.1⟩

theorem color_clean (c : DebugColor) : ∀ d ∈ c.name.toList, d ≠ ' ' ∧ d ≠ '\n' := by
  cases c <;> decide

theorem shapeWords_clean {kind : String} (hk : ∀ d ∈ kind.toList, d ≠ ' ' ∧ d ≠ '\n') {c : DebugColor} {ps : List (Point α)} :
    ∀ w ∈ shapeWords kind c ps, ∀ d ∈ w, d ≠ ' ' ∧ d ≠ '\n' := by
  intro w hw
  simp only [shapeWords, List.mem_cons] at hw
  rcases hw with rfl | rfl | hw
  · exact hk
  · exact color_clean c
  · exact pointWords_clean hw

theorem readShape_words {kind : String} (hk : ∀ d ∈ kind.toList, d ≠ ' ' ∧ d ≠ '\n') (c : DebugColor) (ps : List (Point α)) :
    readShape (spaced (shapeWords kind c ps)) = some ⟨kind.toList, colorWord c, ps.map seen⟩ := by
  unfold readShape
  rw [split_spaced _ fun w hw d hd => (shapeWords_clean hk w hw d hd).1]
  rw [← readPoints_words, ← colorWord_eq]
  rfl

/-- the text consists of lines which are read as the shapes -/
def Shows (text : List Char) (shapes : List Shape) : Prop :=
  ∃ ls : List (List Char), text = unlines ls ∧ (∀ b ∈ ls, b ≠ [] ∧ '\n' ∉ b) ∧ ls.map readShape = shapes.map some

theorem Shows.nil : Shows [] [] := ⟨[], rfl, by simp, rfl⟩

theorem Shows.append {a b : List Char} {s t : List Shape} (h : Shows a s) (k : Shows b t) : Shows (a ++ b) (s ++ t) := by
  obtain ⟨l, rfl, h2, h3⟩ := h
  obtain ⟨m, rfl, k2, k3⟩ := k
  refine ⟨l ++ m, by simp [unlines], ?_, by simp [h3, k3]⟩
  intro x hx
  rcases List.mem_append.1 hx with hx | hx
  · exact h2 x hx
  · exact k2 x hx

theorem Shows.words {kind : String} (hk : ∀ d ∈ kind.toList, d ≠ ' ' ∧ d ≠ '\n') (c : DebugColor) (ps : List (Point α)) :
    Shows (spaced (shapeWords kind c ps) ++ ['\n']) [⟨kind.toList, colorWord c, ps.map seen⟩] := by
  refine ⟨[spaced (shapeWords kind c ps)], by simp [unlines], ?_, by simp [readShape_words hk]⟩
  intro b hb
  rw [List.mem_singleton.1 hb]
  refine ⟨by simp [spaced, shapeWords], fun hn => ?_⟩
  obtain ⟨w, hw, hc⟩ := List.mem_flatMap.1 hn
  rcases List.mem_append.1 hc with hc | hc
  · exact (shapeWords_clean hk w hw _ hc).2 rfl
  · simp at hc

theorem Shows.run (c : DebugColor) (ps : List (Point α)) : Shows (runText c ps) (segmentShapes c ps) := by
  induction ps with
  | nil => exact Shows.nil
  | cons a t ih =>
    cases t with
    | nil => exact Shows.nil
    | cons b t =>
      rw [runText, lineText_words]
      exact (Shows.words (by decide) c [a, b]).append ih

theorem Shows.flatMap {β : Type} (l : List β) {f : β → List Char} {g : β → List Shape} (h : ∀ x ∈ l, Shows (f x) (g x)) :
    Shows (l.flatMap f) (l.flatMap g) := by
  induction l with
  | nil => exact Shows.nil
  | cons a t ih =>
    rw [List.flatMap_cons, List.flatMap_cons]
    exact (h a (by simp)).append (ih fun x hx => h x (by simp [hx]))

theorem Shows.drawing (x : Drawing α) : Shows x.text (shapesOf x) := by
  cases x with
  | points ps c => exact Shows.run c ps
  | line l c => rw [Drawing.text, lineText_words]; exact Shows.words (by decide) c _
  | triangle t c => rw [Drawing.text, triangleText_words]; exact Shows.words (by decide) c _
  | corners p1 p2 p3 c => rw [Drawing.text, triangleText_words]; exact Shows.words (by decide) c _
  | layer paths c => exact Shows.flatMap paths fun p _ => Shows.run c p.points
  | path p c => exact Shows.run c p.points

theorem split_lines (ls : List (List Char)) (h : ∀ b ∈ ls, '\n' ∉ b) : splitAtChar '\n' (unlines ls) = ls ++ [[]] := by
  induction ls with
  | nil => rfl
  | cons b t ih =>
    have e : unlines (b :: t) = b ++ '\n' :: unlines t := by simp [unlines]
    rw [e, splitAtChar_append (by intro c hc he; subst he; exact h b (by simp) hc), ih fun b hb => h b (by simp [hb])]
    rfl

omit [CleanText α] [FltText α] in
theorem Shows.read {text : List Char} {shapes : List Shape} (h : Shows text shapes) : readShapes text = shapes.map some := by
  obtain ⟨ls, rfl, h2, h3⟩ := h
  unfold readShapes
  rw [split_lines ls fun b hb => (h2 b hb).2, List.filter_append, List.filter_eq_self.2 (fun b hb => by simpa using (h2 b hb).1), ← h3]
  simp

/-! ## the run -/

omit [CleanText α] in
theorem draws_append (cfg : DebugCfg) (h : cfg.debug = true) (xs : List (Drawing α)) :
    ∀ (d : Disk) (old : List Char), d.content cfg.debugFile = some old → d.canAppend cfg.debugFile = true →
      ∃ d', runDebug cfg (xs.map .draw) d = .ok d' ∧ d'.content cfg.debugFile = some (old ++ xs.flatMap Drawing.text) ∧
        ∀ n, n ≠ cfg.debugFile → d'.content n = d.content n := by
  induction xs with
  | nil => intro d old ho _; exact ⟨d, rfl, by simp [ho], fun _ _ => rfl⟩
  | cons x t ih =>
    intro d old ho ha
    obtain ⟨d', h1, h2, h3⟩ := ih (d.put cfg.debugFile (some (old ++ x.text))) (old ++ x.text) (by simp [Disk.put]) ha
    have e : (DebugStep.draw x).run cfg d = .ok (d.put cfg.debugFile (some (old ++ x.text))) := by
      simp [DebugStep.run, draw, h, addToFile, ho, ha]
    refine ⟨d', by rw [List.map_cons, runDebug, e]; exact h1, by rw [h2]; simp, fun n hn => (h3 n hn).trans (if_neg hn)⟩

/-- **C113.** With debugging switched on and a file that can be written, a run that calls `RecreateFile` and draws ends without a panic; then the debug file
is read as exactly the shapes that were drawn in this run, in their order and with the coordinates to three decimals, whatever was in it before, and no
other file has changed. -/
theorem C113_drawn (cfg : DebugCfg) (h : cfg.debug = true) (xs : List (Drawing α)) (d : Disk) (hc : d.canCreate cfg.debugFile = true)
    (ha : d.canAppend cfg.debugFile = true) :
    ∃ d' text, runDebug cfg (.recreate :: xs.map .draw) d = .ok d' ∧ d'.content cfg.debugFile = some text ∧
      readShapes text = (xs.flatMap shapesOf).map some ∧ ∀ n, n ≠ cfg.debugFile → d'.content n = d.content n := by
  obtain ⟨d', h1, h2, h3⟩ := draws_append cfg h xs (d.put cfg.debugFile (some [])) [] (by simp [Disk.put]) ha
  refine ⟨d', _, ?_, h2, ?_, fun n hn => (h3 n hn).trans (if_neg hn)⟩
  · rw [runDebug]
    show runDebug cfg (xs.map .draw) (recreateFile cfg d) = _
    rw [recreateFile_eq, if_pos hc]
    exact h1
  · rw [List.nil_append]
    exact (Shows.flatMap xs fun x _ => Shows.drawing x).read

omit [CleanText α] in
/-- **C113, panic.** Debugging is not harmless: where the debug file does not exist and cannot be created, the first drawing, even of nothing, ends the
program with a panic, before the G-code is written. -/
theorem C113_panic (cfg : DebugCfg) (h : cfg.debug = true) (x : Drawing α) (rest : List (DebugStep α)) (d : Disk)
    (hc : d.canCreate cfg.debugFile = false) (hn : d.content cfg.debugFile = none) :
    runDebug cfg (.recreate :: .draw x :: rest) d = .error .panic := by
  have e : recreateFile cfg d = d := by rw [recreateFile_eq, hc]; rfl
  have e1 : DebugStep.recreate.run (α := α) cfg d = .ok d := by rw [DebugStep.run, e]
  have e2 : (DebugStep.draw x).run cfg d = .error .panic := by simp [DebugStep.run, draw, h, addToFile, hn]
  rw [runDebug, e1]
  show (do runDebug cfg rest (← (DebugStep.draw x).run cfg d)) = _
  rw [e2]
  rfl

end

open Flt in
/-- in float64 a coordinate is read as the number rounded to thousandths -/
theorem seen_f64 {w : R3} (h : w.isF) : seen w.f64 = w.thousandth := by
  obtain ⟨hx, hy, hz⟩ := h
  show R3.mk (readDec (FltText.fmt3 (B64.of w.x)).toList) (readDec (FltText.fmt3 (B64.of w.y)).toList) (readDec (FltText.fmt3 (B64.of w.z)).toList) = _
  rw [val_of64 hx, val_of64 hy, val_of64 hz]
  rfl

open Flt in
/-- a path over three points and a triangle, drawn in a file in which something else was: two lines and the triangle are read -/
example (a b c : R3) (ha : a.isF) (hb : b.isF) (hc : c.isF) :
    ∃ d' text, runDebug (α := B64) ⟨true, "f"⟩ [.recreate, .draw (.path ⟨[a.f64, b.f64, c.f64]⟩ .green), .draw (.corners a.f64 b.f64 c.f64 .red)]
      ⟨fun _ => some "old".toList, fun _ => true, fun _ => true⟩ = .ok d' ∧ d'.content "f" = some text ∧
    readShapes text = [some ⟨"line".toList, "Green".toList, [a.thousandth, b.thousandth]⟩, some ⟨"line".toList, "Green".toList, [b.thousandth, c.thousandth]⟩,
      some ⟨"triangle".toList, "Red".toList, [a.thousandth, b.thousandth, c.thousandth]⟩] := by
  obtain ⟨d', text, h1, h2, h3, -⟩ := C113_drawn (α := B64) ⟨true, "f"⟩ rfl [.path ⟨[a.f64, b.f64, c.f64]⟩ .green, .corners a.f64 b.f64 c.f64 .red]
    ⟨fun _ => some "old".toList, fun _ => true, fun _ => true⟩ rfl rfl
  refine ⟨d', text, h1, h2, ?_⟩
  rw [h3]
  simp only [shapesOf, segmentShapes, List.flatMap_cons, List.flatMap_nil, List.tail_cons, List.zip_cons_cons, List.zip_nil_right, List.map_cons, List.map_nil,
    List.cons_append, List.nil_append, List.append_nil, seen_f64 ha, seen_f64 hb, seen_f64 hc]
  rfl

/-- the shipped file name with debugging switched on, on a computer without that directory -/
example (rest : List (DebugStep B64)) : runDebug { shippedDebugCfg with debug := true } (.recreate :: .draw (.points [] .red) :: rest)
    ⟨fun _ => none, fun _ => false, fun _ => false⟩ = .error .panic :=
  C113_panic _ rfl _ _ _ rfl rfl

end Goosli
