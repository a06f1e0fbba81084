import Verif.Proofs.PrinterLines
import Verif.Spec.GcodeObs
/-!
# Properties of every step of an execution
-/
set_option linter.unusedSectionVars false
namespace Goosli
open Spec Flt

variable {α : Type} [Flt α] [FltText α]

/-- run the printer and remember whether `Q` held at every step -/
noncomputable def qexec (Q : Printer → Stmt → Prop) (m : Printer × Prop) (l : GLine α) : Printer × Prop :=
  (execLine m.1 l, m.2 ∧ Q m.1 l.stmt)

theorem qexec_fst (Q : Printer → Stmt → Prop) (ls : List (GLine α)) (m : Printer × Prop) :
    (runLines (qexec Q) m ls).1 = runLines execLine m.1 ls := by
  induction ls generalizing m with
  | nil => rfl
  | cons a t ih => simp [ih, qexec]

theorem qexec_snd (Q : Printer → Stmt → Prop) (ls : List (GLine α)) (m : Printer × Prop) :
    (runLines (qexec Q) m ls).2 ↔ m.2 ∧ ∀ x ∈ steps m.1 (ls.map GLine.stmt), Q x.1 x.2 := by
  induction ls generalizing m with
  | nil => simp [steps]
  | cons a t ih =>
    rw [runLines_cons, ih]
    simp only [qexec, List.map_cons, steps, List.mem_cons, forall_eq_or_imp, and_assoc]
    rfl

/-- what holds at every step of the lines holds at every step of the text -/
theorem steps_text [CleanText α] (Q : Printer → Stmt → Prop) (p : Printer) (ls : List (GLine α))
    (hp : ∀ l ∈ ls, l.Plain) (hq : ∀ q, Q q (.words [])) :
    (∀ x ∈ steps p (parseText (renderAll ls)), Q x.1 x.2) ↔ ∀ x ∈ steps p (ls.map GLine.stmt), Q x.1 x.2 := by
  rw [parseText_renderAll ls hp]
  have : ∀ (l : List Stmt) p, (∀ x ∈ steps p (l ++ [.words []]), Q x.1 x.2) ↔ ∀ x ∈ steps p l, Q x.1 x.2 := by
    intro l
    induction l with
    | nil => intro p; simp [steps, hq]
    | cons a t ih => intro p; simp only [List.cons_append, steps, List.mem_cons, forall_eq_or_imp, ih]
  exact this _ _

/-- lines used inside a path -/
def isMotion (b : Bool) : GLine α → Prop
  | .travelZ _ => True
  | .travel _ _ _ => True
  | .extrude _ _ _ _ => True
  | .retract _ _ => b = true
  | _ => False

/-- what path lines leave alone -/
structure Frame (b : Bool) (q p : Printer) : Prop where
  fan : q.fan = p.fan
  layer : q.layer = p.layer
  sect : q.sect = p.sect
  tool : q.tool = p.tool
  feed : b = false → q.feed = p.feed
  ax : p.tool = 0 → q.axis 1 = p.axis 1 ∧ q.axis 2 = p.axis 2

theorem Frame.refl (b : Bool) (p : Printer) : Frame b p p :=
  ⟨rfl, rfl, rfl, rfl, fun _ => rfl, fun _ => ⟨rfl, rfl⟩⟩

theorem Frame.trans {b : Bool} {p q r : Printer} (h : Frame b r q) (h' : Frame b q p) : Frame b r p :=
  ⟨h.fan.trans h'.fan, h.layer.trans h'.layer, h.sect.trans h'.sect, h.tool.trans h'.tool,
   fun e => (h.feed e).trans (h'.feed e),
   fun e => ⟨(h.ax (h'.tool.trans e)).1.trans (h'.ax e).1, (h.ax (h'.tool.trans e)).2.trans (h'.ax e).2⟩⟩

theorem frame_exec {b : Bool} (p : Printer) (l : GLine α) (h : isMotion b l) : Frame b (execLine p l) p := by
  cases l <;> simp only [isMotion] at h
  · rw [exec_travelZ]; exact ⟨rfl, rfl, rfl, rfl, fun _ => rfl, fun _ => ⟨rfl, rfl⟩⟩
  · rw [exec_travel]; exact ⟨rfl, rfl, rfl, rfl, fun _ => rfl, fun _ => ⟨rfl, rfl⟩⟩
  · rw [exec_retract]
    refine ⟨rfl, rfl, rfl, rfl, fun e => ?_, fun e => ?_⟩
    · rw [h] at e; cases e
    · simp [drive, e]
  · rw [exec_extrude]
    refine ⟨rfl, rfl, rfl, rfl, fun _ => rfl, fun e => ?_⟩
    simp [drive, e]

theorem frame_lines {b : Bool} (ls : List (GLine α)) (p : Printer) (h : ∀ l ∈ ls, isMotion b l) :
    Frame b (runLines execLine p ls) p := by
  induction ls generalizing p with
  | nil => exact Frame.refl _ _
  | cons a t ih =>
    rw [runLines_cons]
    exact (ih _ (fun l hl => h l (by simp [hl]))).trans (frame_exec p a (h a (by simp)))

theorem frame_steps {b : Bool} (Q : Printer → Stmt → Prop) (ls : List (GLine α)) (p : Printer) (P : Prop)
    (h : ∀ l ∈ ls, isMotion b l) (hP : P) (hQ : ∀ q, Frame b q p → ∀ l ∈ ls, Q q l.stmt) :
    (runLines (qexec Q) (p, P) ls).2 := by
  induction ls generalizing p P with
  | nil => exact hP
  | cons a t ih =>
    rw [runLines_cons]
    refine ih _ _ (fun l hl => h l (by simp [hl])) ⟨hP, hQ p (Frame.refl _ _) a (by simp)⟩ ?_
    intro q hq l hl
    exact hQ q (hq.trans (frame_exec p a (h a (by simp)))) l (by simp [hl])

theorem motion_path {p : Path α} {sett : GcodeSettings α} {st r} (h : pathToGCode p sett st = .ok r) :
    ∀ l ∈ r.1, isMotion sett.retraction l := by
  obtain ⟨f, la, _, _, h1, _⟩ := pathToGCode_ok h
  intro l hl
  rw [h1] at hl
  rcases List.mem_append.1 hl with hl | hl
  · unfold preLines retractionToGCode at hl
    split at hl
    · simp at hl; rcases hl with rfl | rfl | rfl <;> trivial
    · rename_i hb
      simp at hl; rcases hl with rfl | rfl | rfl | rfl <;> simp [isMotion]
      simpa using hb
  · obtain ⟨q, _, e', rfl⟩ := mem_extLines hl
    trivial

theorem comment_plain {c : String} {b : Bool} (h : (c, b) ∈
    [("OUTER_PATHES", true), ("MIDDLE_PATHES", true), ("INNER_PATHES", true), ("FILL_PATHES", false)]) :
    (GLine.comment c : GLine α).Plain := by
  simp at h
  rcases h with ⟨rfl, _⟩ | ⟨rfl, _⟩ | ⟨rfl, _⟩ | ⟨rfl, _⟩ <;> (simp only [GLine.Plain]; decide)

/-- no statement of a bed command or of a layer change is a print move -/
theorem not_printMove (p : Printer) : (l : GLine α) → (∀ x y z e, l ≠ .extrude x y z e) → ¬ isPrintMove p l.stmt := by
  intro l hl
  cases l <;> simp [GLine.stmt, isPrintMove, numW, natW, intW, arg] ; exact absurd rfl (hl _ _ _ _)

theorem printMove_extrude (p : Printer) (x y z : Option α) (e : α) :
    isPrintMove p (GLine.extrude x y z e).stmt ↔ p.tool = 0 := by
  cases x <;> cases y <;> cases z <;> simp [GLine.stmt, isPrintMove, numW, arg]

theorem steps_append (p : Printer) (a b : List Stmt) :
    steps p (a ++ b) = steps p a ++ steps (p.run a) b := by
  induction a generalizing p with
  | nil => rfl
  | cons x t ih => simp [steps, ih, Printer.run]

/-- A step reached after the lines `a`. -/
theorem step_after [CleanText α] (p : Printer) (a b : List (GLine α)) (l : GLine α)
    (hp : ∀ k ∈ a ++ l :: b, k.Plain) :
    (runLines execLine p a, l.stmt) ∈ steps p (parseText (renderAll (a ++ l :: b))) := by
  rw [parseText_renderAll _ hp, List.map_append, List.append_assoc, steps_append]
  refine List.mem_append.2 (Or.inr ?_)
  have : p.run (a.map GLine.stmt) = runLines execLine p a := by
    rw [Printer.run, List.foldl_map]; rfl
  rw [this]; simp [steps]

end Goosli
