import Mathlib.Data.List.Basic
/-!
# Specification: templates

A template is text with holes. A hole is an opening brace, a name without braces, and a closing brace; the text in between has no
opening brace.
-/
namespace Goosli.Spec

variable {σ : Type}

/-- a piece of a template -/
inductive Piece (σ : Type) where
  | text (s : List σ)
  | hole (name : List σ)

/-- the text of a piece; `l` and `r` are the two braces -/
def Piece.show (l r : σ) : Piece σ → List σ
  | .text s => s
  | .hole n => l :: n ++ [r]

/-- the pieces of a template respect the braces -/
def Piece.ok (l r : σ) : Piece σ → Prop
  | .text s => l ∉ s
  | .hole n => l ∉ n ∧ r ∉ n

/-- the value of a name in a table -/
def valueOf [DecidableEq σ] (m : List (List σ × List σ)) (n : List σ) : Option (List σ) := (m.find? fun e => e.1 = n).map (·.2)

/-- what a piece becomes: a known hole its value, everything else stays as it is -/
def Piece.fill [DecidableEq σ] (l r : σ) (m : List (List σ × List σ)) : Piece σ → List σ
  | .text s => s
  | .hole n => match valueOf m n with
    | some v => v
    | none => l :: n ++ [r]

/-- the template a list of pieces stands for -/
def template (l r : σ) (ps : List (Piece σ)) : List σ := ps.flatMap (Piece.show l r)

/-- the template with the values of the table filled in -/
def filled [DecidableEq σ] (l r : σ) (m : List (List σ × List σ)) (ps : List (Piece σ)) : List σ := ps.flatMap (Piece.fill l r m)

/-- every opening brace of the text is closed before the next one is opened -/
def flatBraces (l r : σ) (s : List σ) : Prop := ∀ a b, s = a ++ l :: b → ∃ n c, b = n ++ r :: c ∧ l ∉ n ∧ r ∉ n

end Goosli.Spec
