import Verif.Spec.Printer
/-!
# Specification: observations on G-code text
-/
namespace Goosli.Spec

/-- the number in a `;LAYER:k` comment -/
def layerNo : Stmt → Option Int
  | .comment cs => if "LAYER:".toList.isPrefixOf cs then some (readInt (cs.drop 6)) else none
  | .words _ => none

/-- the numbers in the `;LAYER:k` comments of a text, in order -/
def layerNumbers (text : String) : List Int := (parseText text).filterMap layerNo

/-- a statement that switches the fan -/
def isFanStmt : Stmt → Bool
  | .words ((c, a) :: _) => c = 'M' ∧ (a = ['1', '0', '6'] ∨ a = ['1', '0', '7'])
  | _ => false

/-- an extruding print move: tool 0 is active, the statement is a G1 that names E and no feed rate -/
noncomputable def isPrintMove (p : Printer) : Stmt → Prop
  | .words ((c, a) :: ws) => c = 'G' ∧ a = ['1'] ∧ p.tool = 0 ∧ (arg ws 'E').isSome ∧ arg ws 'F' = none
  | _ => False

/-- all steps of an execution -/
noncomputable def steps (p : Printer) : List Stmt → List (Printer × Stmt)
  | [] => []
  | s :: l => (p, s) :: steps (p.exec s) l

end Goosli.Spec
