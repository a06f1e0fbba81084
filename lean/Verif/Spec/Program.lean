import Verif.Model.Gcode
/-!
# Specification: what a G-code program is asked to print

The paths to print, with the layer number and the section they belong to, read off the command list alone.
-/
namespace Goosli.Spec

/-- a path to print: layer number (counted over the whole job), section name, path -/
structure Job (α : Type) where
  layer : Nat
  sect : String
  path : Path α

/-- the sections of a layer in printing order -/
def layerSections {α : Type} (l : Layer α) : List (String × List (Path α)) :=
  [("OUTER_PATHES", l.paths), ("MIDDLE_PATHES", l.middlePs), ("INNER_PATHES", l.innerPs), ("FILL_PATHES", l.fill)]

/-- the paths of layer number `k` -/
def layerJobs {α : Type} (k : Nat) (l : Layer α) : List (Job α) :=
  (layerSections l).flatMap fun s => s.2.map fun p => ⟨k, s.1, p⟩

/-- all layers of a command list in order -/
def allLayers {α : Type} (cs : List (Command α)) : List (Layer α) :=
  cs.flatMap fun c => match c with
    | .layersMoving ls => ls
    | _ => []

/-- the paths of consecutive layers, numbered from `k` -/
def jobsFrom {α : Type} (k : Nat) : List (Layer α) → List (Job α)
  | [] => []
  | l :: ls => layerJobs k l ++ jobsFrom (k + 1) ls

/-- everything a command list asks to print -/
def allJobs {α : Type} (cs : List (Command α)) : List (Job α) := jobsFrom 0 (allLayers cs)

end Goosli.Spec
