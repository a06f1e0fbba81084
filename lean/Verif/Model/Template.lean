import Verif.Model.Join2
import Verif.Model.Slice
/-!
# Templates: primitives/utils.go `PrepareDataFile`, slicers/settings.go `ToMap`, cmd/goosli/goosli.go `CommandsWithTemplates`

Text is a list over an arbitrary alphabet: the bytes of the file, or its characters (the two agree, the placeholders are ASCII).
-/
namespace Goosli

variable {σ : Type} [DecidableEq σ]

/-- `strings.Replace(s, old, new, -1)` (primitives/utils.go:23) for a non-empty `old`: the occurrences of `old` are replaced from
left to right without overlapping; `skip` letters of the occurrence just replaced are still to be dropped. -/
def replaceFrom (old new : List σ) : Nat → List σ → List σ
  | _, [] => []
  | k + 1, _ :: s => replaceFrom old new k s
  | 0, c :: s => if old.isPrefixOf (c :: s) then new ++ replaceFrom old new (old.length - 1) s else c :: replaceFrom old new 0 s

/-- `strings.Replace(s, old, new, -1)` (primitives/utils.go:23), `old` not empty -/
def replaceAll (old new s : List σ) : List σ := replaceFrom old new 0 s

/-- primitives/utils.go:16-26. `file` is the content of the file, `none` if it cannot be read; `entries` are the entries of the map
in the order in which the loop meets them. -/
def prepareDataFile (file : Option (List σ)) (entries : List (List σ × List σ)) : Go (List σ) :=
  match file with
  | none => .error .fatal
  | some s => .ok (entries.foldl (fun s e => replaceAll e.1 e.2 s) s)

variable {α : Type} [Flt α] [FltText α]

/-- the fields of `Settings` (slicers/settings.go:10-30) that only the templates use -/
structure PrintInfo where
  dateTime : String
  bedTemperature : Int
  extruderTemperature : Int
  layerCount : Int

/-- slicers/settings.go:32-44; the entries of the map, in the order of the source -/
def toMap (sett : Settings α) (info : PrintInfo) : List (List Char × List Char) :=
  [("{datetime}".toList, info.dateTime.toList),
   ("{layer_height}".toList, (FltText.fmt3 sett.layerHeight).toList),
   ("{wall_thickness}".toList, (FltText.fmt3 sett.wallThickness).toList),
   ("{fill_density}".toList, (toString sett.fillDensity).toList),
   ("{bed_temperature}".toList, (toString info.bedTemperature).toList),
   ("{extruder_temperature}".toList, (toString info.extruderTemperature).toList),
   ("{print_speed}".toList, (toString sett.gs.printSpeed).toList),
   ("{layer_count}".toList, (toString info.layerCount).toList)]

/-- cmd/goosli/goosli.go:135-144: header, program and footer. Each call of `PrepareDataFile` ranges over the map in an order of
its own. -/
def commandsWithTemplates (header footer : Option (List Char)) (ord : MapOrder (List Char × List Char)) (gcd : Gcode α)
    (sett : Settings α) (info : PrintInfo) : Go (List Char) := do
  let smap := toMap sett { info with layerCount := gcd.layerCount }
  let h ← prepareDataFile header (ord.run 0 smap)
  let t ← gcd.text
  let f ← prepareDataFile footer (ord.run 1 smap)
  return h ++ t.toList ++ f

end Goosli
