import Verif.Props.C41
/-! # C61 The header announces the layers of the program; some of its fields stay empty -/
set_option linter.unusedSectionVars false
namespace Goosli
open Spec

/-- data/header_template.txt:1-26, cut at the placeholders -/
def shippedHeader : List (Piece Char) :=
  [.text ";Generated with Goosli\n".toList,
   .text ";Sliced at: ".toList,
   .hole "datetime".toList,
   .text "\n".toList,
   .text ";Layer height: ".toList,
   .hole "layer_height".toList,
   .text ", Walls: ".toList,
   .hole "wall_thickness".toList,
   .text ", Fill: ".toList,
   .hole "fill_density".toList,
   .text "%\n".toList,
   .text ";Print time: ".toList,
   .hole "print_time".toList,
   .text "\n".toList,
   .text ";Filament used: ".toList,
   .hole "filament_amount".toList,
   .text "m ".toList,
   .hole "filament_weight".toList,
   .text "g\n".toList,
   .text ";Filament cost: ".toList,
   .hole "filament_cost".toList,
   .text "\n".toList,
   .text "\n".toList,
   .text "T0\n".toList,
   .text "M190 S".toList,
   .hole "bed_temperature".toList,
   .text "         ;Set bed temperature and wait\n".toList,
   .text "M109 S".toList,
   .hole "extruder_temperature".toList,
   .text "    ;Set extruder temperature and wait\n".toList,
   .text "G21             ;metric values\n".toList,
   .text "G90             ;absolute positioning\n".toList,
   .text "M82             ;set extruder to absolute mode\n".toList,
   .text "M107            ;start with the fan off\n".toList,
   .text ";G28 X0 Y0       ;move X/Y to min endstops\n".toList,
   .text ";G28 Z0          ;move Z to min endstops\n".toList,
   .text "G28 ;Home for our delta-printer\n".toList,
   .text "G1 Z15.0 F".toList,
   .hole "print_speed".toList,
   .text "     ;move the platform down 15mm\n".toList,
   .text "G92 E0                      ;zero the extruded length\n".toList,
   .text "G1 F200 E3                  ;extrude 3mm of feed stock\n".toList,
   .text "G92 E0                      ;zero the extruded length again\n".toList,
   .text "G1 F".toList,
   .hole "print_speed".toList,
   .text "\n".toList,
   .text ";Put printing message on LCD screen\n".toList,
   .text "M117 Printing...\n".toList,
   .text ";LAYER_COUNT:".toList,
   .hole "layer_count".toList,
   .text "\n".toList]

/-- data/footer_template.txt:1-10, cut at the placeholders -/
def shippedFooter : List (Piece Char) :=
  [.text "\n".toList,
   .text ";End GCode\n".toList,
   .text ";M107\n".toList,
   .text "M104 S0                                 ;extruder heater off\n".toList,
   .text "M140 S0                                 ".toList,
   .text ";heated bed heater off (if you have it)\n".toList,
   .text "G91                                     ;relative positioning\n".toList,
   .text "G1 E-1 F300                             ".toList,
   .text ";retract the filament a bit before lifting the nozzle, to re".toList,
   .text "lease some of the pressure\n".toList,
   .text "G1 Z+0.5 E-5 X-20 Y-20 F".toList,
   .hole "print_speed".toList,
   .text "   ;move Z up a bit and retract filament even more\n".toList,
   .text "G28 X0 Y0                               ".toList,
   .text ";move X/Y to min endstops, so the head is out of the way\n".toList,
   .text "M84                                     ;steppers off\n".toList,
   .text "G90                                     ;absolute positioning\n".toList,
   .text "M82                                     ;absolute extrusion mode\n".toList]

theorem shippedHeader_ok : ∀ p ∈ shippedHeader, p.ok '{' '}' := by
  unfold shippedHeader
  repeat' (first | exact List.forall_mem_nil _ | refine List.forall_mem_cons.2 ⟨by simp [Piece.ok], ?_⟩)

theorem shippedFooter_ok : ∀ p ∈ shippedFooter, p.ok '{' '}' := by
  unfold shippedFooter
  repeat' (first | exact List.forall_mem_nil _ | refine List.forall_mem_cons.2 ⟨by simp [Piece.ok], ?_⟩)

variable {α : Type} [Flt α] [FltText α]

/-- the values of the names in the two files -/
theorem settings_values (sett : Settings α) (info : PrintInfo) :
    Piece.fill '{' '}' (settingsTable sett info) (.hole "datetime".toList) = info.dateTime.toList ∧
    Piece.fill '{' '}' (settingsTable sett info) (.hole "layer_height".toList) = (FltText.fmt3 sett.layerHeight).toList ∧
    Piece.fill '{' '}' (settingsTable sett info) (.hole "wall_thickness".toList) = (FltText.fmt3 sett.wallThickness).toList ∧
    Piece.fill '{' '}' (settingsTable sett info) (.hole "fill_density".toList) = (toString sett.fillDensity).toList ∧
    Piece.fill '{' '}' (settingsTable sett info) (.hole "print_time".toList) = "{print_time}".toList ∧
    Piece.fill '{' '}' (settingsTable sett info) (.hole "filament_amount".toList) = "{filament_amount}".toList ∧
    Piece.fill '{' '}' (settingsTable sett info) (.hole "filament_weight".toList) = "{filament_weight}".toList ∧
    Piece.fill '{' '}' (settingsTable sett info) (.hole "filament_cost".toList) = "{filament_cost}".toList ∧
    Piece.fill '{' '}' (settingsTable sett info) (.hole "bed_temperature".toList) = (toString info.bedTemperature).toList ∧
    Piece.fill '{' '}' (settingsTable sett info) (.hole "extruder_temperature".toList) = (toString info.extruderTemperature).toList ∧
    Piece.fill '{' '}' (settingsTable sett info) (.hole "print_speed".toList) = (toString sett.gs.printSpeed).toList ∧
    Piece.fill '{' '}' (settingsTable sett info) (.hole "layer_count".toList) = (toString info.layerCount).toList := by
  refine ⟨?_, ?_, ?_, ?_, ?_, ?_, ?_, ?_, ?_, ?_, ?_, ?_⟩ <;> simp [Piece.fill, valueOf, settingsTable]

/-- C61, what the file written by the program is with the templates that come with it, for every program, all settings, every
arithmetic and every order of the settings map: the placeholders of the header stand for the settings, and the number after
`;LAYER_COUNT:` is the number of `;LAYER:` comments of the program that follows. The four fields for time and filament keep their
placeholders. -/
theorem C61_file [CleanText α] (ord : MapOrder (List Char × List Char)) (gcd : Gcode α) (sett : Settings α) (info : PrintInfo)
    (t : String) (ht : gcd.text = .ok t) (hdate : '{' ∉ info.dateTime.toList)
    (hlh : '{' ∉ (FltText.fmt3 sett.layerHeight).toList) (hwt : '{' ∉ (FltText.fmt3 sett.wallThickness).toList) :
    commandsWithTemplates (some (template '{' '}' shippedHeader)) (some (template '{' '}' shippedFooter)) ord gcd
      sett info = .ok (
        ";Generated with Goosli\n".toList ++
        ";Sliced at: ".toList ++
        (info.dateTime).toList ++
        "\n".toList ++
        ";Layer height: ".toList ++
        (FltText.fmt3 sett.layerHeight).toList ++
        ", Walls: ".toList ++
        (FltText.fmt3 sett.wallThickness).toList ++
        ", Fill: ".toList ++
        (toString sett.fillDensity).toList ++
        "%\n".toList ++
        ";Print time: ".toList ++
        "{print_time}".toList ++
        "\n".toList ++
        ";Filament used: ".toList ++
        "{filament_amount}".toList ++
        "m ".toList ++
        "{filament_weight}".toList ++
        "g\n".toList ++
        ";Filament cost: ".toList ++
        "{filament_cost}".toList ++
        "\n".toList ++
        "\n".toList ++
        "T0\n".toList ++
        "M190 S".toList ++
        (toString info.bedTemperature).toList ++
        "         ;Set bed temperature and wait\n".toList ++
        "M109 S".toList ++
        (toString info.extruderTemperature).toList ++
        "    ;Set extruder temperature and wait\n".toList ++
        "G21             ;metric values\n".toList ++
        "G90             ;absolute positioning\n".toList ++
        "M82             ;set extruder to absolute mode\n".toList ++
        "M107            ;start with the fan off\n".toList ++
        ";G28 X0 Y0       ;move X/Y to min endstops\n".toList ++
        ";G28 Z0          ;move Z to min endstops\n".toList ++
        "G28 ;Home for our delta-printer\n".toList ++
        "G1 Z15.0 F".toList ++
        (toString sett.gs.printSpeed).toList ++
        "     ;move the platform down 15mm\n".toList ++
        "G92 E0                      ;zero the extruded length\n".toList ++
        "G1 F200 E3                  ;extrude 3mm of feed stock\n".toList ++
        "G92 E0                      ;zero the extruded length again\n".toList ++
        "G1 F".toList ++
        (toString sett.gs.printSpeed).toList ++
        "\n".toList ++
        ";Put printing message on LCD screen\n".toList ++
        "M117 Printing...\n".toList ++
        ";LAYER_COUNT:".toList ++
        (toString (layerNumbers t).length).toList ++
        "\n".toList ++
        t.toList ++
        "\n".toList ++
        ";End GCode\n".toList ++
        ";M107\n".toList ++
        "M104 S0                                 ;extruder heater off\n".toList ++
        "M140 S0                                 ".toList ++
        ";heated bed heater off (if you have it)\n".toList ++
        "G91                                     ;relative positioning\n".toList ++
        "G1 E-1 F300                             ".toList ++
        ";retract the filament a bit before lifting the nozzle, to re".toList ++
        "lease some of the pressure\n".toList ++
        "G1 Z+0.5 E-5 X-20 Y-20 F".toList ++
        (toString sett.gs.printSpeed).toList ++
        "   ;move Z up a bit and retract filament even more\n".toList ++
        "G28 X0 Y0                               ".toList ++
        ";move X/Y to min endstops, so the head is out of the way\n".toList ++
        "M84                                     ;steppers off\n".toList ++
        "G90                                     ;absolute positioning\n".toList ++
        "M82                                     ;absolute extrusion mode\n".toList) := by
  rw [C41_output shippedHeader shippedFooter shippedHeader_ok shippedFooter_ok ord gcd sett info t ht hdate hlh hwt]
  have hcount : (toString (({ info with layerCount := gcd.layerCount } : PrintInfo).layerCount)) = toString (layerNumbers t).length := by
    rw [C32_layer_numbering gcd t ht, List.length_map, List.length_range]; rfl
  obtain ⟨h0, h1, h2, h3, h4, h5, h6, h7, h8, h9, h10, h11⟩ := settings_values sett { info with layerCount := gcd.layerCount }
  have htext : ∀ s : List Char, Piece.fill '{' '}' (settingsTable sett { info with layerCount := gcd.layerCount }) (.text s) = s := fun _ => rfl
  rw [hcount] at h11
  simp only [filled, shippedHeader, shippedFooter, List.flatMap_cons, List.flatMap_nil, List.append_nil, List.append_assoc, htext, h0, h1, h2, h3, h4, h5, h6, h7, h8, h9, h10, h11]

section Example
attribute [local instance] Toy.flt Toy.txt
private def fileSett : Settings Int :=
  ⟨⟨1, 1, 1, 1, true, 50, 20, 30, true, 40, 5⟩, 1, 2, 3, 20, ⟨0, 0, 0⟩, "Lines", 30, ⟨0, 0, 1⟩, false, 0, 1, 1, 0⟩
private def fileProg : Gcode Int := ⟨fileSett.gs, [.layersMoving [⟨0, ⟨0, 0, 1⟩, [⟨[⟨0, 0, 0⟩, ⟨9, 0, 0⟩]⟩], [], [], []⟩]]⟩

/-- the hypotheses hold for a program with one layer -/
example : (∃ t, fileProg.text = .ok t) ∧ '{' ∉ (FltText.fmt3 fileSett.layerHeight).toList ∧
    '{' ∉ (FltText.fmt3 fileSett.wallThickness).toList ∧ '{' ∉ "16 Nov 26 12:00 UTC".toList := by
  refine ⟨⟨_, rfl⟩, ?_, ?_, by decide⟩ <;> decide
end Example

end Goosli
