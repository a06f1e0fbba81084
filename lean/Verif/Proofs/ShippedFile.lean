import Verif.Props.C61
/-!
# The lines and the statements of the templates that come with the program
-/
set_option linter.unusedSectionVars false
set_option autoImplicit false
namespace Goosli
open Flt Spec

/-- the text of lines, each with its newline -/
def unlines (ls : List (List Char)) : List Char := ls.flatMap fun b => b ++ ['\n']

theorem split_unlines (ls : List (List Char)) (h : ∀ b ∈ ls, '\n' ∉ b) (r : List Char) :
    (splitAtChar '\n' (unlines ls ++ r)).map parseLine = ls.map parseLine ++ (splitAtChar '\n' r).map parseLine := by
  induction ls with
  | nil => rfl
  | cons b t ih =>
    have : unlines (b :: t) ++ r = b ++ '\n' :: (unlines t ++ r) := by simp [unlines]
    rw [this, splitAtChar_append (by intro c hc he; subst he; exact h b (by simp) hc), List.map_cons, ih fun b hb => h b (by simp [hb])]
    rfl

section Lawless
variable {α : Type} [Flt α] [FltText α]

/-- the lines of the filled header -/
def headerLines (sett : Settings α) (info : PrintInfo) : List (List Char) :=
  [";Generated with Goosli".toList,
   ";Sliced at: ".toList ++ info.dateTime.toList,
   ";Layer height: ".toList ++ (FltText.fmt3 sett.layerHeight).toList ++ ", Walls: ".toList ++ (FltText.fmt3 sett.wallThickness).toList ++
     ", Fill: ".toList ++ (toString sett.fillDensity).toList ++ "%".toList,
   ";Print time: {print_time}".toList,
   ";Filament used: {filament_amount}m {filament_weight}g".toList,
   ";Filament cost: {filament_cost}".toList,
   [],
   "T0".toList,
   "M190 S".toList ++ (toString info.bedTemperature).toList ++ "         ;Set bed temperature and wait".toList,
   "M109 S".toList ++ (toString info.extruderTemperature).toList ++ "    ;Set extruder temperature and wait".toList,
   "G21             ;metric values".toList,
   "G90             ;absolute positioning".toList,
   "M82             ;set extruder to absolute mode".toList,
   "M107            ;start with the fan off".toList,
   ";G28 X0 Y0       ;move X/Y to min endstops".toList,
   ";G28 Z0          ;move Z to min endstops".toList,
   "G28 ;Home for our delta-printer".toList,
   "G1 Z15.0 F".toList ++ (toString sett.gs.printSpeed).toList ++ "     ;move the platform down 15mm".toList,
   "G92 E0                      ;zero the extruded length".toList,
   "G1 F200 E3                  ;extrude 3mm of feed stock".toList,
   "G92 E0                      ;zero the extruded length again".toList,
   "G1 F".toList ++ (toString sett.gs.printSpeed).toList,
   ";Put printing message on LCD screen".toList,
   "M117 Printing...".toList,
   ";LAYER_COUNT:".toList ++ (toString info.layerCount).toList]

/-- the lines of the filled footer -/
def footerLines (sett : Settings α) : List (List Char) :=
  [[],
   ";End GCode".toList,
   ";M107".toList,
   "M104 S0                                 ;extruder heater off".toList,
   "M140 S0                                 ;heated bed heater off (if you have it)".toList,
   "G91                                     ;relative positioning".toList,
   ("G1 E-1 F300                             ;retract the filament a bit before lifting the nozzle, to re" ++
     "lease some of the pressure").toList,
   "G1 Z+0.5 E-5 X-20 Y-20 F".toList ++ (toString sett.gs.printSpeed).toList ++
     "   ;move Z up a bit and retract filament even more".toList,
   "G28 X0 Y0                               ;move X/Y to min endstops, so the head is out of the way".toList,
   "M84                                     ;steppers off".toList,
   "G90                                     ;absolute positioning".toList,
   "M82                                     ;absolute extrusion mode".toList]

theorem filled_header (sett : Settings α) (info : PrintInfo) :
    filled '{' '}' (settingsTable sett info) shippedHeader = unlines (headerLines sett info) := by
  obtain ⟨h0, h1, h2, h3, h4, h5, h6, h7, h8, h9, h10, h11⟩ := settings_values sett info
  have htext : ∀ s : List Char, Piece.fill '{' '}' (settingsTable sett info) (.text s) = s := fun _ => rfl
  simp only [filled, shippedHeader, List.flatMap_cons, List.flatMap_nil, htext, h0, h1, h2, h3, h4, h5, h6, h7, h8, h9, h10, h11,
    unlines, headerLines]
  simp

set_option linter.unusedSimpArgs false in
theorem filled_footer (sett : Settings α) (info : PrintInfo) :
    filled '{' '}' (settingsTable sett info) shippedFooter = unlines (footerLines sett) := by
  obtain ⟨h0, h1, h2, h3, h4, h5, h6, h7, h8, h9, h10, h11⟩ := settings_values sett info
  have htext : ∀ s : List Char, Piece.fill '{' '}' (settingsTable sett info) (.text s) = s := fun _ => rfl
  simp only [filled, shippedFooter, List.flatMap_cons, List.flatMap_nil, htext, h0, h1, h2, h3, h4, h5, h6, h7, h8, h9, h10, h11,
    unlines, footerLines]
  simp

/-- the statements of the header up to the heaters being set and the machine homed -/
def headerStart (sett : Settings α) (info : PrintInfo) : List Stmt :=
  [.comment "Generated with Goosli".toList,
   .comment ("Sliced at: ".toList ++ info.dateTime.toList),
   .comment ("Layer height: ".toList ++ (FltText.fmt3 sett.layerHeight).toList ++ ", Walls: ".toList ++
     (FltText.fmt3 sett.wallThickness).toList ++ ", Fill: ".toList ++ (toString sett.fillDensity).toList ++ "%".toList),
   .comment "Print time: {print_time}".toList,
   .comment "Filament used: {filament_amount}m {filament_weight}g".toList,
   .comment "Filament cost: {filament_cost}".toList,
   .words [],
   .words [('T', ['0'])],
   .words [('M', ['1', '9', '0']), intW 'S' info.bedTemperature],
   .words [('M', ['1', '0', '9']), intW 'S' info.extruderTemperature],
   .words [('G', ['2', '1'])],
   .words [('G', ['9', '0'])],
   .words [('M', ['8', '2'])],
   .words [('M', ['1', '0', '7'])],
   .comment "G28 X0 Y0       ;move X/Y to min endstops".toList,
   .comment "G28 Z0          ;move Z to min endstops".toList,
   .words [('G', ['2', '8'])],
   .words [('G', ['1']), ('Z', ['1', '5', '.', '0']), intW 'F' sett.gs.printSpeed],
   .words [('G', ['9', '2']), ('E', ['0'])]]

/-- three millimetres of filament -/
def headerPurge : Stmt := .words [('G', ['1']), ('F', ['2', '0', '0']), ('E', ['3'])]

/-- the rest of the header -/
def headerEnd (sett : Settings α) (info : PrintInfo) : List Stmt :=
  [.words [('G', ['9', '2']), ('E', ['0'])],
   .words [('G', ['1']), intW 'F' sett.gs.printSpeed],
   .comment "Put printing message on LCD screen".toList,
   .words [('M', ['1', '1', '7']), ('P', "rinting...".toList)],
   .comment ("LAYER_COUNT:".toList ++ (toString info.layerCount).toList)]

/-- the statements of the footer up to the retraction -/
def footerStart : List Stmt :=
  [.words [],
   .comment "End GCode".toList,
   .comment "M107".toList,
   .words [('M', ['1', '0', '4']), ('S', ['0'])],
   .words [('M', ['1', '4', '0']), ('S', ['0'])],
   .words [('G', ['9', '1'])]]

/-- the retraction -/
def footerBack (sett : Settings α) : List Stmt :=
  [.words [('G', ['1']), ('E', ['-', '1']), ('F', ['3', '0', '0'])],
   .words [('G', ['1']), ('Z', ['+', '0', '.', '5']), ('E', ['-', '5']), ('X', ['-', '2', '0']), ('Y', ['-', '2', '0']),
     intW 'F' sett.gs.printSpeed]]

/-- the rest of the footer -/
def footerEnd : List Stmt :=
  [.words [('G', ['2', '8']), ('X', ['0']), ('Y', ['0'])],
   .words [('M', ['8', '4'])],
   .words [('G', ['9', '0'])],
   .words [('M', ['8', '2'])]]

theorem parse_words {body body' : List Char} {ws} (h : ParsesTo body' ws) (e : body = body') (h0 : body'.head? ≠ some ';') :
    parseLine body = .words ws := by
  subst e
  unfold parseLine
  split
  · simp at h0
  · rw [h.2]

theorem header_parse (sett : Settings α) (info : PrintInfo) :
    (headerLines sett info).map parseLine = headerStart sett info ++ headerPurge :: headerEnd sett info := by
  have c1 : CleanChars ['M', '1', '9', '0'] ∧ CleanChars ['M', '1', '0', '9'] ∧ CleanChars ['G', '1'] ∧ CleanChars ['Z', '1', '5', '.', '0'] := by
    simp [CleanChars]
  have cn : ∀ (c : Char) (n : Int), c ≠ ' ' ∧ c ≠ '\n' ∧ c ≠ ';' → CleanChars (c :: (toString n).toList) :=
    fun c n hc => clean_cons hc (clean_int n)
  have h1 : parseLine ("M190 S".toList ++ (toString info.bedTemperature).toList ++ "         ;Set bed temperature and wait".toList) =
      .words [('M', ['1', '9', '0']), intW 'S' info.bedTemperature] :=
    parse_words (parses_word c1.1 (parses_word (r := "        ;Set bed temperature and wait".toList) (cn 'S' info.bedTemperature (by decide))
      ⟨by simp, rfl⟩)) (by simp) (by simp)
  have h2 : parseLine ("M109 S".toList ++ (toString info.extruderTemperature).toList ++ "    ;Set extruder temperature and wait".toList) =
      .words [('M', ['1', '0', '9']), intW 'S' info.extruderTemperature] :=
    parse_words (parses_word c1.2.1 (parses_word (r := "   ;Set extruder temperature and wait".toList)
      (cn 'S' info.extruderTemperature (by decide)) ⟨by simp, rfl⟩)) (by simp) (by simp)
  have h3 : parseLine ("G1 Z15.0 F".toList ++ (toString sett.gs.printSpeed).toList ++ "     ;move the platform down 15mm".toList) =
      .words [('G', ['1']), ('Z', ['1', '5', '.', '0']), intW 'F' sett.gs.printSpeed] :=
    parse_words (parses_word c1.2.2.1 (parses_word c1.2.2.2 (parses_word (r := "    ;move the platform down 15mm".toList)
      (cn 'F' sett.gs.printSpeed (by decide)) ⟨by simp, rfl⟩))) (by simp) (by simp)
  have h4 : parseLine ("G1 F".toList ++ (toString sett.gs.printSpeed).toList) = .words [('G', ['1']), intW 'F' sett.gs.printSpeed] :=
    parse_words (parses_word c1.2.2.1 (parses_end (cn 'F' sett.gs.printSpeed (by decide)))) (by simp) (by simp)
  have h5 : parseLine "M117 Printing...".toList = .words [('M', ['1', '1', '7']), ('P', "rinting...".toList)] := rfl
  unfold headerLines
  simp only [List.map_cons, List.map_nil, h1, h2, h3, h4, h5]
  rfl

set_option maxRecDepth 4096 in
theorem footer_parse (sett : Settings α) :
    (footerLines sett).map parseLine = footerStart ++ footerBack sett ++ footerEnd := by
  have c1 : CleanChars ['G', '1'] ∧ CleanChars ['Z', '+', '0', '.', '5'] ∧ CleanChars ['E', '-', '5'] ∧ CleanChars ['X', '-', '2', '0'] ∧
      CleanChars ['Y', '-', '2', '0'] ∧ CleanChars ['E', '-', '1'] ∧ CleanChars ['F', '3', '0', '0'] := by
    simp [CleanChars]
  have h1 : parseLine ("G1 Z+0.5 E-5 X-20 Y-20 F".toList ++ (toString sett.gs.printSpeed).toList ++
      "   ;move Z up a bit and retract filament even more".toList) =
      .words [('G', ['1']), ('Z', ['+', '0', '.', '5']), ('E', ['-', '5']), ('X', ['-', '2', '0']), ('Y', ['-', '2', '0']),
        intW 'F' sett.gs.printSpeed] :=
    parse_words (parses_word c1.1 (parses_word c1.2.1 (parses_word c1.2.2.1 (parses_word c1.2.2.2.1 (parses_word c1.2.2.2.2.1
      (parses_word (r := "  ;move Z up a bit and retract filament even more".toList)
      (clean_cons (by decide) (clean_int sett.gs.printSpeed)) ⟨by simp, rfl⟩)))))) (by simp) (by simp)
  have h2 : parseLine ("G1 E-1 F300                             ;retract the filament a bit before lifting the nozzle, to re" ++
     "lease some of the pressure").toList = .words [('G', ['1']), ('E', ['-', '1']), ('F', ['3', '0', '0'])] := by
    simp [parseLine, wordsOf, splitAtChar]
  have h3 : parseLine "G28 X0 Y0                               ;move X/Y to min endstops, so the head is out of the way".toList =
      .words [('G', ['2', '8']), ('X', ['0']), ('Y', ['0'])] := rfl
  have h4 : parseLine "M104 S0                                 ;extruder heater off".toList = .words [('M', ['1', '0', '4']), ('S', ['0'])] := rfl
  have h5 : parseLine "M140 S0                                 ;heated bed heater off (if you have it)".toList =
      .words [('M', ['1', '4', '0']), ('S', ['0'])] := rfl
  have h6 : parseLine "G91                                     ;relative positioning".toList = .words [('G', ['9', '1'])] := rfl
  have h7 : parseLine "M84                                     ;steppers off".toList = .words [('M', ['8', '4'])] := rfl
  have h8 : parseLine "G90                                     ;absolute positioning".toList = .words [('G', ['9', '0'])] := rfl
  have h9 : parseLine "M82                                     ;absolute extrusion mode".toList = .words [('M', ['8', '2'])] := rfl
  unfold footerLines
  simp only [List.map_cons, List.map_nil, h1, h2, h3, h4, h5, h6, h7, h8, h9]
  rfl

end Lawless
end Goosli
