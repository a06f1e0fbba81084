import Verif.Model.Template
import Verif.Spec.Template
import Verif.Spec.Toy
import Verif.Props.C32
/-! # C41 Template substitution does not depend on map order -/
set_option linter.unusedSectionVars false
namespace Goosli
open Spec

variable {σ : Type} [DecidableEq σ]

/-- a text without the first letter of `old` is copied -/
theorem replaceFrom_copy (l : σ) (o new : List σ) : ∀ (a b : List σ), l ∉ a →
    replaceFrom (l :: o) new 0 (a ++ b) = a ++ replaceFrom (l :: o) new 0 b
  | [], b, _ => rfl
  | c :: a, b, h => by
    have hc : (l == c) = false := by
      simp only [beq_eq_false_iff_ne]
      rintro rfl
      exact h (by simp)
    rw [List.cons_append, replaceFrom, List.isPrefixOf_cons_cons, hc]
    simp only [Bool.false_and, Bool.false_eq_true, if_false]
    rw [replaceFrom_copy l o new a b (fun hm => h (List.mem_cons_of_mem _ hm))]
    rfl

theorem replaceFrom_skip (old new : List σ) : ∀ (a b : List σ), replaceFrom old new a.length (a ++ b) = replaceFrom old new 0 b
  | [], b => rfl
  | c :: a, b => by rw [List.cons_append, List.length_cons, replaceFrom, replaceFrom_skip old new a b]

theorem closed_prefix {r : σ} : ∀ {n m rest : List σ}, r ∉ n → r ∉ m → (n ++ [r]).isPrefixOf (m ++ r :: rest) = true → n = m
  | [], [], _, _, _, _ => rfl
  | [], c :: m, _, _, hm, h => by
    simp only [List.nil_append, List.cons_append, List.isPrefixOf_cons_cons, Bool.and_eq_true, beq_iff_eq] at h
    exact absurd (by simp [h.1]) hm
  | c :: n, [], _, hn, _, h => by
    simp only [List.nil_append, List.cons_append, List.isPrefixOf_cons_cons, Bool.and_eq_true, beq_iff_eq] at h
    exact absurd (by simp [h.1]) hn
  | c :: n, d :: m, rest, hn, hm, h => by
    simp only [List.cons_append, List.isPrefixOf_cons_cons, Bool.and_eq_true, beq_iff_eq] at h
    rw [h.1, closed_prefix (fun x => hn (List.mem_cons_of_mem _ x)) (fun x => hm (List.mem_cons_of_mem _ x)) h.2]

/-- one placeholder put in -/
def putIn (name v : List σ) : Piece σ → Piece σ
  | .text s => .text s
  | .hole n => if n = name then .text v else .hole n

/-- one round of the loop -/
theorem replaceAll_template {l r : σ} (hlr : l ≠ r) {name v : List σ} (hr : r ∉ name) :
    ∀ ps : List (Piece σ), (∀ p ∈ ps, p.ok l r) →
    replaceAll (l :: name ++ [r]) v (template l r ps) = template l r (ps.map (putIn name v))
  | [], _ => rfl
  | p :: ps, h => by
    have ih := replaceAll_template hlr (v := v) hr ps (fun q hq => h q (List.mem_cons_of_mem _ hq))
    have hp := h p (by simp)
    unfold replaceAll template at *
    rw [List.flatMap_cons, List.map_cons, List.flatMap_cons, ← ih, List.cons_append]
    cases p with
    | text s => exact replaceFrom_copy l _ _ s _ hp
    | hole n =>
      simp only [Piece.show, putIn]
      rw [List.append_assoc, List.cons_append, replaceFrom, List.isPrefixOf_cons_cons]
      simp only [beq_self_eq_true, Bool.true_and]
      by_cases hn : n = name
      · subst hn
        have : (n ++ [r]).isPrefixOf (n ++ ([r] ++ List.flatMap (Piece.show l r) ps)) = true := by
          rw [List.isPrefixOf_iff_prefix, ← List.append_assoc]
          exact List.prefix_append _ _
        rw [if_pos this, if_pos rfl, ← List.append_assoc n [r]]
        congr 1
        exact replaceFrom_skip _ _ (n ++ [r]) _
      · rw [if_neg, if_neg hn]
        · rw [← List.append_assoc n [r], replaceFrom_copy]
          · rfl
          · intro hm
            rcases List.mem_append.1 hm with h1 | h1
            · exact hp.1 h1
            · exact hlr (by simpa using h1)
        · intro hm
          exact hn (closed_prefix hr hp.2 (by simpa using hm)).symm

/-- the entries of the map: the names in braces -/
def braced (l r : σ) (m : List (List σ × List σ)) : List (List σ × List σ) := m.map fun e => (l :: e.1 ++ [r], e.2)

theorem foldl_template {l r : σ} (hlr : l ≠ r) : ∀ (m : List (List σ × List σ)) (ps : List (Piece σ)),
    (∀ e ∈ m, r ∉ e.1 ∧ l ∉ e.2) → (∀ p ∈ ps, p.ok l r) →
    (braced l r m).foldl (fun s e => replaceAll e.1 e.2 s) (template l r ps) = filled l r m ps
  | [], ps, _, _ => by
    simp only [braced, List.map_nil, List.foldl_nil, template, filled]
    congr 1
  | e :: m, ps, hm, h => by
    obtain ⟨h1, h2⟩ := hm e (by simp)
    rw [braced, List.map_cons, List.foldl_cons]
    dsimp only
    rw [replaceAll_template hlr h1 ps h]
    have hok : ∀ p ∈ ps.map (putIn e.1 e.2), p.ok l r := by
      intro p hp
      obtain ⟨q, hq, rfl⟩ := List.mem_map.1 hp
      cases q with
      | text s => exact h _ hq
      | hole n =>
        simp only [putIn]
        split
        · exact h2
        · exact h _ hq
    have ih := foldl_template hlr m (ps.map (putIn e.1 e.2)) (fun x hx => hm x (List.mem_cons_of_mem _ hx)) hok
    unfold braced at ih
    rw [ih]
    unfold filled
    rw [List.flatMap_map]
    congr 1
    funext p
    cases p with
    | text s => rfl
    | hole n =>
      simp only [putIn, Piece.fill, valueOf, List.find?_cons]
      by_cases hn : n = e.1
      · simp [hn]
      · have : (decide (e.1 = n)) = false := by simp [Ne.symm hn]
        rw [if_neg hn, this]

theorem valueOf_perm {m m' : List (List σ × List σ)} (hp : m'.Perm m) (hk : (m.map (·.1)).Nodup) (n : List σ) :
    valueOf m' n = valueOf m n := by
  have uniq : ∀ e ∈ m, ∀ e' ∈ m, e.1 = e'.1 → e = e' := List.inj_on_of_nodup_map hk
  unfold valueOf
  cases h : m.find? (fun e => e.1 = n) with
  | none =>
    have h0 := List.find?_eq_none.1 h
    have : m'.find? (fun e => e.1 = n) = none := List.find?_eq_none.2 fun x hx => h0 x (hp.mem_iff.1 hx)
    rw [this]
  | some e =>
    have he := List.mem_of_find?_eq_some h
    have hen : e.1 = n := by simpa using List.find?_some h
    cases h' : m'.find? (fun e => e.1 = n) with
    | none =>
      have := List.find?_eq_none.1 h' e (hp.mem_iff.2 he)
      simp [hen] at this
    | some e' =>
      have he' := List.mem_of_find?_eq_some h'
      have hen' : e'.1 = n := by simpa using List.find?_some h'
      rw [uniq e' (hp.mem_iff.1 he') e he (hen'.trans hen.symm)]

/-- C41: whatever the order in which the loop meets the entries of the map, every hole whose name is in the table gets its value
and everything else stays as it is. The table has distinct names, the names have no closing brace and the values no opening brace. -/
theorem C41_fill {l r : σ} (hlr : l ≠ r) (m order : List (List σ × List σ)) (ho : order.Perm (braced l r m))
    (hk : (m.map (·.1)).Nodup) (hm : ∀ e ∈ m, r ∉ e.1 ∧ l ∉ e.2) (ps : List (Piece σ)) (h : ∀ p ∈ ps, p.ok l r) :
    prepareDataFile (some (template l r ps)) order = .ok (filled l r m ps) := by
  -- the order comes from an order of the table
  obtain ⟨m', hm', rfl⟩ : ∃ m', m'.Perm m ∧ braced l r m' = order := by
    let strip : List σ × List σ → List σ × List σ := fun e => (e.1.tail.dropLast, e.2)
    have hs : ∀ e : List σ × List σ, strip (l :: e.1 ++ [r], e.2) = e := by intro e; simp [strip]
    refine ⟨order.map strip, ?_, ?_⟩
    · have := ho.map strip
      rw [braced, List.map_map] at this
      have e1 : (strip ∘ fun e : List σ × List σ => (l :: e.1 ++ [r], e.2)) = id := by funext e; exact hs e
      rwa [e1, List.map_id] at this
    · unfold braced
      rw [List.map_map]
      conv_rhs => rw [← List.map_id order]
      apply List.map_congr_left
      intro e he
      obtain ⟨e0, _, rfl⟩ := List.mem_map.1 (ho.mem_iff.1 he)
      simp [strip]
  unfold prepareDataFile
  dsimp only
  rw [foldl_template hlr m' ps (fun e he => hm e (hm'.mem_iff.1 he)) h]
  unfold filled
  congr 2
  funext p
  cases p with
  | text s => rfl
  | hole n => simp only [Piece.fill, valueOf_perm hm' hk n]

/-- every text whose opening braces are closed before the next one is opened is a template -/
theorem C41_templates {l r : σ} : ∀ (k : Nat) (s : List σ), s.length ≤ k → flatBraces l r s →
    ∃ ps : List (Piece σ), (∀ p ∈ ps, p.ok l r) ∧ template l r ps = s
  | 0, s, hk, _ => ⟨[], by simp, by simp [template, List.length_eq_zero_iff.1 (Nat.le_zero.1 hk)]⟩
  | k + 1, s, hk, h => by
    by_cases hl : l ∈ s
    · obtain ⟨a, b, rfl, ha⟩ := List.eq_append_cons_of_mem hl
      obtain ⟨n, c, rfl, h1, h2⟩ := h a b rfl
      have hc : flatBraces l r c := by
        intro x y hxy
        subst hxy
        exact h (a ++ l :: n ++ r :: x) y (by simp)
      obtain ⟨ps, p1, p2⟩ := C41_templates k c (by simp at hk; omega) hc
      refine ⟨.text a :: .hole n :: ps, ?_, ?_⟩
      · intro p hp
        rcases List.mem_cons.1 hp with rfl | hp
        · exact ha
        rcases List.mem_cons.1 hp with rfl | hp
        · exact ⟨h1, h2⟩
        · exact p1 p hp
      · unfold template at *
        simp only [List.flatMap_cons, p2, Piece.show]
        simp
    · exact ⟨[.text s], by simpa [Piece.ok] using hl, by simp [template, Piece.show]⟩

/-- C41, stated without pieces: for templates with flat braces the result does not depend on the order -/
theorem C41_order_independent {l r : σ} (hlr : l ≠ r) (m o1 o2 : List (List σ × List σ)) (h1 : o1.Perm (braced l r m))
    (h2 : o2.Perm (braced l r m)) (hk : (m.map (·.1)).Nodup) (hm : ∀ e ∈ m, r ∉ e.1 ∧ l ∉ e.2) (s : List σ)
    (hs : flatBraces l r s) : prepareDataFile (some s) o1 = prepareDataFile (some s) o2 := by
  obtain ⟨ps, p1, rfl⟩ := C41_templates s.length s le_rfl hs
  rw [C41_fill hlr m o1 h1 hk hm ps p1, C41_fill hlr m o2 h2 hk hm ps p1]

/-- a file that cannot be read ends the program -/
theorem C41_unreadable (m : List (List σ × List σ)) : prepareDataFile (none : Option (List σ)) m = .error .fatal := rfl

section Settings
variable {α : Type} [Flt α] [FltText α]

/-- the names of the settings and their values -/
def settingsTable (sett : Settings α) (info : PrintInfo) : List (List Char × List Char) :=
  [("datetime".toList, info.dateTime.toList), ("layer_height".toList, (FltText.fmt3 sett.layerHeight).toList),
   ("wall_thickness".toList, (FltText.fmt3 sett.wallThickness).toList), ("fill_density".toList, (toString sett.fillDensity).toList),
   ("bed_temperature".toList, (toString info.bedTemperature).toList),
   ("extruder_temperature".toList, (toString info.extruderTemperature).toList),
   ("print_speed".toList, (toString sett.gs.printSpeed).toList), ("layer_count".toList, (toString info.layerCount).toList)]

theorem toMap_braced (sett : Settings α) (info : PrintInfo) : toMap sett info = braced '{' '}' (settingsTable sett info) := by
  simp [toMap, braced, settingsTable]

theorem int_no_brace (i : Int) : '{' ∉ (toString i).toList := by
  have hd : ∀ n : Nat, '{' ∉ (toString n).toList := by
    intro n
    rw [nat_toString_toList]
    intro h
    have := Nat.isDigit_of_mem_toDigits (by decide) (by decide) h
    revert this; decide
  cases i with
  | ofNat n => exact hd n
  | negSucc n =>
    have : (toString (Int.negSucc n)) = "-" ++ toString (n + 1) := rfl
    rw [this, String.toList_append]
    intro h
    rcases List.mem_append.1 h with h | h
    · revert h; decide
    · exact hd _ h

/-- what the whole output is: filled header, program, filled footer, with the number of layers of the program as `{layer_count}` -/
theorem C41_output (hp fp : List (Piece Char)) (h1 : ∀ p ∈ hp, p.ok '{' '}') (h2 : ∀ p ∈ fp, p.ok '{' '}')
    (ord : MapOrder (List Char × List Char)) (gcd : Gcode α) (sett : Settings α) (info : PrintInfo) (t : String)
    (ht : gcd.text = .ok t) (hdate : '{' ∉ info.dateTime.toList) (hlh : '{' ∉ (FltText.fmt3 sett.layerHeight).toList)
    (hwt : '{' ∉ (FltText.fmt3 sett.wallThickness).toList) :
    commandsWithTemplates (some (template '{' '}' hp)) (some (template '{' '}' fp)) ord gcd sett info =
      .ok (filled '{' '}' (settingsTable sett { info with layerCount := gcd.layerCount }) hp ++ t.toList ++
        filled '{' '}' (settingsTable sett { info with layerCount := gcd.layerCount }) fp) := by
  have hk : ((settingsTable sett { info with layerCount := gcd.layerCount }).map (·.1)).Nodup := by
    simp only [settingsTable, List.map_cons, List.map_nil]
    decide
  have hm : ∀ e ∈ settingsTable sett { info with layerCount := gcd.layerCount }, '}' ∉ e.1 ∧ '{' ∉ e.2 := by
    intro e he
    simp only [settingsTable, List.mem_cons, List.not_mem_nil, or_false] at he
    rcases he with rfl | rfl | rfl | rfl | rfl | rfl | rfl | rfl
    · exact ⟨by show '}' ∉ "datetime".toList; decide, hdate⟩
    · exact ⟨by show '}' ∉ "layer_height".toList; decide, hlh⟩
    · exact ⟨by show '}' ∉ "wall_thickness".toList; decide, hwt⟩
    all_goals exact ⟨by dsimp only; decide, int_no_brace _⟩
  unfold commandsWithTemplates
  dsimp only
  rw [C41_fill (by decide) _ _ (by rw [← toMap_braced]; exact ord.perm 0 _) hk hm hp h1,
    C41_fill (by decide) _ _ (by rw [← toMap_braced]; exact ord.perm 1 _) hk hm fp h2, ht]
  rfl

end Settings

/-- C41 is false for nested braces: with the date "er_" the text `{lay{datetime}height}` becomes the layer height if the date is
put in first, and stays a placeholder if the layer height is tried first -/
theorem C41_nested_violated : ∃ (m o1 o2 : List (List Char × List Char)) (s : List Char), o1.Perm (braced '{' '}' m) ∧
    o2.Perm (braced '{' '}' m) ∧ (m.map (·.1)).Nodup ∧ (∀ e ∈ m, ('{' ∉ e.1 ∧ '}' ∉ e.1) ∧ '{' ∉ e.2 ∧ '}' ∉ e.2) ∧
    prepareDataFile (some s) o1 = .ok "0.200".toList ∧ prepareDataFile (some s) o2 = .ok "{layer_height}".toList := by
  refine ⟨[("datetime".toList, "er_".toList), ("layer_height".toList, "0.200".toList)],
    [("{datetime}".toList, "er_".toList), ("{layer_height}".toList, "0.200".toList)],
    [("{layer_height}".toList, "0.200".toList), ("{datetime}".toList, "er_".toList)], "{lay{datetime}height}".toList, ?_, ?_, by decide, ?_, by decide, by decide⟩
  · exact List.Perm.of_eq (by decide)
  · exact (List.Perm.swap _ _ []).trans (List.Perm.of_eq (by decide))
  · intro e he
    simp only [List.mem_cons, List.not_mem_nil, or_false] at he
    rcases he with rfl | rfl <;> decide

/-- a line of the header: two known names, one unknown name -/
example : prepareDataFile (some ";{a}, {b}{print_time}".toList) [("{b}".toList, "x}".toList), ("{a}".toList, "20".toList)] =
    .ok ";20, x}{print_time}".toList := by decide

/-- it is a template -/
example : template '{' '}' [.text ";".toList, .hole "a".toList, .text ", ".toList, .hole "b".toList, .hole "print_time".toList] =
    ";{a}, {b}{print_time}".toList := by decide

end Goosli
