import Verif.Proofs.Rot
import Verif.Props.C05
import Verif.Spec.Toy
/-! # C52 Plane file round trip -/
set_option linter.unusedSectionVars false
namespace Goosli
open Flt

section Text
variable {α : Type} [Flt α] [FltText α]

/-- the number format writes printable ASCII characters, at least one -/
class PrintableText (α : Type) [FltText α] : Prop where
  printable : ∀ (x : α), ∀ c ∈ (FltText.fmt3 x).toList, 33 ≤ c.toNat ∧ c.toNat ≤ 126

/-- a number written and read again -/
def reread (x : α) : α := FltText.parse32 (asciiBytes (FltText.fmt3 x))

/-- a plane as it is read back -/
def AnalyzedPlane.reread (p : AnalyzedPlane α) : AnalyzedPlane α :=
  ⟨⟨⟨Goosli.reread p.plane.p.x, Goosli.reread p.plane.p.y, Goosli.reread p.plane.p.z⟩, fileNormal p.tilted (Goosli.reread p.rotz)⟩,
    p.tilted, Goosli.reread p.rotz⟩

theorem asciiBytes_append (s t : String) : asciiBytes (s ++ t) = asciiBytes s ++ asciiBytes t := by
  simp [asciiBytes]

theorem printable_char {c : Char} (h : 33 ≤ c.toNat ∧ c.toNat ≤ 126) : Printable (UInt8.ofNat c.toNat) := by
  unfold Printable
  rw [UInt8.le_iff_toNat_le, UInt8.le_iff_toNat_le, UInt8.toNat_ofNat']
  have : c.toNat % 2 ^ 8 = c.toNat := Nat.mod_eq_of_lt (by omega)
  rw [this]
  exact h

/-- a letter and a printed number are a word -/
theorem word_token [PrintableText α] (c : Char) (h : 33 ≤ c.toNat ∧ c.toNat ≤ 126) (x : α) :
    Token (UInt8.ofNat c.toNat :: asciiBytes (FltText.fmt3 x)) := by
  refine ⟨by simp, ?_⟩
  intro b hb
  rcases List.mem_cons.1 hb with rfl | hb
  · exact printable_char h
  · obtain ⟨d, hd, rfl⟩ := List.mem_map.1 hb
    exact printable_char (PrintableText.printable x d hd)

/-- five words separated by blanks -/
theorem fields_five {a b c d e : Bytes} (ha : Token a) (hb : Token b) (hc : Token c) (hd : Token d) (he : Token e) :
    fields (a ++ 32 :: (b ++ 32 :: (c ++ 32 :: (d ++ 32 :: e)))) = [a, b, c, d, e] := by
  have hs : ∀ r : Bytes, markWs 0 (32 :: r) = [((32 : UInt8), true)] ++ markWs 0 r := by
    intro r
    have := markWs_blanks [32] r (by intro c hc; simp at hc; subst hc; exact Or.inl rfl)
    simpa using this
  have sep : ∀ (t : Bytes) (r : List (UInt8 × Bool)), t ≠ [] →
      fieldsAux t ([((32 : UInt8), true)] ++ r) = t :: fieldsAux [] r := by
    intro t r ht
    exact fieldsAux_sep t [32] ht (by simp) r
  have last : markWs 0 e = e.map (·, false) ++ [] := by
    have := markWs_printable e [] he.2
    rw [List.append_nil] at this
    rw [this]; rfl
  unfold fields
  rw [markWs_printable _ _ ha.2, hs, markWs_printable _ _ hb.2, hs, markWs_printable _ _ hc.2, hs, markWs_printable _ _ hd.2, hs, last,
    fieldsAux_token, List.nil_append, sep _ _ ha.1, fieldsAux_token, List.nil_append, sep _ _ hb.1, fieldsAux_token, List.nil_append,
    sep _ _ hc.1, fieldsAux_token, List.nil_append, sep _ _ hd.1, fieldsAux_token, List.nil_append]
  simp [fieldsAux, he.1]

/-- the words of a plane -/
def planeWords (p : AnalyzedPlane α) : List Bytes :=
  [88 :: asciiBytes (FltText.fmt3 p.plane.p.x), 89 :: asciiBytes (FltText.fmt3 p.plane.p.y), 90 :: asciiBytes (FltText.fmt3 p.plane.p.z),
    84 :: asciiBytes (if p.tilted then "true" else "false"), 82 :: asciiBytes (FltText.fmt3 p.rotz)]

theorem bool_token (b : Bool) : Token ((84 : UInt8) :: asciiBytes (if b then "true" else "false")) := by
  refine ⟨by simp, ?_⟩
  have e1 : asciiBytes "true" = [116, 114, 117, 101] := by decide
  have e2 : asciiBytes "false" = [102, 97, 108, 115, 101] := by decide
  intro c hc
  cases b
  · simp [e2] at hc
    rcases hc with rfl | rfl | rfl | rfl | rfl | rfl <;> exact ⟨by decide, by decide⟩
  · simp [e1] at hc
    rcases hc with rfl | rfl | rfl | rfl | rfl <;> exact ⟨by decide, by decide⟩

theorem planeText_words (p : AnalyzedPlane α) : p.text = 88 :: asciiBytes (FltText.fmt3 p.plane.p.x) ++
    32 :: (89 :: asciiBytes (FltText.fmt3 p.plane.p.y) ++ 32 :: (90 :: asciiBytes (FltText.fmt3 p.plane.p.z) ++
    32 :: (84 :: asciiBytes (if p.tilted then "true" else "false") ++ 32 :: 82 :: asciiBytes (FltText.fmt3 p.rotz)))) := by
  unfold AnalyzedPlane.text
  simp only [asciiBytes_append]
  have e1 : asciiBytes "X" = [88] := by decide
  have e2 : asciiBytes " Y" = [32, 89] := by decide
  have e3 : asciiBytes " Z" = [32, 90] := by decide
  have e4 : asciiBytes " T" = [32, 84] := by decide
  have e5 : asciiBytes " R" = [32, 82] := by decide
  rw [e1, e2, e3, e4, e5]
  simp

/-- C52, one line: a plane written with `String` and read with `ParsePlane` has the same tilt; its coordinates and angle are those
of the text; its normal is the one that belongs to tilt and angle. Every arithmetic and every number format. -/
theorem C52_line [PrintableText α] (p : AnalyzedPlane α) : parsePlane p.text = .ok p.reread := by
  have hf : fields p.text = planeWords p := by
    rw [planeText_words]
    exact fields_five (word_token 'X' (by decide) _) (word_token 'Y' (by decide) _) (word_token 'Z' (by decide) _) (bool_token _)
      (word_token 'R' (by decide) _)
  have hb : parseBool (asciiBytes (if p.tilted then "true" else "false")) = p.tilted := by
    cases p.tilted <;> decide
  unfold parsePlane
  simp only [hf, planeWords]
  show Except.ok _ = _
  simp only [List.drop_succ_cons, List.drop_zero, hb]
  rfl

/-- the text of a plane has no control characters -/
theorem planeText_plain [PrintableText α] (p : AnalyzedPlane α) (x : UInt8) (hx : x < 32) : x ∉ p.text := by
  have hprint : ∀ p : AnalyzedPlane α, ∀ c ∈ p.text, Printable c ∨ c = 32 := by
    intro p c hc
    rw [planeText_words] at hc
    have h1 := (word_token (α := α) 'X' (by decide) p.plane.p.x).2
    have h2 := (word_token (α := α) 'Y' (by decide) p.plane.p.y).2
    have h3 := (word_token (α := α) 'Z' (by decide) p.plane.p.z).2
    have h4 := (bool_token p.tilted).2
    have h5 := (word_token (α := α) 'R' (by decide) p.rotz).2
    rcases List.mem_append.1 hc with h | h
    · exact Or.inl (h1 c h)
    rcases List.mem_cons.1 h with h | h
    · exact Or.inr h
    rcases List.mem_append.1 h with h | h
    · exact Or.inl (h2 c h)
    rcases List.mem_cons.1 h with h | h
    · exact Or.inr h
    rcases List.mem_append.1 h with h | h
    · exact Or.inl (h3 c h)
    rcases List.mem_cons.1 h with h | h
    · exact Or.inr h
    rcases List.mem_append.1 h with h | h
    · exact Or.inl (h4 c h)
    rcases List.mem_cons.1 h with h | h
    · exact Or.inr h
    · exact Or.inl (h5 c h)
  have hno : ∀ p : AnalyzedPlane α, ∀ x : UInt8, x < 32 → x ∉ p.text := by
    intro p x hx hm
    rw [UInt8.lt_iff_toNat_lt] at hx
    rcases hprint p x hm with h | h
    · have := h.1
      rw [UInt8.le_iff_toNat_le] at this
      simp at this hx; omega
    · subst h; simp at hx
  exact hno p x hx

theorem planeText_dropCR [PrintableText α] (p : AnalyzedPlane α) : dropCR p.text = p.text := by
  unfold dropCR
  rw [if_neg]
  intro h
  exact planeText_plain p 13 (by decide) (List.mem_of_getLast? h)

/-- C52, the file: the planes written one per line are read back in order. -/
theorem C52_file [PrintableText α] (ps : List (AnalyzedPlane α)) (hs : ∀ p ∈ ps, p.text.length < 65536) :
    readPlanes (some (docText (ps.map AnalyzedPlane.text))) = .ok (ps.map AnalyzedPlane.reread) := by
  unfold readPlanes
  simp only
  rw [scanLines_doc]
  · simp only [List.map_map, Function.comp_def, planeText_dropCR]
    rw [List.mapM_map]
    exact mapM_ok (fun p : AnalyzedPlane α => parsePlane p.text) AnalyzedPlane.reread ps (fun p _ => C52_line p)
  · intro l hl
    obtain ⟨p, hp, rfl⟩ := List.mem_map.1 hl
    exact ⟨planeText_plain p 10 (by decide), hs p hp⟩

/-- a line with fewer than five words, for example an empty one, ends the program -/
theorem C52_short_line_panics (line : Bytes) (h : (fields line).length < 5) : (parsePlane line : Go (AnalyzedPlane α)) = .error .index := by
  unfold parsePlane
  generalize fields line = ws at h
  match ws, h with
  | [], _ => rfl
  | [_], _ => rfl
  | [_, _], _ => rfl
  | [_, _, _], _ => rfl
  | [_, _, _, _], _ => rfl

/-- an empty line between or after the planes of the file ends the program -/
theorem C52_empty_line_panics [PrintableText α] (ps : List (AnalyzedPlane α)) (hs : ∀ p ∈ ps, p.text.length < 65536) :
    (readPlanes (some (docText (ps.map AnalyzedPlane.text ++ [[]]))) : Go (List (AnalyzedPlane α))) = .error .index := by
  unfold readPlanes
  simp only
  rw [scanLines_doc]
  · simp only [List.map_append, List.map_map, Function.comp_def, planeText_dropCR, List.map_cons, List.map_nil]
    rw [List.mapM_append, List.mapM_map]
    have := mapM_ok (fun p : AnalyzedPlane α => parsePlane p.text) AnalyzedPlane.reread ps (fun p _ => C52_line p)
    show (do let r ← List.mapM (fun p : AnalyzedPlane α => parsePlane p.text) ps; _) = _
    rw [this]
    rfl
  · intro l hl
    rcases List.mem_append.1 hl with hl | hl
    · obtain ⟨p, hp, rfl⟩ := List.mem_map.1 hl
      exact ⟨planeText_plain p 10 (by decide), hs p hp⟩
    · simp at hl; subst hl; simp

section Example
attribute [local instance] Toy.flt Toy.txt
/-- the text of a plane, and what is read -/
example : (AnalyzedPlane.mk (Plane.mk (Point.mk (-19 : Int) (-4) 71) ⟨0, 0, 1⟩) true (-90)).text =
    asciiBytes "X-19.000 Y-4.000 Z71.000 Ttrue R-90.000" := by decide
end Example
end Text

section Geometry

theorem cos_angleDeg (a b : R3) (ha : a ≠ 0) (hb : b ≠ 0) : Real.cos (rad (angleDeg a b)) = a.dot b / (a.norm * b.norm) := by
  have hp := mul_pos (R3.norm_pos ha) (R3.norm_pos hb)
  have hc := abs_le.1 (R3.cauchy a b)
  have : rad (angleDeg a b) = Real.arccos (a.dot b / (a.norm * b.norm)) := by
    unfold angleDeg rad; have := Real.pi_pos; field_simp
  rw [this, Real.cos_arccos (by rw [le_div_iff₀ hp]; linarith [hc.1]) (by rw [div_le_iff₀ hp]; linarith [hc.2])]

theorem sin_angleDeg (a : R3) (ha : a ≠ 0) (hz : a.z = 0) : Real.sin (rad (angleDeg a (R3.mk 1 0 0))) = |a.y| / a.norm := by
  have hx : (R3.mk 1 0 0) ≠ 0 := by intro h; have := congrArg R3.x h; simp at this
  have hn := R3.norm_pos ha
  have h1 : (R3.mk 1 0 0).norm = 1 := by simp [R3.norm, R3.normSq, R3.dot]
  have hs : rad (angleDeg a (R3.mk 1 0 0)) = Real.arccos (a.x / a.norm) := by
    unfold angleDeg rad; rw [h1, mul_one]
    have : a.dot (R3.mk 1 0 0) = a.x := by simp [R3.dot]
    rw [this]
    have := Real.pi_pos; field_simp
  rw [hs, Real.sin_arccos]
  have hsq := R3.norm_sq a
  have hsq' : a.norm * a.norm = a.x * a.x + a.y * a.y := by rw [hsq]; simp [R3.normSq, R3.dot, hz]
  have : 1 - (a.x / a.norm) ^ 2 = (a.y / a.norm) ^ 2 := by
    field_simp; nlinarith
  rw [this, Real.sqrt_sq_eq_abs, abs_div, abs_of_pos hn]

/-- the direction of a tilted plane of the analysis, normalised -/
noncomputable def tiltedUnit (a : R3) : R3 :=
  ⟨Real.sin (rad 60) * (a.x / a.norm), Real.sin (rad 60) * (a.y / a.norm), Real.cos (rad 60)⟩

theorem tiltedUnit_norm {a : R3} (ha : a ≠ 0) (hz : a.z = 0) : (tiltedUnit a).norm = 1 := by
  have hn := (R3.norm_pos ha).ne'
  have hsq' : a.norm * a.norm = a.x * a.x + a.y * a.y := by rw [R3.norm_sq a]; simp [R3.normSq, R3.dot, hz]
  have h := Real.sin_sq_add_cos_sq (rad 60)
  have : (tiltedUnit a).normSq = 1 := by
    have e : (tiltedUnit a).normSq = Real.sin (rad 60) ^ 2 * ((a.x * a.x + a.y * a.y) / (a.norm * a.norm)) + Real.cos (rad 60) ^ 2 := by
      simp [tiltedUnit, R3.normSq, R3.dot]; field_simp
    rw [e, ← hsq', div_self (mul_ne_zero hn hn), mul_one, h]
  rw [R3.norm, this, Real.sqrt_one]

theorem sin60_cos30 : Real.sin (rad 60) = Real.cos (rad 30) ∧ Real.cos (rad 60) = Real.sin (rad 30) := by
  rw [rad60, rad30]
  constructor
  · rw [← Real.sin_pi_div_two_sub]; congr 1; ring
  · rw [← Real.cos_pi_div_two_sub]; congr 1; ring

/-- the tilted plane found for a facet, in terms of the shadow of its normal -/
theorem nextPlane_unit (cur : AnalyzedPlane XR) (hc : cur.tilted = false) (t : RTri) (hn : t.nrm.flat ≠ 0) :
    ∃ N : R3, (nextPlane cur t.tri).plane.n = N.vec ∧ N = t.nrm.flat.norm • tiltedUnit t.nrm.flat := by
  refine ⟨_, by rw [nextPlane_tilted cur hc t hn], ?_⟩
  have h0 := (R3.norm_pos hn).ne'
  obtain ⟨h1, h2⟩ := sin60_cos30
  apply R3.ext
  · simp only [R3.smul_x, tiltedUnit, h1]; field_simp; rfl
  · simp only [R3.smul_y, tiltedUnit, h1]; field_simp; rfl
  · simp only [R3.smul_z, tiltedUnit, h2]; ring

theorem unit_of_smul {k : ℝ} (hk : 0 < k) {U : R3} (hU : U.norm = 1) : (k • U).unit = U := by
  rw [R3.unit, R3.norm_smul, hU, abs_of_pos hk]
  apply R3.ext <;> simp <;> field_simp

/-- the normal that belongs to a direction `φ` radians from the x axis -/
theorem fileNormal_dir (r : ℝ) : fileNormal true (XR.fin (r - 90)) =
    (R3.mk (Real.sin (rad 60) * Real.cos (rad r)) (Real.sin (rad 60) * Real.sin (rad r)) (Real.cos (rad 60))).vec := by
  rw [fileNormal_tilted, rad_sub90, Real.sin_sub_pi_div_two, Real.cos_sub_pi_div_two]
  congr 1
  apply R3.ext <;> simp <;> ring

/-- C52, the cutting plane: if the normal of the facet has no negative `y` component, the plane read back has a unit normal that
differs from the direction of the plane found by at most the error of the angle in the file, in radians (any angle `r'` may have
been read). -/
theorem C52_same_plane_partial (cur : AnalyzedPlane XR) (hc : cur.tilted = false) (t : RTri) (hn : t.nrm.flat ≠ 0)
    (hy : 0 ≤ t.nrm.y) (r' : ℝ) :
    ∃ (N N' : R3) (r : ℝ), (nextPlane cur t.tri).plane.n = N.vec ∧ (nextPlane cur t.tri).tilted = true ∧
      (nextPlane cur t.tri).rotz = XR.fin r ∧ fileNormal true (XR.fin r') = N'.vec ∧ N'.norm = 1 ∧
      R3.dist N.unit N' ≤ rad |r' - r| := by
  have h0 := R3.norm_pos hn
  have hx : (R3.mk 1 0 0) ≠ 0 := by intro h; have := congrArg R3.x h; simp at this
  have hz : t.nrm.flat.z = 0 := rfl
  obtain ⟨N, hN, hN'⟩ := nextPlane_unit cur hc t hn
  have hunit : N.unit = tiltedUnit t.nrm.flat := by rw [hN', unit_of_smul h0 (tiltedUnit_norm hn hz)]
  have hr' : r' = (r' + 90) - 90 := by ring
  set φ := rad (angleDeg t.nrm.flat (R3.mk 1 0 0)) with hφ
  have hcos : Real.cos φ = t.nrm.flat.x / t.nrm.flat.norm := by
    rw [hφ, cos_angleDeg _ _ hn hx]
    have h1 : (R3.mk 1 0 0).norm = 1 := by simp [R3.norm, R3.normSq, R3.dot]
    rw [h1, mul_one]; simp [R3.dot]
  have hsin : Real.sin φ = t.nrm.flat.y / t.nrm.flat.norm := by
    rw [hφ, sin_angleDeg _ hn hz]
    have : t.nrm.flat.y = t.nrm.y := rfl
    rw [this, abs_of_nonneg hy]
  refine ⟨N, _, angleDeg t.nrm.flat (R3.mk 1 0 0) - 90, hN, by rw [nextPlane_tilted cur hc t hn], by rw [nextPlane_tilted cur hc t hn],
    by rw [hr', fileNormal_dir], ?_, ?_⟩
  · have h := Real.sin_sq_add_cos_sq (rad 60)
    have h' := Real.sin_sq_add_cos_sq (rad (r' + 90))
    rw [R3.norm]
    have : (R3.mk (Real.sin (rad 60) * Real.cos (rad (r' + 90))) (Real.sin (rad 60) * Real.sin (rad (r' + 90))) (Real.cos (rad 60))).normSq = 1 := by
      simp only [R3.normSq, R3.dot]
      linear_combination h + Real.sin (rad 60) ^ 2 * h'
    rw [this, Real.sqrt_one]
  · have hang : rad |r' - (angleDeg t.nrm.flat (R3.mk 1 0 0) - 90)| = |rad (r' + 90) - φ| := by
      have : rad (r' + 90) - φ = Real.pi / 180 * (r' - (angleDeg t.nrm.flat (R3.mk 1 0 0) - 90)) := by
        rw [hφ]; unfold rad; ring
      rw [this, abs_mul, abs_of_pos (show (0 : ℝ) < Real.pi / 180 by positivity)]
      unfold rad; ring
    rw [hang]
    set ψ := rad (r' + 90)
    unfold R3.dist R3.norm
    rw [← Real.sqrt_sq_eq_abs]
    apply Real.sqrt_le_sqrt
    have e : (R3.mk (Real.sin (rad 60) * Real.cos ψ) (Real.sin (rad 60) * Real.sin ψ) (Real.cos (rad 60)) - N.unit).normSq =
        Real.sin (rad 60) ^ 2 * (2 - 2 * Real.cos (ψ - φ)) := by
      rw [hunit, Real.cos_sub]
      have h1 := Real.sin_sq_add_cos_sq ψ
      have h2 := Real.sin_sq_add_cos_sq φ
      simp only [tiltedUnit, ← hcos, ← hsin, R3.normSq, R3.dot, R3.sub_x, R3.sub_y, R3.sub_z]
      linear_combination Real.sin (rad 60) ^ 2 * h1 + Real.sin (rad 60) ^ 2 * h2
    rw [e]
    have h1 := Real.one_sub_sq_div_two_le_cos (x := ψ - φ)
    have h2 : Real.sin (rad 60) ^ 2 ≤ 1 := Real.sin_sq_le_one _
    have h3 : 0 ≤ 2 - 2 * Real.cos (ψ - φ) := by linarith [Real.cos_le_one (ψ - φ)]
    nlinarith

/-- C52 is false if the normal of the facet has a negative `y` component: even if the angle is read back exactly, the plane read back
is the mirror image of the plane found. -/
theorem C52_mirrored_violated (cur : AnalyzedPlane XR) (hc : cur.tilted = false) (t : RTri) (hy : t.nrm.y < 0) :
    ∃ (N : R3) (r : ℝ), (nextPlane cur t.tri).plane.n = N.vec ∧ (nextPlane cur t.tri).rotz = XR.fin r ∧
      fileNormal true (XR.fin r) = (R3.mk N.unit.x (-N.unit.y) N.unit.z).vec ∧ N.unit.y < 0 := by
  have hn : t.nrm.flat ≠ 0 := by intro h; have := congrArg R3.y h; simp [R3.flat] at this; linarith
  have h0 := R3.norm_pos hn
  have hx : (R3.mk 1 0 0) ≠ 0 := by intro h; have := congrArg R3.x h; simp at this
  have hz : t.nrm.flat.z = 0 := rfl
  obtain ⟨N, hN, hN'⟩ := nextPlane_unit cur hc t hn
  have hunit : N.unit = tiltedUnit t.nrm.flat := by rw [hN', unit_of_smul h0 (tiltedUnit_norm hn hz)]
  have hfy : t.nrm.flat.y = t.nrm.y := rfl
  refine ⟨N, angleDeg t.nrm.flat (R3.mk 1 0 0) - 90, hN, by rw [nextPlane_tilted cur hc t hn], ?_, ?_⟩
  · rw [fileNormal_dir, cos_angleDeg _ _ hn hx, sin_angleDeg _ hn hz, hunit, hfy, abs_of_neg hy]
    have h1 : (R3.mk 1 0 0).norm = 1 := by simp [R3.norm, R3.normSq, R3.dot]
    congr 1
    apply R3.ext
    · simp [tiltedUnit, R3.dot, h1]
    · simp only [tiltedUnit, hfy]; ring
    · simp [tiltedUnit]
  · rw [hunit]
    simp only [tiltedUnit, hfy]
    have : 0 < Real.sin (rad 60) := by
      rw [rad60, Real.sin_pi_div_three]; positivity
    exact mul_neg_of_pos_of_neg this (div_neg_of_neg_of_pos hy h0)

/-- C52 is false for a horizontal facet: the plane found has no direction and no angle. -/
theorem C52_horizontal_violated (cur : AnalyzedPlane XR) (hc : cur.tilted = false) (t : RTri) (hx : t.nrm.x = 0) (hy : t.nrm.y = 0) :
    (nextPlane cur t.tri).plane.n = (0 : R3).vec ∧ (nextPlane cur t.tri).rotz = XR.nan ∧ (nextPlane cur t.tri).tilted = true := by
  have hpr : t.tri.n.projectOnPlane planeXY = (0 : R3).vec := by
    show t.nrm.vec.projectOnPlane planeXY = _
    rw [planeXY_eq]
    unfold Vec.projectOnPlane
    simp only [projectOn_vec, reverse_vec, add_vec]
    congr 1
    apply R3.ext <;> simp [R3.dot, R3.normSq, hx, hy]
  have h90 : (lit 90 0 : XR) = XR.fin 90 := by simp
  have ht : (lit 90 0 - tiltX : XR) = XR.fin 30 := by simp [tiltX]; norm_num
  have hrot : (0 : R3).rotZ (-rad 90) = 0 := by apply R3.ext <;> simp [R3.rotZ]
  unfold nextPlane
  simp only [hc, Bool.false_eq_true, if_false, hpr, ht]
  simp only [h90, rotate_rotZ, hrot, axisX_vec', (C27_zero _).2, rotateAbout_zero_axis]
  refine ⟨?_, rfl, trivial⟩
  congr 1
  apply R3.ext <;> simp

/-- horizontal planes are read back as they are -/
theorem C52_flat (cur : AnalyzedPlane XR) (hc : cur.tilted = true) (t : RTri) (r : ℝ) :
    (nextPlane cur t.tri).tilted = false ∧ (nextPlane cur t.tri).plane.n = fileNormal false (XR.fin r) ∧
      (nextPlane cur t.tri).rotz = XR.fin 0 := by
  rw [fileNormal_flat]
  unfold nextPlane
  simp [hc]

/-- a facet that hangs over in direction `-y`: the hypotheses of `C52_mirrored_violated` hold -/
example : (RTri.mk ⟨0, 0, 1⟩ ⟨1, 0, 1⟩ ⟨0, -1, 2⟩).nrm = ⟨0, -1, -1⟩ := by
  apply R3.ext <;> norm_num [RTri.nrm, R3.cross]

/-- a facet that hangs over in direction `+y`: the hypotheses of `C52_same_plane_partial` hold -/
example : (RTri.mk ⟨0, 0, 1⟩ ⟨0, 1, 2⟩ ⟨1, 0, 1⟩).nrm = ⟨0, 1, -1⟩ := by
  apply R3.ext <;> norm_num [RTri.nrm, R3.cross]

/-- a horizontal facet: the hypotheses of `C52_horizontal_violated` hold -/
example : (RTri.mk ⟨0, 0, 1⟩ ⟨0, 1, 1⟩ ⟨1, 0, 1⟩).nrm = ⟨0, 0, -1⟩ := by
  apply R3.ext <;> norm_num [RTri.nrm, R3.cross]

end Geometry

end Goosli
