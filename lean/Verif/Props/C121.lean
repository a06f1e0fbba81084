import Verif.Props.C47
import Verif.Props.C96
import Verif.Proofs.NInv
import Verif.Proofs.Grid
/-!
# C121: a wall of k line widths is printed as k lines
-/
set_option autoImplicit false
namespace Goosli
open Flt R3 Spec

/-- `out` is `layers` with walls of up to `k` lines: beside each contour of two points or more there are up to `k - 1` walls, each the offset of the
one before, and fewer only if there is no further offset; the last one is an inner wall, the others are middle walls -/
def WallLines (lw : B64) (k : ℕ) (layers out : List (Layer B64)) : Prop :=
  out.length = layers.length ∧ ∀ (i : ℕ) (l : Layer B64), layers[i]? = some l → ∃ o : Layer B64, out[i]? = some o ∧ o.paths = l.paths ∧
    ∃ walls, List.Forall₂ (fun p ws => if 2 ≤ p.points.length then OffsetsOf lw l.norm ((k : ℤ) - 1) p ws else ws = []) l.paths walls ∧
      o.middlePs = l.middlePs ++ walls.flatMap List.dropLast ∧ o.innerPs = l.innerPs ++ walls.filterMap List.getLast?

/-- no walls are no offsets -/
theorem offsetsOf_nil {lw : B64} {n : Vec B64} {p : Path B64} : OffsetsOf lw n 0 p [] := ⟨by simp, by simp, by simp⟩

/-- the number of lines is the whole number below the quotient -/
theorem lines_of_count (S : Sorter) (layers : List (Layer B64)) (sett : Settings B64) (sparse full : List (Plane B64))
    (hf : ∀ l ∈ layers, ∀ q ∈ l.fill, q.points ≠ []) (k : ℕ) (hk : 1 ≤ k) (h : toInt (sett.wallThickness / sett.gs.lineWidth) = k) :
    ∃ out, prepareLayers S layers sett sparse full = .ok out ∧ WallLines sett.gs.lineWidth k layers out := by
  obtain ⟨out, h1, h2, h3⟩ := C47_walls S layers sett sparse full hf
  refine ⟨out, h1, h2, fun i l hl => ?_⟩
  obtain ⟨o, a, -, -, b, ⟨walls, c, d, e⟩, -⟩ := h3 i l hl
  refine ⟨o, a, b, walls, c.imp fun p ws hw => ?_, d, e⟩
  unfold WallsOf at hw
  dsimp only at hw
  rw [h] at hw
  by_cases hp : 2 ≤ p.points.length
  · rw [if_pos hp]
    by_cases k1 : k = 1
    · subst k1
      rw [if_neg (by simp)] at hw
      subst hw
      simpa using offsetsOf_nil
    · rwa [if_pos ⟨by omega, hp⟩] at hw
  · rwa [if_neg (by tauto)] at hw ⊢

theorem toInt_at {x : ℝ} (hx : IsF x) {k : ℕ} (hk : k ≤ 2 ^ 62) (h1 : (k : ℝ) ≤ x) (h2 : x < k + 1) : toInt (B64.of x) = k := by
  rw [B64.toInt_of hx]
  have fl : ⌊x⌋ = (k : ℤ) := by rw [Int.floor_eq_iff]; exact ⟨by exact_mod_cast h1, by exact_mod_cast h2⟩
  unfold XR.toInt
  dsimp only
  rw [if_pos ((Nat.cast_nonneg k).trans h1), fl, if_pos ⟨by omega, by omega⟩]

/-- **C121, exact multiples.** If the wall is thick exactly `k` times the width of a line, both as stored in `float64`, it gets `k` lines. -/
theorem C121_lines_partial (S : Sorter) (layers : List (Layer B64)) (sett : Settings B64) (sparse full : List (Plane B64))
    (hf : ∀ l ∈ layers, ∀ q ∈ l.fill, q.points ≠ []) (k : ℕ) (hk : 1 ≤ k) (hk' : k ≤ 2 ^ 53) (W lw : ℝ) (hW : sett.wallThickness = B64.of W)
    (hlw : sett.gs.lineWidth = B64.of lw) (FW : IsF W) (Flw : IsF lw) (l0 : 0 < lw) (h : W = k * lw) :
    ∃ out, prepareLayers S layers sett sparse full = .ok out ∧ WallLines sett.gs.lineWidth k layers out := by
  refine lines_of_count S layers sett sparse full hf k hk ?_
  have Fk : IsF (k : ℝ) := by exact_mod_cast isF_int (n := (k : ℤ)) (by rw [abs_of_nonneg (by positivity)]; exact_mod_cast hk')
  rw [hW, hlw, B64.div_of FW Flw l0.ne', h, mul_div_assoc, div_self l0.ne', mul_one, rd_of_rep Fk.1]
  exact toInt_at Fk (hk'.trans (by norm_num)) le_rfl (by linarith)

/-- **C121, in general.** If the wall is thick `k` times the width of a line up to rounding, it gets `k` lines or one less. -/
theorem C121_nearly (S : Sorter) (layers : List (Layer B64)) (sett : Settings B64) (sparse full : List (Plane B64))
    (hf : ∀ l ∈ layers, ∀ q ∈ l.fill, q.points ≠ []) (k : ℕ) (hk : 2 ≤ k) (hk' : k ≤ 10 ^ 6) (W lw : ℝ) (hW : sett.wallThickness = B64.of W)
    (hlw : sett.gs.lineWidth = B64.of lw) (FW : IsF W) (Flw : IsF lw) (l0 : 0 < lw) (h : |W - k * lw| ≤ lw / 10 ^ 6) :
    ∃ out, prepareLayers S layers sett sparse full = .ok out ∧
      (WallLines sett.gs.lineWidth k layers out ∨ WallLines sett.gs.lineWidth (k - 1) layers out) := by
  have kr : (k : ℝ) ≤ 10 ^ 6 := by exact_mod_cast hk'
  have k2 : (2 : ℝ) ≤ k := by exact_mod_cast hk
  have hq : |W / lw - k| ≤ 1 / 10 ^ 6 := by
    rw [show W / lw - k = (W - k * lw) / lw by field_simp, abs_div, abs_of_pos l0, div_le_iff₀ l0]
    linarith
  have hb : |W / lw| ≤ 2 * 10 ^ 6 := by
    rw [abs_le] at hq ⊢
    constructor <;> linarith [hq.1, hq.2]
  have he := rd_err (M := 2 * 10 ^ 6) (by norm_num) hb
  have Fq : IsF (rd (W / lw)) := isF_rd (hb.trans (by norm_num))
  rw [abs_le] at hq he
  have e : sett.wallThickness / sett.gs.lineWidth = B64.of (rd (W / lw)) := by rw [hW, hlw, B64.div_of FW Flw l0.ne']
  by_cases c : (k : ℝ) ≤ rd (W / lw)
  · obtain ⟨out, a, b⟩ := lines_of_count S layers sett sparse full hf k (by omega)
      (by rw [e]; exact toInt_at Fq (hk'.trans (by norm_num)) c (by linarith [hq.2, he.2]))
    exact ⟨out, a, .inl b⟩
  · obtain ⟨out, a, b⟩ := lines_of_count S layers sett sparse full hf (k - 1) (by omega)
      (by
        rw [e]
        have ek : ((k - 1 : ℕ) : ℝ) = k - 1 := by rw [Nat.cast_sub (by omega)]; simp
        exact toInt_at Fq ((Nat.sub_le k 1).trans (hk'.trans (by norm_num))) (by rw [ek]; linarith [hq.1, he.1]) (by rw [ek]; push Not at c; linarith))
    exact ⟨out, a, .inr b⟩

/-- `1.2` in `float64` -/
theorem rd_12 : rd (12 / 10) = 5404319552844595 / 2 ^ 52 := by
  rw [rd_at (e := -52) (by norm_num) (by norm_num) (by norm_num), roundEven_of_lt (n := 5404319552844595) (by rw [abs_lt]; constructor <;> norm_num)]
  norm_num

/-- `0.4` in `float64` -/
theorem rd_04 : rd (4 / 10) = 7205759403792794 / 2 ^ 54 := by
  rw [rd_at (e := -54) (by norm_num) (by norm_num) (by norm_num), roundEven_of_lt (n := 7205759403792794) (by rw [abs_lt]; constructor <;> norm_num)]
  norm_num

/-- `1.2 / 0.4` in `float64` is less than three -/
theorem rd_12_04 : rd (5404319552844595 / 2 ^ 52 / (7205759403792794 / 2 ^ 54)) = 6755399441055743 / 2 ^ 51 := by
  rw [rd_at (e := -51) (by norm_num) (by norm_num) (by norm_num), roundEven_of_lt (n := 6755399441055743) (by rw [abs_lt]; constructor <;> norm_num)]
  norm_num

/-- two lines: there are no walls in the middle -/
theorem WallLines.two {lw : B64} {layers out : List (Layer B64)} (h : WallLines lw 2 layers out) (i : ℕ) (l : Layer B64) (hl : layers[i]? = some l) :
    ∃ o : Layer B64, out[i]? = some o ∧ o.paths = l.paths ∧ o.middlePs = l.middlePs ∧ o.innerPs.length ≤ l.innerPs.length + l.paths.length := by
  obtain ⟨o, a, b, walls, c, d, e⟩ := h.2 i l hl
  have short : ∀ {ps : List (Path B64)} {ws : List (List (Path B64))},
      List.Forall₂ (fun p ws => if 2 ≤ p.points.length then OffsetsOf lw l.norm (((2 : ℕ) : ℤ) - 1) p ws else ws = []) ps ws →
      ws.flatMap List.dropLast = [] := by
    intro ps ws hw
    induction hw with
    | nil => rfl
    | @cons p w ps ws h _ ih =>
      have : w.length ≤ 1 := by
        split_ifs at h
        · have := h.1
          push_cast at this
          omega
        · rw [h]; simp
      rw [List.flatMap_cons, ih, List.append_nil]
      rcases w with _ | ⟨x, _ | ⟨y, t⟩⟩
      · rfl
      · rfl
      · simp at this
  refine ⟨o, a, b, by rw [d, short c, List.append_nil], ?_⟩
  rw [e, List.length_append, c.length_eq]
  exact Nat.add_le_add_left (List.length_filterMap_le _ _) _

/-- **C121, the defaults.** With the default flags, `--wall_thickness 1.2` and `--line_width 0.4`, the wall of three line widths gets two lines: the
contour and at most one wall beside it, whatever the contours are. -/
theorem C121_violated (S : Sorter) (layers : List (Layer B64)) (sett : Settings B64) (sparse full : List (Plane B64))
    (hf : ∀ l ∈ layers, ∀ q ∈ l.fill, q.points ≠ []) (hW : sett.wallThickness = lit 12 1) (hlw : sett.gs.lineWidth = lit 4 1) :
    ∃ out, prepareLayers S layers sett sparse full = .ok out ∧ WallLines (lit 4 1) 2 layers out ∧ ∀ (i : ℕ) (l : Layer B64), layers[i]? = some l →
      ∃ o : Layer B64, out[i]? = some o ∧ o.paths = l.paths ∧ o.middlePs = l.middlePs ∧ o.innerPs.length ≤ l.innerPs.length + l.paths.length := by
  suffices h : ∃ out, prepareLayers S layers sett sparse full = .ok out ∧ WallLines (lit 4 1) 2 layers out by
    obtain ⟨out, a, b⟩ := h
    exact ⟨out, a, b, b.two⟩
  rw [← hlw]
  refine lines_of_count S layers sett sparse full hf 2 (by norm_num) ?_
  have e1 : (lit 12 1 : B64) = B64.of (5404319552844595 / 2 ^ 52) := by
    rw [B64.lit_of, ← rd_12, B64.of_rd]; norm_num
  have e2 : (lit 4 1 : B64) = B64.of (7205759403792794 / 2 ^ 54) := by
    rw [B64.lit_of, ← rd_04, B64.of_rd]; norm_num
  have F1 : IsF (5404319552844595 / 2 ^ 52) := rd_12 ▸ isF_rd (by rw [abs_le]; constructor <;> norm_num)
  have F2 : IsF (7205759403792794 / 2 ^ 54) := rd_04 ▸ isF_rd (by rw [abs_le]; constructor <;> norm_num)
  have F3 : IsF (6755399441055743 / 2 ^ 51) := rd_12_04 ▸ isF_rd (by rw [abs_le]; constructor <;> norm_num)
  rw [hW, hlw, e1, e2, B64.div_of F1 F2 (by norm_num), rd_12_04]
  exact toInt_at F3 (by norm_num) (by norm_num) (by norm_num)

/-! ## Non-vacuity -/

/-- a wall of `W` and lines of `lw` -/
private noncomputable def exSett (W lw : B64) : Settings B64 :=
  ⟨⟨B64.of 1, B64.of 1, B64.of 1, lw, true, 50, 20, 30, true, 40, B64.of 5⟩, B64.of 1, B64.of (1 / 4), W, 20, ⟨B64.of 0, B64.of 0, B64.of 0⟩, "Lines", B64.of 30,
    ⟨B64.of 0, B64.of 0, B64.of 1⟩, false, B64.of 0, 1, 1, 0⟩

/-- a square -/
private noncomputable def exLayer : Layer B64 :=
  ⟨0, zUp.f64v, [⟨[(⟨0, 0, 0⟩ : R3).f64, (⟨10, 0, 0⟩ : R3).f64, (⟨10, 10, 0⟩ : R3).f64, (⟨0, 10, 0⟩ : R3).f64, (⟨0, 0, 0⟩ : R3).f64]⟩], [], [], []⟩

/-- three lines of three eighths for a wall of nine eighths -/
example : ∃ out, prepareLayers Sorter.insertion [exLayer] (exSett (B64.of (9 / 8)) (B64.of (3 / 8))) [] [] = .ok out ∧
    WallLines (B64.of (3 / 8)) 3 [exLayer] out := by
  have e : ∀ (n : ℤ), |n| ≤ 8000 → IsF ((n : ℝ) / 2 ^ 3) := fun n h => by
    have h' : |(n : ℝ)| ≤ 8000 := by exact_mod_cast h
    have b : |(n : ℝ) / 2 ^ 3| ≤ 1000 := by rw [abs_div, abs_of_pos (by positivity : (0 : ℝ) < 2 ^ 3)]; linarith
    exact isF_rep (rep_grid (by norm_num) (b.trans (by norm_num))) (b.trans (by norm_num))
  have F9 : IsF (9 / 8 : ℝ) := by have := e 9 (by norm_num); norm_num at this; exact this
  have F3 : IsF (3 / 8 : ℝ) := by have := e 3 (by norm_num); norm_num at this; exact this
  exact C121_lines_partial Sorter.insertion [exLayer] (exSett (B64.of (9 / 8)) (B64.of (3 / 8))) [] [] (by simp [exLayer]) 3 (by norm_num) (by norm_num) (9 / 8) (3 / 8) rfl rfl F9 F3 (by norm_num) (by norm_num)

/-- the default flags -/
example : ∃ out, prepareLayers Sorter.insertion [exLayer] (exSett (lit 12 1) (lit 4 1)) [] [] = .ok out ∧ ∃ o, out[0]? = some o ∧ o.middlePs = [] := by
  obtain ⟨out, a, -, b⟩ := C121_violated Sorter.insertion [exLayer] (exSett (lit 12 1) (lit 4 1)) [] [] (by simp [exLayer]) rfl rfl
  obtain ⟨o, c, -, d, -⟩ := b 0 exLayer rfl
  exact ⟨out, a, o, c, d⟩

end Goosli
