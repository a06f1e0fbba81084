import Verif.Proofs.FillPlanes
/-! # C46 Positive density gives infill -/
set_option linter.unusedSectionVars false
namespace Goosli
open Flt

private theorem common_ne_nil {ts : List RTri} {s M : ℝ} (h : FillBounds ts s M)
    (hpos : ∃ w ∈ allVerts ts, w.x ≠ 0 ∨ w.y ≠ 0) (u : R3) : calcFillPlanesCommon (rmesh ts) u.vec (XR.fin s) ≠ [] := by
  obtain ⟨ax, bx, ay, b_y, hx, hy, hc, hr⟩ := h.extents
  rw [calcFillPlanesCommon_eq hx hy hr u h.step hc]
  have hrad : 0 < cornerRadius ax bx ay b_y := by
    obtain ⟨w, hw, hne⟩ := hpos
    have e1 : w.dot R3.ex = w.x := by simp [R3.dot, R3.ex]
    have e2 : w.dot R3.ey = w.y := by simp [R3.dot, R3.ey]
    rcases hne with hne | hne
    · exact lt_of_lt_of_le (abs_pos.2 hne) (abs_le_cornerRadius (hx.1.2 ⟨w, hw, e1⟩) (hx.2.2 ⟨w, hw, e1⟩))
    · exact lt_of_lt_of_le (abs_pos.2 hne) (abs_le_cornerRadius' (hy.1.2 ⟨w, hw, e2⟩) (hy.2.2 ⟨w, hw, e2⟩))
  have : 0 < ⌈cornerRadius ax bx ay b_y / s⌉ := Int.ceil_pos.2 (div_pos hrad h.step)
  intro hnil
  have hlen := congrArg List.length hnil
  simp only [List.length_map, List.length_range, List.length_nil] at hlen
  omega

private theorem fillStep_fin {d : ℤ} (hd : 0 < d) (lw : ℝ) : fillStep d (XR.fin lw) = XR.fin (100 / d * lw) := by
  unfold fillStep
  rw [XR.lit_def, XR.ofInt_def, XR.fin_div (by exact_mod_cast hd.ne'), XR.fin_mul]
  norm_num

/-- smallest density that the integer division of the pattern leaves positive -/
def minDensity (pattern : String) : ℤ := if pattern = "Squares" then 2 else if pattern = "Triangles" then 3 else 1

/-- C46, the true part: a density of at least 1 (Lines and unknown patterns), 2 (Squares) or 3 (Triangles) and a positive line
width give at least one infill plane on every model with a vertex off the axis; the solid layers always have one.  Every
pattern but Squares and Triangles behaves as Lines. -/
theorem C46_planes_partial {ts : List RTri} {lw M : ℝ} (sett : Settings XR) (hlw : sett.gs.lineWidth = XR.fin lw) (hlw0 : 0 < lw)
    (hne : ts ≠ []) (hpos : ∃ w ∈ allVerts ts, w.x ≠ 0 ∨ w.y ≠ 0) (hM : ∀ w ∈ allVerts ts, |w.x| ≤ M ∧ |w.y| ≤ M)
    (hfit : M ≤ XR.maxF64R) (hd : minDensity sett.fillingType ≤ sett.fillDensity)
    (hcount : 2 * M * sett.fillDensity ≤ 10 ^ 18 * lw) :
    (calcFillPlanes (rmesh ts) sett).1 ≠ [] ∧ (calcFillPlanes (rmesh ts) sett).2 ≠ [] := by
  have hM0 : 0 ≤ M := by
    obtain ⟨w, hw, _⟩ := hpos
    exact (abs_nonneg _).trans (hM w hw).1
  have hd1 : 1 ≤ sett.fillDensity := by
    refine le_trans ?_ hd
    unfold minDensity
    split
    · norm_num
    · split <;> norm_num
  have hd1r : (1 : ℝ) ≤ sett.fillDensity := by exact_mod_cast hd1
  -- any positive density up to the requested one
  have key : ∀ d : ℤ, 0 < d → d ≤ sett.fillDensity → FillBounds ts (100 / d * lw) M := by
    intro d h0 hle
    have h0r : (0 : ℝ) < d := by exact_mod_cast h0
    have hler : (d : ℝ) ≤ sett.fillDensity := by exact_mod_cast hle
    refine ⟨hne, hM, hfit, by positivity, ?_⟩
    have h1 : 2 * M * d ≤ 10 ^ 18 * lw := by nlinarith
    have h2 : 2 * M ≤ 10 ^ 18 * lw / d := by rw [le_div_iff₀ h0r]; exact h1
    have h3 : (10 : ℝ) ^ 18 * (100 / d * lw) = 100 * (10 ^ 18 * lw / d) := by field_simp
    have h4 : 0 ≤ (10 : ℝ) ^ 18 * lw / d := by positivity
    linarith
  have lines : calcFillPlanesLines (rmesh ts) sett ≠ [] := by
    unfold calcFillPlanesLines
    rw [hlw, fillStep_fin (by omega), axisX_vec]
    exact common_ne_nil (key _ (by omega) le_rfl) hpos _
  refine ⟨?_, ?_⟩
  · unfold calcFillPlanes
    dsimp only
    by_cases h1 : sett.fillingType = "Lines"
    · rw [if_pos h1]; exact lines
    · rw [if_neg h1]
      by_cases h2 : sett.fillingType = "Squares"
      · rw [if_pos h2]
        have h2d : 2 ≤ sett.fillDensity := by simpa [minDensity, h2] using hd
        unfold calcFillPlanesSquares
        dsimp only
        have e : sett.fillDensity.tdiv 2 = sett.fillDensity / 2 := Int.tdiv_eq_ediv_of_nonneg (by omega)
        rw [hlw, e, fillStep_fin (by omega)]
        intro hnil
        have := (List.append_eq_nil_iff.1 hnil).1
        have hv : (V (lit 7071067812 10) (lit 7071067812 10) (lit 0 0) : Vec XR) =
          (R3.mk (7071067812 / 10 ^ 10) (7071067812 / 10 ^ 10) (0 / 10 ^ 0)).vec := by simp [V, R3.vec]
        rw [hv] at this
        exact common_ne_nil (key _ (by omega) (by omega)) hpos _ this
      · rw [if_neg h2]
        by_cases h3 : sett.fillingType = "Triangles"
        · rw [if_pos h3]
          have h3d : 3 ≤ sett.fillDensity := by simpa [minDensity, h3] using hd
          unfold calcFillPlanesTriangles
          dsimp only
          have e : sett.fillDensity.tdiv 3 = sett.fillDensity / 3 := Int.tdiv_eq_ediv_of_nonneg (by omega)
          rw [hlw, e, fillStep_fin (by omega)]
          intro hnil
          have := (List.append_eq_nil_iff.1 (List.append_eq_nil_iff.1 hnil).1).1
          have hv : (V (lit 1 0) (lit 0 0) (lit 0 0) : Vec XR) = R3.ex.vec := axisX_vec
          rw [hv] at this
          exact common_ne_nil (key _ (by omega) (by omega)) hpos _ this
        · rw [if_neg h3]; exact lines
  · show calcFillFullPlane (rmesh ts) sett ≠ []
    unfold calcFillFullPlane
    rw [hlw, axisX_vec]
    refine common_ne_nil ⟨hne, hM, hfit, hlw0, ?_⟩ hpos _
    nlinarith

private theorem nan_count (r : XR) (hr : r ≠ .pinf ∧ r ≠ .ninf ∧ r ≠ .nan) : (fillCount r XR.pinf).toNat = 0 := by
  cases r with
  | nan => simp at hr
  | pinf => simp at hr
  | ninf => simp at hr
  | fin x =>
    have h : fillStart (XR.fin x) XR.pinf = XR.nan := by
      unfold fillStart
      show XR.mul (Flt.floor (XR.div (XR.neg (XR.fin x)) XR.pinf)) XR.pinf = XR.nan
      simp [XR.neg, XR.div, XR.mul, XR.infSign]
    unfold fillCount
    rw [h]
    rfl

/-- step for a density that integer division turned into 0 -/
private theorem fillStep_zero {lw : ℝ} (h : 0 < lw) : fillStep 0 (XR.fin lw) = XR.pinf := by
  unfold fillStep
  rw [XR.lit_def, XR.ofInt_def, XR.fin_div', if_pos (by norm_num)]
  show XR.mul (XR.infSign _) (XR.fin lw) = _
  simp [XR.infSign, XR.mul, h]

private theorem common_nil {ts : List RTri} {M : ℝ} (hne : ts ≠ []) (hM : ∀ w ∈ allVerts ts, |w.x| ≤ M ∧ |w.y| ≤ M)
    (hfit : M ≤ XR.maxF64R) (u : Vec XR) : calcFillPlanesCommon (rmesh ts) u XR.pinf = [] := by
  have hr : ∀ w ∈ allVerts ts, |w.x| ≤ XR.maxF64R ∧ |w.y| ≤ XR.maxF64R := fun w hw =>
    ⟨(hM w hw).1.trans hfit, (hM w hw).2.trans hfit⟩
  obtain ⟨ax, bx, hx⟩ := exists_extent (u := R3.ex) hne (fun w hw => by simpa [R3.dot, R3.ex] using (hr w hw).1)
  obtain ⟨ay, b_y, hy⟩ := exists_extent (u := R3.ey) hne (fun w hw => by simpa [R3.dot, R3.ey] using (hr w hw).2)
  unfold calcFillPlanesCommon
  rw [fillRadius_eq hx hy hr]
  dsimp only
  rw [nan_count _ ⟨by simp, by simp, by simp⟩]
  rfl

/-- C46, the false part: density 1 with Squares, and densities 1 and 2 with Triangles, give no infill plane at all, on every
model and for every positive line width -/
theorem C46_low_density_violated {ts : List RTri} {lw M : ℝ} (sett : Settings XR) (hlw : sett.gs.lineWidth = XR.fin lw)
    (hlw0 : 0 < lw) (hne : ts ≠ []) (hM : ∀ w ∈ allVerts ts, |w.x| ≤ M ∧ |w.y| ≤ M) (hfit : M ≤ XR.maxF64R)
    (hd : (sett.fillingType = "Squares" ∧ sett.fillDensity = 1) ∨
      (sett.fillingType = "Triangles" ∧ (sett.fillDensity = 1 ∨ sett.fillDensity = 2))) :
    (calcFillPlanes (rmesh ts) sett).1 = [] := by
  unfold calcFillPlanes
  rcases hd with ⟨h1, h2⟩ | ⟨h1, h2⟩
  · simp only [h1, if_true]
    rw [if_neg (by decide)]
    unfold calcFillPlanesSquares
    rw [h2, hlw, show (1 : ℤ).tdiv 2 = 0 from rfl, fillStep_zero hlw0]
    simp [common_nil hne hM hfit]
  · simp only [h1, if_true]
    rw [if_neg (by decide), if_neg (by decide)]
    unfold calcFillPlanesTriangles
    have : sett.fillDensity.tdiv 3 = 0 := by rcases h2 with h2 | h2 <;> rw [h2] <;> rfl
    rw [this, hlw, fillStep_zero hlw0]
    simp [common_nil hne hM hfit]

/-- a model meeting the hypotheses of both theorems -/
example : (∃ w ∈ allVerts [RTri.mk ⟨-10, -10, 0⟩ ⟨10, -10, 0⟩ ⟨10, 10, 5⟩], w.x ≠ 0 ∨ w.y ≠ 0) ∧
    (∀ w ∈ allVerts [RTri.mk ⟨-10, -10, 0⟩ ⟨10, -10, 0⟩ ⟨10, 10, 5⟩], |w.x| ≤ (10 : ℝ) ∧ |w.y| ≤ (10 : ℝ)) ∧
    (10 : ℝ) ≤ XR.maxF64R ∧ minDensity "Squares" ≤ 20 ∧ (2 * 10 * (20 : ℤ) : ℝ) ≤ 10 ^ 18 * (4 / 10) := by
  refine ⟨⟨⟨10, 10, 5⟩, by simp [allVerts, RTri.verts], by norm_num⟩, ?_, le_trans (by norm_num) million_le_maxF64R,
    by decide, by norm_num⟩
  intro w hw
  simp only [allVerts, RTri.verts, List.flatMap_cons, List.flatMap_nil, List.append_nil, List.mem_cons,
    List.not_mem_nil, or_false] at hw
  rcases hw with rfl | rfl | rfl <;> norm_num

end Goosli
