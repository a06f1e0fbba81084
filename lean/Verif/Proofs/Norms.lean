import Verif.Props.C28
import Verif.Props.C08
/-!
# Inequalities for lengths of vectors
-/
set_option linter.unusedSectionVars false
namespace Goosli

theorem R3.norm_le_of_sq {a : R3} {M : ℝ} (hM : 0 ≤ M) (h : a.normSq ≤ M * M) : a.norm ≤ M := by
  unfold R3.norm
  exact Real.sqrt_le_iff.2 ⟨hM, by rw [sq]; exact h⟩

theorem R3.norm_add_le (a b : R3) : (a + b).norm ≤ a.norm + b.norm := by
  refine R3.norm_le_of_sq (add_nonneg a.norm_nonneg b.norm_nonneg) ?_
  have h1 := le_trans (le_abs_self _) (R3.cauchy a b)
  have h2 := a.norm_sq; have h3 := b.norm_sq
  have e : (a + b).normSq = a.normSq + 2 * a.dot b + b.normSq := by simp [R3.normSq, R3.dot]; ring
  rw [e]; nlinarith

theorem R3.cross_norm_le (a b : R3) : (a.cross b).norm ≤ a.norm * b.norm := by
  refine R3.norm_le_of_sq (mul_nonneg a.norm_nonneg b.norm_nonneg) ?_
  have e : a.dot b * a.dot b + (a.cross b).normSq = a.normSq * b.normSq := by
    simp [R3.dot, R3.cross, R3.normSq]; ring
  have h2 := a.norm_sq; have h3 := b.norm_sq
  have h4 := mul_self_nonneg (a.dot b)
  calc (a.cross b).normSq ≤ a.normSq * b.normSq := by linarith
    _ = _ := by rw [← h2, ← h3]; ring

theorem R3.cross_self (a : R3) : a.cross a = 0 := by apply R3.ext <;> simp [R3.cross] <;> ring

theorem within8_norm {x u : R3} (h : x.within8 u) : (x - u).norm ≤ 9 / 10 ^ 9 := by
  refine R3.norm_le_of_sq (by norm_num) ?_
  have sq : ∀ {t : ℝ}, |t| ≤ 1 / 2 / 10 ^ 8 → t * t ≤ 1 / 2 / 10 ^ 8 * (1 / 2 / 10 ^ 8) := by
    intro t h
    have := abs_nonneg t
    rw [← abs_mul_abs_self t]; exact mul_le_mul h h this (by norm_num)
  have h1 := sq h.1; have h2 := sq h.2.1; have h3 := sq h.2.2
  simp only [R3.normSq, R3.dot, R3.sub_x, R3.sub_y, R3.sub_z]
  norm_num at *
  linarith

end Goosli
