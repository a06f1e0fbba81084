import Verif.Proofs.GcodeText
import Verif.Spec.Toy
/-! The toy number format is clean (used in examples). -/
namespace Goosli.Toy
attribute [local instance] flt txt

theorem clean : CleanText Int where
  clean x c hc := by
    have : (FltText.fmt3 x).toList = (toString x).toList ++ ".000".toList := by simp [FltText.fmt3]
    rw [this] at hc
    rcases List.mem_append.1 hc with hc | hc
    · exact clean_int x c hc
    · have h : ∀ d ∈ ".000".toList, d ≠ ' ' ∧ d ≠ '\n' ∧ d ≠ ';' := by decide
      exact h c hc

end Goosli.Toy
