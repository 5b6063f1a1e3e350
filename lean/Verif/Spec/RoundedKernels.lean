import Mathlib.Analysis.SpecialFunctions.Exp
import Mathlib.Analysis.SpecialFunctions.Sqrt
import Verif.Model.Basic

/-! The exponential function of a numerical library, and the size of inputs (C127). -/

namespace Verif.Spec

/-- `ex` computes the exponential function on the numbers up to zero with relative error `η`, apart from
underflow: it never leaves `[0, 1]` and gives one at zero. -/
structure ExpWithin (η : ℝ) (ex : ℝ → ℝ) : Prop where
  zero : ex 0 = 1
  nonneg : ∀ x, x ≤ 0 → 0 ≤ ex x
  le_one : ∀ x, x ≤ 0 → ex x ≤ 1
  near : ∀ x, x ≤ 0 → |ex x - Real.exp x| ≤ η * Real.exp x + (2 : ℝ) ^ (-1074 : ℤ)

/-- The length of an input in units of the lengthscales. -/
noncomputable def scaledLength {d : ℕ} (l : Fin d → ℝ) (x : Point d) : ℝ := √(∑ k, (x k / l k) ^ 2)

end Verif.Spec
