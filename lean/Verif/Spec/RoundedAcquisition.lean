import Mathlib.Probability.Distributions.Gaussian.Real
import Mathlib.Probability.CDF
import Mathlib.Analysis.SpecialFunctions.Log.Basic

/-! Functions of numerical libraries that acquisition functions call (C131). -/

namespace Verif.Spec

/-- `cdf` computes the distribution function of the standard normal law with absolute error `η`, and
never leaves `[0, 1]`. -/
structure CdfWithin (η : ℝ) (cdf : ℝ → ℝ) : Prop where
  nonneg : ∀ x, 0 ≤ cdf x
  le_one : ∀ x, cdf x ≤ 1
  near : ∀ x, |cdf x - ProbabilityTheory.cdf (ProbabilityTheory.gaussianReal 0 1) x| ≤ η

/-- `pdf` computes the density of the standard normal law with absolute error `η`. -/
def PdfWithin (η : ℝ) (pdf : ℝ → ℝ) : Prop :=
  ∀ x, |pdf x - ProbabilityTheory.gaussianPDFReal 0 1 x| ≤ η

/-- `lg` computes logarithms of positive integers with relative error `η`. -/
def LogWithin (η : ℝ) (lg : ℝ → ℝ) : Prop :=
  ∀ n : ℕ, |lg ((n : ℝ) + 1) - Real.log ((n : ℝ) + 1)| ≤ η * Real.log ((n : ℝ) + 1)

end Verif.Spec
