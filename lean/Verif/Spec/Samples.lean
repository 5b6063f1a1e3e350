import Verif.Model.SampleFunctions
import Mathlib.Probability.HasLaw
import Mathlib.Probability.Distributions.Gamma
import Mathlib.Probability.Distributions.Gaussian.Multivariate

/-! Vocabulary of C74 and C75. -/

namespace Verif.Spec

open Verif.SampleFunctions

/-- The array has rank two and shape `(k, n)`. -/
def HasShape (a : Array12) (k n : ℕ) : Prop :=
  ∃ l, a = .rows l ∧ l.length = k ∧ ∀ r ∈ l, r.length = n

/-- `a[i, j]` is `v`. -/
def Entry (a : Array12) (i j : ℕ) (v : ℝ) : Prop :=
  ∃ l r, a = .rows l ∧ l[i]? = some r ∧ r[j]? = some v

open MeasureTheory ProbabilityTheory in
/-- What the random generators behind `k` samples over `n` points promise: the rows `Z` are normal
with mean zero and covariance `S`, the numbers `chi ν` follow the chi-squared distribution with `ν`
degrees of freedom, and all of them are independent. -/
structure DrawsStudent {Ω : Type*} [MeasurableSpace Ω] (P : Measure Ω) {n : ℕ} (ν : ℝ)
    (S : Matrix (Fin n) (Fin n) ℝ) (k : ℕ) (g : Ω → Normal) (chi : Ω → ℝ → ℕ → ℝ)
    (Z : Ω → ℕ → Fin n → ℝ) : Prop where
  normal : ∀ ω, (g ω).frozen (fun _ => 0) S = .ok (Z ω)
  rows : ∀ i < k, HasLaw (fun ω => Z ω i)
    ((multivariateGaussian 0 S).map (WithLp.ofLp (p := 2))) P
  chis : ∀ i < k, HasLaw (fun ω => chi ω ν i) (gammaMeasure (ν / 2) (1 / 2)) P
  pair : ∀ i < k, IndepFun (fun ω => chi ω ν i) (fun ω => Z ω i) P
  indep : iIndepFun (fun (i : Fin k) ω => (chi ω ν i, Z ω i)) P

end Verif.Spec
