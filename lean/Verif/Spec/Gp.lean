import Verif.Spec.Inputs
import Verif.Model.Gp
import Mathlib.Probability.Moments.Variance
import Mathlib.MeasureTheory.Function.L2Space
import Mathlib.Probability.Moments.Covariance
import Mathlib.Probability.Distributions.Gaussian.HasGaussianLaw.Def
import Mathlib.Probability.Distributions.Gaussian.Real

/-! Specification of Gaussian process regression (C32-C38). -/

namespace Verif.Spec

open MeasureTheory Verif.Covariance

/-- `X'` contains the rows of `X` (in any order and among others): row `i` of `X` is row
`e i` of `X'`. -/
def Extends {n n' d : ℕ} (X : Inputs n d) (X' : Inputs n' d) (e : Fin n → Fin n') : Prop :=
  Function.Injective e ∧ ∀ i, item X' (e i) = item X i

/-- The second moments of the prior at hand: `y i` is the noisy response at row `i` of `X`,
`f` the value at the test row `x` (with the package's jitter of `1e-5` on the variances of
both). -/
structure PriorMoments {Ω : Type*} [MeasurableSpace Ω] (P : Measure Ω) {n d : ℕ} (base : String)
    (σ s : ℝ) (l : Fin d → ℝ) (X : Inputs n d) (x : Item d) (y : Fin n → Ω → ℝ) (f : Ω → ℝ) :
    Prop where
  y_sq : ∀ i, MemLp (y i) 2 P
  f_sq : MemLp f 2 P
  yy : ∀ i j, ∫ ω, y i ω * y j ω ∂P =
    itemKernel base s l (item X i) (item X j) + if i = j then σ ^ 2 + 1 / 100000 else 0
  fy : ∀ i, ∫ ω, f ω * y i ω ∂P = itemKernel base s l (item X i) x
  ff : ∫ ω, f ω * f ω ∂P = itemKernel base s l x x + 1 / 100000

open ProbabilityTheory in
/-- The Gaussian process prior at the training rows `X` and the test rows `Xs`: the responses
`y` and the test values `f` are jointly Gaussian, with means `μ`, `μs` and the covariances given
by the kernel (the noise and the package's jitter on the variances). -/
structure GaussianPrior {Ω : Type*} [MeasurableSpace Ω] (P : Measure Ω) {n m d : ℕ}
    (base : String) (σ s : ℝ) (l : Fin d → ℝ) (X : Inputs n d) (Xs : Inputs m d) (μ : Fin n → ℝ)
    (μs : Fin m → ℝ) (y : Fin n → Ω → ℝ) (f : Fin m → Ω → ℝ) : Prop where
  law : HasGaussianLaw (fun ω => (fun i => y i ω, fun j => f j ω)) P
  mean_y : ∀ i, ∫ ω, y i ω ∂P = μ i
  mean_f : ∀ j, ∫ ω, f j ω ∂P = μs j
  cov_yy : ∀ i j, cov[y i, y j; P] =
    itemKernel base s l (item X i) (item X j) + if i = j then σ ^ 2 + 1 / 100000 else 0
  cov_fy : ∀ j i, cov[f j, y i; P] = itemKernel base s l (item X i) (item Xs j)
  cov_ff : ∀ i j, cov[f i, f j; P] =
    itemKernel base s l (item Xs i) (item Xs j) + if i = j then 1 / 100000 else 0

/-- The rows of `X` with the given numbers. -/
def selectRows {n k d : ℕ} (X : Inputs n d) (e : Fin k → Fin n) : Inputs k d :=
  match X with
  | .vec x => .vec fun i => x (e i)
  | .set p x => .set p fun i => x (e i)

/-- For every row `i`: a Gaussian process fitted to all other rows (through the package's own
`predict_with_hyps`) predicts the mean `mu i` for the response at row `i`, with variance `var i`
(the noise included). -/
def IsLeaveOneOut {n d : ℕ} (X : Inputs (n + 1) d) (Y : Fin (n + 1) → ℝ)
    (h : UtilsCovariance.HypDict)
    (name : String) (prior : Gp.PriorMu d) (σ : ℝ) (mu var : Fin (n + 1) → ℝ) : Prop :=
  ∀ i, 0 < var i ∧ ∃ sd S,
    Gp.predictWithHyps (selectRows X i.succAbove) (fun j => Y (i.succAbove j))
      (selectRows X fun _ : Fin 1 => i) h name prior = .ok (fun _ => mu i, sd, S) ∧
    var i = S 0 0 + σ ^ 2

open ProbabilityTheory in
/-- Minus the mean logarithm of the normal densities of the responses, with `1e-5` added to each
precision. -/
noncomputable def looScore {n : ℕ} (mu var Y : Fin n → ℝ) : ℝ :=
  -(∑ i, Real.log (gaussianPDFReal (mu i) (1 / (1 / var i + 1 / 100000)).toNNReal (Y i))) / n

end Verif.Spec
