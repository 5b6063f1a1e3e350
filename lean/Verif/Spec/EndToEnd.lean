import Verif.Spec.Wrapper
import Verif.Spec.WorstCase
import Verif.Model.Acquisition

/-! What C146, C147 and C148 expect of the numerical routines, and the errors they allow. -/

namespace Verif.Spec

open Verif.Gp Verif.BoCommon

/-- The vector of a signal and lengthscales: one lengthscale per coordinate, or one for all. -/
def VectorOf {d : ℕ} (ard : Bool) (s : ℝ) (l : Fin d → ℝ) (v : List Flt) : Prop :=
  (ard = true ∧ v = .fin s :: List.ofFn fun k => .fin (l k)) ∨
  (ard = false ∧ ∃ a, (∀ k, l k = a) ∧ v = [.fin s, .fin a])

/-- Whatever vector the minimiser of the hyperparameters returns is one of a signal and lengthscales
of the set `H`. -/
def FitsIn {d : ℕ} (H : Set (ℝ × (Fin d → ℝ))) (ard : Bool) (m : Minimize) : Prop :=
  ∀ method f x0 bounds jac v, m method f x0 bounds jac = .ok v →
    ∃ s, ∃ l : Fin d → ℝ, (s, l) ∈ H ∧ VectorOf ard s l v

/-- `q` is within `δ` of the lowest value of `g` in the box. -/
def LowWithin {d : ℕ} (B : Bounds d) (δ : ℝ) (g : Point d → ℝ) (q : Point d) : Prop :=
  ∀ z, InBox B z → g q ≤ g z + δ

/-- The optimisers of the acquisition function are global ones: for continuous objectives, the result
of DIRECT and CMA-ES, and of L-BFGS-B from at least one of the sampled starts, is within `δ` of the
lowest value in the box. -/
structure FindsLow {d : ℕ} (o : Oracles d) (B : Bounds d) (sampling : String) (samples : ℤ) (δ : ℝ) :
    Prop where
  lbfgsb : ∀ f g, Continuous g → (∀ q, f q = .ok (.fin (g q))) →
    ∀ starts, BaseBo.getSamples B o.draws sampling samples = .ok starts →
    ∃ x0 ∈ starts, ∀ q, o.lbfgsb f x0 B = .ok q → LowWithin B δ g q
  direct : ∀ f g, Continuous g → (∀ q, f q = .ok (.fin (g q))) →
    ∀ q, o.direct f B = .ok q → LowWithin B δ g q
  cma : ∀ f g, Continuous g → (∀ q, f q = .ok (.fin (g q))) →
    ∀ x0 σ0 q, o.cma f x0 σ0 B = .ok q → LowWithin B δ g q

/-- The optimisers of the acquisition function are perfect: for continuous objectives, whatever they
return, from any start, has the lowest value in the box. -/
structure FindsLowest {d : ℕ} (o : Oracles d) (B : Bounds d) : Prop where
  lbfgsb : ∀ f g, Continuous g → (∀ q, f q = .ok (.fin (g q))) →
    ∀ x0 q, o.lbfgsb f x0 B = .ok q → LowWithin B 0 g q
  direct : ∀ f g, Continuous g → (∀ q, f q = .ok (.fin (g q))) →
    ∀ q, o.direct f B = .ok q → LowWithin B 0 g q
  cma : ∀ f g, Continuous g → (∀ q, f q = .ok (.fin (g q))) →
    ∀ x0 σ0 q, o.cma f x0 σ0 B = .ok q → LowWithin B 0 g q

/-- How much less than the signal variance the covariance of points closer than the tolerance `1e-8`
for duplicates can be. -/
noncomputable def duplicateGap (smax lmin : ℝ) : ℝ := 5 * (smax * (1e-8 / lmin)) ^ 2

/-- A bound for the deviation, beyond the jitter, predicted at a point that is a duplicate of one
evaluated, for the noise `1/100` of the package. -/
noncomputable def duplicateDeviation (smax lmin : ℝ) : ℝ :=
  √((1 / 100) ^ 2 + 1 / 100000 + 2 * duplicateGap smax lmin)

/-- The error that C146 allows beside an arbitrarily small one, in the units of normalised responses:
functions have norms of at most `B`, prior means are Lipschitz with constant `Λ`, and acquisition
functions are maximised up to `δ`. -/
noncomputable def runError (B Λ smax lmin δ : ℝ) : ℝ :=
  (B * √(2 * duplicateGap smax lmin) + Λ * 1e-8 + B * duplicateDeviation smax lmin +
    (√(1 / 100000 + duplicateDeviation smax lmin ^ 2) + Constants.JITTER_ACQ) * (√(2 * Real.pi))⁻¹ +
    δ) / Acquisition.normCdf (-B)

/-- The error that C147 allows for the augmented expected improvement. -/
noncomputable def runErrorAugmented (B Λ smax lmin δ : ℝ) : ℝ :=
  ((B * √(2 * duplicateGap smax lmin) + Λ * 1e-8 + B * duplicateDeviation smax lmin +
    √(1 / 100000 + duplicateDeviation smax lmin ^ 2) * (√(2 * Real.pi))⁻¹ + δ) /
      (1 - 1 / 100 / √(1 / 100000 + (1 / 100) ^ 2)) +
    Constants.JITTER_ACQ * (√(2 * Real.pi))⁻¹) / Acquisition.normCdf (-B)

/-- The error that C150 allows for the upper confidence bound when the point chosen after `n` responses
is a duplicate of one evaluated: the weight is `2 log (n + 1)`. -/
noncomputable def runErrorUpper (B Λ smax lmin δ : ℝ) (n : ℕ) : ℝ :=
  B * √(2 * duplicateGap smax lmin) + Λ * 1e-8 + δ + B * duplicateDeviation smax lmin +
    2 * Real.log (n + 1) * (√(1 / 100000 + duplicateDeviation smax lmin ^ 2) - √(1 / 100000)) +
    B ^ 2 * √(smax ^ 2 + 1 / 100000) / (4 * Real.log (n + 1))

/-- The deviation that C147 allows for pure exploration. -/
noncomputable def exploredDeviation (smax lmin δ : ℝ) : ℝ :=
  √(1 / 100000 + duplicateDeviation smax lmin ^ 2) + δ

/-- A value in the units of the responses the surrogate is fitted to: normalised by the least and the
greatest response so far, or unchanged. -/
noncomputable def inUnits (normalize : Bool) (lo hi t : ℝ) : ℝ :=
  if normalize = true then minMaxImage lo hi t else t

/-- A function in a box that suits hyperparameters in `H`: its values differ by at most `spread`, and
in the units of responses that are between two of its values, at least `gap` apart, it differs from
the prior mean by a function with a norm of at most `B`, for each of the kernels. -/
structure SuitsFits {d : ℕ} (R : Bounds d) (base : String) (H : Set (ℝ × (Fin d → ℝ)))
    (normalize : Bool) (m : Point d → ℝ) (B spread gap : ℝ) (f : Point d → ℝ) : Prop where
  spread : ∀ u v, InBox R u → InBox R v → |f u - f v| ≤ spread
  norm : ∀ s l, (s, l) ∈ H → ∀ u v, InBox R u → InBox R v → f u ≤ f v → gap ≤ f v - f u →
    NormAtMostOn {z | InBox R z} base s l B (fun z => inUnits normalize (f u) (f v) (f z) - m z)

/-- Whether an object normalises responses: it was asked to, and it is not to stop fitting
hyperparameters once they have converged. -/
def normalizes {d : ℕ} (a : WrapperClass.Args d) : Bool :=
  a.normalize_Y && decide (a.str_mlm_method ≠ "converged")

/-- The hyperparameters of the next step are in `H` if fitted ones are: it fits them, or those of the
last step, which it takes otherwise, are in `H` and have the noise of the package. -/
def FitsFrom {d : ℕ} (H : Set (ℝ × (Fin d → ℝ))) (s : BoWGp.GpState) : Prop :=
  s.is_optimize_hyps = true ∨ ∃ hy sg l, s.historical_hyps.getLast? = some (some hy) ∧ (sg, l) ∈ H ∧
    Describes hy (1 / 100) sg l

/-- A search by the acquisition function `score` with a Gaussian process whose routines do what they
are for: the prior mean is a Lipschitz function, fitted hyperparameters lie in a set `H` where signals are at most
`smax` and lengthscales at least `lmin`, and optimisers of the acquisition function find its highest
value up to `δ`. -/
structure GoodSearch {d : ℕ} (score : String) (a : WrapperClass.Args d) (m : Point d → ℝ) (Λ smax lmin δ : ℝ)
    (H : Set (ℝ × (Fin d → ℝ))) (o : WrapperClass.RunOracles d) : Prop where
  surrogate : a.str_surrogate = "gp"
  acq : a.str_acq = score
  prior : PriorFunction a.prior_mu m
  lipschitz : ∀ u v, |m u - m v| ≤ Λ * dist u v
  hyps : ∀ s l, (s, l) ∈ H → |s| ≤ smax ∧ ∀ k, lmin ≤ |l k|
  fits : ∀ k, FitsIn H a.use_ard (o.routines k).fitHyps
  finds : ∀ k, FindsLow (o.routines k) a.range_X a.str_sampling_method_ao a.num_samples_ao δ

end Verif.Spec
