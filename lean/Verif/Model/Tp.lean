import Verif.Model.Gp
import Mathlib.Analysis.SpecialFunctions.Gamma.Deriv
import Mathlib.Analysis.Calculus.LogDeriv

/-!
# `bayeso/tp/tp.py`, `bayeso/tp/tp_likelihood.py`, `bayeso/tp/tp_kernel.py`

As in `Gp.lean`, responses and prior means have one column. Degrees of freedom that are not
finite, and divisions by zero and logarithms of numbers that are not positive (degrees of
freedom at most 2), are `outOfModel`.
-/

namespace Verif.Tp

open Verif.Constants Verif.UtilsCovariance Verif.Covariance Verif.Gp

/-- `predict_with_cov` (`tp.py:66-137`). Result: degrees of freedom, mean, standard deviation,
covariance. -/
noncomputable def predictWithCov {n l d : ℕ} (X_train : Inputs n d) (Y_train : Fin n → ℝ)
    (X_test : Inputs l d) (_cov_X_X inv_cov_X_X : Matrix (Fin n) (Fin n) ℝ) (hyps : HypDict)
    (str_cov : String := STR_COV) (prior_mu : PriorMu d := none) :
    Py (ℝ × (Fin l → ℝ) × (Fin l → ℝ) × Matrix (Fin l) (Fin l) ℝ) := do
  validateCommonArgs X_train X_test
  checkStrCov str_cov X_train.rank (some X_test.rank)
  let prior_mu_train ← getPriorMu prior_mu X_train
  let prior_mu_test ← getPriorMu prior_mu X_test
  let cov_X_Xs ← covMain str_cov X_train X_test hyps false
  let cov_Xs_Xs ← covMain str_cov X_test X_test hyps true
  let cov_Xs_Xs : Matrix (Fin l) (Fin l) ℝ :=
    Matrix.of fun i j => (cov_Xs_Xs i j + cov_Xs_Xs j i) / 2
  let num_X : ℝ := n
  let new_Y_train : Fin n → ℝ := fun i => Y_train i - prior_mu_train i
  let nu ← numKey hyps.dof
  let beta := dotProduct (Matrix.vecMul new_Y_train inv_cov_X_X) new_Y_train
  let nu_Xs := nu + num_X
  let mu_Xs := (cov_X_Xs.transpose * inv_cov_X_X).mulVec new_Y_train + prior_mu_test
  let Sigma_Xs := cov_Xs_Xs - cov_X_Xs.transpose * inv_cov_X_X * cov_X_Xs
  if nu + num_X - 2 = 0 then .error .outOfModel
  let Sigma_Xs := ((nu + beta - 2) / (nu + num_X - 2)) • Sigma_Xs
  return (nu_Xs, mu_Xs, fun i => √(max (Sigma_Xs i i) 0), Sigma_Xs)

/-- `predict_with_hyps` (`tp.py:140-189`). -/
noncomputable def predictWithHyps {n l d : ℕ} (X_train : Inputs n d) (Y_train : Fin n → ℝ)
    (X_test : Inputs l d) (hyps : HypDict) (str_cov : String := STR_COV)
    (prior_mu : PriorMu d := none) :
    Py (ℝ × (Fin l → ℝ) × (Fin l → ℝ) × Matrix (Fin l) (Fin l) ℝ) := do
  validateCommonArgs X_train X_test
  checkStrCov str_cov X_train.rank (some X_test.rank)
  let (cov_X_X, inv_cov_X_X, _) ← getKernelInverse X_train hyps str_cov
  predictWithCov X_train Y_train X_test cov_X_X inv_cov_X_X hyps str_cov prior_mu

/-- `scipy.special.digamma` on the reals. -/
noncomputable def digamma (x : ℝ) : ℝ := logDeriv Real.Gamma x

/-- The derivative with respect to the degrees of freedom as the code computes it
(`tp_likelihood.py:99-103`). -/
noncomputable def nuGrad (nu num_X beta : ℝ) : ℝ :=
  -num_X / (2 * (nu - 2)) + digamma ((nu + num_X) / 2) - digamma (nu / 2)
    - 0.5 * Real.log (1 + beta / (nu - 2))
    + (nu + num_X) * beta / (2 * (nu - 2) ^ 2 + 2 * beta * (nu - 2))

/-- The gradient of `neg_log_ml` before negation and division (`tp_likelihood.py:94-121`): an
array with one entry more than there are slices of `grad_cov_X_X`, filled by assignments to
its entries (all within range, as there are slices for the signal and a lengthscale). -/
noncomputable def gradLogMl {n : ℕ} (nu num_X beta : ℝ) (alpha : Fin n → ℝ)
    (inv_cov_X_X : Matrix (Fin n) (Fin n) ℝ) (grad_cov_X_X : List (Matrix (Fin n) (Fin n) ℝ))
    (fix_noise : Bool) : List ℝ :=
  let grad_log_ml : List ℝ := List.replicate (grad_cov_X_X.length + 1) 0
  let first_term_grad : Matrix (Fin n) (Fin n) ℝ := Matrix.of fun i j =>
    (nu + num_X) / (nu + beta - 2) * (alpha i * alpha j) - inv_cov_X_X i j
  let nu_grad := nuGrad nu num_X beta
  let grad_log_ml := if fix_noise then grad_log_ml.set 0 nu_grad else grad_log_ml.set 1 nu_grad
  grad_cov_X_X.zipIdx.foldl (fun grad_log_ml p =>
    let cur_grad := 0.5 * (first_term_grad * p.1).trace
    if fix_noise then grad_log_ml.set (p.2 + 1) cur_grad
    else
      let cur_ind := if p.2 = 0 then 0 else p.2 + 1
      grad_log_ml.set cur_ind cur_grad) grad_log_ml

/-- `neg_log_ml` (`tp_likelihood.py:19-127`): the value and, if asked for, the gradient. -/
noncomputable def negLogMl {n d : ℕ} (X_train : Inputs n d) (Y_train : Fin n → ℝ)
    (hyps : List Flt) (str_cov : String) (prior_mu_train : Fin n → ℝ) (use_ard : Bool := USE_ARD)
    (fix_noise : Bool := FIX_GP_NOISE) (use_gradient : Bool := true) :
    Py (ℝ × Option (List ℝ)) := do
  checkStrCov str_cov X_train.rank
  let num_X : ℝ := n
  let hyps ← restoreHyps str_cov hyps false use_ard fix_noise
  let new_Y_train : Fin n → ℝ := fun i => Y_train i - prior_mu_train i
  let nu ← numKey hyps.dof
  let (cov_X_X, inv_cov_X_X, grad_cov_X_X) ←
    getKernelInverse X_train hyps str_cov fix_noise use_gradient
  let alpha := inv_cov_X_X.mulVec new_Y_train
  let beta := dotProduct (Matrix.vecMul new_Y_train inv_cov_X_X) new_Y_train
  if nu ≤ 2 then .error .outOfModel
  let first_term := -0.5 * num_X * Real.log ((nu - 2) * Real.pi)
  let (sign_second_term, second_term) := slogdet cov_X_X
  let second_term := if sign_second_term ≤ 0 then 0 else second_term
  let second_term := -0.5 * second_term
  let third_term := Real.log (Real.Gamma ((nu + num_X) / 2) / Real.Gamma (nu / 2))
  let fourth_term := -0.5 * (nu + num_X) * Real.log (1 + beta / (nu - 2))
  let log_ml := first_term + second_term + third_term + fourth_term
  if n = 0 then .error .outOfModel
  let log_ml := log_ml / num_X
  if use_gradient then
    match grad_cov_X_X with
    | none => .error .assertion
    | some grad_cov_X_X =>
      let grad_log_ml := gradLogMl nu num_X beta alpha inv_cov_X_X grad_cov_X_X fix_noise
      return (-1 * log_ml, some (grad_log_ml.map fun g => -1 * g / num_X))
  else return (-1 * log_ml, none)

/-- `get_optimized_kernel` (`tp_kernel.py:24-120`); gradients are switched off. -/
noncomputable def getOptimizedKernel {n d : ℕ} (minimize : Minimize) (X_train : Inputs n d)
    (Y_train : Fin n → ℝ) (prior_mu : PriorMu d) (str_cov : String)
    (str_optimizer_method : String := STR_OPTIMIZER_METHOD_TP) (use_ard : Bool := USE_ARD)
    (fix_noise : Bool := FIX_GP_NOISE) :
    Py (Matrix (Fin n) (Fin n) ℝ × Matrix (Fin n) (Fin n) ℝ × HypDict) := do
  checkStrCov str_cov X_train.rank
  pyAssert (str_optimizer_method ∈ ALLOWED_OPTIMIZER_METHOD_TP)
  let use_gradient := false
  let prior_mu_train ← getPriorMu prior_mu X_train
  let neg_log_ml : List Flt → Py (ℝ × Option (List ℝ)) := fun hyps =>
    negLogMl X_train Y_train hyps str_cov prior_mu_train use_ard fix_noise use_gradient
  let hyps_converted ← convertHyps str_cov (← getHyps str_cov d false use_ard) false fix_noise
  let result_optimized ←
    if str_optimizer_method ∈ ["L-BFGS-B", "SLSQP"] then do
      let bounds ← getRangeHyps str_cov d false use_ard fix_noise
      minimize str_optimizer_method neg_log_ml hyps_converted (some bounds) use_gradient
    else .error .value
  let hyps ← restoreHyps str_cov result_optimized false use_ard fix_noise
  let hyps ← (validateHypsDict hyps str_cov d false).2
  let (cov_X_X, inv_cov_X_X, _) ← getKernelInverse X_train hyps str_cov fix_noise
  return (cov_X_X, inv_cov_X_X, hyps)

/-- `predict_with_optimized_hyps` (`tp.py:191-253`). The optimiser's name is checked against the
list for Gaussian processes, and in `get_optimized_kernel` against the one for Student-t. -/
noncomputable def predictWithOptimizedHyps {n l d : ℕ} (minimize : Minimize)
    (X_train : Inputs n d) (Y_train : Fin n → ℝ) (X_test : Inputs l d)
    (str_cov : String := STR_COV) (str_optimizer_method : String := STR_OPTIMIZER_METHOD_TP)
    (prior_mu : PriorMu d := none) (fix_noise : Bool := FIX_GP_NOISE) :
    Py (ℝ × (Fin l → ℝ) × (Fin l → ℝ) × Matrix (Fin l) (Fin l) ℝ) := do
  validateCommonArgs X_train X_test
  checkStrCov str_cov X_train.rank (some X_test.rank)
  pyAssert (str_optimizer_method ∈ ALLOWED_OPTIMIZER_METHOD_GP)
  let (cov_X_X, inv_cov_X_X, hyps) ← getOptimizedKernel minimize X_train Y_train prior_mu str_cov
    str_optimizer_method (fix_noise := fix_noise)
  predictWithCov X_train Y_train X_test cov_X_X inv_cov_X_X hyps str_cov prior_mu

end Verif.Tp
