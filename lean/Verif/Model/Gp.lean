import Verif.Model.Covariance
import Mathlib.Analysis.SpecialFunctions.Log.Basic
import Mathlib.Analysis.Real.Pi.Bounds
import Mathlib.Data.Real.Sign

/-!
# `bayeso/utils/utils_gp.py`, `bayeso/gp/gp.py`, `bayeso/gp/gp_likelihood.py`,
# `bayeso/gp/gp_kernel.py`

Responses and prior means have one column, so an array of shape `(n, 1)` is `Fin n → ℝ`
(wider arrays, which the Python code does not reject, are not modelled). The `debug`
arguments only print.
-/

namespace Verif.Gp

open Verif.Constants Verif.UtilsCovariance Verif.Covariance

/-- `prior_mu`: `None`, or a callable returning a column (of whatever length) or raising. -/
abbrev PriorMu (d : ℕ) := Option (∀ n : ℕ, Inputs n d → Py (List ℝ))

/-- `get_prior_mu` (`utils_gp.py:15-41`). -/
def getPriorMu {n d : ℕ} (prior_mu : PriorMu d) (X : Inputs n d) : Py (Fin n → ℝ) :=
  match prior_mu with
  | none => .ok fun _ => 0
  | some f => do
    let prior_mu_X ← f n X
    if h : n = prior_mu_X.length then return fun i => prior_mu_X[i.val]'(by omega)
    else .error .assertion

/-- `validate_common_args` (`utils_gp.py:44-86`): with static shapes only the comparison of
the last axes remains. For sets `X_test.shape[2]` of a rank-2 array is an `IndexError`. -/
def validateCommonArgs {n d : ℕ} (X_train : Inputs n d) {l : ℕ} (X_test : Inputs l d) : Py Unit :=
  match X_train, X_test with
  | .vec _, .vec _ => .ok ()
  | .vec _, .set m _ => pyAssert (d = m)
  | .set _ _, .set _ _ => .ok ()
  | .set _ _, .vec _ => .error .index

/-- `predict_with_cov` (`gp.py:55-112`). Result: mean, standard deviation, covariance. -/
noncomputable def predictWithCov {n l d : ℕ} (X_train : Inputs n d) (Y_train : Fin n → ℝ)
    (X_test : Inputs l d) (_cov_X_X inv_cov_X_X : Matrix (Fin n) (Fin n) ℝ) (hyps : HypDict)
    (str_cov : String := STR_COV) (prior_mu : PriorMu d := none) :
    Py ((Fin l → ℝ) × (Fin l → ℝ) × Matrix (Fin l) (Fin l) ℝ) := do
  validateCommonArgs X_train X_test
  checkStrCov str_cov X_train.rank (some X_test.rank)
  let prior_mu_train ← getPriorMu prior_mu X_train
  let prior_mu_test ← getPriorMu prior_mu X_test
  let cov_X_Xs ← covMain str_cov X_train X_test hyps false
  let cov_Xs_Xs ← covMain str_cov X_test X_test hyps true
  let cov_Xs_Xs : Matrix (Fin l) (Fin l) ℝ :=
    Matrix.of fun i j => (cov_Xs_Xs i j + cov_Xs_Xs j i) / 2
  let mu_Xs := ((cov_X_Xs.transpose * inv_cov_X_X).mulVec fun i => Y_train i - prior_mu_train i)
    + prior_mu_test
  let Sigma_Xs := cov_Xs_Xs - cov_X_Xs.transpose * inv_cov_X_X * cov_X_Xs
  return (mu_Xs, fun i => √(max (Sigma_Xs i i) 0), Sigma_Xs)

/-- `predict_with_hyps` (`gp.py:115-160`). -/
noncomputable def predictWithHyps {n l d : ℕ} (X_train : Inputs n d) (Y_train : Fin n → ℝ)
    (X_test : Inputs l d) (hyps : HypDict) (str_cov : String := STR_COV)
    (prior_mu : PriorMu d := none) :
    Py ((Fin l → ℝ) × (Fin l → ℝ) × Matrix (Fin l) (Fin l) ℝ) := do
  validateCommonArgs X_train X_test
  checkStrCov str_cov X_train.rank (some X_test.rank)
  let (cov_X_X, inv_cov_X_X, _) ← getKernelInverse X_train hyps str_cov
  predictWithCov X_train Y_train X_test cov_X_X inv_cov_X_X hyps str_cov prior_mu

/-- `scipy.linalg.cho_solve((lower, True), b)`: the solution of `lower * lower^T * x = b`. -/
noncomputable def choSolve {n : ℕ} (lower : Matrix (Fin n) (Fin n) ℝ) (b : Fin n → ℝ) :
    Fin n → ℝ :=
  ((lower * lower.transpose)⁻¹).mulVec b

/-- `np.linalg.slogdet`: the sign and the logarithm of the absolute value; numpy's `-inf` for
a singular matrix has sign 0 and is discarded by the only caller. -/
noncomputable def slogdet {n : ℕ} (A : Matrix (Fin n) (Fin n) ℝ) : ℝ × ℝ :=
  (Real.sign A.det, Real.log |A.det|)

/-- `neg_log_ml` (`gp_likelihood.py:19-115`): the value and, if asked for on the Cholesky path,
the gradient. Dividing by the number of responses when there is none is not modelled. -/
noncomputable def negLogMl {n d : ℕ} (X_train : Inputs n d) (Y_train : Fin n → ℝ)
    (hyps : List Flt) (str_cov : String) (prior_mu_train : Fin n → ℝ) (use_ard : Bool := USE_ARD)
    (fix_noise : Bool := FIX_GP_NOISE) (use_cholesky : Bool := true) (use_gradient : Bool := true) :
    Py (ℝ × Option (List ℝ)) := do
  checkStrCov str_cov X_train.rank
  let hyps ← restoreHyps str_cov hyps true use_ard fix_noise
  let new_Y_train : Fin n → ℝ := fun i => Y_train i - prior_mu_train i
  let (first_term, second_term, grad_log_ml) ← if use_cholesky then do
      let (_, lower, grad_cov_X_X) ← getKernelCholesky X_train hyps str_cov fix_noise use_gradient
      let alpha := choSolve lower new_Y_train
      let first_term : ℝ := -(1 / 2) * dotProduct new_Y_train alpha
      let second_term : ℝ := -1 * ∑ i, Real.log (lower i i + JITTER_LOG)
      let grad_log_ml ← if use_gradient then
          match grad_cov_X_X with
          | none => .error .assertion
          | some grad_cov =>
            let first_term_grad : Matrix (Fin n) (Fin n) ℝ := Matrix.of fun i j =>
              alpha i * alpha j - choSolve lower (fun k => npEye n n k j) i
            pure (some (grad_cov.map fun G =>
              1 / 2 * ∑ i, ∑ j, first_term_grad i j * G i j))
        else pure none
      pure (first_term, second_term, grad_log_ml)
    else do
      let (cov_X_X, inv_cov_X_X, _) ← getKernelInverse X_train hyps str_cov fix_noise false
      let first_term : ℝ := -(1 / 2) * dotProduct (Matrix.vecMul new_Y_train inv_cov_X_X) new_Y_train
      let (sign_second_term, second_term) := slogdet cov_X_X
      let second_term := if sign_second_term ≤ 0 then 0 else second_term
      let second_term : ℝ := -(1 / 2) * second_term
      pure (first_term, second_term, none)
  let third_term := -(n : ℝ) / 2 * Real.log (2 * Real.pi)
  let log_ml := first_term + second_term + third_term
  if n = 0 then .error .outOfModel
  let log_ml := log_ml / n
  return (-1 * log_ml, grad_log_ml.map fun g => g.map fun x => -1 * x / n)

/-- The summand of `neg_log_pseudo_l_loocv` for one data point (`gp_likelihood.py:170-180`). -/
noncomputable def loocvTerm {n : ℕ} (inv_cov_X_X : Matrix (Fin n) (Fin n) ℝ) (Y_train : Fin n → ℝ)
    (ind_data : Fin n) : ℝ :=
  let cur_Y_test := Y_train ind_data
  let cur_mu := cur_Y_test - inv_cov_X_X.mulVec Y_train ind_data / inv_cov_X_X ind_data ind_data
  let cur_sigma := √(1 / (inv_cov_X_X ind_data ind_data + JITTER_COV))
  let first_term := -(1 / 2) * Real.log (cur_sigma ^ 2)
  let second_term := -(1 / 2) * (cur_Y_test - cur_mu) ^ 2 / cur_sigma ^ 2
  let third_term := -(1 / 2) * Real.log (2 * Real.pi)
  first_term + second_term + third_term

/-- `neg_log_pseudo_l_loocv` (`gp_likelihood.py:118-185`). The prior mean is an argument that
is never read, and `restore_hyps` is called with its default `use_ard`. No data is a
`ZeroDivisionError`, which is not among the modelled exceptions. -/
noncomputable def negLogPseudoLLoocv {n d : ℕ} (X_train : Inputs n d) (Y_train : Fin n → ℝ)
    (hyps : List Flt) (str_cov : String) (_prior_mu_train : Fin n → ℝ)
    (fix_noise : Bool := FIX_GP_NOISE) : Py ℝ := do
  checkStrCov str_cov X_train.rank
  let hyps ← restoreHyps str_cov hyps (fix_noise := fix_noise)
  let (_, inv_cov_X_X, _) ← getKernelInverse X_train hyps str_cov fix_noise
  let log_pseudo_l := (List.finRange n).foldl
    (fun log_pseudo_l ind_data => log_pseudo_l + loocvTerm inv_cov_X_X Y_train ind_data) 0
  if n = 0 then .error .outOfModel
  let log_pseudo_l := log_pseudo_l / n
  return log_pseudo_l * -1

/-- `scipy.optimize.minimize` with the arguments the package passes: method, objective (value
and, when `jac` is set, gradient), start, bounds, `jac`. Result: the attribute `x`, or an
exception (for instance one raised by the objective). An arbitrary function of these
arguments. -/
abbrev Minimize := String → (List Flt → Py (ℝ × Option (List ℝ))) → List Flt →
  Option (List (ℝ × ℝ)) → Bool → Py (List Flt)

/-- `get_optimized_kernel` (`gp_kernel.py:24-156`). Result: kernel matrix, inverse,
hyperparameters. -/
noncomputable def getOptimizedKernel {n d : ℕ} (minimize : Minimize) (X_train : Inputs n d)
    (Y_train : Fin n → ℝ) (prior_mu : PriorMu d) (str_cov : String)
    (str_optimizer_method : String := STR_OPTIMIZER_METHOD_GP)
    (str_modelselection_method : String := STR_MODELSELECTION_METHOD)
    (use_ard : Bool := USE_ARD) (fix_noise : Bool := FIX_GP_NOISE) :
    Py (Matrix (Fin n) (Fin n) ℝ × Matrix (Fin n) (Fin n) ℝ × HypDict) := do
  checkStrCov str_cov X_train.rank
  pyAssert (str_optimizer_method ∈ ALLOWED_OPTIMIZER_METHOD_GP)
  pyAssert (str_modelselection_method ∈ ALLOWED_MODELSELECTION_METHOD)
  let use_gradient := decide (str_optimizer_method ≠ "Nelder-Mead")
  let prior_mu_train ← getPriorMu prior_mu X_train
  let use_gradient := if str_cov ∈ ALLOWED_COV_BASE then use_gradient else false
  let neg_log_ml : List Flt → Py (ℝ × Option (List ℝ)) :=
    if str_modelselection_method = "ml" then
      fun hyps => negLogMl X_train Y_train hyps str_cov prior_mu_train use_ard fix_noise true
        use_gradient
    else fun hyps => do
      let v ← negLogPseudoLLoocv X_train Y_train hyps str_cov prior_mu_train fix_noise
      return (v, none)
  let use_gradient := if str_modelselection_method = "ml" then use_gradient else false
  let hyps_converted ← convertHyps str_cov (← getHyps str_cov d true use_ard) true fix_noise
  let result_optimized ←
    if str_optimizer_method ∈ ["BFGS", "SLSQP"] then
      minimize str_optimizer_method neg_log_ml hyps_converted none use_gradient
    else if str_optimizer_method ∈ ["L-BFGS-B", "SLSQP-Bounded"] then do
      let str_optimizer_method :=
        if str_optimizer_method = "SLSQP-Bounded" then "SLSQP" else str_optimizer_method
      let bounds ← getRangeHyps str_cov d true use_ard fix_noise
      minimize str_optimizer_method neg_log_ml hyps_converted (some bounds) use_gradient
    else if str_optimizer_method ∈ ["Nelder-Mead"] then
      minimize str_optimizer_method neg_log_ml hyps_converted none false
    else .error .value
  let hyps ← restoreHyps str_cov result_optimized true use_ard fix_noise
  let hyps ← (validateHypsDict hyps str_cov d).2
  let (cov_X_X, inv_cov_X_X, _) ← getKernelInverse X_train hyps str_cov fix_noise
  return (cov_X_X, inv_cov_X_X, hyps)

/-- `predict_with_optimized_hyps` (`gp.py:163-220`). -/
noncomputable def predictWithOptimizedHyps {n l d : ℕ} (minimize : Minimize)
    (X_train : Inputs n d) (Y_train : Fin n → ℝ) (X_test : Inputs l d)
    (str_cov : String := STR_COV) (str_optimizer_method : String := STR_OPTIMIZER_METHOD_GP)
    (prior_mu : PriorMu d := none) (fix_noise : Bool := FIX_GP_NOISE) :
    Py ((Fin l → ℝ) × (Fin l → ℝ) × Matrix (Fin l) (Fin l) ℝ) := do
  validateCommonArgs X_train X_test
  checkStrCov str_cov X_train.rank (some X_test.rank)
  pyAssert (str_optimizer_method ∈ ALLOWED_OPTIMIZER_METHOD_GP)
  let (cov_X_X, inv_cov_X_X, hyps) ← getOptimizedKernel minimize X_train Y_train prior_mu str_cov
    str_optimizer_method (fix_noise := fix_noise)
  predictWithCov X_train Y_train X_test cov_X_X inv_cov_X_X hyps str_cov prior_mu

end Verif.Gp
