import Verif.Model.Tp
import Verif.Model.NonFinite

/-!
# The likelihood of the Student-t process when its Gamma functions overflow

`tp_likelihood.neg_log_ml` once more, with the Gamma function of doubles, which becomes an infinity when
its value is too large. All other operations are exact as in `Tp.lean`; on infinities and NaN they follow
IEEE 754. The warnings that numpy prints are not modelled.
-/

namespace Verif.OverflowTp

open Verif.Constants Verif.UtilsCovariance Verif.Covariance Verif.Gp

/-- `np.log`. -/
noncomputable def logF : Flt → Flt
  | .fin x => if 0 < x then .fin (Real.log x) else if x = 0 then .ninf else .nan
  | .pinf => .pinf
  | .ninf => .nan
  | .nan => .nan

/-- `neg_log_ml` (`tp_likelihood.py:19-127`), with `scipy.special.gamma` as an argument. -/
noncomputable def negLogMl {n d : ℕ} (gamma : ℝ → Flt) (X_train : Inputs n d) (Y_train : Fin n → ℝ)
    (hyps : List Flt) (str_cov : String) (prior_mu_train : Fin n → ℝ) (use_ard : Bool := USE_ARD)
    (fix_noise : Bool := FIX_GP_NOISE) (use_gradient : Bool := true) :
    Py (Flt × Option (List ℝ)) := do
  checkStrCov str_cov X_train.rank
  let num_X : ℝ := n
  let hyps ← restoreHyps str_cov hyps false use_ard fix_noise
  let new_Y_train : Fin n → ℝ := fun i => Y_train i - prior_mu_train i
  let nu ← numKey hyps.dof
  let (cov_X_X, inv_cov_X_X, grad_cov_X_X) ←
    getKernelInverse X_train hyps str_cov fix_noise use_gradient
  let alpha := inv_cov_X_X.mulVec new_Y_train
  let beta := dotProduct (Matrix.vecMul new_Y_train inv_cov_X_X) new_Y_train
  if nu ≤ 2 then .error .outOfModel
  let first_term := -0.5 * num_X * Real.log ((nu - 2) * Real.pi)
  let (sign_second_term, second_term) := slogdet cov_X_X
  let second_term := if sign_second_term ≤ 0 then 0 else second_term
  let second_term := -0.5 * second_term
  let third_term := logF (NonFinite.div (gamma ((nu + num_X) / 2)) (gamma (nu / 2)))
  let fourth_term := -0.5 * (nu + num_X) * Real.log (1 + beta / (nu - 2))
  let log_ml := ((Flt.fin (first_term + second_term)).add third_term).add (.fin fourth_term)
  if n = 0 then .error .outOfModel
  let log_ml := log_ml.divPos num_X
  if use_gradient then
    match grad_cov_X_X with
    | none => .error .assertion
    | some grad_cov_X_X =>
      let grad_log_ml := Tp.gradLogMl nu num_X beta alpha inv_cov_X_X grad_cov_X_X fix_noise
      return (log_ml.neg, some (grad_log_ml.map fun g => -1 * g / num_X))
  else return (log_ml.neg, none)

/-- `scipy.optimize.minimize` as in `Gp.Minimize`, for an objective that may be infinite or NaN. -/
abbrev MinimizeF := String → (List Flt → Py (Flt × Option (List ℝ))) → List Flt →
  Option (List (ℝ × ℝ)) → Bool → Py (List Flt)

/-- `get_optimized_kernel` (`tp_kernel.py:24-120`). -/
noncomputable def getOptimizedKernel {n d : ℕ} (gamma : ℝ → Flt) (minimize : MinimizeF)
    (X_train : Inputs n d) (Y_train : Fin n → ℝ) (prior_mu : PriorMu d) (str_cov : String)
    (str_optimizer_method : String := STR_OPTIMIZER_METHOD_TP) (use_ard : Bool := USE_ARD)
    (fix_noise : Bool := FIX_GP_NOISE) :
    Py (Matrix (Fin n) (Fin n) ℝ × Matrix (Fin n) (Fin n) ℝ × HypDict) := do
  checkStrCov str_cov X_train.rank
  pyAssert (str_optimizer_method ∈ ALLOWED_OPTIMIZER_METHOD_TP)
  let use_gradient := false
  let prior_mu_train ← getPriorMu prior_mu X_train
  let neg_log_ml : List Flt → Py (Flt × Option (List ℝ)) := fun hyps =>
    negLogMl gamma X_train Y_train hyps str_cov prior_mu_train use_ard fix_noise use_gradient
  let hyps_converted ← convertHyps str_cov (← getHyps str_cov d false use_ard) false fix_noise
  let result_optimized ←
    if str_optimizer_method ∈ ["L-BFGS-B", "SLSQP"] then do
      let bounds ← getRangeHyps str_cov d false use_ard fix_noise
      minimize str_optimizer_method neg_log_ml hyps_converted (some bounds) use_gradient
    else .error .value
  let hyps ← restoreHyps str_cov result_optimized false use_ard fix_noise
  let hyps ← (validateHypsDict hyps str_cov d false).2
  let (cov_X_X, inv_cov_X_X, _) ← getKernelInverse X_train hyps str_cov fix_noise
  return (cov_X_X, inv_cov_X_X, hyps)

end Verif.OverflowTp
