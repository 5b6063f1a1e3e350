import Verif.Model.RoundedChoice
import Verif.Model.RoundedLikelihood

/-!
# A whole step with rounding

`get_kernel_inverse`, `get_optimized_kernel` and `BOwGP.optimize` once more for inputs of rank 2, with
normalisation and samples of `Rounded.lean`, likelihood of `RoundedLikelihood.lean` and acquisition values of
`RoundedChoice.lean`. Besides the routines named there, `inv` stands for `np.linalg.inv`. Two results that
theorems say nothing about are arguments: `grad` is the gradient handed to the optimiser of the
hyperparameters, and `loo` the leave-one-out score. Numerical optimisers are oracles as in `BoWGp.lean`.
Without rounding these are the functions of `Gp.lean` and `BoWGp.lean` (`C158_exact`).
-/

namespace Verif.RoundedStep

open Verif.Constants Verif.UtilsCovariance Verif.UtilsBo Verif.BaseBo Verif.BoCommon Verif.BoWGp Verif.Gp
  Verif.Rounded Verif.RoundedPredict

/-- What a library computes: rounding, exponential function, logarithm, normal distribution function and
density, orders of summation (in `cdist` and in `np.sum`), product of matrices, Cholesky factor, solution from
it, inverse; and the two results left open. -/
structure Library (n : ℕ) where
  fl : ℝ → ℝ
  ex : ℝ → ℝ
  lg : ℝ → ℝ
  cdf : ℝ → ℝ
  pdf : ℝ → ℝ
  o : SumOrder
  o' : SumOrder
  mm : MatMul
  chol : Matrix (Fin n) (Fin n) ℝ → Py (Matrix (Fin n) (Fin n) ℝ)
  solve : Matrix (Fin n) (Fin n) ℝ → (Fin n → ℝ) → Fin n → ℝ
  inv : Matrix (Fin n) (Fin n) ℝ → Py (Matrix (Fin n) (Fin n) ℝ)
  grad : List Flt → Py (List ℝ)
  loo : List Flt → Py ℝ

variable {n d : ℕ} (lib : Library n)

/-- `get_kernel_inverse` (`covariance.py:76-126`) without the gradient. -/
noncomputable def getKernelInverse (X_train : Fin n → Point d) (hyps : HypDict) (str_cov : String) :
    Py (Matrix (Fin n) (Fin n) ℝ × Matrix (Fin n) (Fin n) ℝ) := do
  let cov_X_X ← RoundedKernels.kernelMatrix lib.fl lib.ex lib.o X_train hyps str_cov
  let inv_cov_X_X ← lib.inv cov_X_X
  return (cov_X_X, inv_cov_X_X)

/-- `neg_log_ml` (`gp_likelihood.py:19-115`) with `use_cholesky=True`. -/
noncomputable def negLogMl (X_train : Fin n → Point d) (Y_train : Fin n → ℝ) (hyps : List Flt)
    (str_cov : String) (prior_mu_train : Fin n → ℝ) (use_ard fix_noise use_gradient : Bool) :
    Py (ℝ × Option (List ℝ)) := do
  let neg_log_ml_ ← RoundedLikelihood.negLogMl lib.fl lib.ex lib.lg lib.o lib.o' lib.mm lib.chol lib.solve
    X_train Y_train hyps str_cov prior_mu_train use_ard fix_noise
  if use_gradient then
    let grad_neg_log_ml_ ← lib.grad hyps
    return (neg_log_ml_, some grad_neg_log_ml_)
  else return (neg_log_ml_, none)

/-- `get_optimized_kernel` (`gp_kernel.py:24-156`). -/
noncomputable def getOptimizedKernel (minimize : Minimize) (X_train : Fin n → Point d)
    (Y_train : Fin n → ℝ) (prior_mu : PriorMu d) (str_cov : String)
    (str_optimizer_method : String := STR_OPTIMIZER_METHOD_GP)
    (str_modelselection_method : String := STR_MODELSELECTION_METHOD)
    (use_ard : Bool := USE_ARD) (fix_noise : Bool := FIX_GP_NOISE) :
    Py (Matrix (Fin n) (Fin n) ℝ × Matrix (Fin n) (Fin n) ℝ × HypDict) := do
  checkStrCov str_cov 2
  pyAssert (str_optimizer_method ∈ ALLOWED_OPTIMIZER_METHOD_GP)
  pyAssert (str_modelselection_method ∈ ALLOWED_MODELSELECTION_METHOD)
  let use_gradient := decide (str_optimizer_method ≠ "Nelder-Mead")
  let prior_mu_train ← getPriorMu prior_mu (.vec X_train)
  let use_gradient := if str_cov ∈ ALLOWED_COV_BASE then use_gradient else false
  let neg_log_ml : List Flt → Py (ℝ × Option (List ℝ)) :=
    if str_modelselection_method = "ml" then
      fun hyps => negLogMl lib X_train Y_train hyps str_cov prior_mu_train use_ard fix_noise use_gradient
    else fun hyps => do
      let v ← lib.loo hyps
      return (v, none)
  let use_gradient := if str_modelselection_method = "ml" then use_gradient else false
  let hyps_converted ← convertHyps str_cov (← getHyps str_cov d true use_ard) true fix_noise
  let result_optimized ←
    if str_optimizer_method ∈ ["BFGS", "SLSQP"] then
      minimize str_optimizer_method neg_log_ml hyps_converted none use_gradient
    else if str_optimizer_method ∈ ["L-BFGS-B", "SLSQP-Bounded"] then do
      let str_optimizer_method :=
        if str_optimizer_method = "SLSQP-Bounded" then "SLSQP" else str_optimizer_method
      let bounds ← getRangeHyps str_cov d true use_ard fix_noise
      minimize str_optimizer_method neg_log_ml hyps_converted (some bounds) use_gradient
    else if str_optimizer_method ∈ ["Nelder-Mead"] then
      minimize str_optimizer_method neg_log_ml hyps_converted none false
    else .error .value
  let hyps ← restoreHyps str_cov result_optimized true use_ard fix_noise
  let hyps ← (validateHypsDict hyps str_cov d).2
  let (cov_X_X, inv_cov_X_X) ← getKernelInverse lib X_train hyps str_cov
  return (cov_X_X, inv_cov_X_X, hyps)

/-- The kernel fit of the three modes (`bo_w_gp.py:381-449`). The distance that `check_hyps_convergence`
compares is not rounded; it only decides whether later steps fit again. -/
noncomputable def fitSurrogate (bo : BOwGP d) (o : Oracles d) (X_train : Fin n → Point d)
    (Y_train : Fin n → ℝ) (str_mlm_method : String) : OptM GpState (Option (Fit n)) := do
  if str_mlm_method = "regular" then
    let fit ← OptM.lift (getOptimizedKernel lib o.fitHyps X_train Y_train bo.prior_mu bo.str_cov
      bo.str_optimizer_method_gp bo.str_modelselection_method bo.use_ard)
    return some fit
  else if str_mlm_method = "combined" then
    let prior_mu_train ← OptM.lift (getPriorMu bo.prior_mu (.vec X_train))
    OptM.lift (combinedFit
      (fun cur_str_optimizer_method => getOptimizedKernel lib o.fitHyps X_train Y_train bo.prior_mu
        bo.str_cov cur_str_optimizer_method bo.str_modelselection_method bo.use_ard)
      (fun fit => do
        let hyps ← convertHyps bo.str_cov fit.2.2 (fix_noise := FIX_GP_NOISE)
        let v ← negLogMl lib X_train Y_train hyps bo.str_cov prior_mu_train bo.use_ard FIX_GP_NOISE
          (use_gradient := false)
        return .fin v.1))
  else if str_mlm_method = "converged" then
    let fix_noise := FIX_GP_NOISE
    let s ← OptM.get
    if s.is_optimize_hyps then
      let fit ← OptM.lift (getOptimizedKernel lib o.fitHyps X_train Y_train bo.prior_mu bo.str_cov
        bo.str_optimizer_method_gp bo.str_modelselection_method bo.use_ard)
      let converged ← OptM.lift (checkHistory s.historical_hyps fit.2.2 bo.str_cov fix_noise)
      OptM.set { s with is_optimize_hyps := !converged }
      return some fit
    else
      match ← OptM.lift (pyLast s.historical_hyps) with
      | none => OptM.lift (.error .assertion)
      | some hyps =>
        let (cov_X_X, inv_cov_X_X) ← OptM.lift (getKernelInverse lib X_train hyps bo.str_cov)
        return some (cov_X_X, inv_cov_X_X, hyps)
  else
    OptM.lift (.error .value)

/-- The candidates of `_optimize` (`bo_w_gp.py:139-185`). -/
noncomputable def candidates (bo : BaseBO d) (o : Oracles d) (fun_negative_acquisition : Point d → Py Flt)
    (str_sampling_method : String) (num_samples : ℤ) : Py (List (Point d)) := do
  if bo.str_optimizer_method_bo = "L-BFGS-B" then
    let initials ← Rounded.getSamples lib.fl bo.range_X o.draws str_sampling_method num_samples
    initials.mapM fun arr_initial => o.lbfgsb fun_negative_acquisition arr_initial bo.range_X
  else if bo.str_optimizer_method_bo = "DIRECT" then
    let next_point_x ← o.direct fun_negative_acquisition bo.range_X
    return [next_point_x]
  else if bo.str_optimizer_method_bo = "CMA-ES" then
    let initials ← Rounded.getSamples lib.fl bo.range_X o.draws str_sampling_method 1
    if d = 0 then .error .outOfModel
    let widths : List ℝ := List.ofFn fun i => lib.fl ((bo.range_X i).2 - (bo.range_X i).1)
    let cur_sigma0 := lib.fl (lib.fl (RoundedKernels.sumList lib.fl widths lib.o / (d : ℝ)) / 4)
    let initial ← pyIndex initials 0
    let next_point_x ← o.cma fun_negative_acquisition initial cur_sigma0 bo.range_X
    return [next_point_x]
  else
    return []

/-- `_optimize` (`bo_w_gp.py:113-191`). -/
noncomputable def optimizeAcq (bo : BaseBO d) (o : Oracles d) (fun_negative_acquisition : Point d → Py Flt)
    (str_sampling_method : String) (num_samples : ℤ) : Py (Point d × List (Point d)) := do
  let next_points ← candidates lib bo o fun_negative_acquisition str_sampling_method num_samples
  pyAssert (next_points ≠ [])
  let best ← getBestAcquisitionByEvaluation next_points fun_negative_acquisition
  let next_point ← pyIndex best 0
  return (next_point, next_points)

/-- `optimize` (`bo_w_gp.py:321-490`). -/
noncomputable def optimize (bo : BOwGP d) (o : Oracles d) (clock : ℕ → ℝ) (X_train : Fin n → Point d)
    (Y : List ℝ) (str_sampling_method : String := STR_SAMPLING_METHOD_AO)
    (num_samples : ℤ := NUM_SAMPLES_AO) (str_mlm_method : String := STR_MLM_METHOD) :
    OptM GpState (Point d × DictInfo n d) := do
  let _ ← OptM.lift (column n Y)
  OptM.lift (pyAssert (num_samples > 0))
  OptM.lift (pyAssert (str_sampling_method ∈ ALLOWED_SAMPLING_METHOD))
  OptM.lift (pyAssert (str_mlm_method ∈ ALLOWED_MLM_METHOD))
  let time_start ← OptM.now clock
  let Y_train_orig := Y
  let Y ← OptM.lift
    (if bo.normalize_Y = true ∧ str_mlm_method ≠ "converged" then Rounded.normalizeMinMax lib.fl Y
      else .ok Y)
  let Y_train ← OptM.lift (column n Y)
  let time_start_surrogate ← OptM.now clock
  let fit ← fitSurrogate lib bo o X_train Y_train str_mlm_method
  appendHistory fit
  let time_end_surrogate ← OptM.now clock
  let time_start_acq ← OptM.now clock
  let fun_negative_acquisition := RoundedChoice.negAcquisition lib.fl lib.ex lib.cdf lib.pdf lib.lg lib.o
    lib.mm bo X_train Y_train fit
  let (next_point, next_points) ← OptM.lift (optimizeAcq lib bo.toBaseBO o
    (onePoint fun_negative_acquisition) str_sampling_method num_samples)
  let next_point ← OptM.lift (do pyIndex (← checkPointsInBounds [next_point] bo.range_X) 0)
  let next_points ← OptM.lift (checkPointsInBounds next_points bo.range_X)
  let time_end_acq ← OptM.now clock
  let acquisitions ← OptM.lift (fun_negative_acquisition next_points)
  let time_end ← OptM.now clock
  return (next_point, {
    next_points := next_points
    acquisitions := acquisitions
    Y_original := Y_train_orig
    Y_normalized := Y
    fit := fit
    time_surrogate := lib.fl (time_end_surrogate - time_start_surrogate)
    time_acq := lib.fl (time_end_acq - time_start_acq)
    time_overall := lib.fl (time_end - time_start) })

end Verif.RoundedStep
