import Verif.Model.BoCommon

/-!
# `bayeso/bo/bo_w_gp.py`

Responses are finite numbers. `X_train.shape[1] == num_dim` and `Y_train.shape[1] == 1` hold
by typing. Log output (`debug`) is not modelled.
-/

namespace Verif.BoWGp

open Verif.Constants Verif.UtilsCovariance Verif.Covariance Verif.UtilsBo Verif.BaseBo Verif.Gp
open Verif.BoCommon

/-- The attributes of a `BOwGP` object that `optimize` never changes. -/
structure BOwGP (d : ℕ) extends BaseBO d where
  str_cov : String
  use_ard : Bool
  prior_mu : PriorMu d
  str_optimizer_method_gp : String
  str_modelselection_method : String

/-- The attributes that it changes (`bo_w_gp.py:110-111`). An entry of the history is `None` when
a 'combined' fit found nothing. -/
structure GpState where
  is_optimize_hyps : Bool := true
  historical_hyps : List (Option HypDict) := []

/-- `BOwGP.__init__` (`bo_w_gp.py:61-111`). -/
noncomputable def init {d : ℕ} (env : Installed) (range_X : Bounds d) (str_cov str_acq : String)
    (normalize_Y use_ard : Bool) (prior_mu : PriorMu d)
    (str_optimizer_method_gp str_optimizer_method_bo str_modelselection_method : String) :
    Py (BOwGP d × GpState) := do
  pyAssert (∀ i, (range_X i).1 ≤ (range_X i).2)
  pyAssert (str_cov ∈ ALLOWED_COV)
  pyAssert (str_acq ∈ ALLOWED_BO_ACQ)
  pyAssert (str_optimizer_method_gp ∈ ALLOWED_OPTIMIZER_METHOD_GP)
  pyAssert (str_optimizer_method_bo ∈ ALLOWED_OPTIMIZER_METHOD_BO)
  pyAssert (str_modelselection_method ∈ ALLOWED_MODELSELECTION_METHOD)
  let str_surrogate := "gp"
  pyAssert (str_surrogate ∈ ALLOWED_SURROGATE)
  let base ← initBase env range_X str_surrogate str_acq str_optimizer_method_bo normalize_Y
  return ({ base with
    str_cov, use_ard, prior_mu, str_optimizer_method_gp, str_modelselection_method }, {})

variable {n d : ℕ}

/-- `compute_posteriors` (`bo_w_gp.py:193-251`). The comparison of the last axes is the one of
`validate_common_args`. -/
noncomputable def computePosteriors {l : ℕ} (bo : BOwGP d) (X_train : Inputs n d)
    (Y_train : Fin n → ℝ) (X_test : Inputs l d) (fit : Fit n) : Py (List ℝ × List ℝ) := do
  validateCommonArgs X_train X_test
  let (pred_mean, pred_std, _) ← predictWithCov X_train Y_train X_test fit.1 fit.2.1 fit.2.2
    bo.str_cov bo.prior_mu
  return (List.ofFn pred_mean, List.ofFn pred_std)

/-- `compute_acquisitions` (`bo_w_gp.py:253-319`). A point of shape `(d,)` is passed as one row
(`np.atleast_2d`). -/
noncomputable def computeAcquisitions {l : ℕ} (bo : BOwGP d) (X : Inputs l d)
    (X_train : Inputs n d) (Y_train : Fin n → ℝ) (fit : Fit n) : Py (List ℝ) := do
  validateCommonArgs X_train X
  let fun_acquisition ← chooseFunAcquisition bo.str_acq (← noiseArg fit.2.2)
  let (pred_mean, pred_std) ← computePosteriors bo X_train Y_train X fit
  let acquisitions ← fun_acquisition pred_mean pred_std (List.ofFn Y_train)
  return acquisitions.map (· * MULTIPLIER_ACQ)

/-- `fun_negative_acquisition` (`bo_w_gp.py:456-458`) on an array of points. Without a kernel
(`None`) the type assertions of `compute_acquisitions` fail. -/
noncomputable def negAcquisition (bo : BOwGP d) (X_train : Inputs n d) (Y_train : Fin n → ℝ)
    (fit : Option (Fit n)) (X_test : List (Point d)) : Py (List ℝ) :=
  match fit with
  | none => .error .assertion
  | some fit => do
    let a ← computeAcquisitions bo (.vec X_test.get) X_train Y_train fit
    return a.map (-1 * ·)

/-- The loop of the 'combined' mode (`bo_w_gp.py:397-426`) over what a fit and a likelihood
evaluation give. -/
noncomputable def combinedFit (get_optimized_kernel : String → Py (Fit n))
    (neg_log_ml : Fit n → Py Flt) : Py (Option (Fit n)) := do
  let best ← ["BFGS", "Nelder-Mead"].foldlM
    (fun (best : Flt × Option (Fit n)) cur_str_optimizer_method => do
      let fit ← get_optimized_kernel cur_str_optimizer_method
      let cur_neg_log_ml ← neg_log_ml fit
      if cur_neg_log_ml < best.1 then return (cur_neg_log_ml, some fit) else return best)
    (Flt.pinf, none)
  return best.2

/-- `check_hyps_convergence(self.historical_hyps, ...)`: only the last entry is read; a `None`
there is refused by `convert_hyps`. -/
noncomputable def checkHistory (historical_hyps : List (Option HypDict)) (hyps : HypDict)
    (str_cov : String) (fix_noise : Bool) : Py Bool :=
  match historical_hyps.getLast? with
  | none => checkHypsConvergence [] hyps str_cov fix_noise
  | some none => .error .assertion
  | some (some last) => checkHypsConvergence [last] hyps str_cov fix_noise

/-- The kernel fit of the three modes (`bo_w_gp.py:381-449`). -/
noncomputable def fitSurrogate (bo : BOwGP d) (o : Oracles d) (X_train : Inputs n d)
    (Y_train : Fin n → ℝ) (str_mlm_method : String) : OptM GpState (Option (Fit n)) := do
  if str_mlm_method = "regular" then
    let fit ← OptM.lift (getOptimizedKernel o.fitHyps X_train Y_train bo.prior_mu bo.str_cov
      bo.str_optimizer_method_gp bo.str_modelselection_method bo.use_ard)
    return some fit
  else if str_mlm_method = "combined" then
    let prior_mu_train ← OptM.lift (getPriorMu bo.prior_mu X_train)
    OptM.lift (combinedFit
      (fun cur_str_optimizer_method => getOptimizedKernel o.fitHyps X_train Y_train bo.prior_mu
        bo.str_cov cur_str_optimizer_method bo.str_modelselection_method bo.use_ard)
      (fun fit => do
        let hyps ← convertHyps bo.str_cov fit.2.2 (fix_noise := FIX_GP_NOISE)
        let v ← negLogMl X_train Y_train hyps bo.str_cov prior_mu_train bo.use_ard FIX_GP_NOISE
          (use_gradient := false)
        return .fin v.1))
  else if str_mlm_method = "converged" then
    let fix_noise := FIX_GP_NOISE
    let s ← OptM.get
    if s.is_optimize_hyps then
      let fit ← OptM.lift (getOptimizedKernel o.fitHyps X_train Y_train bo.prior_mu bo.str_cov
        bo.str_optimizer_method_gp bo.str_modelselection_method bo.use_ard)
      let converged ← OptM.lift (checkHistory s.historical_hyps fit.2.2 bo.str_cov fix_noise)
      OptM.set { s with is_optimize_hyps := !converged }
      return some fit
    else
      match ← OptM.lift (pyLast s.historical_hyps) with
      | none => OptM.lift (.error .assertion)
      | some hyps =>
        let (cov_X_X, inv_cov_X_X, _) ← OptM.lift
          (getKernelInverse X_train hyps bo.str_cov (fix_noise := fix_noise))
        return some (cov_X_X, inv_cov_X_X, hyps)
  else
    OptM.lift (.error .value)

/-- `self.historical_hyps.append(hyps)` (`bo_w_gp.py:451`). -/
def appendHistory (fit : Option (Fit n)) : OptM GpState Unit := do
  let s ← OptM.get
  OptM.set { s with historical_hyps := s.historical_hyps ++ [fit.map (·.2.2)] }

/-- `optimize` (`bo_w_gp.py:321-490`). -/
noncomputable def optimize (bo : BOwGP d) (o : Oracles d) (clock : ℕ → ℝ) (X_train : Inputs n d)
    (Y : List ℝ) (str_sampling_method : String := STR_SAMPLING_METHOD_AO)
    (num_samples : ℤ := NUM_SAMPLES_AO) (str_mlm_method : String := STR_MLM_METHOD) :
    OptM GpState (Point d × DictInfo n d) := do
  OptM.lift (pyAssert (X_train.rank = 2))
  let _ ← OptM.lift (column n Y)
  OptM.lift (pyAssert (num_samples > 0))
  OptM.lift (pyAssert (str_sampling_method ∈ ALLOWED_SAMPLING_METHOD))
  OptM.lift (pyAssert (str_mlm_method ∈ ALLOWED_MLM_METHOD))
  let time_start ← OptM.now clock
  let Y_train_orig := Y
  let Y ← OptM.lift
    (if bo.normalize_Y = true ∧ str_mlm_method ≠ "converged" then normalizeMinMax Y else .ok Y)
  let Y_train ← OptM.lift (column n Y)
  let time_start_surrogate ← OptM.now clock
  let fit ← fitSurrogate bo o X_train Y_train str_mlm_method
  appendHistory fit
  let time_end_surrogate ← OptM.now clock
  let time_start_acq ← OptM.now clock
  let fun_negative_acquisition := negAcquisition bo X_train Y_train fit
  let (next_point, next_points) ← OptM.lift (optimizeAcq bo.toBaseBO o
    (onePoint fun_negative_acquisition) str_sampling_method num_samples)
  let next_point ← OptM.lift (do pyIndex (← checkPointsInBounds [next_point] bo.range_X) 0)
  let next_points ← OptM.lift (checkPointsInBounds next_points bo.range_X)
  let time_end_acq ← OptM.now clock
  let acquisitions ← OptM.lift (fun_negative_acquisition next_points)
  let time_end ← OptM.now clock
  return (next_point, {
    next_points := next_points
    acquisitions := acquisitions
    Y_original := Y_train_orig
    Y_normalized := Y
    fit := fit
    time_surrogate := time_end_surrogate - time_start_surrogate
    time_acq := time_end_acq - time_start_acq
    time_overall := time_end - time_start })

end Verif.BoWGp
