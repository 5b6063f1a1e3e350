import Verif.Model.RoundedStep
import Verif.Model.RoundedTp

/-!
# A whole step with the Student-t process and rounding

`get_optimized_kernel` of `tp_kernel.py` and `BOwTP.optimize` once more for inputs of rank 2, with the routines
of a `RoundedStep.Library`, normalisation and samples of `Rounded.lean` and acquisition values of
`RoundedTp.lean`. The computed likelihood is an argument (`nll`); `RoundedTpLikelihood.lean` models it. Without
rounding these are the functions of `Tp.lean` and `BoWTp.lean` (`C161_exact`).
-/

namespace Verif.RoundedTpStep

open Verif.Constants Verif.UtilsCovariance Verif.UtilsBo Verif.BaseBo Verif.BoCommon Verif.BoWTp Verif.Gp
  Verif.Rounded Verif.RoundedPredict
open Verif.RoundedStep (Library)

variable {n d : ℕ} (lib : Library n) (nll : List Flt → Py ℝ)

/-- `get_optimized_kernel` (`tp_kernel.py:24-120`). -/
noncomputable def getOptimizedKernel (minimize : Minimize) (X_train : Fin n → Point d)
    (prior_mu : PriorMu d) (str_cov : String) (str_optimizer_method : String := STR_OPTIMIZER_METHOD_TP)
    (use_ard : Bool := USE_ARD) (fix_noise : Bool := FIX_GP_NOISE) :
    Py (Matrix (Fin n) (Fin n) ℝ × Matrix (Fin n) (Fin n) ℝ × HypDict) := do
  checkStrCov str_cov 2
  pyAssert (str_optimizer_method ∈ ALLOWED_OPTIMIZER_METHOD_TP)
  let use_gradient := false
  let _prior_mu_train ← getPriorMu prior_mu (.vec X_train)
  let neg_log_ml : List Flt → Py (ℝ × Option (List ℝ)) := fun hyps => do
    let v ← nll hyps
    return (v, none)
  let hyps_converted ← convertHyps str_cov (← getHyps str_cov d false use_ard) false fix_noise
  let result_optimized ←
    if str_optimizer_method ∈ ["L-BFGS-B", "SLSQP"] then do
      let bounds ← getRangeHyps str_cov d false use_ard fix_noise
      minimize str_optimizer_method neg_log_ml hyps_converted (some bounds) use_gradient
    else .error .value
  let hyps ← restoreHyps str_cov result_optimized false use_ard fix_noise
  let hyps ← (validateHypsDict hyps str_cov d false).2
  let (cov_X_X, inv_cov_X_X) ← RoundedStep.getKernelInverse lib X_train hyps str_cov
  return (cov_X_X, inv_cov_X_X, hyps)

/-- `optimize` (`bo_w_tp.py:311-412`). -/
noncomputable def optimize (bo : BOwTP d) (o : Oracles d) (clock : ℕ → ℝ) (X_train : Fin n → Point d)
    (Y : List ℝ) (str_sampling_method : String := STR_SAMPLING_METHOD_AO)
    (num_samples : ℤ := NUM_SAMPLES_AO) : OptM TpState (Point d × DictInfo n d) := do
  let _ ← OptM.lift (column n Y)
  OptM.lift (pyAssert (num_samples > 0))
  OptM.lift (pyAssert (str_sampling_method ∈ ALLOWED_SAMPLING_METHOD))
  let time_start ← OptM.now clock
  let Y_train_orig := Y
  let Y ← OptM.lift (if bo.normalize_Y then Rounded.normalizeMinMax lib.fl Y else .ok Y)
  let Y_train ← OptM.lift (column n Y)
  let time_start_surrogate ← OptM.now clock
  let fit ← OptM.lift (getOptimizedKernel lib nll o.fitHyps X_train bo.prior_mu bo.str_cov
    bo.str_optimizer_method_tp bo.use_ard)
  let s ← OptM.get
  OptM.set { s with historical_hyps := s.historical_hyps ++ [fit.2.2] }
  let time_end_surrogate ← OptM.now clock
  let time_start_acq ← OptM.now clock
  let fun_negative_acquisition := RoundedTp.negAcquisition lib.fl lib.ex lib.cdf lib.pdf lib.lg lib.o lib.mm
    bo X_train Y_train fit
  let (next_point, next_points) ← OptM.lift (RoundedStep.optimizeAcq lib bo.toBaseBO o
    (onePoint fun_negative_acquisition) str_sampling_method num_samples)
  let next_point ← OptM.lift (do pyIndex (← checkPointsInBounds [next_point] bo.range_X) 0)
  let next_points ← OptM.lift (checkPointsInBounds next_points bo.range_X)
  let time_end_acq ← OptM.now clock
  let acquisitions ← OptM.lift (fun_negative_acquisition next_points)
  let time_end ← OptM.now clock
  return (next_point, {
    next_points := next_points
    acquisitions := acquisitions
    Y_original := Y_train_orig
    Y_normalized := Y
    fit := some fit
    time_surrogate := lib.fl (time_end_surrogate - time_start_surrogate)
    time_acq := lib.fl (time_end_acq - time_start_acq)
    time_overall := lib.fl (time_end - time_start) })

end Verif.RoundedTpStep
