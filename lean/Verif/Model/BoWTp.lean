import Verif.Model.BoCommon
import Verif.Model.Tp

/-!
# `bayeso/bo/bo_w_tp.py`

The same simplifications as in `BoWGp.lean`.
-/

namespace Verif.BoWTp

open Verif.Constants Verif.UtilsCovariance Verif.Covariance Verif.UtilsBo Verif.BaseBo
open Verif.Gp (PriorMu validateCommonArgs)
open Verif.BoCommon

/-- The attributes of a `BOwTP` object that `optimize` never changes. -/
structure BOwTP (d : ℕ) extends BaseBO d where
  str_cov : String
  use_ard : Bool
  prior_mu : PriorMu d
  str_optimizer_method_tp : String

/-- The attribute that it changes (`bo_w_tp.py:102`). -/
structure TpState where
  historical_hyps : List HypDict := []

/-- `BOwTP.__init__` (`bo_w_tp.py:57-102`). -/
noncomputable def init {d : ℕ} (env : Installed) (range_X : Bounds d) (str_cov str_acq : String)
    (normalize_Y use_ard : Bool) (prior_mu : PriorMu d)
    (str_optimizer_method_tp str_optimizer_method_bo : String) : Py (BOwTP d × TpState) := do
  pyAssert (∀ i, (range_X i).1 ≤ (range_X i).2)
  pyAssert (str_cov ∈ ALLOWED_COV)
  pyAssert (str_acq ∈ ALLOWED_BO_ACQ)
  pyAssert (str_optimizer_method_tp ∈ ALLOWED_OPTIMIZER_METHOD_TP)
  pyAssert (str_optimizer_method_bo ∈ ALLOWED_OPTIMIZER_METHOD_BO)
  let str_surrogate := "tp"
  pyAssert (str_surrogate ∈ ALLOWED_SURROGATE)
  let base ← initBase env range_X str_surrogate str_acq str_optimizer_method_bo normalize_Y
  return ({ base with str_cov, use_ard, prior_mu, str_optimizer_method_tp }, {})

variable {n d : ℕ}

/-- `compute_posteriors` (`bo_w_tp.py:184-241`). -/
noncomputable def computePosteriors {l : ℕ} (bo : BOwTP d) (X_train : Inputs n d)
    (Y_train : Fin n → ℝ) (X_test : Inputs l d) (fit : Fit n) : Py (List ℝ × List ℝ) := do
  validateCommonArgs X_train X_test
  let (_, pred_mean, pred_std, _) ← Tp.predictWithCov X_train Y_train X_test fit.1 fit.2.1 fit.2.2
    bo.str_cov bo.prior_mu
  return (List.ofFn pred_mean, List.ofFn pred_std)

/-- `compute_acquisitions` (`bo_w_tp.py:243-309`). -/
noncomputable def computeAcquisitions {l : ℕ} (bo : BOwTP d) (X : Inputs l d)
    (X_train : Inputs n d) (Y_train : Fin n → ℝ) (fit : Fit n) : Py (List ℝ) := do
  validateCommonArgs X_train X
  let fun_acquisition ← chooseFunAcquisition bo.str_acq (← noiseArg fit.2.2)
  let (pred_mean, pred_std) ← computePosteriors bo X_train Y_train X fit
  let acquisitions ← fun_acquisition pred_mean pred_std (List.ofFn Y_train)
  return acquisitions.map (· * MULTIPLIER_ACQ)

/-- `fun_negative_acquisition` (`bo_w_tp.py:378-380`) on an array of points. -/
noncomputable def negAcquisition (bo : BOwTP d) (X_train : Inputs n d) (Y_train : Fin n → ℝ)
    (fit : Fit n) (X_test : List (Point d)) : Py (List ℝ) := do
  let a ← computeAcquisitions bo (.vec X_test.get) X_train Y_train fit
  return a.map (-1 * ·)

/-- `optimize` (`bo_w_tp.py:311-412`). -/
noncomputable def optimize (bo : BOwTP d) (o : Oracles d) (clock : ℕ → ℝ) (X_train : Inputs n d)
    (Y : List ℝ) (str_sampling_method : String := STR_SAMPLING_METHOD_AO)
    (num_samples : ℤ := NUM_SAMPLES_AO) : OptM TpState (Point d × DictInfo n d) := do
  OptM.lift (pyAssert (X_train.rank = 2))
  let _ ← OptM.lift (column n Y)
  OptM.lift (pyAssert (num_samples > 0))
  OptM.lift (pyAssert (str_sampling_method ∈ ALLOWED_SAMPLING_METHOD))
  let time_start ← OptM.now clock
  let Y_train_orig := Y
  let Y ← OptM.lift (if bo.normalize_Y then normalizeMinMax Y else .ok Y)
  let Y_train ← OptM.lift (column n Y)
  let time_start_surrogate ← OptM.now clock
  let fit ← OptM.lift (Tp.getOptimizedKernel o.fitHyps X_train Y_train bo.prior_mu bo.str_cov
    bo.str_optimizer_method_tp bo.use_ard)
  let s ← OptM.get
  OptM.set { s with historical_hyps := s.historical_hyps ++ [fit.2.2] }
  let time_end_surrogate ← OptM.now clock
  let time_start_acq ← OptM.now clock
  let fun_negative_acquisition := negAcquisition bo X_train Y_train fit
  let (next_point, next_points) ← OptM.lift (optimizeAcq bo.toBaseBO o
    (onePoint fun_negative_acquisition) str_sampling_method num_samples)
  let next_point ← OptM.lift (do pyIndex (← checkPointsInBounds [next_point] bo.range_X) 0)
  let next_points ← OptM.lift (checkPointsInBounds next_points bo.range_X)
  let time_end_acq ← OptM.now clock
  let acquisitions ← OptM.lift (fun_negative_acquisition next_points)
  let time_end ← OptM.now clock
  return (next_point, {
    next_points := next_points
    acquisitions := acquisitions
    Y_original := Y_train_orig
    Y_normalized := Y
    fit := some fit
    time_surrogate := time_end_surrogate - time_start_surrogate
    time_acq := time_end_acq - time_start_acq
    time_overall := time_end - time_start })

end Verif.BoWTp
