import Verif.Model.BoWTrees
import Verif.Model.RoundedChoice
import Verif.Model.RoundedTrees

/-!
# A whole step with random forests and rounding

`BOwTrees` (`bo_w_trees.py`) once more, with normalisation and samples of `Rounded.lean`, forests of
`RoundedTrees.lean` and acquisition functions of `RoundedChoice.lean`. The noise that is handed to the
acquisition function is a literal of the code, so it is the double next to it. The root of the number of
dimensions is rounded before its integer part is taken. Without rounding these are the functions of
`BoWTrees.lean` (`C160_exact`).
-/

namespace Verif.RoundedTreesStep

open Verif.Constants Verif.UtilsBo Verif.BaseBo Verif.BoCommon Verif.BoWTrees
open Verif.Trees (Tree ForestRnd)
open Verif.RoundedTrees (Orders)

variable (fl cdf pdf lg : ℝ → ℝ) (o : Orders) {d : ℕ}

/-- `get_trees` (`bo_w_trees.py:69-115`). -/
noncomputable def getTrees (bo : BaseBO d) (rnd : ForestRnd d) (X_train : List (Point d))
    (Y_train : List ℝ) (num_trees : ℤ := 100) (depth_max : ℤ := 5) (size_min_leaf : ℤ := 1) :
    Py (List (Tree d)) := do
  pyAssert (X_train.length = Y_train.length)
  let num_features : ℤ := ⌊fl (Real.sqrt d)⌋
  if bo.str_surrogate = "rf" then
    RoundedTrees.getRandomForest fl o rnd X_train Y_train num_trees depth_max size_min_leaf num_features
  else
    .error .notImplemented

/-- `compute_posteriors` (`bo_w_trees.py:117-146`). -/
noncomputable def computePosteriors (X : List (Point d)) (trees : List (Tree d)) :
    Py (List ℝ × List ℝ) :=
  RoundedTrees.predictByTrees fl o X trees

/-- `compute_acquisitions` (`bo_w_trees.py:148-195`). -/
noncomputable def computeAcquisitions (bo : BaseBO d) (X : List (Point d))
    (X_train : List (Point d)) (Y_train : List ℝ) (trees : List (Tree d)) : Py (List ℝ) := do
  pyAssert (X_train.length = Y_train.length)
  let fun_acquisition ← RoundedChoice.chooseFunAcquisition fl cdf pdf lg bo.str_acq (some (fl GP_NOISE))
  let (pred_mean, pred_std) ← computePosteriors fl o X trees
  let acquisitions ← fun_acquisition pred_mean pred_std Y_train
  return acquisitions.map fun a => fl (a * MULTIPLIER_ACQ)

/-- `optimize` (`bo_w_trees.py:197-283`). Changing the sign is exact. -/
noncomputable def optimize {σ : Type} (bo : BaseBO d) (orc : TreesOracles d) (clock : ℕ → ℝ)
    (X_train : List (Point d)) (Y : List ℝ)
    (str_sampling_method : String := STR_SAMPLING_METHOD_AO_TREES)
    (num_samples : ℤ := NUM_SAMPLES_AO_TREES) : OptM σ (Point d × DictInfoTrees d) := do
  OptM.lift (pyAssert (X_train.length = Y.length))
  OptM.lift (pyAssert (num_samples > 0))
  OptM.lift (pyAssert (str_sampling_method ∈ ALLOWED_SAMPLING_METHOD))
  let time_start ← OptM.now clock
  let Y_train_orig := Y
  let Y_train ← OptM.lift (if bo.normalize_Y then Rounded.normalizeMinMax fl Y else .ok Y)
  let time_start_surrogate ← OptM.now clock
  let trees ← OptM.lift (getTrees fl o bo orc.forest X_train Y_train)
  let time_end_surrogate ← OptM.now clock
  let time_start_acq ← OptM.now clock
  let next_points ← OptM.lift (Rounded.getSamples fl bo.range_X orc.draws str_sampling_method num_samples)
  let next_points ← OptM.lift (checkPointsInBounds next_points bo.range_X)
  let acquisitions ← OptM.lift (computeAcquisitions fl cdf pdf lg o bo next_points X_train Y_train trees)
  let acquisitions := acquisitions.map (-1 * ·)
  let ind_next_point ← OptM.lift (npArgmin (acquisitions.map Flt.fin))
  let next_point ← OptM.lift (pyIndex next_points ind_next_point)
  let time_end_acq ← OptM.now clock
  let time_end ← OptM.now clock
  return (next_point, {
    next_points := next_points
    acquisitions := acquisitions
    Y_original := Y_train_orig
    Y_normalized := Y_train
    trees := trees
    time_surrogate := fl (time_end_surrogate - time_start_surrogate)
    time_acq := fl (time_end_acq - time_start_acq)
    time_overall := fl (time_end - time_start) })

end Verif.RoundedTreesStep
