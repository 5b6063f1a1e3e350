import Verif.Model.BoCommon
import Verif.Model.Trees

/-!
# `bayeso/bo/bo_w_trees.py`

Inputs are arrays of shape `(n, d)` (lists of points) and responses are finite numbers. Log
output (`debug`) is not modelled. The object is not changed by its methods.
-/

namespace Verif.BoWTrees

open Verif.Constants Verif.UtilsBo Verif.BaseBo Verif.BoCommon Verif.Trees

variable {d : ℕ}

/-- `BOwTrees.__init__` (`bo_w_trees.py:39-67`). -/
noncomputable def init (env : Installed) (range_X : Bounds d) (str_surrogate str_acq : String)
    (normalize_Y : Bool) (str_optimizer_method_bo : String) : Py (BaseBO d) := do
  pyAssert (∀ i, (range_X i).1 ≤ (range_X i).2)
  pyAssert (str_surrogate ∈ ALLOWED_SURROGATE_TREES)
  pyAssert (str_acq ∈ ALLOWED_BO_ACQ)
  pyAssert (str_optimizer_method_bo ∈ ALLOWED_OPTIMIZER_METHOD_BO_TREES)
  initBase env range_X str_surrogate str_acq str_optimizer_method_bo normalize_Y

/-- The random calls of one call of `optimize`: those of the forest and of the samples. -/
structure TreesOracles (d : ℕ) where
  forest : ForestRnd d
  draws : Draws d

/-- `get_trees` (`bo_w_trees.py:69-115`). -/
noncomputable def getTrees (bo : BaseBO d) (rnd : ForestRnd d) (X_train : List (Point d))
    (Y_train : List ℝ) (num_trees : ℤ := 100) (depth_max : ℤ := 5) (size_min_leaf : ℤ := 1) :
    Py (List (Tree d)) := do
  pyAssert (X_train.length = Y_train.length)
  let num_features : ℤ := ⌊Real.sqrt d⌋
  if bo.str_surrogate = "rf" then
    getRandomForest rnd X_train Y_train num_trees depth_max size_min_leaf num_features
  else
    .error .notImplemented

/-- `compute_posteriors` (`bo_w_trees.py:117-146`). -/
noncomputable def computePosteriors (X : List (Point d)) (trees : List (Tree d)) :
    Py (List ℝ × List ℝ) :=
  predictByTrees X trees

/-- `compute_acquisitions` (`bo_w_trees.py:148-195`). -/
noncomputable def computeAcquisitions (bo : BaseBO d) (X : List (Point d))
    (X_train : List (Point d)) (Y_train : List ℝ) (trees : List (Tree d)) : Py (List ℝ) := do
  pyAssert (X_train.length = Y_train.length)
  let fun_acquisition ← chooseFunAcquisition bo.str_acq (some GP_NOISE)
  let (pred_mean, pred_std) ← computePosteriors X trees
  let acquisitions ← fun_acquisition pred_mean pred_std Y_train
  return acquisitions.map (· * MULTIPLIER_ACQ)

/-- `dict_info` (`bo_w_trees.py:269-278`). -/
structure DictInfoTrees (d : ℕ) where
  next_points : List (Point d)
  acquisitions : List ℝ
  Y_original : List ℝ
  Y_normalized : List ℝ
  trees : List (Tree d)
  time_surrogate : ℝ
  time_acq : ℝ
  time_overall : ℝ

/-- `optimize` (`bo_w_trees.py:197-283`). -/
noncomputable def optimize {σ : Type} (bo : BaseBO d) (o : TreesOracles d) (clock : ℕ → ℝ)
    (X_train : List (Point d)) (Y : List ℝ)
    (str_sampling_method : String := STR_SAMPLING_METHOD_AO_TREES)
    (num_samples : ℤ := NUM_SAMPLES_AO_TREES) : OptM σ (Point d × DictInfoTrees d) := do
  OptM.lift (pyAssert (X_train.length = Y.length))
  OptM.lift (pyAssert (num_samples > 0))
  OptM.lift (pyAssert (str_sampling_method ∈ ALLOWED_SAMPLING_METHOD))
  let time_start ← OptM.now clock
  let Y_train_orig := Y
  let Y_train ← OptM.lift (if bo.normalize_Y then normalizeMinMax Y else .ok Y)
  let time_start_surrogate ← OptM.now clock
  let trees ← OptM.lift (getTrees bo o.forest X_train Y_train)
  let time_end_surrogate ← OptM.now clock
  let time_start_acq ← OptM.now clock
  let next_points ← OptM.lift (getSamples bo.range_X o.draws str_sampling_method num_samples)
  let next_points ← OptM.lift (checkPointsInBounds next_points bo.range_X)
  let acquisitions ← OptM.lift (computeAcquisitions bo next_points X_train Y_train trees)
  let acquisitions := acquisitions.map (-1 * ·)
  let ind_next_point ← OptM.lift (npArgmin (acquisitions.map Flt.fin))
  let next_point ← OptM.lift (pyIndex next_points ind_next_point)
  let time_end_acq ← OptM.now clock
  let time_end ← OptM.now clock
  return (next_point, {
    next_points := next_points
    acquisitions := acquisitions
    Y_original := Y_train_orig
    Y_normalized := Y_train
    trees := trees
    time_surrogate := time_end_surrogate - time_start_surrogate
    time_acq := time_end_acq - time_start_acq
    time_overall := time_end - time_start })

end Verif.BoWTrees
