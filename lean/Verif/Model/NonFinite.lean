import Verif.Model.WrapperClass
import Verif.Model.UtilsCommon

/-!
# Steps on responses that are infinite or NaN

The target may return anything numpy can hold, and the wrappers hand it to the surrogate as it
is. This file follows `normalize_min_max`, the regression trees (`trees_common.py`,
`trees_random_forest.py`, `trees_generic_trees.py`) and the Gaussian process fit by the marginal
likelihood (`gp_likelihood.py`, `gp_kernel.py`) on such responses, as far as the exception that
ends the step. Finite numbers remain exact reals. A fit by the pseudo-likelihood
(`str_modelselection_method = 'loocv'`), a fit that is skipped ('converged') and the Student-t
process go on with NaN instead of raising; they are left out (`outOfModel`).
-/

namespace Verif.NonFinite

open Verif.Constants Verif.Trees Verif.UtilsBo Verif.UtilsCovariance Verif.BaseBo Verif.BoCommon
open Verif.Covariance (Inputs getKernelCholesky)
open Verif.Gp (Minimize PriorMu getPriorMu)
open Verif.WrapperClass (BayesianOptimization RunOracles ModelState Surrogate)
open Verif.WrappersBo (Info Env)

variable {d n : ℕ}

/-! ### `normalize_min_max` -/

/-- IEEE division. -/
noncomputable def div : Flt → Flt → Flt
  | .nan, _ => .nan
  | _, .nan => .nan
  | .fin x, .fin y =>
    if y = 0 then (if 0 < x then .pinf else if x < 0 then .ninf else .nan) else .fin (x / y)
  | .fin _, _ => .fin 0
  | .pinf, .fin y => if y < 0 then .ninf else .pinf
  | .ninf, .fin y => if y < 0 then .pinf else .ninf
  | _, _ => .nan

/-- IEEE multiplication by a positive finite number. -/
noncomputable def mulPos (a : Flt) (c : ℝ) : Flt :=
  match a with
  | .fin x => .fin (x * c)
  | b => b

/-- `np.max` of a flat array: NaN if there is one; `ValueError` on an empty array. -/
noncomputable def npMax : List Flt → Py Flt
  | [] => .error .value
  | a :: t => .ok (t.foldl (fun m y => if m = .nan then m else if y = .nan ∨ m < y then y else m) a)

/-- `np.min` of a flat array: NaN if there is one; `ValueError` on an empty array. -/
noncomputable def npMin : List Flt → Py Flt
  | [] => .error .value
  | a :: t => .ok (t.foldl (fun m y => if m = .nan then m else if y = .nan ∨ y < m then y else m) a)

/-- `normalize_min_max` (`utils_bo.py:27-47`). NaN differs from itself. -/
noncomputable def normalizeMinMax (Y : List Flt) : Py (List Flt) := do
  let mx ← npMax Y
  let mn ← npMin Y
  if mx ≠ mn ∨ mx = .nan then
    return Y.map fun y => mulPos (div (y.sub mn) (mx.sub mn)) MULTIPLIER_RESPONSE
  else
    return Y

/-! ### Trees -/

/-- One training pair of a leaf. -/
abbrev RowF (d : ℕ) := Point d × Flt

/-- `_mse` (`trees_common.py:56-80`). -/
noncomputable def mse1 (Y : List Flt) : Flt :=
  if Y.length > 0 then
    let mean := UtilsCommon.meanF Y
    UtilsCommon.meanF (Y.map fun y => (y.sub mean).sq)
  else
    .fin 1e8

/-- `mse` (`trees_common.py:83-107`). -/
noncomputable def mse (left_right : List (RowF d) × List (RowF d)) : Flt :=
  let Y_left := left_right.1.map (·.2)
  let Y_right := left_right.2.map (·.2)
  (mse1 Y_left).add (mse1 Y_right)

/-- `subsample` (`trees_common.py:110-156`). -/
noncomputable def subsample (choice : ℕ → ℕ → List ℕ) (X : List (Point d)) (Y : List Flt)
    (ratio_sampling : ℝ) (replace_samples : Bool) : Py (List (Point d) × List Flt) := do
  pyAssert (X.length = Y.length)
  if replace_samples then
    pyAssert (ratio_sampling > 0)
  else
    pyAssert (0 < ratio_sampling ∧ ratio_sampling ≤ 1)
  let num_X := X.length
  let num_samples := ⌊(num_X : ℝ) * ratio_sampling⌋₊
  if (num_X = 0 ∧ num_samples > 0) ∨ (replace_samples = false ∧ num_samples > num_X) then
    .error .value
  else
    let indices := choice num_X num_samples
    let X_ ← takeRows X indices
    let Y_ ← takeRows Y indices
    return (X_, Y_)

/-- `_split_left_right` (`trees_common.py:159-198`). -/
noncomputable def splitLeftRight (X : List (Point d)) (Y : List Flt) (dim_to_split : Fin d)
    (val_to_split : ℝ) : Py (List (RowF d) × List (RowF d)) := do
  pyAssert (X.length = Y.length)
  let indices_left := X.map (fun x => decide (x dim_to_split < val_to_split))
  let left := List.zip (maskSelect indices_left X) (maskSelect indices_left Y)
  let indices_right := X.map (fun x => decide (x dim_to_split ≥ val_to_split))
  let right := List.zip (maskSelect indices_right X) (maskSelect indices_right Y)
  return (left, right)

/-- `cur_ind, cur_val, cur_score, cur_left_right` of the loops in `_split_deterministic` and
`_split`. -/
structure BestF (d : ℕ) where
  score : Flt
  found : Option (Fin d × ℝ × (List (RowF d) × List (RowF d)))

/-- `np.inf, np.inf, np.inf, None`. -/
def BestF.init : BestF d := { score := Flt.pinf, found := none }

/-- Body of the loop over locations (`trees_common.py:216-229`). -/
noncomputable def tryLoc (X : List (Point d)) (Y : List Flt) (dim : Fin d) (cur : BestF d)
    (ind_loc : ℕ) : Py (BestF d) := do
  let val_to_split ← valToSplit X dim ind_loc
  let left_right ← splitLeftRight X Y dim val_to_split
  let score := mse left_right
  if score < cur.score then
    return { score := score, found := some (dim, val_to_split, left_right) }
  else
    return cur

/-- `_split_deterministic` (`trees_common.py:201-231`). -/
noncomputable def splitDeterministic (choice : ℕ → ℕ → List ℕ) (X : List (Point d))
    (Y : List Flt) (dim_to_split : Fin d) : Py (BestF d) :=
  let candidates_loc := candidatesLoc X dim_to_split
  let num_evaluations := if candidates_loc.length > 1 then candidates_loc.length - 1 else 1
  let indices_loc := choice num_evaluations (min 20 num_evaluations)
  indices_loc.foldlM (tryLoc X Y dim_to_split) BestF.init

/-- `_split_random` (`trees_common.py:234-249`). -/
noncomputable def splitRandom (u : ℝ) (X : List (Point d)) (Y : List Flt)
    (dim_to_split : Fin d) : Py (BestF d) := do
  let val_to_split ← randomValToSplit u X dim_to_split
  let left_right ← splitLeftRight X Y dim_to_split val_to_split
  return { score := mse left_right, found := some (dim_to_split, val_to_split, left_right) }

/-- The split of one feature (`trees_common.py:297-302`). -/
noncomputable def splitFeature (r : NodeRnd d) (X : List (Point d)) (Y : List Flt)
    (split_random_location : Bool) (dim_to_split : Fin d) (k : ℕ) : Py (BestF d) :=
  if split_random_location then splitRandom (r.unif k) X Y dim_to_split
  else splitDeterministic (r.locs k) X Y dim_to_split

/-- Body of the loop over features (`trees_common.py:294-308`). -/
noncomputable def tryFeature (r : NodeRnd d) (X : List (Point d)) (Y : List Flt)
    (split_random_location : Bool) (cur : BestF d) (f : Fin d × ℕ) : Py (BestF d) := do
  let new ← splitFeature r X Y split_random_location f.1 f.2
  if new.score < cur.score then return new else return cur

/-- `_split` (`trees_common.py:252-314`). -/
noncomputable def splitNode (r : NodeRnd d) (X : List (Point d)) (Y : List Flt)
    (num_features : ℤ) (split_random_location : Bool) : Py (BestF d) := do
  pyAssert (X.length = Y.length)
  pyAssert (X.length > 0)
  if num_features < 0 ∨ num_features > d then
    .error .value
  else
    (r.features num_features).zipIdx.foldlM (tryFeature r X Y split_random_location) BestF.init

/-- A finished tree. -/
inductive TreeF (d : ℕ)
  | leaf (rows : List (RowF d))
  | node (index : Fin d) (value : ℝ) (left right : TreeF d)

/-- `split` (`trees_common.py:317-388`). `left, right = node['left_right']` is a `TypeError` on
`None`. -/
noncomputable def split (rnd : TreeRnd d) (path : List Bool) (node : BestF d)
    (depth_max size_min_leaf num_features : ℤ) (split_random_location : Bool)
    (cur_depth : ℤ) : Py (TreeF d) := do
  pyAssert (cur_depth > 0)
  match node.found with
  | none => .error .type
  | some (index, value, left, right) =>
    if left = [] ∨ right = [] then
      return .node index value (.leaf (left ++ right)) (.leaf (left ++ right))
    else if _h : cur_depth ≥ depth_max then
      return .node index value (.leaf left) (.leaf right)
    else
      let l ←
        if (left.length : ℤ) ≤ size_min_leaf then pure (TreeF.leaf left)
        else do
          let n ← splitNode (rnd (path ++ [true])) (left.map (·.1)) (left.map (·.2))
            num_features split_random_location
          split rnd (path ++ [true]) n depth_max size_min_leaf num_features
            split_random_location (cur_depth + 1)
      let r ←
        if (right.length : ℤ) ≤ size_min_leaf then pure (TreeF.leaf right)
        else do
          let n ← splitNode (rnd (path ++ [false])) (right.map (·.1)) (right.map (·.2))
            num_features split_random_location
          split rnd (path ++ [false]) n depth_max size_min_leaf num_features
            split_random_location (cur_depth + 1)
      return .node index value l r
termination_by (depth_max - cur_depth).toNat

/-- Grow one tree from a sample (`trees_random_forest.py:65-66`,
`trees_generic_trees.py:77-78`). -/
noncomputable def growTree (rnd : TreeRnd d) (X : List (Point d)) (Y : List Flt)
    (depth_max size_min_leaf num_features : ℤ) (split_random_location : Bool) :
    Py (TreeF d) := do
  let root ← splitNode (rnd []) X Y num_features split_random_location
  split rnd [] root depth_max size_min_leaf num_features split_random_location 1

/-- `get_random_forest` (`trees_random_forest.py:14-70`). -/
noncomputable def getRandomForest (rnd : ForestRnd d) (X : List (Point d)) (Y : List Flt)
    (num_trees depth_max size_min_leaf num_features : ℤ) : Py (List (TreeF d)) := do
  pyAssert (X.length = Y.length)
  (List.range num_trees.toNat).mapM (fun k => do
    let (X_, Y_) ← subsample (rnd.sample k) X Y 1 true
    growTree (rnd.tree k) X_ Y_ depth_max size_min_leaf num_features false)

/-- `get_generic_trees` (`trees_generic_trees.py:13-82`). -/
noncomputable def getGenericTrees (rnd : ForestRnd d) (X : List (Point d)) (Y : List Flt)
    (num_trees depth_max size_min_leaf : ℤ) (ratio_sampling : ℝ) (replace_samples : Bool)
    (num_features : ℤ) (split_random_location : Bool) : Py (List (TreeF d)) := do
  pyAssert (X.length = Y.length)
  if replace_samples then
    pyAssert (ratio_sampling > 0)
  else
    pyAssert (0 < ratio_sampling ∧ ratio_sampling ≤ 1)
  (List.range num_trees.toNat).mapM (fun k => do
    let (X_, Y_) ← subsample (rnd.sample k) X Y ratio_sampling replace_samples
    growTree (rnd.tree k) X_ Y_ depth_max size_min_leaf num_features split_random_location)

/-! ### Gaussian process -/

/-- The check of `scipy.linalg.cho_solve` on the right-hand side (`check_finite=True`):
`ValueError` unless every entry is finite. -/
noncomputable def checkFinite {n : ℕ} (b : Fin n → Flt) : Py (Fin n → ℝ) :=
  open Classical in
  if h : ∀ i, ∃ x, b i = .fin x then .ok fun i => (h i).choose else .error .value

/-- `neg_log_ml` (`gp_likelihood.py:19-115`) on the path of the package (`use_cholesky`). The
check of `cho_solve` comes after the covariance matrix has been decomposed; from there on the
responses are finite numbers. -/
noncomputable def negLogMl (X_train : Inputs n d) (Y_train : Fin n → Flt) (hyps : List Flt)
    (str_cov : String) (prior_mu_train : Fin n → ℝ) (use_ard : Bool := USE_ARD)
    (fix_noise : Bool := FIX_GP_NOISE) (use_gradient : Bool := true) :
    Py (ℝ × Option (List ℝ)) := do
  checkStrCov str_cov X_train.rank
  let dict ← restoreHyps str_cov hyps true use_ard fix_noise
  let new_Y_train : Fin n → Flt := fun i => (Y_train i).sub (.fin (prior_mu_train i))
  let _ ← getKernelCholesky X_train dict str_cov fix_noise use_gradient
  let new_Y_train ← checkFinite new_Y_train
  Gp.negLogMl X_train new_Y_train hyps str_cov (fun _ => 0) use_ard fix_noise true use_gradient

/-- `get_optimized_kernel` (`gp_kernel.py:24-156`) with the marginal likelihood as the objective
(`str_modelselection_method = 'ml'`). -/
noncomputable def getOptimizedKernel (minimize : Minimize) (X_train : Inputs n d)
    (Y_train : Fin n → Flt) (prior_mu : PriorMu d) (str_cov : String)
    (str_optimizer_method : String := STR_OPTIMIZER_METHOD_GP) (use_ard : Bool := USE_ARD)
    (fix_noise : Bool := FIX_GP_NOISE) : Py (Fit n) := do
  checkStrCov str_cov X_train.rank
  pyAssert (str_optimizer_method ∈ ALLOWED_OPTIMIZER_METHOD_GP)
  let use_gradient := decide (str_optimizer_method ≠ "Nelder-Mead")
  let prior_mu_train ← getPriorMu prior_mu X_train
  let use_gradient := if str_cov ∈ ALLOWED_COV_BASE then use_gradient else false
  let neg_log_ml : List Flt → Py (ℝ × Option (List ℝ)) := fun hyps =>
    negLogMl X_train Y_train hyps str_cov prior_mu_train use_ard fix_noise use_gradient
  let hyps_converted ← convertHyps str_cov (← getHyps str_cov d true use_ard) true fix_noise
  let result_optimized ←
    if str_optimizer_method ∈ ["BFGS", "SLSQP"] then
      minimize str_optimizer_method neg_log_ml hyps_converted none use_gradient
    else if str_optimizer_method ∈ ["L-BFGS-B", "SLSQP-Bounded"] then do
      let str_optimizer_method :=
        if str_optimizer_method = "SLSQP-Bounded" then "SLSQP" else str_optimizer_method
      let bounds ← getRangeHyps str_cov d true use_ard fix_noise
      minimize str_optimizer_method neg_log_ml hyps_converted (some bounds) use_gradient
    else if str_optimizer_method ∈ ["Nelder-Mead"] then
      minimize str_optimizer_method neg_log_ml hyps_converted none false
    else .error .value
  let hyps ← restoreHyps str_cov result_optimized true use_ard fix_noise
  let hyps ← (validateHypsDict hyps str_cov d).2
  let (cov_X_X, inv_cov_X_X, _) ← Covariance.getKernelInverse X_train hyps str_cov fix_noise
  return (cov_X_X, inv_cov_X_X, hyps)

/-- The kernel fit of the three modes (`bo_w_gp.py:381-449`) on such responses. -/
noncomputable def fitSurrogate (bo : BoWGp.BOwGP d) (o : Oracles d) (X_train : Inputs n d)
    (Y_train : Fin n → Flt) (str_mlm_method : String) : OptM BoWGp.GpState (Option (Fit n)) := do
  if bo.str_modelselection_method ≠ "ml" then
    OptM.lift (.error .outOfModel)
  else if str_mlm_method = "regular" then
    let fit ← OptM.lift (getOptimizedKernel o.fitHyps X_train Y_train bo.prior_mu bo.str_cov
      bo.str_optimizer_method_gp bo.use_ard)
    return some fit
  else if str_mlm_method = "combined" then
    let prior_mu_train ← OptM.lift (getPriorMu bo.prior_mu X_train)
    OptM.lift (BoWGp.combinedFit
      (fun cur_str_optimizer_method => getOptimizedKernel o.fitHyps X_train Y_train bo.prior_mu
        bo.str_cov cur_str_optimizer_method bo.use_ard)
      (fun fit => do
        let hyps ← convertHyps bo.str_cov fit.2.2 (fix_noise := FIX_GP_NOISE)
        let v ← negLogMl X_train Y_train hyps bo.str_cov prior_mu_train bo.use_ard FIX_GP_NOISE
          (use_gradient := false)
        return .fin v.1))
  else if str_mlm_method = "converged" then
    let s ← OptM.get
    if s.is_optimize_hyps then
      let fit ← OptM.lift (getOptimizedKernel o.fitHyps X_train Y_train bo.prior_mu bo.str_cov
        bo.str_optimizer_method_gp bo.use_ard)
      return some fit
    else
      OptM.lift (.error .outOfModel)
  else
    OptM.lift (.error .value)

/-! ### Steps -/

/-- A column of `n` responses; another number of rows fails an assertion. -/
def columnF (n : ℕ) (Y : List Flt) : Py (Fin n → Flt) :=
  if h : n = Y.length then .ok fun i => Y[i.val]'(by omega) else .error .assertion

/-- `BOwGP.optimize` (`bo_w_gp.py:321-490`) on responses that are not all finite, up to the end
of the fit. -/
noncomputable def gpOptimize (bo : BoWGp.BOwGP d) (o : Oracles d) (clock : ℕ → ℝ)
    (X_train : Inputs n d) (Y : List Flt) (str_sampling_method : String) (num_samples : ℤ)
    (str_mlm_method : String) : OptM BoWGp.GpState (Point d × Info d) := do
  OptM.lift (pyAssert (X_train.rank = 2))
  let _ ← OptM.lift (columnF n Y)
  OptM.lift (pyAssert (num_samples > 0))
  OptM.lift (pyAssert (str_sampling_method ∈ ALLOWED_SAMPLING_METHOD))
  OptM.lift (pyAssert (str_mlm_method ∈ ALLOWED_MLM_METHOD))
  let _time_start ← OptM.now clock
  let Y ← OptM.lift
    (if bo.normalize_Y = true ∧ str_mlm_method ≠ "converged" then normalizeMinMax Y else .ok Y)
  let Y_train ← OptM.lift (columnF n Y)
  let _time_start_surrogate ← OptM.now clock
  let _ ← fitSurrogate bo o X_train Y_train str_mlm_method
  OptM.lift (.error .outOfModel)

/-- `BOwTrees.optimize` (`bo_w_trees.py:197-283`) on responses that are not all finite, up to the
end of the fit. -/
noncomputable def treesOptimize {σ : Type} (bo : BaseBO d) (rnd : ForestRnd d) (clock : ℕ → ℝ)
    (X_train : List (Point d)) (Y : List Flt) (str_sampling_method : String) (num_samples : ℤ)
    (num_trees : ℤ := 100) (depth_max : ℤ := 5) (size_min_leaf : ℤ := 1) :
    OptM σ (Point d × Info d) := do
  OptM.lift (pyAssert (X_train.length = Y.length))
  OptM.lift (pyAssert (num_samples > 0))
  OptM.lift (pyAssert (str_sampling_method ∈ ALLOWED_SAMPLING_METHOD))
  let _time_start ← OptM.now clock
  let Y_train ← OptM.lift (if bo.normalize_Y then normalizeMinMax Y else .ok Y)
  let _time_start_surrogate ← OptM.now clock
  let num_features : ℤ := ⌊Real.sqrt d⌋
  let _trees ← OptM.lift (if bo.str_surrogate = "rf" then
      getRandomForest rnd X_train Y_train num_trees depth_max size_min_leaf num_features
    else .error .notImplemented)
  OptM.lift (.error .outOfModel)

/-- `optimize_single_iteration` (`wrappers_bo_class.py:280-314`) in step `k` on responses that
are not all finite. -/
noncomputable def optimizeSingleIteration (w : BayesianOptimization d) (o : RunOracles d)
    (clock : ℕ → ℝ) (k : ℕ) (X : List (Point d)) (Y : List Flt) :
    OptM ModelState (Point d × Info d) := fun s =>
  if w.str_surrogate ∈ ALLOWED_SURROGATE_TREES then
    match w.model_bo with
    | .trees bo =>
      treesOptimize bo (o.forest k) clock X Y w.str_sampling_method_ao w.num_samples_ao 100 5 1 s
    | _ => (s, .error .outOfModel)
  else if w.str_surrogate = "gp" then
    match w.model_bo with
    | .gp bo =>
      let r := gpOptimize bo (o.routines k) clock (.vec X.get) Y w.str_sampling_method_ao
        w.num_samples_ao (w.str_mlm_method.getD STR_MLM_METHOD) (s.1.gp, s.2)
      (({ s.1 with gp := r.1.1 }, r.1.2), r.2)
    | _ => (s, .error .outOfModel)
  else (s, .error .outOfModel)

/-- The step of a run on any responses: finite ones as in `WrapperClass.step`. -/
noncomputable def step (w : BayesianOptimization d) (o : RunOracles d) (clock : ℕ → ℝ)
    (s : ModelState × ℕ) (t : ℕ) (X : List (Point d)) (Y : List Flt) :
    ((ModelState × ℕ) × ℕ) × Py (Point d × Info d) :=
  match finites Y with
  | .ok _ => WrapperClass.step w o clock s t X Y
  | .error _ =>
    let r := optimizeSingleIteration w o clock s.2 X Y (s.1, t)
    (((r.1.1, s.2 + 1), r.1.2), r.2)

/-- The surroundings of a run of the object. -/
noncomputable def runEnv (w : BayesianOptimization d) (o : RunOracles d) (clock : ℕ → ℝ)
    (target : ℕ → Point d → Py Flt) : Env d (ModelState × ℕ) :=
  { clock := clock, target := target, step := step w o clock }

end Verif.NonFinite
