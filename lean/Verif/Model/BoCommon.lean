import Verif.Model.BaseBo
import Verif.Model.Gp

/-!
# What `bayeso/bo/bo_w_gp.py`, `bo_w_tp.py` and `bo_w_trees.py` have in common

A call of `optimize` changes the object (`σ`) and reads the clock; an exception keeps the
changes made before it. The numerical optimisers and random generators are oracles.
-/

namespace Verif.BoCommon

open Verif.Constants Verif.UtilsCovariance Verif.UtilsBo Verif.BaseBo Verif.Gp

/-- Effects of a method call: object state and number of clock readings so far. -/
def OptM (σ α : Type) : Type := σ × ℕ → (σ × ℕ) × Py α

instance {σ : Type} : Monad (OptM σ) where
  pure a := fun s => (s, .ok a)
  bind m f := fun s =>
    match m s with
    | (s', .ok a) => f a s'
    | (s', .error e) => (s', .error e)

/-- A computation that changes nothing. -/
def OptM.lift {σ α : Type} (p : Py α) : OptM σ α := fun s => (s, p)

/-- Read the attributes of the object. -/
def OptM.get {σ : Type} : OptM σ σ := fun s => (s, .ok s.1)

/-- Write the attributes of the object. -/
def OptM.set {σ : Type} (a : σ) : OptM σ Unit := fun s => ((a, s.2), .ok ())

/-- `time.time()`. -/
def OptM.now {σ : Type} (clock : ℕ → ℝ) : OptM σ ℝ := fun s => ((s.1, s.2 + 1), .ok (clock s.2))

/-- The numerical routines one call of `optimize` may use: `scipy.optimize.minimize` for the
hyperparameters; `minimize(method='L-BFGS-B')`, `scipydirect.minimize` and `cma.fmin` for the
acquisition function (each an arbitrary function of the objective, the start, the initial
step size and the bounds; it may raise); the random generators. -/
structure Oracles (d : ℕ) where
  fitHyps : Minimize
  lbfgsb : (Point d → Py Flt) → Point d → Bounds d → Py (Point d)
  direct : (Point d → Py Flt) → Bounds d → Py (Point d)
  cma : (Point d → Py Flt) → Point d → ℝ → Bounds d → Py (Point d)
  draws : Draws d

/-- The candidates of `_optimize` (`bo_w_gp.py:139-185`, the same in `bo_w_tp.py:130-176`): one
run of L-BFGS-B per sampled start, or the one result of DIRECT or CMA-ES. The mean of no
interval widths (dimension 0) is NaN. -/
noncomputable def candidates {d : ℕ} (bo : BaseBO d) (o : Oracles d)
    (fun_negative_acquisition : Point d → Py Flt) (str_sampling_method : String)
    (num_samples : ℤ) : Py (List (Point d)) := do
  if bo.str_optimizer_method_bo = "L-BFGS-B" then
    let initials ← getSamples bo.range_X o.draws str_sampling_method num_samples
    initials.mapM fun arr_initial => o.lbfgsb fun_negative_acquisition arr_initial bo.range_X
  else if bo.str_optimizer_method_bo = "DIRECT" then
    let next_point_x ← o.direct fun_negative_acquisition bo.range_X
    return [next_point_x]
  else if bo.str_optimizer_method_bo = "CMA-ES" then
    let initials ← getSamples bo.range_X o.draws str_sampling_method 1
    if d = 0 then .error .outOfModel
    let cur_sigma0 := (∑ i, ((bo.range_X i).2 - (bo.range_X i).1)) / (d : ℝ) / 4
    let initial ← pyIndex initials 0
    let next_point_x ← o.cma fun_negative_acquisition initial cur_sigma0 bo.range_X
    return [next_point_x]
  else
    return []

/-- `_optimize` (`bo_w_gp.py:113-191`, and word for word the same in `bo_w_tp.py:104-182`).
Without a candidate `np.array([])` is not of rank 2, which the first check of
`get_best_acquisition_by_evaluation` refuses. -/
noncomputable def optimizeAcq {d : ℕ} (bo : BaseBO d) (o : Oracles d)
    (fun_negative_acquisition : Point d → Py Flt) (str_sampling_method : String)
    (num_samples : ℤ) : Py (Point d × List (Point d)) := do
  let next_points ← candidates bo o fun_negative_acquisition str_sampling_method num_samples
  pyAssert (next_points ≠ [])
  let best ← getBestAcquisitionByEvaluation next_points fun_negative_acquisition
  let next_point ← pyIndex best 0
  return (next_point, next_points)

/-- A column `(n, 1)` of `n` responses; another number of rows is the failing assertion
`X_train.shape[0] == Y_train.shape[0]`. -/
def column (n : ℕ) (Y : List ℝ) : Py (Fin n → ℝ) :=
  if h : n = Y.length then .ok fun i => Y[i.val]'(by omega) else .error .assertion

/-- `fun_negative_acquisition` called on one point of shape `(d,)`: the array of shape `(1,)` it
returns is compared as a number. -/
noncomputable def onePoint {d : ℕ} (neg_acq : List (Point d) → Py (List ℝ)) (x : Point d) :
    Py Flt := do
  let v ← pyIndex (← neg_acq [x]) 0
  return .fin v

/-- `hyps.get('noise', None)` as an argument of `choose_fun_acquisition`, which insists on a
float or `None`. -/
def noiseArg (hyps : HypDict) : Py (Option ℝ) :=
  match hyps.noise with
  | none => .ok none
  | some (.flt x) => do return some (← Covariance.finite x)
  | some _ => .error .assertion

/-- A fitted kernel: `cov_X_X, inv_cov_X_X, hyps`. -/
abbrev Fit (n : ℕ) := Matrix (Fin n) (Fin n) ℝ × Matrix (Fin n) (Fin n) ℝ × HypDict

/-- `dict_info` of the Gaussian and Student-t process models (`bo_w_gp.py:474-485`,
`bo_w_tp.py:396-407`); `fit` holds `cov_X_X`, `inv_cov_X_X` and `hyps`. -/
structure DictInfo (n d : ℕ) where
  next_points : List (Point d)
  acquisitions : List ℝ
  Y_original : List ℝ
  Y_normalized : List ℝ
  fit : Option (Fit n)
  time_surrogate : ℝ
  time_acq : ℝ
  time_overall : ℝ

end Verif.BoCommon
