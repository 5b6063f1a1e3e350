import Verif.Model.UtilsCovariance
import Verif.Model.Acquisition

/-!
# `bayeso/utils/utils_bo.py`
-/

namespace Verif.UtilsBo

open Verif.Constants Verif.UtilsCovariance

/-- `normalize_min_max` (`utils_bo.py:27-47`) on a column of finite responses. -/
noncomputable def normalizeMinMax (Y : List ℝ) : Py (List ℝ) := do
  let mx ← npMax Y
  let mn ← npMin Y
  if mx ≠ mn then
    return Y.map (fun y => (y - mn) / (mx - mn) * MULTIPLIER_RESPONSE)
  else
    return Y

/-- `get_best_acquisition_by_evaluation` (`utils_bo.py:50-81`). The loop state is
`(acq_val_best, initial_best)`; `None[np.newaxis, ...]` is a `TypeError`. The objective may
raise. The result of shape `(1, d)` is a one-element list. -/
noncomputable def getBestAcquisitionByEvaluation {d : ℕ} (initials : List (Point d))
    (fun_objective : Point d → Py Flt) : Py (List (Point d)) := do
  let r ← initials.foldlM
    (fun (st : Flt × Option (Point d)) initial => do
      let acq_val ← fun_objective initial
      if acq_val < st.1 then return (acq_val, some initial) else return st)
    (Flt.pinf, none)
  match r.2 with
  | some initial_best => .ok [initial_best]
  | none => .error .type

/-- `get_best_acquisition_by_history` (`utils_bo.py:84-112`). -/
noncomputable def getBestAcquisitionByHistory {d : ℕ} (X : List (Point d)) (Y : List Flt) :
    Py (Point d × Flt) := do
  pyAssert (X.length = Y.length)
  let ind_best ← npArgmin Y
  let bx_best ← pyIndex X ind_best
  let y_best ← pyIndex Y ind_best
  return (bx_best, y_best)

/-- One round of the deletion loop of `get_next_best_acquisition` (`utils_bo.py:144-148`). -/
noncomputable def deleteSame {d : ℕ} (st : List (Point d) × List Flt) (cur_point : Point d) :
    List (Point d) × List Flt :=
  let ind_same := npWhere
    (fun p : Point d => norm2 (fun i => p i - cur_point i) < TOLERANCE_DUPLICATED_ACQ) st.1
  (npDelete st.1 ind_same, npDelete st.2 ind_same)

/-- `get_next_best_acquisition` (`utils_bo.py:115-159`); `none` is Python's `None`. -/
noncomputable def getNextBestAcquisition {d : ℕ} (points : List (Point d))
    (acquisitions : List Flt) (points_evaluated : List (Point d)) :
    Py (Option (Point d)) := do
  pyAssert (points.length = acquisitions.length)
  let (points, acquisitions) := points_evaluated.foldl deleteSame (points, acquisitions)
  if points.length > 0 then
    let r := (List.zip points acquisitions).foldl
      (fun (st : Flt × Option (Point d)) pa =>
        if pa.2 < st.1 then (pa.2, some pa.1) else st)
      (Flt.pinf, none)
    return r.2
  else
    let p ← pyLast points_evaluated
    return some p

/-- Which optional packages can be imported (`utils_bo.py:8-15`). -/
structure Installed where
  direct : Bool
  cma : Bool

/-- `check_optimizer_method_bo` (`utils_bo.py:162-200`). -/
def checkOptimizerMethodBo (env : Installed) (str_optimizer_method_bo : String) (dim : ℕ) :
    Py String := do
  pyAssert (str_optimizer_method_bo ∈
    ALLOWED_OPTIMIZER_METHOD_BO ++ ALLOWED_OPTIMIZER_METHOD_BO_TREES)
  if str_optimizer_method_bo = "DIRECT" ∧ env.direct = false then
    return "L-BFGS-B"
  else if str_optimizer_method_bo = "CMA-ES" ∧ env.cma = false then
    return "L-BFGS-B"
  else if str_optimizer_method_bo = "CMA-ES" ∧ dim = 1 then
    return "L-BFGS-B"
  else
    return str_optimizer_method_bo

/-- What `choose_fun_acquisition` returns: a function of
`pred_mean, pred_std, Y_train`. -/
abbrev AcqFun := List ℝ → List ℝ → List ℝ → Py (List ℝ)

/-- `choose_fun_acquisition` (`utils_bo.py:203-245`). -/
noncomputable def chooseFunAcquisition (str_acq : String) (noise : Option ℝ := none) :
    Py AcqFun := do
  pyAssert (str_acq ∈ ALLOWED_BO_ACQ)
  if str_acq = "pi" then
    return fun m s Y => Acquisition.pi m s Y
  else if str_acq = "ei" then
    return fun m s Y => Acquisition.ei m s Y
  else if str_acq = "ucb" then
    return fun m s Y => Acquisition.ucb m s (some Y)
  else if str_acq = "aei" then
    match noise with
    | none => .error .assertion
    | some noise => return fun m s Y => Acquisition.aei m s Y noise
  else if str_acq = "pure_exploit" then
    return fun m _ _ => Acquisition.pureExploit m
  else if str_acq = "pure_explore" then
    return fun _ s _ => Acquisition.pureExplore s
  else
    .error .notImplemented

/-- `np.linalg.norm` of a vector of finite numbers. -/
noncomputable def normList (v : List ℝ) : ℝ := Real.sqrt ((v.map (· ^ 2)).sum)

/-- The finite numbers of a vector; `outOfModel` when one is infinite or NaN. -/
def finites : List Flt → Py (List ℝ)
  | [] => .ok []
  | .fin x :: t => do return x :: (← finites t)
  | _ :: _ => .error .outOfModel

/-- `check_hyps_convergence` (`utils_bo.py:248-288`). `hyps_converted -
target_hyps_converted` needs equal lengths (or a broadcast with a length-one vector, which
cannot arise because both start with the signal and have a lengthscale; the model reports a
`ValueError` for every mismatch). -/
noncomputable def checkHypsConvergence (list_hyps : List HypDict) (hyps : HypDict)
    (str_cov : String) (fix_noise : Bool) (ratio_threshold : ℝ := 0.05) : Py Bool := do
  match list_hyps.getLast? with
  | none => return false
  | some last =>
    let hyps_converted ← finites (← convertHyps str_cov hyps true fix_noise)
    let target_hyps_converted ← finites (← convertHyps str_cov last true fix_noise)
    let threshold := normList target_hyps_converted * ratio_threshold
    if hyps_converted.length ≠ target_hyps_converted.length then .error .value
    else if normList (List.zipWith (· - ·) hyps_converted target_hyps_converted) < threshold then
      return true
    else
      return false

/-- `check_points_in_bounds` (`utils_bo.py:291-318`). -/
noncomputable def checkPointsInBounds {d : ℕ} (points : List (Point d)) (bounds : Bounds d) :
    Py (List (Point d)) := do
  pyAssert (∀ p ∈ points, ∀ i, (bounds i).1 ≤ p i)
  pyAssert (∀ p ∈ points, ∀ i, p i ≤ (bounds i).2)
  return points

end Verif.UtilsBo
