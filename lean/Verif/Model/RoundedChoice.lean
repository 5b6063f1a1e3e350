import Verif.Model.BoWGp
import Verif.Model.RoundedAcquisition
import Verif.Model.RoundedPredict

/-!
# Choosing a point with rounding

The way from a fitted kernel to the acquisition value of a candidate (`bo_w_gp.py`) once more, with the
predictions of `RoundedPredict.lean` and the acquisition functions of `RoundedAcquisition.lean`, for inputs of
rank 2. The default jitter of the acquisition functions is a literal of the code, so it is the double next to
it. Without rounding these are the functions of `BoWGp.lean` (`Lemmas/RoundedChoice.lean`). The choice itself,
`get_best_acquisition_by_evaluation`, only compares numbers and is the one of `UtilsBo.lean`.
-/

namespace Verif.RoundedChoice

open Verif.Constants Verif.UtilsBo Verif.BoCommon Verif.BoWGp Verif.Gp Verif.Rounded Verif.RoundedPredict

variable (fl ex cdf pdf lg : ℝ → ℝ) (o : SumOrder) (mm : MatMul) {n d : ℕ}

/-- `choose_fun_acquisition` (`utils_bo.py:203-245`). -/
noncomputable def chooseFunAcquisition (str_acq : String) (noise : Option ℝ := none) :
    Py AcqFun := do
  pyAssert (str_acq ∈ ALLOWED_BO_ACQ)
  if str_acq = "pi" then
    return fun m s Y => RoundedAcquisition.pi fl cdf m s Y (fl JITTER_ACQ)
  else if str_acq = "ei" then
    return fun m s Y => RoundedAcquisition.ei fl cdf pdf m s Y (fl JITTER_ACQ)
  else if str_acq = "ucb" then
    return fun m s Y => RoundedAcquisition.ucb fl lg m s (some Y)
  else if str_acq = "aei" then
    match noise with
    | none => .error .assertion
    | some noise => return fun m s Y => RoundedAcquisition.aei fl cdf pdf m s Y noise (fl JITTER_ACQ)
  else if str_acq = "pure_exploit" then
    return fun m _ _ => Acquisition.pureExploit m
  else if str_acq = "pure_explore" then
    return fun _ s _ => Acquisition.pureExplore s
  else
    .error .notImplemented

/-- `compute_posteriors` (`bo_w_gp.py:193-251`). -/
noncomputable def computePosteriors {l : ℕ} (bo : BOwGP d) (X_train : Fin n → Point d)
    (Y_train : Fin n → ℝ) (X_test : Fin l → Point d) (fit : Fit n) : Py (List ℝ × List ℝ) := do
  validateCommonArgs (.vec X_train) (.vec X_test)
  let (pred_mean, pred_std, _) ← RoundedPredict.predictWithCov fl ex o mm X_train Y_train X_test fit.1
    fit.2.1 fit.2.2 bo.str_cov bo.prior_mu
  return (List.ofFn pred_mean, List.ofFn pred_std)

/-- `compute_acquisitions` (`bo_w_gp.py:253-319`). -/
noncomputable def computeAcquisitions {l : ℕ} (bo : BOwGP d) (X : Fin l → Point d)
    (X_train : Fin n → Point d) (Y_train : Fin n → ℝ) (fit : Fit n) : Py (List ℝ) := do
  validateCommonArgs (.vec X_train) (.vec X)
  let fun_acquisition ← chooseFunAcquisition fl cdf pdf lg bo.str_acq (← noiseArg fit.2.2)
  let (pred_mean, pred_std) ← computePosteriors fl ex o mm bo X_train Y_train X fit
  let acquisitions ← fun_acquisition pred_mean pred_std (List.ofFn Y_train)
  return acquisitions.map fun a => fl (a * MULTIPLIER_ACQ)

/-- `fun_negative_acquisition` (`bo_w_gp.py:456-458`). Changing the sign is exact. -/
noncomputable def negAcquisition (bo : BOwGP d) (X_train : Fin n → Point d) (Y_train : Fin n → ℝ)
    (fit : Option (Fit n)) (X_test : List (Point d)) : Py (List ℝ) :=
  match fit with
  | none => .error .assertion
  | some fit => do
    let a ← computeAcquisitions fl ex cdf pdf lg o mm bo X_test.get X_train Y_train fit
    return a.map (-1 * ·)

end Verif.RoundedChoice
