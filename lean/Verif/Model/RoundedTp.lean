import Verif.Model.BoWTp
import Verif.Model.RoundedChoice

/-!
# The Student-t process with rounding

`predict_with_cov` of `Tp.lean` and the way from it to the acquisition value of a candidate (`bo_w_tp.py`) once
more, for inputs of rank 2, with rounding as in `RoundedPredict.lean` and `RoundedChoice.lean`. The number of
observations is an integer that is converted to a float in each sum, which is exact up to `2 ** 53`. Without
rounding these are the functions of `Tp.lean` and `BoWTp.lean` (`Lemmas/RoundedTp.lean`).
-/

namespace Verif.RoundedTp

open Verif.Constants Verif.UtilsCovariance Verif.Covariance Verif.UtilsBo Verif.BoCommon Verif.Gp Verif.Rounded
  Verif.RoundedPredict
open Verif.BoWTp (BOwTP)

variable (fl ex cdf pdf lg : ℝ → ℝ) (o : SumOrder) (mm : MatMul) {n d : ℕ}

/-- `predict_with_cov` (`tp.py:66-137`). Result: degrees of freedom, mean, standard deviation, covariance. -/
noncomputable def predictWithCov {l : ℕ} (X_train : Fin n → Point d) (Y_train : Fin n → ℝ)
    (X_test : Fin l → Point d) (_cov_X_X inv_cov_X_X : Matrix (Fin n) (Fin n) ℝ) (hyps : HypDict)
    (str_cov : String := STR_COV) (prior_mu : PriorMu d := none) :
    Py (ℝ × (Fin l → ℝ) × (Fin l → ℝ) × Matrix (Fin l) (Fin l) ℝ) := do
  validateCommonArgs (.vec X_train) (.vec X_test)
  checkStrCov str_cov 2 (some 2)
  let prior_mu_train ← getPriorMu prior_mu (.vec X_train)
  let prior_mu_test ← getPriorMu prior_mu (.vec X_test)
  let cov_X_Xs ← RoundedKernels.covMain fl ex o str_cov X_train X_test hyps false
  let cov_Xs_Xs ← RoundedKernels.covMain fl ex o str_cov X_test X_test hyps true
  let cov_Xs_Xs : Matrix (Fin l) (Fin l) ℝ :=
    fun i j => fl (fl (cov_Xs_Xs i j + cov_Xs_Xs j i) / 2)
  let num_X : ℝ := n
  let new_Y_train : Matrix (Fin n) (Fin 1) ℝ := fun i _ => fl (Y_train i - prior_mu_train i)
  let nu ← numKey hyps.dof
  let beta := mm (mm new_Y_train.transpose inv_cov_X_X) new_Y_train 0 0
  let nu_Xs := fl (nu + num_X)
  let mu_Xs : Fin l → ℝ :=
    fun j => fl (mm (mm cov_X_Xs.transpose inv_cov_X_X) new_Y_train j 0 + prior_mu_test j)
  let product := mm (mm cov_X_Xs.transpose inv_cov_X_X) cov_X_Xs
  let Sigma_Xs : Matrix (Fin l) (Fin l) ℝ := fun i j => fl (cov_Xs_Xs i j - product i j)
  if fl (fl (nu + num_X) - 2) = 0 then .error .outOfModel
  let factor := fl (fl (fl (nu + beta) - 2) / fl (fl (nu + num_X) - 2))
  let Sigma_Xs : Matrix (Fin l) (Fin l) ℝ := fun i j => fl (factor * Sigma_Xs i j)
  return (nu_Xs, mu_Xs, fun i => fl √(max (Sigma_Xs i i) 0), Sigma_Xs)

/-- `compute_posteriors` (`bo_w_tp.py:184-241`). -/
noncomputable def computePosteriors {l : ℕ} (bo : BOwTP d) (X_train : Fin n → Point d)
    (Y_train : Fin n → ℝ) (X_test : Fin l → Point d) (fit : Fit n) : Py (List ℝ × List ℝ) := do
  validateCommonArgs (.vec X_train) (.vec X_test)
  let (_, pred_mean, pred_std, _) ← predictWithCov fl ex o mm X_train Y_train X_test fit.1 fit.2.1 fit.2.2
    bo.str_cov bo.prior_mu
  return (List.ofFn pred_mean, List.ofFn pred_std)

/-- `compute_acquisitions` (`bo_w_tp.py:243-309`). -/
noncomputable def computeAcquisitions {l : ℕ} (bo : BOwTP d) (X : Fin l → Point d)
    (X_train : Fin n → Point d) (Y_train : Fin n → ℝ) (fit : Fit n) : Py (List ℝ) := do
  validateCommonArgs (.vec X_train) (.vec X)
  let fun_acquisition ← RoundedChoice.chooseFunAcquisition fl cdf pdf lg bo.str_acq (← noiseArg fit.2.2)
  let (pred_mean, pred_std) ← computePosteriors fl ex o mm bo X_train Y_train X fit
  let acquisitions ← fun_acquisition pred_mean pred_std (List.ofFn Y_train)
  return acquisitions.map fun a => fl (a * MULTIPLIER_ACQ)

/-- `fun_negative_acquisition` (`bo_w_tp.py:378-380`). Changing the sign is exact. -/
noncomputable def negAcquisition (bo : BOwTP d) (X_train : Fin n → Point d) (Y_train : Fin n → ℝ)
    (fit : Fit n) (X_test : List (Point d)) : Py (List ℝ) := do
  let a ← computeAcquisitions fl ex cdf pdf lg o mm bo X_test.get X_train Y_train fit
  return a.map (-1 * ·)

end Verif.RoundedTp
