import Verif.Model.Tp
import Verif.Model.RoundedPredict

/-!
# The likelihood of the Student-t process with rounding

The value of `neg_log_ml` of `Tp.lean` for inputs of rank 2 once more, with the kernel matrix of
`RoundedKernels.lean` and with every further operation rounded. Library routines are arguments: `inv` for
`np.linalg.inv`, `sld` for `np.linalg.slogdet`, `mm` for `np.dot`, `lg` for `np.log` and `gm` for
`scipy.special.gamma`. The gradient is left out, and so are overflow (`OverflowTp.lean`) and logarithms of
numbers that are not positive.
-/

namespace Verif.RoundedTpLikelihood

open Verif.UtilsCovariance Verif.Covariance Verif.Rounded Verif.Constants

variable (fl ex lg gm : ℝ → ℝ) (o : SumOrder) (mm : RoundedPredict.MatMul) {n d : ℕ}
  (inv : Matrix (Fin n) (Fin n) ℝ → Py (Matrix (Fin n) (Fin n) ℝ))
  (sld : Matrix (Fin n) (Fin n) ℝ → ℝ × ℝ)

/-- `neg_log_ml` (`tp_likelihood.py:18-127`); the value. No response and two or fewer degrees of freedom are not
modelled, as in `Tp.lean`. The number of responses is an integer below `2 ** 53`, which `float` converts
exactly. -/
noncomputable def negLogMl (X_train : Fin n → Point d) (Y_train : Fin n → ℝ) (hyps : List Flt)
    (str_cov : String) (prior_mu_train : Fin n → ℝ) (use_ard : Bool := USE_ARD)
    (fix_noise : Bool := FIX_GP_NOISE) : Py ℝ := do
  checkStrCov str_cov 2
  let num_X : ℝ := n
  let hyps ← restoreHyps str_cov hyps false use_ard fix_noise
  let new_Y_train : Matrix (Fin n) (Fin 1) ℝ := fun i _ => fl (Y_train i - prior_mu_train i)
  let nu ← numKey hyps.dof
  let cov_X_X ← RoundedKernels.kernelMatrix fl ex o X_train hyps str_cov
  let inv_cov_X_X ← inv cov_X_X
  let beta := mm (mm new_Y_train.transpose inv_cov_X_X) new_Y_train 0 0
  if nu ≤ 2 then .error .outOfModel
  let first_term := fl (fl (-(1 / 2) * num_X) * lg (fl (fl (nu - 2) * fl Real.pi)))
  let (sign_second_term, second_term) := sld cov_X_X
  let second_term := if sign_second_term ≤ 0 then 0 else second_term
  let second_term := fl (-(1 / 2) * second_term)
  let third_term := lg (fl (gm (fl (fl (nu + num_X) / 2)) / gm (fl (nu / 2))))
  let fourth_term := fl (fl (-(1 / 2) * fl (nu + num_X)) * lg (fl (1 + fl (beta / fl (nu - 2)))))
  let log_ml := fl (fl (fl (first_term + second_term) + third_term) + fourth_term)
  if n = 0 then .error .outOfModel
  let log_ml := fl (log_ml / num_X)
  return fl (-1 * log_ml)

end Verif.RoundedTpLikelihood
