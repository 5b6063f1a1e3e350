import Verif.Model.Gp
import Verif.Model.RoundedPredict

/-!
# The likelihood with rounding

`get_kernel_cholesky` and the Cholesky path of `neg_log_ml` for inputs of rank 2 once more, with the kernel
matrix of `RoundedKernels.lean` and with every further operation rounded. Four library routines are
arguments, since their order of operations is not fixed: `chol` for `scipy.linalg.cholesky`, `solve` for
`scipy.linalg.cho_solve`, `mm` for `np.dot` and `lg` for `np.log`. `np.sum` adds in the order `o'`. The gradient
is left out.
-/

namespace Verif.RoundedLikelihood

open Verif.Gp Verif.UtilsCovariance Verif.Rounded Verif.Constants

variable (fl ex lg : ℝ → ℝ) (o o' : SumOrder) (mm : RoundedPredict.MatMul) {n d : ℕ}
  (chol : Matrix (Fin n) (Fin n) ℝ → Py (Matrix (Fin n) (Fin n) ℝ))
  (solve : Matrix (Fin n) (Fin n) ℝ → (Fin n → ℝ) → Fin n → ℝ)

/-- The loop of `get_kernel_cholesky` (`covariance.py:174-187`); `jitter_cov * np.eye(n)` is exact. -/
noncomputable def choleskyLoop (cov_X_X : Matrix (Fin n) (Fin n) ℝ) :
    List ℝ → Py (Matrix (Fin n) (Fin n) ℝ × Matrix (Fin n) (Fin n) ℝ)
  | [] => .error .value
  | jitter_cov :: t =>
    let cov' : Matrix (Fin n) (Fin n) ℝ :=
      fun i j => fl (cov_X_X i j + fl jitter_cov * Covariance.npEye n n i j)
    match chol cov' with
    | .ok lower => .ok (cov', lower)
    | .error _ => choleskyLoop cov_X_X t

/-- `get_kernel_cholesky` (`covariance.py:129-194`) without the gradient. -/
noncomputable def getKernelCholesky (X_train : Fin n → Point d) (hyps : HypDict) (str_cov : String) :
    Py (Matrix (Fin n) (Fin n) ℝ × Matrix (Fin n) (Fin n) ℝ) := do
  let cov_X_X ← RoundedKernels.kernelMatrix fl ex o X_train hyps str_cov
  choleskyLoop fl chol cov_X_X Covariance.jitters

/-- `neg_log_ml` (`gp_likelihood.py:19-115`) with `use_cholesky=True`; the value. No response is not modelled,
as in `Gp.lean`. -/
noncomputable def negLogMl (X_train : Fin n → Point d) (Y_train : Fin n → ℝ) (hyps : List Flt)
    (str_cov : String) (prior_mu_train : Fin n → ℝ) (use_ard : Bool := USE_ARD)
    (fix_noise : Bool := FIX_GP_NOISE) : Py ℝ := do
  checkStrCov str_cov 2
  let hyps ← restoreHyps str_cov hyps true use_ard fix_noise
  let new_Y_train : Fin n → ℝ := fun i => fl (Y_train i - prior_mu_train i)
  let (_, lower) ← getKernelCholesky fl ex o chol X_train hyps str_cov
  let alpha := solve lower new_Y_train
  let product := mm (fun _ k => new_Y_train k : Matrix (Fin 1) (Fin n) ℝ)
    (fun k _ => alpha k : Matrix (Fin n) (Fin 1) ℝ) 0 0
  let first_term := fl (-(1 / 2) * product)
  let logs : List ℝ := List.ofFn fun i => lg (fl (lower i i + fl JITTER_LOG))
  let second_term := fl (-1 * RoundedKernels.sumList fl logs o')
  let third_term := fl (fl (-(n : ℝ) / 2) * lg (fl (2 * fl Real.pi)))
  let log_ml := fl (fl (first_term + second_term) + third_term)
  if n = 0 then .error .outOfModel
  let log_ml := fl (log_ml / n)
  return fl (-1 * log_ml)

end Verif.RoundedLikelihood
