import Verif.Model.Gp
import Verif.Model.RoundedKernels

/-!
# Predictions with rounding

`predict_with_cov` of `Gp.lean` for inputs of rank 2 once more, with the covariances of
`RoundedKernels.lean` and with every further operation rounded. Products of matrices are computed by a
library whose order of operations is not fixed (`np.dot` calls BLAS): `mm` is any function on matrices. The
inverse of the kernel matrix is an argument, as in the code. With `fl = id`, `ex = exp` and the exact
product this is the function without rounding (`Lemmas/RoundedPredict.lean`).
-/

namespace Verif.RoundedPredict

open Verif.Gp Verif.UtilsCovariance Verif.Rounded

/-- A function that multiplies matrices, such as `np.dot`. -/
abbrev MatMul := ∀ {a b c : ℕ}, Matrix (Fin a) (Fin b) ℝ → Matrix (Fin b) (Fin c) ℝ →
  Matrix (Fin a) (Fin c) ℝ

/-- `np.dot` with rounded products that are added in the order `o`. -/
noncomputable def orderedMul (fl : ℝ → ℝ) (o : SumOrder) : MatMul := fun A B i j =>
  RoundedKernels.sumList fl (List.ofFn fun k => fl (A i k * B k j)) o

variable (fl ex : ℝ → ℝ) (o : SumOrder) (mm : MatMul)

/-- `predict_with_cov` (`gp.py:55-112`). Result: mean, standard deviation, covariance. -/
noncomputable def predictWithCov {n l d : ℕ} (X_train : Fin n → Point d) (Y_train : Fin n → ℝ)
    (X_test : Fin l → Point d) (_cov_X_X inv_cov_X_X : Matrix (Fin n) (Fin n) ℝ) (hyps : HypDict)
    (str_cov : String := Constants.STR_COV) (prior_mu : PriorMu d := none) :
    Py ((Fin l → ℝ) × (Fin l → ℝ) × Matrix (Fin l) (Fin l) ℝ) := do
  validateCommonArgs (.vec X_train) (.vec X_test)
  checkStrCov str_cov 2 (some 2)
  let prior_mu_train ← getPriorMu prior_mu (.vec X_train)
  let prior_mu_test ← getPriorMu prior_mu (.vec X_test)
  let cov_X_Xs ← RoundedKernels.covMain fl ex o str_cov X_train X_test hyps false
  let cov_Xs_Xs ← RoundedKernels.covMain fl ex o str_cov X_test X_test hyps true
  let cov_Xs_Xs : Matrix (Fin l) (Fin l) ℝ :=
    fun i j => fl (fl (cov_Xs_Xs i j + cov_Xs_Xs j i) / 2)
  let residual : Matrix (Fin n) (Fin 1) ℝ := fun i _ => fl (Y_train i - prior_mu_train i)
  let mu_Xs : Fin l → ℝ :=
    fun j => fl (mm (mm cov_X_Xs.transpose inv_cov_X_X) residual j 0 + prior_mu_test j)
  let product := mm (mm cov_X_Xs.transpose inv_cov_X_X) cov_X_Xs
  let Sigma_Xs : Matrix (Fin l) (Fin l) ℝ := fun i j => fl (cov_Xs_Xs i j - product i j)
  return (mu_Xs, fun i => fl √(max (Sigma_Xs i i) 0), Sigma_Xs)

end Verif.RoundedPredict
