import Verif.Model.RoundedKernels
import Verif.Model.Overflow

/-!
# Covariance matrices with rounding and overflow

The functions of `RoundedKernels.lean` once more, with the operations of `Overflow.lean`: results that are
too large for a double become infinities, and operations on infinities may give NaN. `np.exp` is `ex` on
numbers, zero at minus infinity. Inputs, lengthscales, signal and noise are numbers; the squares of the last
two are those of numpy floats (a Python float raises `OverflowError` instead of giving an infinity). The part of
`get_kernel_cholesky` that follows is the check of `scipy.linalg.cholesky` for infinities and NaN.
-/

namespace Verif.OverflowKernels

open Verif.Constants Verif.Covariance Verif.UtilsCovariance Verif.Overflow
open Verif.Rounded (SumOrder)

variable (fl ex : ℝ → ℝ) (o : SumOrder)

/-- `np.sqrt`, rounded. -/
noncomputable def sqrt (a : Flt) : Flt := roundF fl a.sqrt

/-- `np.exp` -/
noncomputable def exp : Flt → Flt
  | .fin x => .fin (ex x)
  | .ninf => .fin 0
  | a => a

/-- `X / lengthscales` for one row. The lengthscales differ from zero (`lengthscalesKey`). -/
noncomputable def scale {d : ℕ} (l : Lengthscales d) (x : Point d) : Fin d → Flt :=
  match l with
  | .iso a => fun k => round fl (x k / a)
  | .ard a => fun k => round fl (x k / a k)

/-- `scisd.cdist(X / lengthscales, Xp / lengthscales, metric='euclidean')`: the root of the sum of the
squares of the differences. -/
noncomputable def scaledDist {n m d : ℕ} (X : Fin n → Point d) (Xp : Fin m → Point d)
    (l : Lengthscales d) (i : Fin n) (j : Fin m) : Flt :=
  let diff : Fin d → Flt := fun k => sub fl (scale fl l (X i) k) (scale fl l (Xp j) k)
  sqrt fl (sumF fl (List.ofFn fun k => mul fl (diff k) (diff k)) o)

/-- `cov_se` (`covariance.py:197-232`). -/
noncomputable def covSe {n m d : ℕ} (X : Fin n → Point d) (Xp : Fin m → Point d)
    (lengthscales : Lengthscales d) (signal : ℝ) (i : Fin n) (j : Fin m) : Flt :=
  let dist := scaledDist fl o X Xp lengthscales i j
  mul fl (round fl (signal ^ 2)) (exp ex (mul fl (.fin (-0.5)) (mul fl dist dist)))

/-- `cov_matern32` (`covariance.py:295-330`). -/
noncomputable def covMatern32 {n m d : ℕ} (X : Fin n → Point d) (Xp : Fin m → Point d)
    (lengthscales : Lengthscales d) (signal : ℝ) (i : Fin n) (j : Fin m) : Flt :=
  let dist := scaledDist fl o X Xp lengthscales i j
  mul fl (mul fl (round fl (signal ^ 2)) (add fl (.fin 1) (mul fl (.fin (fl √3)) dist)))
    (exp ex (mul fl (.fin (fl (-1 * fl √3))) dist))

/-- `cov_matern52` (`covariance.py:394-431`). -/
noncomputable def covMatern52 {n m d : ℕ} (X : Fin n → Point d) (Xp : Fin m → Point d)
    (lengthscales : Lengthscales d) (signal : ℝ) (i : Fin n) (j : Fin m) : Flt :=
  let dist := scaledDist fl o X Xp lengthscales i j
  mul fl (mul fl (round fl (signal ^ 2)) (add fl (add fl (.fin 1) (mul fl (.fin (fl √5)) dist))
      (mul fl (.fin (fl (5 / 3))) (mul fl dist dist))))
    (exp ex (mul fl (.fin (fl (-1 * fl √5))) dist))

/-- The function a choice of `choose_fun_cov` stands for. -/
noncomputable def cov {n m d : ℕ} : CovName → (Fin n → Point d) → (Fin m → Point d) → Lengthscales d →
    ℝ → Fin n → Fin m → Flt
  | .se => covSe fl ex o
  | .matern32 => covMatern32 fl ex o
  | .matern52 => covMatern52 fl ex o

/-- `cov_main` (`covariance.py:544-628`) for inputs of rank 2. -/
noncomputable def covMain {n m d : ℕ} (str_cov : String) (X : Fin n → Point d) (Xp : Fin m → Point d)
    (hyps : HypDict) (same_X_Xp : Bool) : Py (Fin n → Fin m → Flt) := do
  pyAssert (str_cov ∈ ALLOWED_COV)
  if same_X_Xp then pyAssert (n = m)
  let cov_X_Xp : Matrix (Fin n) (Fin m) ℝ :=
    if same_X_Xp then fun i j => npEye n m i j * fl JITTER_COV else 0
  if str_cov ∈ ALLOWED_COV_BASE then
    let hyps ← (validateHypsDict hyps str_cov d).2
    let fun_cov ← chooseFunCov str_cov
    let lengthscales ← lengthscalesKey d hyps.lengthscales
    let signal ← numKey hyps.signal
    return fun i j => add fl (.fin (cov_X_Xp i j)) (cov fl ex o fun_cov X Xp lengthscales signal i j)
  else .error .assertion

/-- The matrix `cov_X_X` of `get_kernel_inverse` and of `get_kernel_cholesky`
(`covariance.py:113-117`, `166-170`). -/
noncomputable def kernelMatrix {n d : ℕ} (X_train : Fin n → Point d) (hyps : HypDict)
    (str_cov : String) : Py (Fin n → Fin n → Flt) := do
  checkStrCov str_cov 2
  let cov ← covMain fl ex o str_cov X_train X_train hyps true
  let noise ← numKey hyps.noise
  let cov_X_X : Fin n → Fin n → Flt :=
    fun i j => add fl (cov i j) (mul fl (round fl (noise ^ 2)) (.fin (npEye n n i j)))
  return fun i j => divPos fl (add fl (cov_X_X i j) (cov_X_X j i)) (.fin 2)

open Classical in
/-- The check of `scipy.linalg.cholesky` (`check_finite=True`): `ValueError` unless every entry is finite. -/
noncomputable def checkFinite {n : ℕ} (A : Fin n → Fin n → Flt) : Py (Matrix (Fin n) (Fin n) ℝ) :=
  if h : ∀ i j, ∃ x, A i j = .fin x then .ok (Matrix.of fun i j => (h i j).choose) else .error .value

/-- `get_kernel_cholesky` (`covariance.py:166-177`) up to the first decomposition, with jitter zero, whose
addition changes nothing. The result is the matrix to be decomposed. A `ValueError` is not caught by
`except np.linalg.LinAlgError`. -/
noncomputable def matrixToDecompose {n d : ℕ} (X_train : Fin n → Point d) (hyps : HypDict)
    (str_cov : String) : Py (Matrix (Fin n) (Fin n) ℝ) := do
  let cov_X_X ← kernelMatrix fl ex o X_train hyps str_cov
  checkFinite cov_X_X

end Verif.OverflowKernels
