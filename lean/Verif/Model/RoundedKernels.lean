import Verif.Model.Covariance
import Verif.Model.Rounded

/-!
# Covariance matrices with rounding

The covariance functions of `Covariance.lean` for inputs of rank 2, `cov_main` and the matrix that
`get_kernel_inverse` and `get_kernel_cholesky` build, once more, with every arithmetic operation
followed by a rounding `fl` and with `np.exp` replaced by a function `ex` that stands for the
exponential function of the library. Square roots are rounded like the other operations (IEEE 754), and
so are squares. `o` is the order in which `cdist` adds the squares of the coordinates; it depends on
dimension and processor. Set covariances are left out. With `fl = id` and `ex = exp` these are the
functions without rounding (`Lemmas/RoundedKernels.lean`).
-/

namespace Verif.RoundedKernels

open Verif.Constants Verif.Covariance Verif.UtilsCovariance Verif.Rounded

variable (fl ex : ℝ → ℝ) (o : SumOrder)

/-- `X / lengthscales` for one row. -/
noncomputable def scale {d : ℕ} (l : Lengthscales d) (x : Point d) : Point d :=
  match l with
  | .iso a => fun k => fl (x k / a)
  | .ard a => fun k => fl (x k / a k)

/-- The sum of the entries of a list in the order `o`. A position beyond the list does not occur for an
order that covers it; it is given as zero. -/
noncomputable def sumList (v : List ℝ) : SumOrder → ℝ
  | .entry i => v[i]?.getD 0
  | .add a b => fl (sumList v a + sumList v b)

/-- `scisd.cdist(X / lengthscales, Xp / lengthscales, metric='euclidean')`: the root of the sum of the
squares of the differences. -/
noncomputable def scaledDist {n m d : ℕ} (X : Fin n → Point d) (Xp : Fin m → Point d)
    (l : Lengthscales d) : Matrix (Fin n) (Fin m) ℝ :=
  fun i j => fl √(sumList fl (List.ofFn fun k =>
    fl (fl (scale fl l (X i) k - scale fl l (Xp j) k) ^ 2)) o)

/-- `cov_se` (`covariance.py:197-232`). -/
noncomputable def covSe {n m d : ℕ} (X : Fin n → Point d) (Xp : Fin m → Point d)
    (lengthscales : Lengthscales d) (signal : ℝ) : Matrix (Fin n) (Fin m) ℝ :=
  let dist := scaledDist fl o X Xp lengthscales
  fun i j => fl (fl (signal ^ 2) * ex (fl (-0.5 * fl (dist i j ^ 2))))

/-- `cov_matern32` (`covariance.py:295-330`). -/
noncomputable def covMatern32 {n m d : ℕ} (X : Fin n → Point d) (Xp : Fin m → Point d)
    (lengthscales : Lengthscales d) (signal : ℝ) : Matrix (Fin n) (Fin m) ℝ :=
  let dist := scaledDist fl o X Xp lengthscales
  fun i j => fl (fl (fl (signal ^ 2) * fl (1 + fl (fl √3 * dist i j))) *
    ex (fl (fl (-1 * fl √3) * dist i j)))

/-- `cov_matern52` (`covariance.py:394-431`). -/
noncomputable def covMatern52 {n m d : ℕ} (X : Fin n → Point d) (Xp : Fin m → Point d)
    (lengthscales : Lengthscales d) (signal : ℝ) : Matrix (Fin n) (Fin m) ℝ :=
  let dist := scaledDist fl o X Xp lengthscales
  fun i j => fl (fl (fl (signal ^ 2) * fl (fl (1 + fl (fl √5 * dist i j)) +
      fl (fl (5 / 3) * fl (dist i j ^ 2)))) *
    ex (fl (fl (-1 * fl √5) * dist i j)))

/-- The function a choice of `choose_fun_cov` stands for. -/
noncomputable def cov : CovName → CovFun
  | .se => covSe fl ex o
  | .matern32 => covMatern32 fl ex o
  | .matern52 => covMatern52 fl ex o

/-- `cov_main` (`covariance.py:544-628`) for inputs of rank 2. The jitter is the double nearest to the
number written in `constants.py`; adding the zeros outside the diagonal changes nothing. -/
noncomputable def covMain {n m d : ℕ} (str_cov : String) (X : Fin n → Point d) (Xp : Fin m → Point d)
    (hyps : HypDict) (same_X_Xp : Bool) : Py (Matrix (Fin n) (Fin m) ℝ) := do
  pyAssert (str_cov ∈ ALLOWED_COV)
  if same_X_Xp then pyAssert (n = m)
  let cov_X_Xp : Matrix (Fin n) (Fin m) ℝ :=
    if same_X_Xp then fun i j => npEye n m i j * fl JITTER_COV else 0
  if str_cov ∈ ALLOWED_COV_BASE then
    let hyps ← (validateHypsDict hyps str_cov d).2
    let fun_cov ← chooseFunCov str_cov
    let lengthscales ← lengthscalesKey d hyps.lengthscales
    let signal ← numKey hyps.signal
    return fun i j => fl (cov_X_Xp i j + cov fl ex o fun_cov X Xp lengthscales signal i j)
  else .error .assertion

/-- The matrix `cov_X_X` of `get_kernel_inverse` and of `get_kernel_cholesky`
(`covariance.py:113-117`, `166-170`). -/
noncomputable def kernelMatrix {n d : ℕ} (X_train : Fin n → Point d) (hyps : HypDict)
    (str_cov : String) : Py (Matrix (Fin n) (Fin n) ℝ) := do
  checkStrCov str_cov 2
  let cov ← covMain fl ex o str_cov X_train X_train hyps true
  let noise ← numKey hyps.noise
  let cov_X_X : Matrix (Fin n) (Fin n) ℝ :=
    fun i j => fl (cov i j + fl (noise ^ 2) * npEye n n i j)
  return fun i j => fl (fl (cov_X_X i j + cov_X_X j i) / 2)

end Verif.RoundedKernels
