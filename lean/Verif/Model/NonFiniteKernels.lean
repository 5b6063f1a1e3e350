import Verif.Model.Gp
import Verif.Model.NonFiniteAcquisition
import Verif.Model.OverflowKernels

/-!
# Covariance matrices with hyperparameters that are zero, infinite or NaN

`Model/Covariance.lean` stops with `outOfModel` where a hyperparameter is infinite or NaN and where a
lengthscale is zero. Here the covariance functions for inputs of rank 2 are repeated with hyperparameters that
are any floats. Arithmetic is exact on numbers and follows IEEE on infinities and NaN. Zeros carry no sign: a
negative zero as lengthscale turns all quotients around, which no difference of quotients depends on up to its
sign, and only squares of differences are used.
-/

namespace Verif.NonFiniteKernels

open Verif.Constants Verif.Covariance Verif.UtilsCovariance
open Verif.NonFinite (div)
open Verif.NonFiniteAcquisition (mul)
open Verif.Gp (choSolve)

/-- `np.exp`. -/
noncomputable def exp : Flt → Flt
  | .fin x => .fin (Real.exp x)
  | .ninf => .fin 0
  | a => a

/-- Lengthscales as the covariance functions receive them: a float or an array of length `d`. -/
inductive Lengths (d : ℕ)
  | iso (l : Flt)
  | ard (l : Fin d → Flt)

/-- `hyps['lengthscales']` with the shape assertion of the covariance functions
(`covariance.py:226-229`, `322-325`, `422-425`). -/
def lengthsKey (d : ℕ) (v : Option HVal) : Py (Lengths d) := do
  let v ← getKey v
  match v with
  | .flt x => return .iso x
  | .arr l =>
    if h : l.length = d then return .ard (fun i => l[i.val]'(by omega))
    else .error .assertion
  | .other => .error .assertion

/-- `hyps[key]` where a float is asked for. -/
def floatKey (v : Option HVal) : Py Flt := do
  let v ← getKey v
  match v with
  | .flt x => return x
  | _ => .error .type

/-- `X / lengthscales` for one row. -/
noncomputable def scale {d : ℕ} (l : Lengths d) (x : Point d) : Fin d → Flt :=
  match l with
  | .iso a => fun k => div (.fin (x k)) a
  | .ard a => fun k => div (.fin (x k)) (a k)

/-- `scisd.cdist(X / lengthscales, Xp / lengthscales, metric='euclidean')`: the root of the sum of the squares
of the differences. -/
noncomputable def scaledDist {n m d : ℕ} (X : Fin n → Point d) (Xp : Fin m → Point d) (l : Lengths d)
    (i : Fin n) (j : Fin m) : Flt :=
  ((List.ofFn fun k => ((scale l (X i) k).sub (scale l (Xp j) k)).sq).foldl Flt.add (.fin 0)).sqrt

/-- `cov_se` (`covariance.py:197-232`). -/
noncomputable def covSe {n m d : ℕ} (X : Fin n → Point d) (Xp : Fin m → Point d) (lengthscales : Lengths d)
    (signal : Flt) (i : Fin n) (j : Fin m) : Flt :=
  let dist := scaledDist X Xp lengthscales i j
  mul signal.sq (exp (mul (.fin (-0.5)) dist.sq))

/-- `cov_matern32` (`covariance.py:295-330`). -/
noncomputable def covMatern32 {n m d : ℕ} (X : Fin n → Point d) (Xp : Fin m → Point d)
    (lengthscales : Lengths d) (signal : Flt) (i : Fin n) (j : Fin m) : Flt :=
  let dist := scaledDist X Xp lengthscales i j
  mul (mul signal.sq (Flt.add (.fin 1) (mul (.fin √3) dist))) (exp (mul (.fin (-1 * √3)) dist))

/-- `cov_matern52` (`covariance.py:394-431`). -/
noncomputable def covMatern52 {n m d : ℕ} (X : Fin n → Point d) (Xp : Fin m → Point d)
    (lengthscales : Lengths d) (signal : Flt) (i : Fin n) (j : Fin m) : Flt :=
  let dist := scaledDist X Xp lengthscales i j
  mul (mul signal.sq (Flt.add (Flt.add (.fin 1) (mul (.fin √5) dist)) (mul (.fin (5 / 3)) dist.sq)))
    (exp (mul (.fin (-1 * √5)) dist))

/-- The function a choice of `choose_fun_cov` stands for. -/
noncomputable def cov {n m d : ℕ} : CovName → (Fin n → Point d) → (Fin m → Point d) → Lengths d → Flt →
    Fin n → Fin m → Flt
  | .se => covSe
  | .matern32 => covMatern32
  | .matern52 => covMatern52

/-- `cov_main` (`covariance.py:544-628`) for inputs of rank 2. The names of covariances over sets fail an
assertion there (`covariance.py:603-604`). -/
noncomputable def covMain {n m d : ℕ} (str_cov : String) (X : Fin n → Point d) (Xp : Fin m → Point d)
    (hyps : HypDict) (same_X_Xp : Bool) (jitter : ℝ := JITTER_COV) : Py (Fin n → Fin m → Flt) := do
  pyAssert (str_cov ∈ ALLOWED_COV)
  if same_X_Xp then pyAssert (n = m)
  let cov_X_Xp : Matrix (Fin n) (Fin m) ℝ := if same_X_Xp then jitter • npEye n m else 0
  if str_cov ∈ ALLOWED_COV_BASE then
    let hyps ← (validateHypsDict hyps str_cov d).2
    let fun_cov ← chooseFunCov str_cov
    let lengthscales ← lengthsKey d hyps.lengthscales
    let signal ← floatKey hyps.signal
    return fun i j => Flt.add (.fin (cov_X_Xp i j)) (cov fun_cov X Xp lengthscales signal i j)
  else .error .assertion

/-- The matrix `cov_X_X` of `get_kernel_inverse` and of `get_kernel_cholesky` (`covariance.py:115-117`,
`168-170`). The noise is read after `cov_main`, whose `validate_hyps_dict` has written into the dictionary. -/
noncomputable def noisyCov {n d : ℕ} (X_train : Fin n → Point d) (hyps : HypDict) (str_cov : String) :
    Py (Fin n → Fin n → Flt) := do
  let cov_X_X ← covMain str_cov X_train X_train hyps true
  let noise ← floatKey (validateHypsDict hyps str_cov d).1.noise
  let cov_X_X : Fin n → Fin n → Flt :=
    fun i j => Flt.add (cov_X_X i j) (mul noise.sq (.fin (npEye n n i j)))
  return fun i j => (Flt.add (cov_X_X i j) (cov_X_X j i)).divPos 2

/-- `get_kernel_cholesky` (`covariance.py:129-194`) without gradients. `scipy.linalg.cholesky` raises a
`ValueError` on infinities and NaN, which `except np.linalg.LinAlgError` does not catch. The jitters of the
loop are numbers, so the check has the same outcome for all of them. -/
noncomputable def getKernelCholesky {n d : ℕ} (X_train : Fin n → Point d) (hyps : HypDict)
    (str_cov : String) : Py (Matrix (Fin n) (Fin n) ℝ × Matrix (Fin n) (Fin n) ℝ) := do
  checkStrCov str_cov 2
  let cov_X_X ← noisyCov X_train hyps str_cov
  let cov_X_X ← OverflowKernels.checkFinite cov_X_X
  choleskyLoop cov_X_X jitters

/-- `neg_log_ml` (`gp_likelihood.py:19-115`) with the Cholesky decomposition and without gradients. With
gradients, `get_kernel_cholesky` raises before they are computed. -/
noncomputable def negLogMl {n d : ℕ} (X_train : Fin n → Point d) (Y_train : Fin n → ℝ) (hyps : List Flt)
    (str_cov : String) (prior_mu_train : Fin n → ℝ) (use_ard : Bool := USE_ARD)
    (fix_noise : Bool := FIX_GP_NOISE) : Py ℝ := do
  checkStrCov str_cov 2
  let hyps ← restoreHyps str_cov hyps true use_ard fix_noise
  let new_Y_train : Fin n → ℝ := fun i => Y_train i - prior_mu_train i
  let (_, lower) ← getKernelCholesky X_train hyps str_cov
  let alpha := choSolve lower new_Y_train
  let first_term : ℝ := -(1 / 2) * dotProduct new_Y_train alpha
  let second_term : ℝ := -1 * ∑ i, Real.log (lower i i + JITTER_LOG)
  let third_term := -(n : ℝ) / 2 * Real.log (2 * Real.pi)
  let log_ml := first_term + second_term + third_term
  if n = 0 then .error .outOfModel
  let log_ml := log_ml / n
  return -1 * log_ml

end Verif.NonFiniteKernels
