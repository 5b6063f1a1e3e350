import Mathlib.Analysis.SpecialFunctions.Exp
import Mathlib.LinearAlgebra.Matrix.NonsingularInverse
import Verif.Model.UtilsCovariance

/-!
# `bayeso/covariance.py`

Numbers are exact reals. Arrays are indexed by `Fin`: an input array of shape `(n, d)` or
`(n, m, d)` is an `Inputs n d`, so that the shape assertions `dim_X == dim_Xp` hold by
typing; the rank of the array is a run-time property and is checked as in the code.
Hyperparameters arrive in the dynamic dictionary of `UtilsCovariance`. Non-finite entries and
zero lengthscales (numpy would continue with infinities and NaN) are reported as
`PyErr.outOfModel`.
-/

namespace Verif.Covariance

open Verif.Constants Verif.UtilsCovariance

/-- An array of inputs: shape `(n, d)`, or shape `(n, m, d)` for sets of `m` elements. -/
inductive Inputs (n d : ℕ)
  | vec (x : Fin n → Point d)
  | set (m : ℕ) (x : Fin n → Fin m → Point d)

/-- `len(X.shape)`. -/
def Inputs.rank {n d : ℕ} : Inputs n d → ℕ
  | .vec _ => 2
  | .set _ _ => 3

/-- The lengthscales argument of a covariance function: a float or an array of shape `(d,)`. -/
inductive Lengthscales (d : ℕ)
  | iso (l : ℝ)
  | ard (l : Fin d → ℝ)

/-- `X / lengthscales` for one row (numpy broadcasting). -/
noncomputable def Lengthscales.scale {d : ℕ} (l : Lengthscales d) (x : Point d) : Point d :=
  match l with
  | .iso a => fun k => x k / a
  | .ard a => fun k => x k / a k

/-- `scisd.cdist(X / lengthscales, Xp / lengthscales, metric='euclidean')`. -/
noncomputable def scaledDist {n m d : ℕ} (X : Fin n → Point d) (Xp : Fin m → Point d)
    (l : Lengthscales d) : Matrix (Fin n) (Fin m) ℝ :=
  fun i j => norm2 (fun k => l.scale (X i) k - l.scale (Xp j) k)

/-- `scisd.cdist(X[:, k][..., np.newaxis], Xp[:, k][..., np.newaxis], metric='euclidean')`. -/
noncomputable def coordDist {n m d : ℕ} (X : Fin n → Point d) (Xp : Fin m → Point d)
    (k : Fin d) : Matrix (Fin n) (Fin m) ℝ :=
  fun i j => norm2 (fun _ : Fin 1 => X i k - Xp j k)

/-- `np.eye(n, M=m)`. -/
noncomputable def npEye (n m : ℕ) : Matrix (Fin n) (Fin m) ℝ :=
  fun i j => if i.val = j.val then 1 else 0

/-- `cov_se` (`covariance.py:197-232`). -/
noncomputable def covSe {n m d : ℕ} (X : Fin n → Point d) (Xp : Fin m → Point d)
    (lengthscales : Lengthscales d) (signal : ℝ) : Matrix (Fin n) (Fin m) ℝ :=
  let dist := scaledDist X Xp lengthscales
  fun i j => signal ^ 2 * Real.exp (-0.5 * dist i j ^ 2)

/-- `cov_matern32` (`covariance.py:295-330`). -/
noncomputable def covMatern32 {n m d : ℕ} (X : Fin n → Point d) (Xp : Fin m → Point d)
    (lengthscales : Lengthscales d) (signal : ℝ) : Matrix (Fin n) (Fin m) ℝ :=
  let dist := scaledDist X Xp lengthscales
  fun i j => signal ^ 2 * (1 + √3 * dist i j) * Real.exp (-1 * √3 * dist i j)

/-- `cov_matern52` (`covariance.py:394-431`). -/
noncomputable def covMatern52 {n m d : ℕ} (X : Fin n → Point d) (Xp : Fin m → Point d)
    (lengthscales : Lengthscales d) (signal : ℝ) : Matrix (Fin n) (Fin m) ℝ :=
  let dist := scaledDist X Xp lengthscales
  fun i j => signal ^ 2 * (1 + √5 * dist i j + 5 / 3 * dist i j ^ 2)
    * Real.exp (-1 * √5 * dist i j)

/-- The type of a base covariance function. -/
abbrev CovFun := ∀ {n m d : ℕ}, (Fin n → Point d) → (Fin m → Point d) → Lengthscales d → ℝ →
  Matrix (Fin n) (Fin m) ℝ

/-- A choice among the three implemented covariance functions. -/
inductive CovName
  | se | matern32 | matern52
  deriving DecidableEq

/-- The function a choice stands for. -/
noncomputable def CovName.cov : CovName → CovFun
  | .se => covSe
  | .matern32 => covMatern32
  | .matern52 => covMatern52

/-- `choose_fun_cov` and `choose_fun_grad_cov` (`covariance.py:20-73`); both make the same
choice. -/
def chooseFunCov (str_cov : String) : Py CovName :=
  if str_cov ∈ ["eq", "se"] then .ok .se
  else if str_cov = "matern32" then .ok .matern32
  else if str_cov = "matern52" then .ok .matern52
  else .error .notImplemented

/-- A float read by numeric code. -/
def finite : Flt → Py ℝ
  | .fin x => .ok x
  | _ => .error .outOfModel

/-- `hyps[key]` used as a number. -/
def numKey (v : Option HVal) : Py ℝ := do
  let v ← getKey v
  match v with
  | .flt x => finite x
  | _ => .error .type

/-- A finite, non-zero number. -/
noncomputable def finiteNonzero (v : Flt) : Py ℝ := do
  let a ← finite v
  if a = 0 then .error .outOfModel else pure a

/-- `hyps['lengthscales']` used as the lengthscales of a covariance function of dimension `d`
(the shape assertion of `cov_se`, `covariance.py:226-229`). -/
noncomputable def lengthscalesKey (d : ℕ) (v : Option HVal) : Py (Lengthscales d) := do
  let v ← getKey v
  match v with
  | .flt x => return .iso (← finiteNonzero x)
  | .arr l =>
    let l ← l.mapM finiteNonzero
    if h : l.length = d then return .ard (fun i => l[i.val]'(by omega))
    else .error .assertion
  | .other => .error .assertion

/-- `cov_set` (`covariance.py:496-541`). An empty set gives `0 / 0`. -/
noncomputable def covSet {m l d : ℕ} (str_cov : String) (X : Fin m → Point d)
    (Xp : Fin l → Point d) (lengthscales : Lengthscales d) (signal : ℝ) : Py ℝ := do
  pyAssert (str_cov ∈ ALLOWED_COV_BASE)
  let fun_cov ← chooseFunCov str_cov
  let cov_X_Xp := ∑ i, ∑ j, fun_cov.cov X Xp lengthscales signal i j
  if m * l = 0 then .error .outOfModel
  else return cov_X_Xp / ((m * l : ℕ) : ℝ)

/-- `A[i, j] = v`. -/
def setEntry {n m : ℕ} (A : Matrix (Fin n) (Fin m) ℝ) (i : Fin n) (j : Fin m) (v : ℝ) :
    Matrix (Fin n) (Fin m) ℝ :=
  fun a b => if a = i ∧ b = j then v else A a b

/-- The two loops of `cov_main` over pairs of sets when `same_X_Xp` is false
(`covariance.py:613-617`). -/
noncomputable def setLoop {n m d p q : ℕ} (str_cov : String) (X : Fin n → Fin p → Point d)
    (Xp : Fin m → Fin q → Point d) (l : Lengthscales d) (signal : ℝ)
    (cov : Matrix (Fin n) (Fin m) ℝ) : Py (Matrix (Fin n) (Fin m) ℝ) :=
  (List.finRange n).foldlM (fun cov ind_X =>
    (List.finRange m).foldlM (fun cov ind_Xp => do
      let v ← covSet str_cov (X ind_X) (Xp ind_Xp) l signal
      return setEntry cov ind_X ind_Xp (cov ind_X ind_Xp + v)) cov) cov

/-- The two loops of `cov_main` over pairs of sets when `same_X_Xp` is true
(`covariance.py:618-624`): the upper triangle is computed and mirrored. -/
noncomputable def setLoopSame {n m d p q : ℕ} (h : n = m) (str_cov : String)
    (X : Fin n → Fin p → Point d) (Xp : Fin m → Fin q → Point d) (l : Lengthscales d)
    (signal : ℝ) (cov : Matrix (Fin n) (Fin m) ℝ) : Py (Matrix (Fin n) (Fin m) ℝ) :=
  (List.finRange n).foldlM (fun cov ind_X =>
    ((List.finRange m).drop ind_X.val).foldlM (fun cov ind_Xp => do
      let v ← covSet str_cov (X ind_X) (Xp ind_Xp) l signal
      let cov := setEntry cov ind_X ind_Xp (cov ind_X ind_Xp + v)
      if ind_X.val < ind_Xp.val then
        return setEntry cov (Fin.cast h.symm ind_Xp) (Fin.cast h ind_X) (cov ind_X ind_Xp)
      else return cov) cov) cov

/-- `str_cov.split('_')[1]` on the names in `ALLOWED_COV_SET`. -/
def setBaseName (str_cov : String) : Py String :=
  if str_cov = "set_eq" then .ok "eq"
  else if str_cov = "set_se" then .ok "se"
  else if str_cov = "set_matern32" then .ok "matern32"
  else if str_cov = "set_matern52" then .ok "matern52"
  else .error .index

/-- `cov_main` (`covariance.py:544-628`). `validate_hyps_dict` may write `inf` over an
infinite noise in the caller's dictionary; `cov_main` does not read the noise and every
reader of it treats all infinities alike, so the write is not propagated. -/
noncomputable def covMain {n m d : ℕ} (str_cov : String) (X : Inputs n d) (Xp : Inputs m d)
    (hyps : HypDict) (same_X_Xp : Bool) (jitter : ℝ := JITTER_COV) :
    Py (Matrix (Fin n) (Fin m) ℝ) := do
  pyAssert (str_cov ∈ ALLOWED_COV)
  if same_X_Xp then pyAssert (n = m)
  let cov_X_Xp : Matrix (Fin n) (Fin m) ℝ := if same_X_Xp then jitter • npEye n m else 0
  if str_cov ∈ ALLOWED_COV_BASE then
    match X, Xp with
    | .vec X, .vec Xp =>
      let hyps ← (validateHypsDict hyps str_cov d).2
      let fun_cov ← chooseFunCov str_cov
      let lengthscales ← lengthscalesKey d hyps.lengthscales
      let signal ← numKey hyps.signal
      return cov_X_Xp + fun_cov.cov X Xp lengthscales signal
    | _, _ => .error .assertion
  else if str_cov ∈ ALLOWED_COV_SET then
    let str_cov ← setBaseName str_cov
    match X, Xp with
    | .set _ X, .set _ Xp =>
      let hyps ← (validateHypsDict hyps str_cov d).2
      let lengthscales ← lengthscalesKey d hyps.lengthscales
      let signal ← numKey hyps.signal
      if same_X_Xp then
        if h : n = m then setLoopSame h str_cov X Xp lengthscales signal cov_X_Xp
        else .error .assertion
      else setLoop str_cov X Xp lengthscales signal cov_X_Xp
    | _, _ => .error .assertion
  else .error .notImplemented

/-- `grad[:, :, k] += A` on an array of shape `(n, m, l)` held as the list of its slices;
`IndexError` when the slice does not exist. -/
def addSlice {n m : ℕ} (grad : List (Matrix (Fin n) (Fin m) ℝ)) (k : ℕ)
    (A : Matrix (Fin n) (Fin m) ℝ) : Py (List (Matrix (Fin n) (Fin m) ℝ)) :=
  match grad[k]? with
  | some B => .ok (grad.set k (B + A))
  | none => .error .index

/-- The factor that multiplies the squared distances in the lengthscale derivative:
`cov_X_Xp` for SE (`covariance.py:285-290`), `term_pre` for the Matern kernels
(`covariance.py:380`, `481-482`). -/
noncomputable def CovName.termPre {n m d : ℕ} (name : CovName)
    (cov_X_Xp : Matrix (Fin n) (Fin m) ℝ) (X : Fin n → Point d) (Xp : Fin m → Point d)
    (l : Lengthscales d) (signal : ℝ) : Matrix (Fin n) (Fin m) ℝ :=
  let dist := scaledDist X Xp l
  match name with
  | .se => cov_X_Xp
  | .matern32 => fun i j => 3 * signal ^ 2 * Real.exp (-√3 * dist i j)
  | .matern52 => fun i j => 5 / 3 * signal ^ 2 * (1 + √5 * dist i j) * Real.exp (-√5 * dist i j)

/-- `grad_cov_se`, `grad_cov_matern32`, `grad_cov_matern52` (`covariance.py:235-292`,
`333-391`, `434-493`): the three functions differ only in `CovName.termPre`. A zero signal
gives a division by zero. -/
noncomputable def gradCov {n m d : ℕ} (name : CovName) (cov_X_Xp : Matrix (Fin n) (Fin m) ℝ)
    (X : Fin n → Point d) (Xp : Fin m → Point d) (hyps : HypDict) (num_hyps : ℕ)
    (fix_noise : Bool) : Py (List (Matrix (Fin n) (Fin m) ℝ)) := do
  let grad : List (Matrix (Fin n) (Fin m) ℝ) := List.replicate num_hyps 0
  let lengthscales ← lengthscalesKey d hyps.lengthscales
  let dist := scaledDist X Xp lengthscales
  let noise ← if fix_noise then pure 0 else numKey hyps.noise
  let ind_next := if fix_noise then 0 else 1
  let grad ← if fix_noise then pure grad else addSlice grad 0 ((2 * noise) • npEye n m)
  let signal ← numKey hyps.signal
  if signal = 0 then .error .outOfModel
  let grad ← addSlice grad ind_next (Matrix.of fun i j => 2 * cov_X_Xp i j / signal)
  let term_pre := name.termPre cov_X_Xp X Xp lengthscales signal
  match lengthscales with
  | .ard l =>
    (List.finRange d).foldlM (fun grad ind =>
      addSlice grad (ind_next + ind.val + 1)
        (Matrix.of fun i j => term_pre i j * coordDist X Xp ind i j ^ 2 * (l ind ^ 3)⁻¹)) grad
  | .iso l =>
    addSlice grad (ind_next + 1) (Matrix.of fun i j => term_pre i j * dist i j ^ 2 * l⁻¹)

/-- `grad_cov_main` (`covariance.py:631-687`). For inputs of rank 3 `X.shape[1]` is read as
the dimension, but then either `cov_main` fails or the name is a set covariance, for which
there is no gradient. -/
noncomputable def gradCovMain {n m d : ℕ} (str_cov : String) (X : Inputs n d) (Xp : Inputs m d)
    (hyps : HypDict) (fix_noise : Bool) (same_X_Xp : Bool := true) (jitter : ℝ := JITTER_COV) :
    Py (List (Matrix (Fin n) (Fin m) ℝ)) := do
  pyAssert (str_cov ∈ ALLOWED_COV)
  pyAssert same_X_Xp
  let dim_X := match X with
    | .vec _ => d
    | .set m _ => m
  let lengthscales ← getKey hyps.lengthscales
  let num_hyps := match lengthscales with
    | .arr _ => dim_X + 1
    | _ => 2
  let num_hyps := if !fix_noise then num_hyps + 1 else num_hyps
  let cov_X_Xp ← covMain str_cov X Xp hyps same_X_Xp jitter
  let fun_grad_cov ← chooseFunCov str_cov
  match X, Xp with
  | .vec X, .vec Xp => gradCov fun_grad_cov cov_X_Xp X Xp hyps num_hyps fix_noise
  | _, _ => .error .assertion

/-- `np.linalg.inv`: `LinAlgError` on a singular matrix. -/
noncomputable def npInv {n : ℕ} (A : Matrix (Fin n) (Fin n) ℝ) :
    Py (Matrix (Fin n) (Fin n) ℝ) :=
  open Classical in if A.det = 0 then .error .linalg else .ok A⁻¹

/-- `cov_main(str_cov, X, X, hyps, True) + hyps['noise']**2 * np.eye(n)`, then
`(A + A.T) / 2.0` (`covariance.py:115-117` and `168-170`). -/
noncomputable def noisyCov {n d : ℕ} (X_train : Inputs n d) (hyps : HypDict) (str_cov : String) :
    Py (Matrix (Fin n) (Fin n) ℝ) := do
  let cov_X_X ← covMain str_cov X_train X_train hyps true
  let noise ← numKey hyps.noise
  let cov_X_X := cov_X_X + (noise ^ 2) • npEye n n
  return fun i j => (cov_X_X i j + cov_X_X j i) / 2

/-- `get_kernel_inverse` (`covariance.py:76-126`); the third component is `None` unless
gradients are requested. -/
noncomputable def getKernelInverse {n d : ℕ} (X_train : Inputs n d) (hyps : HypDict)
    (str_cov : String) (fix_noise : Bool := FIX_GP_NOISE) (use_gradient : Bool := false) :
    Py (Matrix (Fin n) (Fin n) ℝ × Matrix (Fin n) (Fin n) ℝ ×
      Option (List (Matrix (Fin n) (Fin n) ℝ))) := do
  checkStrCov str_cov X_train.rank
  let cov_X_X ← noisyCov X_train hyps str_cov
  let inv_cov_X_X ← npInv cov_X_X
  if use_gradient then
    let grad ← gradCovMain str_cov X_train X_train hyps fix_noise
    return (cov_X_X, inv_cov_X_X, some grad)
  else return (cov_X_X, inv_cov_X_X, none)

/-- `L` is lower triangular with positive diagonal and `L * L^T = A`. -/
def IsCholesky {n : ℕ} (A L : Matrix (Fin n) (Fin n) ℝ) : Prop :=
  (∀ i j, i < j → L i j = 0) ∧ (∀ i, 0 < L i i) ∧ L * L.transpose = A

/-- `scipy.linalg.cholesky(A, lower=True)` on a symmetric matrix: the Cholesky factor if there
is one, `LinAlgError` otherwise. (It is unique, see `Lemmas/Cholesky.lean`.) -/
noncomputable def spCholesky {n : ℕ} (A : Matrix (Fin n) (Fin n) ℝ) :
    Py (Matrix (Fin n) (Fin n) ℝ) :=
  open Classical in if h : ∃ L, IsCholesky A L then .ok h.choose else .error .linalg

/-- The jitters tried by `get_kernel_cholesky` (`covariance.py:174`). -/
noncomputable def jitters : List ℝ := [0, 1e-4, 1e-2, 1e-1, 1e0, 1e1, 1e2]

/-- The loop of `get_kernel_cholesky` (`covariance.py:174-187`): the first jitter for which
the factorisation succeeds. Result: the matrix factorised and its factor. -/
noncomputable def choleskyLoop {n : ℕ} (cov_X_X : Matrix (Fin n) (Fin n) ℝ) :
    List ℝ → Py (Matrix (Fin n) (Fin n) ℝ × Matrix (Fin n) (Fin n) ℝ)
  | [] => .error .value
  | jitter_cov :: t =>
    let cov' := cov_X_X + jitter_cov • npEye n n
    match spCholesky cov' with
    | .ok lower => .ok (cov', lower)
    | .error _ => choleskyLoop cov_X_X t

/-- `get_kernel_cholesky` (`covariance.py:129-194`). -/
noncomputable def getKernelCholesky {n d : ℕ} (X_train : Inputs n d) (hyps : HypDict)
    (str_cov : String) (fix_noise : Bool := FIX_GP_NOISE) (use_gradient : Bool := false) :
    Py (Matrix (Fin n) (Fin n) ℝ × Matrix (Fin n) (Fin n) ℝ ×
      Option (List (Matrix (Fin n) (Fin n) ℝ))) := do
  checkStrCov str_cov X_train.rank
  let cov_X_X ← noisyCov X_train hyps str_cov
  let (cov_X_X, lower) ← choleskyLoop cov_X_X jitters
  if use_gradient then
    let grad ← gradCovMain str_cov X_train X_train hyps fix_noise
    return (cov_X_X, lower, some grad)
  else return (cov_X_X, lower, none)

end Verif.Covariance
