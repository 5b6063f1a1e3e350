import Verif.Model.UtilsBo
import Verif.Model.UtilsCommon

/-!
# `bayeso/bo/base_bo.py`: construction and sampling

Random number generators are oracles. A generator started from a seed is the stream of its
outputs; which stream belongs to which seed is not modelled.
-/

namespace Verif.BaseBo

open Verif.Constants

/-- The outputs of the generators for one seed: `RandomState.uniform(0, 1)` and
`RandomState.randn()` by call number, the rows of a scrambled Sobol' and of a scrambled
Halton sequence. -/
structure Draws (d : ℕ) where
  uniform : ℕ → ℝ
  normal : ℕ → ℝ
  sobol : ℕ → Fin d → ℝ
  halton : ℕ → Fin d → ℝ

/-- `np.clip(x, a, b)`, which is `minimum(maximum(x, a), b)`. -/
noncomputable def clip (x a b : ℝ) : ℝ := min (max x a) b

/-- `_get_samples_uniform` (`base_bo.py:140-170`): `uniform(a, b)` is `a + (b - a) * u`. A
non-positive `num_samples` gives no row. -/
noncomputable def getSamplesUniform {d : ℕ} (range_X : Bounds d) (r : Draws d)
    (num_samples : ℤ) : List (Point d) :=
  (List.range num_samples.toNat).map (fun (i : ℕ) (j : Fin d) =>
    (range_X j).1 + ((range_X j).2 - (range_X j).1) * r.uniform (i * d + j))

/-- `_get_samples_gaussian` (`base_bo.py:172-209`). -/
noncomputable def getSamplesGaussian {d : ℕ} (range_X : Bounds d) (r : Draws d)
    (num_samples : ℤ) : List (Point d) :=
  (List.range num_samples.toNat).map (fun (i : ℕ) (j : Fin d) =>
    let new_mean := ((range_X j).2 + (range_X j).1) / 2
    let new_std := ((range_X j).2 - (range_X j).1) / 4
    clip (r.normal (i * d + j) * new_std + new_mean) (range_X j).1 (range_X j).2)

/-- `_get_samples_sobol` and `_get_samples_halton` (`base_bo.py:211-237`, `239-265`): scale
rows of the unit cube. A negative number of rows is a `ValueError` of scipy. -/
noncomputable def getSamplesQmc {d : ℕ} (range_X : Bounds d) (u : ℕ → Fin d → ℝ)
    (num_samples : ℤ) : Py (List (Point d)) :=
  if num_samples < 0 then .error .value
  else .ok ((List.range num_samples.toNat).map (fun (i : ℕ) (j : Fin d) =>
    u i j * ((range_X j).2 - (range_X j).1) + (range_X j).1))

/-- Rows of length `d` as points. (Conversion of the model only; `C13` shows that it does not
fail.) -/
def rowsToPoints {α : Type} (d : ℕ) : List (List α) → Py (List (Fin d → α))
  | [] => .ok []
  | row :: rest =>
    if h : row.length = d then do
      let t ← rowsToPoints d rest
      return (fun j => row[j.val]'(by rw [h]; exact j.isLt)) :: t
    else .error .outOfModel

/-- `_get_samples_grid` (`base_bo.py:121-138`). -/
noncomputable def getSamplesGrid {d : ℕ} (range_X : Bounds d) (num_grids : ℤ) :
    Py (List (Point d)) := do
  let rows ← UtilsCommon.getGrids (List.ofFn range_X) num_grids
  rowsToPoints d rows

/-- `get_samples` (`base_bo.py:267-312`). -/
noncomputable def getSamples {d : ℕ} (range_X : Bounds d) (r : Draws d)
    (str_sampling_method : String) (num_samples : ℤ) : Py (List (Point d)) := do
  pyAssert (str_sampling_method ∈ ALLOWED_SAMPLING_METHOD)
  if str_sampling_method = "grid" then
    getSamplesGrid range_X num_samples
  else if str_sampling_method = "uniform" then
    return getSamplesUniform range_X r num_samples
  else if str_sampling_method = "gaussian" then
    return getSamplesGaussian range_X r num_samples
  else if str_sampling_method = "sobol" then
    getSamplesQmc range_X r.sobol num_samples
  else if str_sampling_method = "halton" then
    getSamplesQmc range_X r.halton num_samples
  else
    .error .notImplemented

/-- `get_initials` (`base_bo.py:314-339`). -/
noncomputable def getInitials {d : ℕ} (range_X : Bounds d) (r : Draws d)
    (str_initial_method : String) (num_initials : ℤ) : Py (List (Point d)) := do
  pyAssert (str_initial_method ∈ ALLOWED_INITIALIZING_METHOD_BO)
  getSamples range_X r str_initial_method num_initials

/-- The attributes of a `BaseBO` object that are read later (`base_bo.py:67-77`). -/
structure BaseBO (d : ℕ) where
  range_X : Bounds d
  str_surrogate : String
  str_acq : String
  str_optimizer_method_bo : String
  normalize_Y : Bool

/-- `BaseBO.__init__` (`base_bo.py:39-82`). The type checks hold by typing; the logger is
modelled in `UtilsLogger.lean`. -/
noncomputable def initBase {d : ℕ} (env : UtilsBo.Installed) (range_X : Bounds d)
    (str_surrogate str_acq str_optimizer_method_bo : String) (normalize_Y : Bool) :
    Py (BaseBO d) := do
  pyAssert (∀ i, (range_X i).1 ≤ (range_X i).2)
  pyAssert (str_surrogate ∈ ALLOWED_SURROGATE ++ ALLOWED_SURROGATE_TREES)
  pyAssert (str_acq ∈ ALLOWED_BO_ACQ)
  pyAssert (str_optimizer_method_bo ∈
    ALLOWED_OPTIMIZER_METHOD_BO ++ ALLOWED_OPTIMIZER_METHOD_BO_TREES)
  let str_optimizer_method_bo ←
    UtilsBo.checkOptimizerMethodBo env str_optimizer_method_bo d
  return { range_X, str_surrogate, str_acq, str_optimizer_method_bo, normalize_Y }

end Verif.BaseBo
