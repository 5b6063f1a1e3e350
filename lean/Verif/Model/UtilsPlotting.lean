import Verif.Model.UtilsCommon

/-!
# `bayeso/utils/utils_plotting.py`

Only the data handed to matplotlib is modelled (which curves, which points), for
`plot_minimum_vs_iter`, `plot_minimum_vs_time` and the training points of `plot_bo_step` /
`plot_bo_step_with_acq`.
-/

namespace Verif.UtilsPlotting

open Verif.UtilsCommon

/-- One curve: abscissae, mean best-so-far values and their standard deviations. -/
structure Curve where
  x : List ℝ
  y : List Flt
  std : List Flt

/-- The data part of `plot_minimum_vs_iter` (`utils_plotting.py:437-456`). `minima` has shape
`(b, r, t)`: `b` arrays with `t` columns each; `labels` is `len(list_str_label)`. -/
noncomputable def minimumVsIterData (minima : List (Arr2 Flt)) (t : ℕ) (labels : ℕ)
    (num_init : ℤ) : Py (List Curve) := do
  pyAssert (minima.length = labels)
  pyAssert ((t : ℤ) ≥ num_init)
  minima.mapM (fun arr_minimum => do
    let r ← getMinimum arr_minimum num_init
    return ⟨(List.range r.mean.length).map (fun i : ℕ => (i : ℝ)), r.mean, r.std⟩)

/-- The data part of `plot_minimum_vs_time` (`utils_plotting.py:586-610`). `times` has shape
`(b, r, tt)` and `minima` has shape `(b, r, t)`; the numbers of rounds are compared through
the first arrays. -/
noncomputable def minimumVsTimeData (times : List (Arr2 ℝ)) (tt : ℕ) (minima : List (Arr2 Flt))
    (t : ℕ) (r_times r_minima : ℕ) (labels : ℕ) (num_init : ℤ) : Py (List Curve) := do
  pyAssert (times.length = minima.length ∧ minima.length = labels)
  pyAssert (r_times = r_minima)
  pyAssert ((t : ℤ) ≥ num_init)
  pyAssert (tt = t ∨ (tt : ℤ) + num_init = t)
  (List.zip times minima).mapM (fun p => do
    let r ← getMinimum p.2 num_init
    let x_data ← getTime p.1 num_init (decide (tt = t))
    return ⟨x_data, r.mean, r.std⟩)

/-- Python `l[i:j]`. -/
def slice {α : Type _} (l : List α) (i j : ℤ) : List α :=
  (l.take (sliceBound l.length j)).drop (sliceBound l.length i)

/-- The groups of training points drawn by `plot_bo_step` (`utils_plotting.py:748-749,
767-782`): initial points, later points, newest point. The same code is repeated in
`plot_bo_step_with_acq`. -/
def boStepGroups {α : Type _} (X : List α) (num_init : Option ℤ) : Py (List (List α)) := do
  match num_init with
  | some num_init =>
    pyAssert ((X.length : ℤ) ≥ num_init)
    if (X.length : ℤ) > num_init then
      let last ← pyLast X
      return [sliceTo X num_init, slice X num_init (-1), [last]]
    else
      return [X]
  | none =>
    let last ← pyLast X
    return [sliceTo X (-1), [last]]

end Verif.UtilsPlotting
