import Verif.Model.BaseBo

/-!
# Sampling, normalisation and curves with rounding

The functions of `BaseBo.lean`, `UtilsBo.lean` and `UtilsCommon.lean` once more, with every
arithmetic operation followed by a rounding `fl`. Comparisons, `min`, `max` and conversions of
(small) integers are exact in floating point and stay as they are. With `fl = id` these are the
functions without rounding (`Lemmas/Rounded.lean`).
-/

namespace Verif.Rounded

open Verif.Constants Verif.BaseBo Verif.UtilsCommon

variable (fl : ℝ → ℝ)

/-- `normalize_min_max` (`utils_bo.py:27-47`). -/
noncomputable def normalizeMinMax (Y : List ℝ) : Py (List ℝ) := do
  let mx ← npMax Y
  let mn ← npMin Y
  if mx ≠ mn then
    return Y.map (fun y => fl (fl (fl (y - mn) / fl (mx - mn)) * MULTIPLIER_RESPONSE))
  else
    return Y

/-- `_get_samples_uniform` (`base_bo.py:140-170`): numpy computes `uniform(a, b)` as
`a + (b - a) * u`. -/
noncomputable def getSamplesUniform {d : ℕ} (range_X : Bounds d) (r : Draws d)
    (num_samples : ℤ) : List (Point d) :=
  (List.range num_samples.toNat).map (fun (i : ℕ) (j : Fin d) =>
    fl ((range_X j).1 + fl (fl ((range_X j).2 - (range_X j).1) * r.uniform (i * d + j))))

/-- `_get_samples_gaussian` (`base_bo.py:172-209`). -/
noncomputable def getSamplesGaussian {d : ℕ} (range_X : Bounds d) (r : Draws d)
    (num_samples : ℤ) : List (Point d) :=
  (List.range num_samples.toNat).map (fun (i : ℕ) (j : Fin d) =>
    let new_mean := fl (fl ((range_X j).2 + (range_X j).1) / 2)
    let new_std := fl (fl ((range_X j).2 - (range_X j).1) / 4)
    clip (fl (fl (r.normal (i * d + j) * new_std) + new_mean)) (range_X j).1 (range_X j).2)

/-- `_get_samples_sobol` and `_get_samples_halton` (`base_bo.py:211-237`, `239-265`). -/
noncomputable def getSamplesQmc {d : ℕ} (range_X : Bounds d) (u : ℕ → Fin d → ℝ)
    (num_samples : ℤ) : Py (List (Point d)) :=
  if num_samples < 0 then .error .value
  else .ok ((List.range num_samples.toNat).map (fun (i : ℕ) (j : Fin d) =>
    fl (fl (u i j * fl ((range_X j).2 - (range_X j).1)) + (range_X j).1)))

/-- Entry `i` of `np.linspace(a, b, num)` before the last entry is replaced by `b`, where
`div = num - 1` is positive: `i * step + a` with `step = delta / div`, or `(i / div) * delta + a` if
`step` is rounded to zero. -/
noncomputable def linspaceEntry (a b div : ℝ) (i : ℕ) : ℝ :=
  let delta := fl (b - a)
  let step := fl (delta / div)
  if step = 0 then fl (fl (fl ((i : ℝ) / div) * delta) + a) else fl (fl ((i : ℝ) * step) + a)

/-- `np.linspace(a, b, num)` for `num >= 0`. -/
noncomputable def linspaceNat (a b : ℝ) : ℕ → List ℝ
  | 0 => []
  | 1 => [a]
  | (n + 2) => (List.range (n + 1)).map (linspaceEntry fl a b ((n : ℝ) + 1)) ++ [b]

/-- `np.linspace(a, b, num)`: `ValueError` for a negative number of samples. -/
noncomputable def linspace (a b : ℝ) (num : ℤ) : Py (List ℝ) :=
  if num < 0 then .error .value else .ok (linspaceNat fl a b num.toNat)

/-- `get_grids` (`utils_common.py:38-69`). -/
noncomputable def getGrids (ranges : List (ℝ × ℝ)) (num_grids : ℤ) : Py (List (List ℝ)) := do
  pyAssert (∀ r ∈ ranges, r.1 ≤ r.2)
  let list_grids ← ranges.mapM (fun r => linspace fl r.1 r.2 num_grids)
  meshgridRows list_grids

/-- `_get_samples_grid` (`base_bo.py:121-138`). -/
noncomputable def getSamplesGrid {d : ℕ} (range_X : Bounds d) (num_grids : ℤ) :
    Py (List (Point d)) := do
  let rows ← getGrids fl (List.ofFn range_X) num_grids
  rowsToPoints d rows

/-- `get_samples` (`base_bo.py:267-312`). -/
noncomputable def getSamples {d : ℕ} (range_X : Bounds d) (r : Draws d)
    (str_sampling_method : String) (num_samples : ℤ) : Py (List (Point d)) := do
  pyAssert (str_sampling_method ∈ ALLOWED_SAMPLING_METHOD)
  if str_sampling_method = "grid" then
    getSamplesGrid fl range_X num_samples
  else if str_sampling_method = "uniform" then
    return getSamplesUniform fl range_X r num_samples
  else if str_sampling_method = "gaussian" then
    return getSamplesGaussian fl range_X r num_samples
  else if str_sampling_method = "sobol" then
    getSamplesQmc fl range_X r.sobol num_samples
  else if str_sampling_method = "halton" then
    getSamplesQmc fl range_X r.halton num_samples
  else
    .error .notImplemented

/-- An order in which the entries of a column may be added. numpy adds in an order that depends on
the shape and the processor; the theorems hold for all of them. -/
inductive SumOrder
  | entry (i : ℕ)
  | add (a b : SumOrder)

namespace SumOrder

/-- The positions that are added. -/
def entries : SumOrder → List ℕ
  | entry i => [i]
  | add a b => a.entries ++ b.entries

/-- Every one of the `n` entries is added once. -/
def Covers (o : SumOrder) (n : ℕ) : Prop := o.entries.Perm (List.range n)

end SumOrder

/-- Round a float; infinities and NaN stay. -/
def roundF : Flt → Flt
  | .fin x => .fin (fl x)
  | a => a

/-- `np.sum` of a column in the order `o`. A position beyond the column does not occur for an order
that covers the column; it is given as NaN. -/
def sumF (l : List Flt) : SumOrder → Flt
  | .entry i => l[i]?.getD Flt.nan
  | .add a b => roundF fl ((sumF l a).add (sumF l b))

/-- `np.mean` of a (non-empty) column: the sum divided by the length. -/
noncomputable def meanF (o : SumOrder) (l : List Flt) : Flt :=
  roundF fl ((sumF fl l o).divPos l.length)

/-- The first two results of `get_minimum` (`utils_common.py:72-126`): the running minima, which need
no rounding, and their means over the rounds. -/
noncomputable def getMinimum (o : SumOrder) (Y_all : Arr2 Flt) (num_init : ℤ) :
    Py (List (List Flt) × List Flt) := do
  pyAssert ((Y_all.ncols : ℤ) > num_init)
  let minima := Y_all.rows.map (fun by_ => minimaRow by_ num_init)
  let width := (Y_all.ncols - sliceBound Y_all.ncols num_init) + 1
  return (minima, (List.range width).map (fun j => meanF fl o (column minima j)))

/-- `np.cumsum`, starting from the accumulated value `s`. -/
noncomputable def cumsum (s : ℝ) : List ℝ → List ℝ
  | [] => []
  | x :: t => fl (s + x) :: cumsum (fl (s + x)) t

/-- Body of the loop of `get_time` (`utils_common.py:163-169`). The accumulation starts at 0, which
does not change the first (double) entry. -/
noncomputable def timeRow (time_ : List ℝ) (num_init : ℤ) (include_init : Bool) : List ℝ :=
  let time_ := if include_init then sliceFrom time_ num_init else time_
  [0] ++ cumsum fl 0 time_

/-- `get_time` (`utils_common.py:129-172`). -/
noncomputable def getTime (o : SumOrder) (time_all : Arr2 ℝ) (num_init : ℤ)
    (include_init : Bool) : Py (List Flt) := do
  if include_init then pyAssert ((time_all.ncols : ℤ) > num_init)
  let list_time := time_all.rows.map (fun t => timeRow fl t num_init include_init)
  let width :=
    (if include_init then time_all.ncols - sliceBound time_all.ncols num_init
      else time_all.ncols) + 1
  return (List.range width).map
    (fun j => meanF fl o ((column list_time j).map Flt.fin))

end Verif.Rounded
