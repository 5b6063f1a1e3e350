import Verif.Model.Rounded

/-!
# Sampling, normalisation and curves with rounding and overflow

The functions of `Rounded.lean` once more, with operations that follow IEEE 754 where a result is
too large for a double: it becomes an infinity, and operations on infinities may give NaN. The
warnings that numpy prints in these cases are not modelled. Signs of zeros are left out.
-/

namespace Verif.Overflow

open Verif.Constants Verif.BaseBo Verif.UtilsCommon

variable (fl : ℝ → ℝ)

/-- Rounding to a double (IEEE 754, 4.3.1 and 7.4): a number is rounded as if exponents had no bound
and becomes an infinity if the result is not below `2^1024` in size. -/
noncomputable def round (x : ℝ) : Flt :=
  if 2 ^ 1024 ≤ fl x then .pinf else if fl x ≤ -2 ^ 1024 then .ninf else .fin (fl x)

/-- Round a number; infinities and NaN stay. -/
noncomputable def roundF : Flt → Flt
  | .fin x => round fl x
  | a => a

/-- `a + b` -/
noncomputable def add (a b : Flt) : Flt := roundF fl (a.add b)

/-- `a - b` -/
noncomputable def sub (a b : Flt) : Flt := roundF fl (a.sub b)

/-- An infinity with the sign of `x`; NaN for `x = 0`. -/
noncomputable def signedInf (x : ℝ) : Flt := if 0 < x then .pinf else if x < 0 then .ninf else .nan

/-- `a * b`; zero times an infinity is NaN. -/
noncomputable def mul : Flt → Flt → Flt
  | .nan, _ => .nan
  | _, .nan => .nan
  | .fin x, .fin y => round fl (x * y)
  | .fin x, .pinf => signedInf x
  | .fin x, .ninf => signedInf (-x)
  | .pinf, .fin y => signedInf y
  | .ninf, .fin y => signedInf (-y)
  | .pinf, .pinf => .pinf
  | .ninf, .ninf => .pinf
  | _, _ => .ninf

/-- `a / b` for a positive `b`, the only divisors here: the numbers 2, 4 and `num - 1`, the number of
rounds, and the distance of two different responses. -/
noncomputable def divPos : Flt → Flt → Flt
  | .nan, _ => .nan
  | _, .nan => .nan
  | .fin x, .fin y => round fl (x / y)
  | .fin _, _ => .fin 0
  | a, .fin _ => a
  | _, _ => .nan

/-- `np.clip`, which keeps NaN. -/
noncomputable def clip (x : Flt) (a b : ℝ) : Flt :=
  match x with
  | .fin x => .fin (BaseBo.clip x a b)
  | .pinf => .fin b
  | .ninf => .fin (min a b)
  | .nan => .nan

/-- A float that is a number. -/
def IsFinite : Flt → Prop
  | .fin _ => True
  | _ => False

/-- The width of side `j`, `range_X[j, 1] - range_X[j, 0]`. -/
noncomputable def width {d : ℕ} (range_X : Bounds d) (j : Fin d) : Flt :=
  sub fl (.fin (range_X j).2) (.fin (range_X j).1)

/-- `normalize_min_max` (`utils_bo.py:27-47`). -/
noncomputable def normalizeMinMax (Y : List ℝ) : Py (List Flt) := do
  let mx ← npMax Y
  let mn ← npMin Y
  if mx ≠ mn then
    return Y.map (fun y => mul fl (divPos fl (sub fl (.fin y) (.fin mn)) (sub fl (.fin mx) (.fin mn)))
      (.fin MULTIPLIER_RESPONSE))
  else
    return Y.map Flt.fin

open Classical in
/-- `_get_samples_uniform` (`base_bo.py:140-170`): numpy's `uniform(a, b)` raises an `OverflowError`
if `b - a` is not finite. -/
noncomputable def getSamplesUniform {d : ℕ} (range_X : Bounds d) (r : Draws d)
    (num_samples : ℤ) : Py (List (Fin d → Flt)) :=
  if 0 < num_samples ∧ ∃ j, ¬ IsFinite (width fl range_X j) then .error .overflow
  else .ok ((List.range num_samples.toNat).map (fun (i : ℕ) (j : Fin d) =>
    add fl (.fin (range_X j).1) (mul fl (width fl range_X j) (.fin (r.uniform (i * d + j))))))

/-- `_get_samples_gaussian` (`base_bo.py:172-209`). -/
noncomputable def getSamplesGaussian {d : ℕ} (range_X : Bounds d) (r : Draws d)
    (num_samples : ℤ) : List (Fin d → Flt) :=
  (List.range num_samples.toNat).map (fun (i : ℕ) (j : Fin d) =>
    let new_mean := divPos fl (add fl (.fin (range_X j).2) (.fin (range_X j).1)) (.fin 2)
    let new_std := divPos fl (width fl range_X j) (.fin 4)
    clip (add fl (mul fl (.fin (r.normal (i * d + j))) new_std) new_mean) (range_X j).1
      (range_X j).2)

/-- `_get_samples_sobol` and `_get_samples_halton` (`base_bo.py:211-237`, `239-265`). -/
noncomputable def getSamplesQmc {d : ℕ} (range_X : Bounds d) (u : ℕ → Fin d → ℝ)
    (num_samples : ℤ) : Py (List (Fin d → Flt)) :=
  if num_samples < 0 then .error .value
  else .ok ((List.range num_samples.toNat).map (fun (i : ℕ) (j : Fin d) =>
    add fl (mul fl (.fin (u i j)) (width fl range_X j)) (.fin (range_X j).1)))

/-- Entry `i` of `np.linspace(a, b, num)` before the last entry is replaced by `b`
(see `Rounded.linspaceEntry`). -/
noncomputable def linspaceEntry (a b div : ℝ) (i : ℕ) : Flt :=
  let delta := sub fl (.fin b) (.fin a)
  let step := divPos fl delta (.fin div)
  if step = .fin 0 then add fl (mul fl (divPos fl (.fin i) (.fin div)) delta) (.fin a)
  else add fl (mul fl (.fin i) step) (.fin a)

/-- `np.linspace(a, b, num)` for `num >= 0`. -/
noncomputable def linspaceNat (a b : ℝ) : ℕ → List Flt
  | 0 => []
  | 1 => [.fin a]
  | (n + 2) => (List.range (n + 1)).map (linspaceEntry fl a b ((n : ℝ) + 1)) ++ [.fin b]

/-- `np.linspace(a, b, num)`: `ValueError` for a negative number of samples. -/
noncomputable def linspace (a b : ℝ) (num : ℤ) : Py (List Flt) :=
  if num < 0 then .error .value else .ok (linspaceNat fl a b num.toNat)

/-- `get_grids` (`utils_common.py:38-69`). -/
noncomputable def getGrids (ranges : List (ℝ × ℝ)) (num_grids : ℤ) : Py (List (List Flt)) := do
  pyAssert (∀ r ∈ ranges, r.1 ≤ r.2)
  let list_grids ← ranges.mapM (fun r => linspace fl r.1 r.2 num_grids)
  meshgridRows list_grids

/-- `_get_samples_grid` (`base_bo.py:121-138`). -/
noncomputable def getSamplesGrid {d : ℕ} (range_X : Bounds d) (num_grids : ℤ) :
    Py (List (Fin d → Flt)) := do
  let rows ← getGrids fl (List.ofFn range_X) num_grids
  rowsToPoints d rows

/-- `get_samples` (`base_bo.py:267-312`). -/
noncomputable def getSamples {d : ℕ} (range_X : Bounds d) (r : Draws d)
    (str_sampling_method : String) (num_samples : ℤ) : Py (List (Fin d → Flt)) := do
  pyAssert (str_sampling_method ∈ ALLOWED_SAMPLING_METHOD)
  if str_sampling_method = "grid" then
    getSamplesGrid fl range_X num_samples
  else if str_sampling_method = "uniform" then
    getSamplesUniform fl range_X r num_samples
  else if str_sampling_method = "gaussian" then
    return getSamplesGaussian fl range_X r num_samples
  else if str_sampling_method = "sobol" then
    getSamplesQmc fl range_X r.sobol num_samples
  else if str_sampling_method = "halton" then
    getSamplesQmc fl range_X r.halton num_samples
  else
    .error .notImplemented

/-- `np.sum` of a column in the order `o` (see `Rounded.sumF`). -/
noncomputable def sumF (l : List Flt) : Rounded.SumOrder → Flt
  | .entry i => l[i]?.getD Flt.nan
  | .add a b => add fl (sumF l a) (sumF l b)

/-- `np.mean` of a (non-empty) column: the sum divided by the length. -/
noncomputable def meanF (o : Rounded.SumOrder) (l : List Flt) : Flt :=
  divPos fl (sumF fl l o) (.fin l.length)

/-- The first two results of `get_minimum` (`utils_common.py:72-126`). -/
noncomputable def getMinimum (o : Rounded.SumOrder) (Y_all : Arr2 Flt) (num_init : ℤ) :
    Py (List (List Flt) × List Flt) := do
  pyAssert ((Y_all.ncols : ℤ) > num_init)
  let minima := Y_all.rows.map (fun by_ => minimaRow by_ num_init)
  let width := (Y_all.ncols - sliceBound Y_all.ncols num_init) + 1
  return (minima, (List.range width).map (fun j => meanF fl o (column minima j)))

end Verif.Overflow
