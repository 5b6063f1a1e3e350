import Verif.Model.Basic

/-!
# `bayeso/utils/utils_common.py`
-/

namespace Verif.UtilsCommon

/-- `np.linspace(a, b, num)` for `num >= 0`: `a + i * (b - a)/(num - 1)`, with the last
entry set to `b`; a single entry is `a`. -/
noncomputable def linspaceNat (a b : ℝ) : ℕ → List ℝ
  | 0 => []
  | 1 => [a]
  | (n + 2) =>
    (List.range (n + 1)).map (fun i : ℕ => a + (i : ℝ) * ((b - a) / ((n : ℝ) + 1))) ++ [b]

/-- `np.linspace(a, b, num)`: `ValueError` for a negative number of samples. -/
noncomputable def linspace (a b : ℝ) (num : ℤ) : Py (List ℝ) :=
  if num < 0 then .error .value else .ok (linspaceNat a b num.toNat)

/-- All rows `[x_1, ..., x_k]` with `x_j` from the `j`-th axis; the last axis varies
fastest (C order). -/
def cart {α : Type _} : List (List α) → List (List α)
  | [] => [[]]
  | v :: rest => v.flatMap (fun x => (cart rest).map (x :: ·))

/-- Swap the first two entries of a row. -/
def swap01 {α : Type _} : List α → List α
  | a :: b :: t => b :: a :: t
  | l => l

/-- `np.vstack([g.flatten(order='C') for g in np.meshgrid(*axes)]).T`
(`utils_common.py:62-68`). `meshgrid` uses the default `indexing='xy'`: with two or more
axes the output arrays have the second axis first, so the second coordinate is the slowest
one. `vstack` of no arrays is a `ValueError`. Simplification: the `d` flattened coordinate
arrays are built together as rows, which is what `vstack` and `.T` make of them. -/
def meshgridRows {α : Type _} : List (List α) → Py (List (List α))
  | [] => .error .value
  | [v] => .ok (cart [v])
  | v₀ :: v₁ :: rest => .ok ((cart (v₁ :: v₀ :: rest)).map swap01)

/-- `get_grids` (`utils_common.py:38-69`). `ranges` is the array of shape `(d, 2)`. -/
noncomputable def getGrids (ranges : List (ℝ × ℝ)) (num_grids : ℤ) : Py (List (List ℝ)) := do
  pyAssert (∀ r ∈ ranges, r.1 ≤ r.2)
  let list_grids ← ranges.mapM (fun r => linspace r.1 r.2 num_grids)
  meshgridRows list_grids

/-- Python's builtin `min(a, b)`: `b` if `b < a`, else `a` (a NaN second argument is
ignored). -/
noncomputable def pyMin (a b : Flt) : Flt := if b < a then b else a

/-- The loop `for y in ...: minimum_best = min(minimum_best, y)` (`utils_common.py:106-107`). -/
noncomputable def accMin (b : Flt) (ys : List Flt) : Flt := ys.foldl pyMin b

/-- The loop of `utils_common.py:109-111`: update the minimum and append it. -/
noncomputable def runMin (b : Flt) : List Flt → List Flt
  | [] => []
  | y :: t => pyMin b y :: runMin (pyMin b y) t

/-- Body of the loop over rounds (`utils_common.py:103-112`). -/
noncomputable def minimaRow (by_ : List Flt) (num_init : ℤ) : List Flt :=
  let b0 := accMin Flt.pinf (sliceTo by_ num_init)
  b0 :: runMin b0 (sliceFrom by_ num_init)

/-- Entry `j` of every row (column `j` of an array given by rows). -/
def column {α : Type _} (rows : List (List α)) (j : ℕ) : List α := rows.filterMap (·[j]?)

/-- `np.sum` of a column. -/
def sumF (l : List Flt) : Flt := l.foldl Flt.add (Flt.fin 0)

/-- `np.mean` of a (non-empty) column. -/
noncomputable def meanF (l : List Flt) : Flt := (sumF l).divPos l.length

/-- `np.std(..., ddof=1)` of a column of at least two entries. -/
noncomputable def stdF (l : List Flt) : Flt :=
  ((sumF (l.map (fun x => (x.sub (meanF l)).sq))).divPos ((l.length : ℝ) - 1)).sqrt

/-- Result of `get_minimum`. -/
structure Minima where
  minima : List (List Flt)
  mean : List Flt
  std : List Flt
  sem : List Flt

/-- `get_minimum` (`utils_common.py:72-126`). Without rounds (`r = 0`) numpy's mean of an
empty array is NaN with a warning; the model returns the column-wise formula there and no
theorem speaks about that case. -/
noncomputable def getMinimum (Y_all : Arr2 Flt) (num_init : ℤ) : Py Minima := do
  pyAssert ((Y_all.ncols : ℤ) > num_init)
  let minima := Y_all.rows.map (fun by_ => minimaRow by_ num_init)
  let num_rounds := Y_all.rows.length
  let width := (Y_all.ncols - sliceBound Y_all.ncols num_init) + 1
  let mean := (List.range width).map (fun j => meanF (column minima j))
  let std :=
    if num_rounds > 1 then (List.range width).map (fun j => stdF (column minima j))
    else mean.map (fun _ => Flt.fin 0)
  let sem := std.map (fun s => s.divPos (Real.sqrt num_rounds))
  return ⟨minima, mean, std, sem⟩

/-- `np.cumsum`, starting from the accumulated value `s`. -/
noncomputable def cumsum (s : ℝ) : List ℝ → List ℝ
  | [] => []
  | x :: t => (s + x) :: cumsum (s + x) t

/-- Body of the loop of `get_time` (`utils_common.py:163-169`). -/
noncomputable def timeRow (time_ : List ℝ) (num_init : ℤ) (include_init : Bool) : List ℝ :=
  let time_ := if include_init then sliceFrom time_ num_init else time_
  [0] ++ cumsum 0 time_

/-- `get_time` (`utils_common.py:129-172`). The mean over rounds is taken column by column;
`r = 0` as in `getMinimum`. -/
noncomputable def getTime (time_all : Arr2 ℝ) (num_init : ℤ) (include_init : Bool) :
    Py (List ℝ) := do
  if include_init then pyAssert ((time_all.ncols : ℤ) > num_init)
  let list_time := time_all.rows.map (fun t => timeRow t num_init include_init)
  let width :=
    (if include_init then time_all.ncols - sliceBound time_all.ncols num_init
      else time_all.ncols) + 1
  return (List.range width).map
    (fun j => (column list_time j).sum / ((column list_time j).length : ℝ))

/-- A Python function as the decorator `validate_types` sees it: the names of its positional arguments
(`co_argcount` counts these), of its other arguments (keyword-only, `*args`, `**kwargs`), the keys of
`__annotations__`, and what a call does. -/
structure PyFunction (α β : Type) where
  positional : List String
  others : List String
  annotations : List String
  call : α → β

/-- `validate_types` (`utils_common.py:13-35`): the wrapped function is called with the same
arguments. `functools.wraps` copies the annotations, and lets `inspect` see the old arguments. -/
def validateTypes {α β : Type} (func : PyFunction α β) : Py (PyFunction α β) := do
  let annos := func.annotations
  pyAssert (annos.length = func.positional.length + 1)
  return { func with call := fun args => func.call args }

end Verif.UtilsCommon
