import Mathlib.Data.Real.Basic
import Mathlib.Analysis.Real.Sqrt
import Mathlib.Algebra.BigOperators.Fin

/-!
# Common vocabulary of the model

Python exceptions as values, IEEE-style extended numbers for decision code, points and
bounds, and the few numpy / builtin helpers used by more than one module.
-/

namespace Verif

/-- The Python exception classes that the modelled code can raise.
`linalg` is `numpy.linalg.LinAlgError`. `outOfModel` is not a Python exception: it marks
the places where numeric code would receive an infinite or NaN hyperparameter, which the
exact-real part of the model does not follow. -/
inductive PyErr
  | assertion | value | notImplemented | type | index | key | attribute | overflow | linalg
  | outOfModel
  deriving DecidableEq, Repr

/-- A Python call: a value or a raised exception. -/
abbrev Py (α : Type _) := Except PyErr α

/-- `assert p`. -/
def pyAssert (p : Prop) [Decidable p] : Py Unit :=
  if p then .ok () else .error .assertion

/-- A float as seen by comparisons: a finite number, an infinity or NaN.
Finite floats are idealised as real numbers. -/
inductive Flt
  | fin (x : ℝ)
  | pinf
  | ninf
  | nan

namespace Flt

/-- IEEE `<`: false as soon as one side is NaN. -/
def lt : Flt → Flt → Prop
  | nan, _ => False
  | _, nan => False
  | fin x, fin y => x < y
  | fin _, pinf => True
  | fin _, ninf => False
  | ninf, fin _ => True
  | ninf, pinf => True
  | ninf, ninf => False
  | pinf, _ => False

/-- IEEE `<=`: false as soon as one side is NaN. -/
def le : Flt → Flt → Prop
  | nan, _ => False
  | _, nan => False
  | fin x, fin y => x ≤ y
  | _, pinf => True
  | ninf, _ => True
  | fin _, ninf => False
  | pinf, _ => False

instance : LT Flt := ⟨lt⟩
instance : LE Flt := ⟨le⟩

noncomputable instance : DecidableRel (α := Flt) (· < ·) := fun _ _ => Classical.dec _
noncomputable instance : DecidableRel (α := Flt) (· ≤ ·) := fun _ _ => Classical.dec _
noncomputable instance : DecidableEq Flt := fun _ _ => Classical.dec _

/-- IEEE addition (infinities of opposite sign give NaN). -/
def add : Flt → Flt → Flt
  | nan, _ => nan
  | _, nan => nan
  | fin x, fin y => fin (x + y)
  | fin _, b => b
  | a, fin _ => a
  | pinf, pinf => pinf
  | ninf, ninf => ninf
  | _, _ => nan

/-- IEEE negation. -/
def neg : Flt → Flt
  | nan => nan
  | fin x => fin (-x)
  | pinf => ninf
  | ninf => pinf

/-- IEEE subtraction. -/
def sub (a b : Flt) : Flt := add a (neg b)

/-- Square (`x**2`). -/
def sq : Flt → Flt
  | nan => nan
  | fin x => fin (x * x)
  | _ => pinf

/-- Division by a positive finite number. -/
noncomputable def divPos (a : Flt) (c : ℝ) : Flt :=
  match a with
  | fin x => fin (x / c)
  | b => b

/-- `np.sqrt`: NaN on negative input. -/
noncomputable def sqrt : Flt → Flt
  | nan => nan
  | fin x => if x < 0 then nan else fin (Real.sqrt x)
  | pinf => pinf
  | ninf => nan

end Flt

/-- One input of dimension `d`. -/
abbrev Point (d : ℕ) := Fin d → ℝ

/-- A search space: lower and upper end per dimension (an array of shape `(d, 2)`). -/
abbrev Bounds (d : ℕ) := Fin d → ℝ × ℝ

/-- `np.linalg.norm` of a vector (Euclidean norm). -/
noncomputable def norm2 {d : ℕ} (x : Point d) : ℝ := Real.sqrt (∑ i, x i ^ 2)

/-- `np.max` of a flat array; `ValueError` on an empty one. -/
noncomputable def npMax : List ℝ → Py ℝ
  | [] => .error .value
  | a :: t => .ok (t.foldl max a)

/-- `np.min` of a flat array; `ValueError` on an empty one. -/
noncomputable def npMin : List ℝ → Py ℝ
  | [] => .error .value
  | a :: t => .ok (t.foldl min a)

/-- The scan of `np.argmin`: stop at the first NaN, otherwise move to an entry `x` when
`not (x >= best)`. `i` is the current index, `b` the best value so far, `ib` its index. -/
noncomputable def argminLoop : List Flt → ℕ → Flt → ℕ → ℕ
  | [], _, _, ib => ib
  | x :: t, i, b, ib =>
    if b = Flt.nan then ib
    else if x = Flt.nan ∨ x < b then argminLoop t (i + 1) x i
    else argminLoop t (i + 1) b ib

/-- `np.argmin` of a flat array; `ValueError` on an empty one. -/
noncomputable def npArgmin : List Flt → Py ℕ
  | [] => .error .value
  | a :: t => .ok (argminLoop t 1 a 0)

/-- Python indexing `l[i]` with a non-negative index. -/
def pyIndex {α : Type _} (l : List α) (i : ℕ) : Py α :=
  match l[i]? with
  | some a => .ok a
  | none => .error .index

/-- Python `l[-1]`. -/
def pyLast {α : Type _} (l : List α) : Py α :=
  match l.getLast? with
  | some a => .ok a
  | none => .error .index

/-- Resolve a Python slice bound: negative bounds count from the end, clipped at 0. -/
def sliceBound (len : ℕ) (i : ℤ) : ℕ :=
  if i < 0 then (i + len).toNat else i.toNat

/-- Python `l[:i]`. -/
def sliceTo {α : Type _} (l : List α) (i : ℤ) : List α := l.take (sliceBound l.length i)

/-- Python `l[i:]`. -/
def sliceFrom {α : Type _} (l : List α) (i : ℤ) : List α := l.drop (sliceBound l.length i)

/-- `np.where(p)` on a flat array: the indices at which `p` holds, increasing. -/
noncomputable def npWhere {α : Type _} (p : α → Prop) (l : List α) : List ℕ :=
  open Classical in (l.zipIdx.filter (fun q => p q.1)).map (·.2)

/-- `np.delete(l, inds, axis=0)`: drop the rows whose index is listed. -/
def npDelete {α : Type _} (l : List α) (inds : List ℕ) : List α :=
  (l.zipIdx.filter (fun q => q.2 ∉ inds)).map (·.1)

/-- A two-dimensional array: rows of equal length `ncols`
(`ncols` is `shape[1]`, meaningful even without rows). -/
structure Arr2 (α : Type _) where
  rows : List (List α)
  ncols : ℕ
  wf : ∀ r ∈ rows, r.length = ncols

end Verif
