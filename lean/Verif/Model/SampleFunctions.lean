import Verif.Model.Gp

/-!
# `sample_functions` of `bayeso/gp/gp.py` and `bayeso/tp/tp.py`
-/

namespace Verif.SampleFunctions

/-- `scipy.stats.multivariate_normal(mean, cov)`: it may raise (`ValueError` for a matrix that is
not positive semidefinite; `LinAlgError` for a singular one, which is a `ValueError` in current
numpy, so both are `PyErr.value` here); otherwise the values are what the calls of `rvs()`
return one after the other. -/
structure Normal where
  frozen : ∀ {n : ℕ}, (Fin n → ℝ) → Matrix (Fin n) (Fin n) ℝ → Py (ℕ → Fin n → ℝ)

/-- A numpy array of shape `(k,)` or `(k, n)`. -/
inductive Array12
  | flat (v : List ℝ)
  | rows (v : List (List ℝ))

/-- `np.array([rv.rvs() for _ in range(0, num_samples)])`. `rvs()` squeezes its output: over one
point it returns a number, so the array has rank one, and so has the array of an empty list. -/
def stack {n : ℕ} (rvs : ℕ → Fin n → ℝ) (num_samples : ℤ) : Array12 :=
  if num_samples ≤ 0 then .flat []
  else if h : n = 1 then .flat ((List.range num_samples.toNat).map fun k => rvs k ⟨0, by omega⟩)
  else .rows ((List.range num_samples.toNat).map fun k => List.ofFn (rvs k))

/-- `sample_functions` of a Gaussian process (`gp.py:21-52`). The shape assertions hold by
typing. -/
def sampleFunctions (g : Normal) {n : ℕ} (mu : Fin n → ℝ) (Sigma : Matrix (Fin n) (Fin n) ℝ)
    (num_samples : ℤ) : Py Array12 := do
  let rv ← g.frozen mu Sigma
  return stack rv num_samples

/-- The mixing variables of `sample_functions` of a Student-t process (`tp.py:51-54`); `chi ν i` is
the `i`-th entry of the array `np.random.chisquare` returns. -/
noncomputable def mixing (chi : ℝ → ℕ → ℝ) (nu : Flt) (num_samples : ℤ) : Py (List ℝ) :=
  match nu with
  | .pinf => .ok (List.replicate num_samples.toNat 1)
  | .fin ν =>
    if ν ≤ 0 ∨ num_samples < 0 then .error .value
    else .ok ((List.range num_samples.toNat).map fun i => chi ν i / ν)
  | .ninf => .error .value
  | .nan => .error .outOfModel

/-- `mu[np.newaxis, ...] + samples / np.sqrt(x)[..., np.newaxis]` and the assertion on its shape
(`tp.py:60-61`). Over one point `samples` has shape `(k,)`, so the quotient broadcasts to
`(k, k)`; for no samples it has shape `(0, 0)`. A mixing variable that is not positive leads to
infinities or NaN, which are not followed. -/
noncomputable def combine {n : ℕ} (mu : Fin n → ℝ) (rvs : ℕ → Fin n → ℝ) (x : List ℝ)
    (num_samples : ℤ) : Py Array12 :=
  if num_samples ≤ 0 then
    if n = 0 then (if num_samples = 0 then .ok (.rows []) else .error .assertion)
    else if n = 1 then .error .assertion
    else .error .value
  else if n = 1 ∧ num_samples ≠ 1 then .error .assertion
  else if ∃ a ∈ x, a ≤ 0 then .error .outOfModel
  else .ok (.rows (x.mapIdx fun k a => List.ofFn fun i => mu i + rvs k i / √a))

/-- `sample_functions` of a Student-t process (`tp.py:23-63`). The shape assertions on the
arguments hold by typing. -/
noncomputable def sampleFunctionsTp (g : Normal) (chi : ℝ → ℕ → ℝ) (nu : Flt) {n : ℕ}
    (mu : Fin n → ℝ) (Sigma : Matrix (Fin n) (Fin n) ℝ) (num_samples : ℤ) : Py Array12 := do
  let x ← mixing chi nu num_samples
  let rv ← g.frozen (fun _ => 0) Sigma
  combine mu rv x num_samples

/-- `a[:, 0]`: an `IndexError` for an array of rank one and for rows without entries. -/
def firstColumn : Array12 → Py (List ℝ)
  | .flat _ => .error .index
  | .rows l => l.mapM fun r => pyIndex r 0

end Verif.SampleFunctions
