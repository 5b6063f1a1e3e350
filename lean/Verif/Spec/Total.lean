import Verif.Model.BoCommon
import Verif.Model.BoWTrees
import Verif.Spec.Run
import Verif.Spec.Trees

/-! What C71 expects of the numerical routines and the data handed to one optimisation step. -/

namespace Verif.Spec

open Verif.Gp Verif.BoCommon

/-- A hyperparameter vector of a Gaussian process with the noise fixed: the signal and `k`
lengthscales, finite and not zero. -/
def FitVector (k : ℕ) (v : List Flt) : Prop :=
  ∃ (s : ℝ) (ls : List ℝ), v = (s :: ls).map Flt.fin ∧ ls.length = k ∧ s ≠ 0 ∧ ∀ a ∈ ls, a ≠ 0

/-- The same for a Student-t process: preceded by more than two degrees of freedom. -/
def FitVectorT (k : ℕ) (v : List Flt) : Prop :=
  ∃ (ν s : ℝ) (ls : List ℝ), v = (ν :: s :: ls).map Flt.fin ∧ ls.length = k ∧ 2 < ν ∧ s ≠ 0 ∧
    ∀ a ∈ ls, a ≠ 0

/-- A minimiser started at an admissible vector returns an admissible one, provided the objective
has a value (and, where asked for, a gradient) at every admissible vector. -/
def Minimizes (m : Minimize) (Admissible : List Flt → Prop) : Prop :=
  ∀ method f x0 bounds jac, Admissible x0 →
    (∀ v, Admissible v → ∃ y g, f v = .ok (y, g) ∧ (jac = true → g ≠ none)) →
    ∃ v, Admissible v ∧ m method f x0 bounds jac = .ok v

/-- The optimisers of the acquisition function return points of the box, provided the function has
a finite value at every point of the box; the random generators keep their promise. -/
structure AcqOptimizes {d : ℕ} (o : Oracles d) (B : Bounds d) : Prop where
  lbfgsb : ∀ f x0, InBox B x0 → (∀ q, InBox B q → ∃ v, f q = .ok (.fin v)) →
    ∃ q, InBox B q ∧ o.lbfgsb f x0 B = .ok q
  direct : ∀ f, (∀ q, InBox B q → ∃ v, f q = .ok (.fin v)) →
    ∃ q, InBox B q ∧ o.direct f B = .ok q
  cma : ∀ f x0 σ0, InBox B x0 → (∀ q, InBox B q → ∃ v, f q = .ok (.fin v)) →
    ∃ q, InBox B q ∧ o.cma f x0 σ0 B = .ok q
  draws : UnitDraws o.draws

/-- A prior mean that gives every array of points a column of the right length. -/
def PriorTotal {d : ℕ} (prior : PriorMu d) : Prop :=
  ∀ (n : ℕ) (X : Fin n → Point d), ∃ μ, getPriorMu prior (.vec X) = .ok μ

/-- The number of lengthscales a fit determines: one per coordinate, or one for all. -/
def scaleCount (use_ard : Bool) (d : ℕ) : ℕ := if use_ard then d else 1

/-- The arguments of one call of `optimize` of a Gaussian or Student-t process model (`mlm` is
used by the former only) and the routines it may use. -/
structure StepCall (d : ℕ) where
  n : ℕ
  X : Fin n → Point d
  Y : List ℝ
  routines : Oracles d
  sampling : String
  samples : ℤ
  mlm : String

/-- A call as the documentation asks for: some data, as many responses as inputs, a known sampling
scheme, a positive number of samples, a known fitting mode, and routines that work. -/
structure StepCall.Valid {d : ℕ} (B : Bounds d) (Admissible : List Flt → Prop) (c : StepCall d) :
    Prop where
  nonempty : c.n ≠ 0
  lengths : c.Y.length = c.n
  sampling : c.sampling ∈ ["grid", "uniform", "gaussian", "sobol", "halton"]
  samples : 0 < c.samples
  mlm : c.mlm ∈ ["regular", "combined", "converged"]
  fit : Minimizes c.routines.fitHyps Admissible
  acq : AcqOptimizes c.routines B

end Verif.Spec
