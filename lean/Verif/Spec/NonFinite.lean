import Verif.Model.NonFinite
import Verif.Spec.Kernels
import Verif.Spec.Total

/-! Vocabulary for responses that are infinite or NaN (C119, C120). -/

namespace Verif.Spec

open Verif.Trees Verif.NonFinite

variable {d : ℕ}

/-- A finite number. -/
def IsNumber (y : Flt) : Prop := ∃ x : ℝ, y = .fin x

/-- A tree on finite responses, seen as a tree on responses. -/
def asTreeF : Tree d → TreeF d
  | .leaf rows => .leaf (rows.map fun p => (p.1, .fin p.2))
  | .node i v l r => .node i v (asTreeF l) (asTreeF r)

/-- Runs that fit a Gaussian process by the marginal likelihood, with a kernel of the package, in every
step. -/
structure FitsEachStep (a : WrapperClass.Args d) : Prop where
  surrogate : a.str_surrogate = "gp"
  selection : a.str_modelselection_method = "ml"
  mode : a.str_mlm_method = "regular" ∨ a.str_mlm_method = "combined"
  cov : a.str_cov ∈ baseNames
  prior : PriorTotal a.prior_mu

/-- Surroundings whose step is the one of the object wherever the model follows it to its end; where it
does not (`outOfModel`), the step may do anything. -/
def FollowsSteps (w : WrapperClass.BayesianOptimization d) (o : WrapperClass.RunOracles d)
    (clock : ℕ → ℝ) (env : WrappersBo.Env d (WrapperClass.ModelState × ℕ)) : Prop :=
  ∀ s t X Y, (NonFinite.step w o clock s t X Y).2 ≠ .error .outOfModel →
    env.step s t X Y = NonFinite.step w o clock s t X Y

end Verif.Spec
