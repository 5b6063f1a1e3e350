import Verif.Model.WrapperClass
import Verif.Spec.Total

/-! Vocabulary for `BayesianOptimization` objects (C56, C72). -/

namespace Verif.Spec

open Verif.WrapperClass

/-- The arguments the class documents: an interval per dimension, positive counts, and the names it
lists. -/
structure Documented {d : ℕ} (a : Args d) : Prop where
  box : ∀ i, (a.range_X i).1 ≤ (a.range_X i).2
  num_iter : 0 < a.num_iter
  num_samples : 0 < a.num_samples_ao
  surrogate : a.str_surrogate ∈ ["gp", "tp", "rf"]
  cov : a.str_cov ∈ ["eq", "se", "matern32", "matern52",
    "set_eq", "set_se", "set_matern32", "set_matern52"]
  acq : a.str_acq ∈ ["pi", "ei", "ucb", "aei", "pure_exploit", "pure_explore"]
  initial : a.str_initial_method_bo ∈ ["uniform", "gaussian", "sobol", "halton"]
  sampling : a.str_sampling_method_ao ∈ ["uniform", "gaussian", "sobol", "halton", "grid"]
  gp : a.str_optimizer_method_gp ∈ ["BFGS", "L-BFGS-B", "Nelder-Mead", "SLSQP", "SLSQP-Bounded"]
  tp : a.str_optimizer_method_tp ∈ ["L-BFGS-B", "SLSQP"]
  bo : a.str_optimizer_method_bo ∈ ["L-BFGS-B", "DIRECT", "CMA-ES", "random_search"]
  mlm : a.str_mlm_method ∈ ["regular", "combined", "converged"]
  selection : a.str_modelselection_method ∈ ["ml", "loocv"]

/-- The acquisition optimiser is one for that surrogate. -/
def Matching (surrogate optimizer : String) : Prop :=
  (surrogate = "rf" ∧ optimizer = "random_search") ∨
  (surrogate ≠ "rf" ∧ optimizer ≠ "random_search")

/-- The combinations of options that the surrogates can use: a covariance function on points, a prior
mean with a value at all points, and leave-one-out selection only with a lengthscale per
coordinate (C58, C59). -/
structure Runnable {d : ℕ} (a : Args d) : Prop where
  dim : 0 < d
  cov : a.str_surrogate ≠ "rf" → a.str_cov ∈ ["eq", "se", "matern32", "matern52"]
  prior : a.str_surrogate ≠ "rf" → PriorTotal a.prior_mu
  selection : a.str_surrogate = "gp" →
    a.str_modelselection_method = "ml" ∨ a.use_ard = true ∨ d = 1

/-- The routines work in every step of a run: the minimiser of the hyperparameters for the surrogate
in question, the optimisers of the acquisition function, the random choices of the forests. -/
structure RunsWell {d : ℕ} (a : Args d) (o : RunOracles d) : Prop where
  gp : a.str_surrogate = "gp" →
    ∀ k, Minimizes (o.routines k).fitHyps (FitVector (scaleCount a.use_ard d))
  tp : a.str_surrogate = "tp" →
    ∀ k, Minimizes (o.routines k).fitHyps (FitVectorT (scaleCount a.use_ard d))
  acq : ∀ k, AcqOptimizes (o.routines k) a.range_X
  forest : ∀ k, ForestRndOk (o.forest k) true

/-- The acquisition optimiser that is used: L-BFGS-B instead of one that cannot run, the requested one
otherwise. -/
def usedOptimizer (env : UtilsBo.Installed) (d : ℕ) (m : String) : String :=
  if (m = "DIRECT" ∧ env.direct = false) ∨ (m = "CMA-ES" ∧ (env.cma = false ∨ d = 1)) then "L-BFGS-B"
  else m

/-- A response in another unit (`a y + b`). -/
noncomputable def inUnit (a b : ℝ) : Flt → Flt
  | .fin y => .fin (a * y + b)
  | y => y

/-- The responses are normalised before every fit: the option is on, and the fitting mode is not
'converged'. -/
def Normalizes {d : ℕ} (a : Args d) : Prop :=
  a.normalize_Y = true ∧ (a.str_surrogate = "gp" → a.str_mlm_method ≠ "converged")

end Verif.Spec
