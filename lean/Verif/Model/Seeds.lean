import Verif.Model.WrapperClass

/-!
# Seeds (`bayeso/bo/base_bo.py:84-105`, and where `seed` is passed on)

`WrapperClass.lean` takes what the generators give as a parameter. Here the parameter is computed
from the seed: a generator started with a seed gives the same numbers in every process, one
started without gives numbers that differ from process to process. Seeds that numpy refuses
(negative ones and those above `2^32 - 1`) are not modelled.
-/

namespace Verif.Seeds

open Verif.BaseBo Verif.BoCommon Verif.Gp Verif.WrappersBo Verif.WrapperClass

variable {d : ℕ}

/-- What the installed libraries do in every process alike: the numbers of a generator started
with a seed (`np.random.RandomState(seed)`, `Sobol(seed=seed)`, `Halton(seed=seed)`),
`scipy.optimize.minimize` for the hyperparameters and for the acquisition function, and
`scipydirect.minimize`. -/
structure Library (d : ℕ) where
  seeded : ℤ → Draws d
  fitHyps : Minimize
  lbfgsb : (Point d → Py Flt) → Point d → Bounds d → Py (Point d)
  direct : (Point d → Py Flt) → Bounds d → Py (Point d)

/-- What differs from process to process: the numbers of the `k`-th generator started without a
seed, and in step `k` what `cma.fmin` does (it takes its seed from the clock) and the calls of
the global generator `np.random` a forest makes. -/
structure Entropy (d : ℕ) where
  fresh : ℕ → Draws d
  cma : ℕ → (Point d → Py Flt) → Point d → ℝ → Bounds d → Py (Point d)
  forest : ℕ → Trees.ForestRnd d

/-- `_get_random_state` (`base_bo.py:84-105`), with `k` generators started without a seed so far;
the argument `seed` of `scsqmc.Sobol` and `scsqmc.Halton` (`base_bo.py:232`, `260`) has the same
meaning. -/
def getRandomState (L : Library d) (E : Entropy d) (k : ℕ) : Option ℤ → Draws d
  | some seed => L.seeded seed
  | none => E.fresh k

/-- The routines of step `k` when `model_bo.optimize` is given `seed`: it hands the seed to
`get_samples` and to nothing else (`bo_w_gp.py:143`, `178`, `462`; `bo_w_tp.py:134`, `169`, `384`;
`bo_w_trees.py:254`). -/
def stepRoutines (L : Library d) (E : Entropy d) (k : ℕ) (seed : Option ℤ) : Oracles d where
  fitHyps := L.fitHyps
  lbfgsb := L.lbfgsb
  direct := L.direct
  cma := E.cma k
  draws := getRandomState L E (k + 1) seed

/-- The routines of a run: `optimize_single_iteration` (`wrappers_bo_class.py:292-312`) calls
`model_bo.optimize` without `seed`, whose default is `None`. -/
def runRoutines (L : Library d) (E : Entropy d) : RunOracles d where
  routines k := stepRoutines L E k none
  forest := E.forest

/-- `BayesianOptimization.optimize(num_init, seed)` (`wrappers_bo_class.py:490-541`) in a process:
`seed` is used by `get_initials` (line 529). -/
noncomputable def optimize (w : BayesianOptimization d) (L : Library d) (E : Entropy d)
    (clock : ℕ → ℝ) (target : ℕ → Point d → Py Flt) (num_init : ℤ) (seed : Option ℤ := none) :
    RunM d (ModelState × ℕ) (LoopSt d) :=
  WrapperClass.optimize w (runRoutines L E) clock target (getRandomState L E 0 seed) num_init

end Verif.Seeds
