import Verif.Model.StartLog

/-!
# `bayeso/wrappers/wrappers_bo_function.py` on an object

`WrappersBo.lean` has the loops of these functions for an arbitrary step; here the step is
`model_bo.optimize` of an object of the package, and the assertions and the messages at the start of
a round are included. Arguments of other types than documented are not followed.
-/

namespace Verif.WrapperFunction

open Verif.Constants Verif.UtilsBo Verif.BaseBo Verif.BoCommon Verif.WrappersBo
open Verif.WrapperClass Verif.StartLog

variable {d : ℕ}

/-- `isinstance(model_bo, bo.BO)`, where `BO` is the class of the Gaussian process
(`bo/__init__.py:13`, `wrappers_bo_function.py:63`, `176`, `266`). -/
def isBO : Surrogate d → Bool
  | .gp _ => true
  | .tp _ => false
  | .trees _ => false

/-- `model_bo.optimize(X_final, Y_final, str_sampling_method=..., num_samples=...,
str_mlm_method=...)` (`wrappers_bo_function.py:88-90`), as a step of a run (see `WrappersBo.Env`).
Responses that are infinite or NaN are not followed. -/
noncomputable def roundStep (m : Surrogate d) (a : RoundArgs) (o : RunOracles d) (clock : ℕ → ℝ)
    (s : ModelState × ℕ) (t : ℕ) (X : List (Point d)) (Y : List Flt) :
    ((ModelState × ℕ) × ℕ) × Py (Point d × Info d) :=
  match finites Y with
  | .error e => ((s, t), .error e)
  | .ok Y =>
    let r := modelOptimize m o clock s.2 X Y a.str_sampling_method_ao a.num_samples_ao
      (some a.str_mlm_method) (s.1, t)
    (((r.1.1, s.2 + 1), r.1.2), r.2)

/-- The surroundings of a round. -/
noncomputable def roundEnv (m : Surrogate d) (a : RoundArgs) (o : RunOracles d) (clock : ℕ → ℝ)
    (target : ℕ → Point d → Py Flt) : Env d (ModelState × ℕ) :=
  { clock := clock, target := target, step := roundStep m a o clock }

/-- `run_single_round_with_all_initial_information` (`wrappers_bo_function.py:17-130`). The numbers of
initial inputs and seeds in `a` are not arguments of it. -/
noncomputable def roundAll (m : Surrogate d) (a : RoundArgs) (o : RunOracles d) (clock : ℕ → ℝ)
    (target : ℕ → Point d → Py Flt) (X : List (Point d)) (Y : List Flt) :
    RunM d (ModelState × ℕ) (LoopSt d) := do
  RunM.lift (pyAssert (isBO m = true))
  RunM.lift (pyAssert (a.str_mlm_method ∈ ALLOWED_MLM_METHOD))
  runSingleRoundWithAllInitialInformation (roundEnv m a o clock target) X Y a.num_iter

/-- `run_single_round_with_initial_inputs` (`wrappers_bo_function.py:132-210`). The assertions of the
function it calls are made before already. -/
noncomputable def roundInputs (m : Surrogate d) (a : RoundArgs) (o : RunOracles d) (clock : ℕ → ℝ)
    (target : ℕ → Point d → Py Flt) (X : List (Point d)) : RunM d (ModelState × ℕ) (LoopSt d) := do
  RunM.lift (pyAssert (isBO m = true))
  RunM.lift (pyAssert (a.str_mlm_method ∈ ALLOWED_MLM_METHOD))
  runSingleRoundWithInitialInputs (roundEnv m a o clock target) X a.num_iter

/-- The messages, which read attributes of the Gaussian process model only. -/
noncomputable def messages (m : Surrogate d) (a : RoundArgs) : Py (List String) :=
  match m with
  | .gp bo => roundInfo bo a
  | .tp _ => .error .assertion
  | .trees _ => .error .assertion

/-- `run_single_round` (`wrappers_bo_function.py:212-312`); `r` are the outputs of the generators for
the seed. -/
noncomputable def roundRun (m : Surrogate d) (a : RoundArgs) (o : RunOracles d) (clock : ℕ → ℝ)
    (target : ℕ → Point d → Py Flt) (r : Draws d) : RunM d (ModelState × ℕ) (LoopSt d) := do
  RunM.lift (pyAssert (isBO m = true))
  let _ ← RunM.lift (messages m a)
  runSingleRound (roundEnv m a o clock target)
    (fun n => getInitials m.range_X r a.str_initial_method_bo n) a.num_init a.num_iter

end Verif.WrapperFunction
