import Verif.Model.UtilsBo

/-!
# `bayeso/wrappers/wrappers_bo_class.py` and `bayeso/wrappers/wrappers_bo_function.py`

The run of a Bayesian optimisation. The surrogate model (`model_bo.optimize`) is a parameter
`step`; the three models of the package are instances of it. The target function and the
clock are oracles: `target k x` is what the `k`-th evaluation gives on `x` (so noisy and
failing targets are covered), `clock k` is the `k`-th reading of `time.time()`.
Log output and the progress bar are not modelled.
-/

namespace Verif.WrappersBo

open Verif.Constants Verif.UtilsBo

/-- The part of `dict_info` the wrappers read (`wrappers_bo_class.py:364-367`). -/
structure Info (d : ℕ) where
  next_points : List (Point d)
  acquisitions : List Flt
  time_surrogate : ℝ
  time_acq : ℝ

/-- Surroundings of a run. `step` is `model_bo.optimize`: from the model object's state, the
number of clock readings so far and the data it gives the new model state, the new number
of clock readings, and the outcome. -/
structure Env (d : ℕ) (σ : Type) where
  clock : ℕ → ℝ
  target : ℕ → Point d → Py Flt
  step : σ → ℕ → List (Point d) → List Flt → (σ × ℕ) × Py (Point d × Info d)

/-- What a run changes: the state of the model object, the number of clock readings, and the
list of all points the target was called on. -/
structure World (d : ℕ) (σ : Type) where
  model : σ
  tick : ℕ
  log : List (Point d)

/-- Effects of a run: a new world and an outcome. A Python exception keeps the effects done
before it. -/
def RunM (d : ℕ) (σ : Type) (α : Type) : Type := World d σ → World d σ × Py α

instance {d : ℕ} {σ : Type} : Monad (RunM d σ) where
  pure a := fun w => (w, .ok a)
  bind m f := fun w =>
    match m w with
    | (w', .ok a) => f a w'
    | (w', .error e) => (w', .error e)

variable {d : ℕ} {σ : Type}

/-- A computation without effects other than raising. -/
def RunM.lift {α : Type} (p : Py α) : RunM d σ α := fun w => (w, p)

/-- `time.time()`. -/
def now (env : Env d σ) : RunM d σ ℝ := fun w =>
  ({ w with tick := w.tick + 1 }, .ok (env.clock w.tick))

/-- `fun_target(x)`. -/
def callTarget (env : Env d σ) (x : Point d) : RunM d σ Flt := fun w =>
  ({ w with log := w.log ++ [x] }, env.target w.log.length x)

/-- `model_bo.optimize(X, Y, ...)`. -/
def callStep (env : Env d σ) (X : List (Point d)) (Y : List Flt) :
    RunM d σ (Point d × Info d) := fun w =>
  let r := env.step w.model w.tick X Y
  ({ w with model := r.1.1, tick := r.1.2 }, r.2)

/-- `np.vstack((X_, next_sample))`. A `None` (see `get_next_best_acquisition`) is a
`ValueError` unless the search space is one-dimensional; then numpy stacks it and the target
is called on `None`, which the model does not follow. -/
def vstackRow (X : List (Point d)) (next_sample : Option (Point d)) :
    Py (List (Point d) × Point d) :=
  match next_sample with
  | some p => .ok (X ++ [p], p)
  | none => if d = 1 then .error .outOfModel else .error .value

/-- `np.where(np.linalg.norm(next_sample - X, axis=1) < TOL)[0].shape[0] > 0`
(`wrappers_bo_class.py:270-271`, `wrappers_bo_function.py:99-100`). -/
noncomputable def isRepeated (next_sample : Point d) (X : List (Point d)) : Bool :=
  (npWhere (fun x : Point d =>
    norm2 (fun i => next_sample i - x i) < TOLERANCE_DUPLICATED_ACQ) X).length > 0

/-- `BayesianOptimization._get_next_best_sample` (`wrappers_bo_class.py:240-278`). -/
noncomputable def getNextBestSample (next_sample : Point d) (X : List (Point d))
    (next_samples : List (Point d)) (acq_vals : List Flt) : Py (Option (Point d)) :=
  if isRepeated next_sample X then
    getNextBestAcquisition next_samples acq_vals X
  else
    .ok (some next_sample)

/-- The variables of the loop: data and times so far. -/
structure LoopSt (d : ℕ) where
  X : List (Point d)
  Y : List Flt
  time_all : List ℝ := []
  time_surrogate : List ℝ := []
  time_acq : List ℝ := []

/-- The body of the loop of `optimize_with_all_initial_information`
(`wrappers_bo_class.py:359-388`). -/
noncomputable def classIteration (env : Env d σ) (st : LoopSt d) : RunM d σ (LoopSt d) := do
  let time_iter_start ← now env
  let (next_sample, dict_info) ← callStep env st.X st.Y
  let next_sample ← RunM.lift
    (getNextBestSample next_sample st.X dict_info.next_points dict_info.acquisitions)
  let (X_, next_sample) ← RunM.lift (vstackRow st.X next_sample)
  let _time_to_evaluate_start ← now env
  let y ← callTarget env next_sample
  let _time_to_evaluate_end ← now env
  let time_iter_end ← now env
  return {
    X := X_
    Y := st.Y ++ [y]
    time_all := st.time_all ++ [time_iter_end - time_iter_start]
    time_surrogate := st.time_surrogate ++ [dict_info.time_surrogate]
    time_acq := st.time_acq ++ [dict_info.time_acq] }

/-- The loop itself (`wrappers_bo_class.py:358-388`). -/
noncomputable def classLoop (env : Env d σ) : ℕ → LoopSt d → RunM d σ (LoopSt d)
  | 0, st => pure st
  | n + 1, st => classIteration env st >>= classLoop env n

/-- `BayesianOptimization.optimize_with_all_initial_information`
(`wrappers_bo_class.py:316-400`). The width of `Y` is one by construction. -/
noncomputable def optimizeWithAllInitialInformation (env : Env d σ) (num_iter : ℕ)
    (X : List (Point d)) (Y : List Flt) : RunM d σ (LoopSt d) := do
  RunM.lift (pyAssert (X.length = Y.length))
  let _time_start ← now env
  let st ← classLoop env num_iter { X := X, Y := Y }
  let _time_end ← now env
  return st

/-- The evaluation of the initial inputs (`wrappers_bo_class.py:429-439`). -/
noncomputable def classInitials (env : Env d σ) :
    List (Point d) → RunM d σ (List Flt × List ℝ)
  | [] => pure ([], [])
  | elem :: rest => do
    let time_initial_start ← now env
    let y ← callTarget env elem
    let time_initial_end ← now env
    let (Y, time_initials) ← classInitials env rest
    return (y :: Y, (time_initial_end - time_initial_start) :: time_initials)

/-- `BayesianOptimization.optimize_with_initial_inputs` (`wrappers_bo_class.py:402-446`). -/
noncomputable def optimizeWithInitialInputs (env : Env d σ) (num_iter : ℕ)
    (X : List (Point d)) : RunM d σ (LoopSt d) := do
  let (Y, time_initials) ← classInitials env X
  let st ← optimizeWithAllInitialInformation env num_iter X Y
  return { st with time_all := time_initials ++ st.time_all }

/-- `BayesianOptimization.optimize` (`wrappers_bo_class.py:490-541`); `initials num_init` is
`model_bo.get_initials(str_initial_method_bo, num_init, seed=seed)`. -/
noncomputable def classOptimize (env : Env d σ) (initials : ℤ → Py (List (Point d)))
    (num_iter : ℕ) (num_init : ℤ) : RunM d σ (LoopSt d) := do
  RunM.lift (pyAssert (num_init > 0))
  let _time_start ← now env
  let X_init ← RunM.lift (initials num_init)
  let st ← optimizeWithInitialInputs env num_iter X_init
  let _time_end ← now env
  return st

/-- One pass of the loop of `run_single_round_with_all_initial_information`
(`wrappers_bo_function.py:84-119`), accumulating from an outcome so far. -/
noncomputable def functionBody (env : Env d σ) (acc : RunM d σ (LoopSt d)) :
    RunM d σ (LoopSt d) := fun w =>
  match acc w with
  | (w, .error e) => (w, .error e)
  | (w, .ok st) =>
    let time_iter_start := env.clock w.tick
    let r := env.step w.model (w.tick + 1) st.X st.Y
    let w : World d σ := { w with model := r.1.1, tick := r.1.2 }
    match r.2 with
    | .error e => (w, .error e)
    | .ok (next_point, dict_info) =>
      let chosen : Py (Option (Point d)) :=
        if (npWhere (fun x : Point d =>
            norm2 (fun i => next_point i - x i) < TOLERANCE_DUPLICATED_ACQ) st.X).length > 0 then
          getNextBestAcquisition dict_info.next_points dict_info.acquisitions st.X
        else .ok (some next_point)
      match chosen with
      | .error e => (w, .error e)
      | .ok none => (w, if d = 1 then .error .outOfModel else .error .value)
      | .ok (some next_point) =>
        let X_final := st.X ++ [next_point]
        let y := env.target w.log.length next_point
        match y with
        | .error e =>
          ({ w with tick := w.tick + 1, log := w.log ++ [next_point] }, .error e)
        | .ok y =>
          let time_iter_end := env.clock (w.tick + 2)
          ({ w with tick := w.tick + 3, log := w.log ++ [next_point] }, .ok {
            X := X_final
            Y := st.Y ++ [y]
            time_all := st.time_all ++ [time_iter_end - time_iter_start]
            time_surrogate := st.time_surrogate ++ [dict_info.time_surrogate]
            time_acq := st.time_acq ++ [dict_info.time_acq] })

/-- `run_single_round_with_all_initial_information` (`wrappers_bo_function.py:17-130`); a
negative `num_iter` gives an empty loop. -/
noncomputable def runSingleRoundWithAllInitialInformation (env : Env d σ)
    (X : List (Point d)) (Y : List Flt) (num_iter : ℤ) : RunM d σ (LoopSt d) := do
  RunM.lift (pyAssert (X.length = Y.length))
  let _time_start ← now env
  let st ← (List.range num_iter.toNat).foldl (fun acc _ => functionBody env acc)
    (pure { X := X, Y := Y })
  let _time_end ← now env
  return st

/-- The evaluation of the initial inputs (`wrappers_bo_function.py:186-193`). -/
noncomputable def functionInitials (env : Env d σ) (X : List (Point d)) :
    RunM d σ (List Flt × List ℝ) :=
  X.foldl (fun acc elem => do
    let (Y, times) ← acc
    let t0 ← now env
    let y ← callTarget env elem
    let t1 ← now env
    return (Y ++ [y], times ++ [t1 - t0])) (pure ([], []))

/-- `run_single_round_with_initial_inputs` (`wrappers_bo_function.py:132-210`). -/
noncomputable def runSingleRoundWithInitialInputs (env : Env d σ) (X : List (Point d))
    (num_iter : ℤ) : RunM d σ (LoopSt d) := do
  let (Y, time_initials) ← functionInitials env X
  let st ← runSingleRoundWithAllInitialInformation env X Y num_iter
  return { st with time_all := time_initials ++ st.time_all }

/-- `run_single_round` (`wrappers_bo_function.py:212-312`). -/
noncomputable def runSingleRound (env : Env d σ) (initials : ℤ → Py (List (Point d)))
    (num_init num_iter : ℤ) : RunM d σ (LoopSt d) := do
  let _time_start ← now env
  let X_init ← RunM.lift (initials num_init)
  let st ← runSingleRoundWithInitialInputs env X_init num_iter
  let _time_end ← now env
  return st

end Verif.WrappersBo
