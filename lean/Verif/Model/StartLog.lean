import Verif.Model.WrapperClass
import Verif.Model.UtilsLogger

/-!
# What is logged at the start of a run

`print_info` of `bayeso/wrappers/wrappers_bo_class.py`, which every `optimize` calls, and the
messages of `run_single_round` in `bayeso/wrappers/wrappers_bo_function.py`. The result is the list
of messages; that a message raised leaves those before it written is not followed.
-/

namespace Verif.StartLog

open Verif.Constants Verif.UtilsBo Verif.WrapperClass Verif.UtilsLogger
open Verif.BoWGp (BOwGP)

variable {d : ℕ}

/-- The attributes of a `BayesianOptimization` object; those in an `Option` exist only for some
surrogates. -/
structure Attrs (d : ℕ) where
  range_X : Bounds d
  num_iter : ℤ
  str_surrogate : String
  str_acq : String
  normalize_Y : Bool
  str_initial_method_bo : String
  str_sampling_method_ao : String
  str_optimizer_method_bo : String
  num_samples_ao : ℤ
  debug : Bool
  str_cov : Option String := none
  use_ard : Option Bool := none
  str_optimizer_method_gp : Option String := none
  str_optimizer_method_tp : Option String := none
  str_mlm_method : Option String := none
  str_modelselection_method : Option String := none

/-- `BayesianOptimization.__init__` (`wrappers_bo_class.py:70-168`) for the attributes of the object
(`WrapperClass.create` is the same function for what a run uses). -/
noncomputable def createAttrs (env : Installed) (a : Args d) (debug : Bool) : Py (Attrs d) := do
  ownChecks a
  let str_optimizer_method_bo ← checkOptimizerMethodBo env a.str_optimizer_method_bo d
  let w : Attrs d := {
    range_X := a.range_X
    num_iter := a.num_iter
    str_surrogate := a.str_surrogate
    str_acq := a.str_acq
    normalize_Y := a.normalize_Y
    str_initial_method_bo := a.str_initial_method_bo
    str_sampling_method_ao := a.str_sampling_method_ao
    str_optimizer_method_bo := str_optimizer_method_bo
    num_samples_ao := a.num_samples_ao
    debug := debug }
  let w :=
    if a.str_surrogate ∈ ALLOWED_SURROGATE_TREES then w
    else if a.str_surrogate = "gp" then
      { w with
        str_cov := some a.str_cov
        use_ard := some a.use_ard
        str_optimizer_method_gp := some a.str_optimizer_method_gp
        str_mlm_method := some a.str_mlm_method
        str_modelselection_method := some a.str_modelselection_method }
    else if a.str_surrogate = "tp" then
      { w with
        str_cov := some a.str_cov
        use_ard := some a.use_ard
        str_optimizer_method_tp := some a.str_optimizer_method_tp }
    else w
  let _ ← getModelBo env a str_optimizer_method_bo
  return w

/-- Reading an attribute: an attribute that was never set raises `AttributeError`. -/
def readAttr {α : Type} : Option α → Py α
  | some x => .ok x
  | none => .error .attribute

/-- `str` of a `bool`. -/
def strBool (b : Bool) : String := if b then "True" else "False"

/-- `str` of a seed: an `int` or `None`. -/
def strSeed : Option ℤ → String
  | some n => n.repr
  | none => "None"

/-- `logger.info('name: %s', value)`, or with `%d` for an integer. -/
def line (name value : String) : String := name ++ ": " ++ value

/-- The array `range_X` with its `d` rows of two floats. -/
def rangeArray (B : Bounds d) : NpArray :=
  .d2 (List.ofFn fun i => [.float (.fin (B i).1), .float (.fin (B i).2)])

/-- `print_info` (`wrappers_bo_class.py:448-488`). -/
noncomputable def printInfo (w : Attrs d) (num_init : ℤ) (seed : Option ℤ) : Py (List String) := do
  let log := ["===================="]
  let log := log ++ ["range_X:\n" ++ (← getStrArray (rangeArray w.range_X))]
  let log := log ++ [line "num_init" num_init.repr]
  let log := log ++ [line "num_iter" w.num_iter.repr]
  let log := log ++ [line "str_surrogate" w.str_surrogate]
  let log ← if w.str_surrogate ∈ ALLOWED_SURROGATE
    then (readAttr w.str_cov).map fun s => log ++ [line "str_cov" s] else pure log
  let log := log ++ [line "str_acq" w.str_acq]
  let log := log ++ [line "normalize_Y" (strBool w.normalize_Y)]
  let log ← if w.str_surrogate ∈ ALLOWED_SURROGATE
    then (readAttr w.use_ard).map fun b => log ++ [line "use_ard" (strBool b)] else pure log
  let log := log ++ [line "str_initial_method_bo" w.str_initial_method_bo]
  let log := log ++ [line "str_sampling_method_ao" w.str_sampling_method_ao]
  let log ← if w.str_surrogate ∈ ["gp"]
    then (readAttr w.str_optimizer_method_gp).map fun s => log ++ [line "str_optimizer_method_gp" s]
    else pure log
  let log ← if w.str_surrogate ∈ ["tp"]
    then (readAttr w.str_optimizer_method_tp).map fun s => log ++ [line "str_optimizer_method_tp" s]
    else pure log
  let log := log ++ [line "str_optimizer_method_bo" w.str_optimizer_method_bo]
  let log ← if w.str_surrogate ∈ ["gp"]
    then (readAttr w.str_mlm_method).map fun s => log ++ [line "str_mlm_method" s] else pure log
  let log ← if w.str_surrogate ∈ ["gp"]
    then (readAttr w.str_modelselection_method).map fun s =>
      log ++ [line "str_modelselection_method" s]
    else pure log
  let log := log ++ [line "num_samples_ao" w.num_samples_ao.repr]
  let log := log ++ [line "seed" (strSeed seed)]
  let log := log ++ [line "debug" (strBool w.debug)]
  return log ++ ["===================="]

/-- The arguments of `run_single_round` besides the model and the target
(`wrappers_bo_function.py:213-219`). -/
structure RoundArgs where
  num_init : ℤ
  num_iter : ℤ
  str_initial_method_bo : String := STR_INITIALIZING_METHOD_BO
  str_sampling_method_ao : String := STR_SAMPLING_METHOD_AO
  num_samples_ao : ℤ := NUM_SAMPLES_AO
  str_mlm_method : String := STR_MLM_METHOD
  seed : Option ℤ := none

/-- The messages at the start of `run_single_round`, with the assertions before them
(`wrappers_bo_function.py:266-290`); that `model_bo` is a `BOwGP` holds by typing. -/
noncomputable def roundInfo (bo : BOwGP d) (a : RoundArgs) : Py (List String) := do
  pyAssert (a.str_initial_method_bo ∈ ALLOWED_INITIALIZING_METHOD_BO)
  pyAssert (a.str_mlm_method ∈ ALLOWED_MLM_METHOD)
  return [
    "range_X:\n" ++ (← getStrArray (rangeArray bo.range_X)),
    line "str_cov" bo.str_cov,
    line "str_acq" bo.str_acq,
    line "str_optimizer_method_gp" bo.str_optimizer_method_gp,
    line "str_optimizer_method_bo" bo.str_optimizer_method_bo,
    line "str_modelselection_method" bo.str_modelselection_method,
    line "num_init" a.num_init.repr,
    line "num_iter" a.num_iter.repr,
    line "str_initial_method_bo" a.str_initial_method_bo,
    line "str_sampling_method_ao" a.str_sampling_method_ao,
    line "num_samples_ao" a.num_samples_ao.repr,
    line "str_mlm_method" a.str_mlm_method,
    line "seed" (strSeed a.seed)]

end Verif.StartLog
