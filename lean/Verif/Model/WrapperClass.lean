import Verif.Model.WrappersBo
import Verif.Model.BoWGp
import Verif.Model.BoWTp
import Verif.Model.BoWTrees

/-!
# The class `BayesianOptimization` of `bayeso/wrappers/wrappers_bo_class.py`

Construction, and the step `optimize_single_iteration` that `WrappersBo.lean` leaves open, for
the three surrogates. `str_exp` and `debug` only matter for log output.
-/

namespace Verif.WrapperClass

open Verif.Constants Verif.UtilsBo Verif.BaseBo Verif.BoCommon Verif.WrappersBo
open Verif.BoWGp (BOwGP GpState)
open Verif.BoWTp (BOwTP TpState)

variable {d : ℕ}

/-- The arguments of the constructor with their defaults (`wrappers_bo_class.py:70-90`). -/
structure Args (d : ℕ) where
  range_X : Bounds d
  num_iter : ℤ
  str_surrogate : String := STR_SURROGATE
  str_cov : String := STR_COV
  str_acq : String := STR_BO_ACQ
  normalize_Y : Bool := NORMALIZE_RESPONSE
  use_ard : Bool := USE_ARD
  prior_mu : Gp.PriorMu d := none
  str_initial_method_bo : String := STR_INITIALIZING_METHOD_BO
  str_sampling_method_ao : String := STR_SAMPLING_METHOD_AO
  str_optimizer_method_gp : String := STR_OPTIMIZER_METHOD_GP
  str_optimizer_method_tp : String := STR_OPTIMIZER_METHOD_TP
  str_optimizer_method_bo : String := STR_OPTIMIZER_METHOD_AO
  str_mlm_method : String := STR_MLM_METHOD
  str_modelselection_method : String := STR_MODELSELECTION_METHOD
  num_samples_ao : ℤ := NUM_SAMPLES_AO

/-- The object in the attribute `model_bo`. -/
inductive Surrogate (d : ℕ)
  | gp (bo : BOwGP d)
  | tp (bo : BOwTP d)
  | trees (bo : BaseBO d)

/-- The part of the surrogate that its methods change. -/
structure ModelState where
  gp : GpState := {}
  tp : TpState := {}

/-- The attributes of a `BayesianOptimization` object that are read later. The fitting mode is
only stored for Gaussian processes. -/
structure BayesianOptimization (d : ℕ) where
  num_iter : ℤ
  str_surrogate : String
  str_initial_method_bo : String
  str_sampling_method_ao : String
  num_samples_ao : ℤ
  str_mlm_method : Option String
  model_bo : Surrogate d

/-- The assertions of the constructor itself (`wrappers_bo_class.py:116-132`). -/
noncomputable def ownChecks (a : Args d) : Py Unit := do
  pyAssert (∀ i, (a.range_X i).1 ≤ (a.range_X i).2)
  pyAssert (a.num_iter > 0)
  pyAssert (a.num_samples_ao > 0)
  pyAssert (a.str_surrogate ∈ ALLOWED_SURROGATE ++ ALLOWED_SURROGATE_TREES)
  pyAssert (a.str_cov ∈ ALLOWED_COV)
  pyAssert (a.str_acq ∈ ALLOWED_BO_ACQ)
  pyAssert (a.str_initial_method_bo ∈ ALLOWED_INITIALIZING_METHOD_BO)
  pyAssert (a.str_sampling_method_ao ∈ ALLOWED_SAMPLING_METHOD)
  pyAssert (a.str_optimizer_method_gp ∈ ALLOWED_OPTIMIZER_METHOD_GP)
  pyAssert (a.str_optimizer_method_tp ∈ ALLOWED_OPTIMIZER_METHOD_TP)
  pyAssert (a.str_optimizer_method_bo ∈
    ALLOWED_OPTIMIZER_METHOD_BO ++ ALLOWED_OPTIMIZER_METHOD_BO_TREES)
  pyAssert (a.str_mlm_method ∈ ALLOWED_MLM_METHOD)
  pyAssert (a.str_modelselection_method ∈ ALLOWED_MODELSELECTION_METHOD)

/-- The choice of the surrogate (`wrappers_bo_class.py:149-238`), with the acquisition optimiser
that `check_optimizer_method_bo` gave. -/
noncomputable def getModelBo (env : Installed) (a : Args d) (str_optimizer_method_bo : String) :
    Py (Surrogate d × ModelState) := do
  if a.str_surrogate ∈ ALLOWED_SURROGATE_TREES then
    let bo ← BoWTrees.init env a.range_X a.str_surrogate a.str_acq a.normalize_Y
      str_optimizer_method_bo
    return (.trees bo, {})
  else if a.str_surrogate = "gp" then
    let (bo, st) ← BoWGp.init env a.range_X a.str_cov a.str_acq a.normalize_Y a.use_ard a.prior_mu
      a.str_optimizer_method_gp str_optimizer_method_bo a.str_modelselection_method
    return (.gp bo, { gp := st })
  else if a.str_surrogate = "tp" then
    let (bo, st) ← BoWTp.init env a.range_X a.str_cov a.str_acq a.normalize_Y a.use_ard a.prior_mu
      a.str_optimizer_method_tp str_optimizer_method_bo
    return (.tp bo, { tp := st })
  else
    .error .notImplemented

/-- `BayesianOptimization.__init__` (`wrappers_bo_class.py:70-168`). -/
noncomputable def create (env : Installed) (a : Args d) :
    Py (BayesianOptimization d × ModelState) := do
  ownChecks a
  let str_optimizer_method_bo ← checkOptimizerMethodBo env a.str_optimizer_method_bo d
  let (model_bo, st) ← getModelBo env a str_optimizer_method_bo
  return ({
    num_iter := a.num_iter
    str_surrogate := a.str_surrogate
    str_initial_method_bo := a.str_initial_method_bo
    str_sampling_method_ao := a.str_sampling_method_ao
    num_samples_ao := a.num_samples_ao
    str_mlm_method := if a.str_surrogate = "gp" then some a.str_mlm_method else none
    model_bo := model_bo }, st)

/-- The search space of the surrogate (`model_bo.range_X`). -/
def Surrogate.range_X : Surrogate d → Bounds d
  | .gp bo => bo.range_X
  | .tp bo => bo.range_X
  | .trees bo => bo.range_X

/-- What the numerical routines and generators do in the `k`-th step of a run. -/
structure RunOracles (d : ℕ) where
  routines : ℕ → Oracles d
  forest : ℕ → Trees.ForestRnd d

/-- What a run reads of the information a step returns. -/
def info {n : ℕ} (i : DictInfo n d) : Info d :=
  { next_points := i.next_points, acquisitions := i.acquisitions.map .fin
    time_surrogate := i.time_surrogate, time_acq := i.time_acq }

/-- The same for a random forest. -/
def infoTrees (i : BoWTrees.DictInfoTrees d) : Info d :=
  { next_points := i.next_points, acquisitions := i.acquisitions.map .fin
    time_surrogate := i.time_surrogate, time_acq := i.time_acq }

/-- `self.model_bo.optimize(X, Y, str_sampling_method=..., num_samples=..., [str_mlm_method=...])`
in step `k`. Only the Gaussian process model has the last argument. -/
noncomputable def modelOptimize (m : Surrogate d) (o : RunOracles d) (clock : ℕ → ℝ) (k : ℕ)
    (X : List (Point d)) (Y : List ℝ) (str_sampling_method : String) (num_samples : ℤ)
    (str_mlm_method : Option String) : OptM ModelState (Point d × Info d) := fun s =>
  match m with
  | .gp bo =>
    let r := BoWGp.optimize bo (o.routines k) clock (.vec X.get) Y str_sampling_method num_samples
      (str_mlm_method.getD STR_MLM_METHOD) (s.1.gp, s.2)
    (({ s.1 with gp := r.1.1 }, r.1.2), r.2.map fun a => (a.1, info a.2))
  | .tp bo =>
    if str_mlm_method.isSome then (s, .error .type) else
    let r := BoWTp.optimize bo (o.routines k) clock (.vec X.get) Y str_sampling_method num_samples
      (s.1.tp, s.2)
    (({ s.1 with tp := r.1.1 }, r.1.2), r.2.map fun a => (a.1, info a.2))
  | .trees bo =>
    if str_mlm_method.isSome then (s, .error .type) else
    let r := BoWTrees.optimize bo ⟨o.forest k, (o.routines k).draws⟩ clock X Y
      str_sampling_method num_samples s
    (r.1, r.2.map fun a => (a.1, infoTrees a.2))

/-- `optimize_single_iteration` (`wrappers_bo_class.py:280-314`) in step `k`, for finite
responses. -/
noncomputable def optimizeSingleIteration (w : BayesianOptimization d) (o : RunOracles d)
    (clock : ℕ → ℝ) (k : ℕ) (X : List (Point d)) (Y : List ℝ) :
    OptM ModelState (Point d × Info d) :=
  if w.str_surrogate ∈ ALLOWED_SURROGATE_TREES then
    modelOptimize w.model_bo o clock k X Y w.str_sampling_method_ao w.num_samples_ao none
  else if w.str_surrogate = "gp" then
    modelOptimize w.model_bo o clock k X Y w.str_sampling_method_ao w.num_samples_ao
      w.str_mlm_method
  else if w.str_surrogate = "tp" then
    modelOptimize w.model_bo o clock k X Y w.str_sampling_method_ao w.num_samples_ao none
  else
    OptM.lift (.error .notImplemented)

/-- The step of a run (see `WrappersBo.Env`): the state is that of the surrogate and the number of
steps so far. Responses that are infinite or NaN are not followed. -/
noncomputable def step (w : BayesianOptimization d) (o : RunOracles d) (clock : ℕ → ℝ)
    (s : ModelState × ℕ) (t : ℕ) (X : List (Point d)) (Y : List Flt) :
    ((ModelState × ℕ) × ℕ) × Py (Point d × Info d) :=
  match finites Y with
  | .error e => ((s, t), .error e)
  | .ok Y =>
    let r := optimizeSingleIteration w o clock s.2 X Y (s.1, t)
    (((r.1.1, s.2 + 1), r.1.2), r.2)

/-- The surroundings of a run of the object. -/
noncomputable def runEnv (w : BayesianOptimization d) (o : RunOracles d) (clock : ℕ → ℝ)
    (target : ℕ → Point d → Py Flt) : Env d (ModelState × ℕ) :=
  { clock := clock, target := target, step := step w o clock }

/-- `BayesianOptimization.optimize(num_init, seed)` (`wrappers_bo_class.py:490-541`); `r` are the
outputs of the generators for the seed. -/
noncomputable def optimize (w : BayesianOptimization d) (o : RunOracles d) (clock : ℕ → ℝ)
    (target : ℕ → Point d → Py Flt) (r : Draws d) (num_init : ℤ) :
    RunM d (ModelState × ℕ) (LoopSt d) :=
  classOptimize (runEnv w o clock target)
    (fun n => getInitials w.model_bo.range_X r w.str_initial_method_bo n)
    w.num_iter.toNat num_init

end Verif.WrapperClass
