import Verif.Model.SampleFunctions
import Verif.Model.BoWGp
import Verif.Model.WrappersBo

/-!
# `bayeso/thompson_sampling.py`

`debug` and the `print` only matter for output.
-/

namespace Verif.ThompsonSampling

open Verif.Constants Verif.UtilsBo Verif.BaseBo Verif.BoCommon Verif.WrappersBo
open Verif.SampleFunctions

variable {d : ℕ}

/-- What one iteration uses: the minimiser of the hyperparameters, the generators of the test
points and the normal distribution. -/
structure TsOracles (d : ℕ) where
  fitHyps : Gp.Minimize
  draws : Draws d
  normal : Normal

/-- `bo.BOwGP(range_X)` (`thompson_sampling.py:78`, `:154`), with its defaults. -/
noncomputable def modelBo (env : Installed) (range_X : Bounds d) :
    Py (BoWGp.BOwGP d × BoWGp.GpState) :=
  BoWGp.init env range_X STR_COV STR_BO_ACQ NORMALIZE_RESPONSE USE_ARD none
    STR_OPTIMIZER_METHOD_GP STR_OPTIMIZER_METHOD_AO STR_MODELSELECTION_METHOD

/-- `list_jitters` (`thompson_sampling.py:87`). -/
noncomputable def listJitters : List ℝ := [0, 1e-4, 1e-2, 1e0, 1e1, 1e2, 1e3, 1e4]

/-- The loop over the jitters (`thompson_sampling.py:86-96`): the first sample that can be drawn,
`none` if there is none. Only a `ValueError` is caught. -/
noncomputable def trySample (g : Normal) {n : ℕ} (mu_Xs : Fin n → ℝ)
    (Sigma_Xs : Matrix (Fin n) (Fin n) ℝ) : List ℝ → Py (Option Array12)
  | [] => .ok none
  | jitter_cov :: rest =>
    match sampleFunctions g mu_Xs (Sigma_Xs + jitter_cov • (1 : Matrix (Fin n) (Fin n) ℝ)) 1 with
    | .ok s => .ok (some s)
    | .error .value => trySample g mu_Xs Sigma_Xs rest
    | .error e => .error e

/-- `thompson_sampling_gp_iteration` (`thompson_sampling.py:21-104`), for finite responses. -/
noncomputable def iteration (env : Installed) (o : TsOracles d) (range_X : Bounds d)
    (X : List (Point d)) (Y : List ℝ) (normalize_Y : Bool := NORMALIZE_RESPONSE)
    (str_sampling_method : String := "sobol") (num_samples : ℤ := 200) : Py (Point d) := do
  pyAssert (X.length = Y.length)
  let Y ← if normalize_Y then normalizeMinMax Y else .ok Y
  let (model_bo, _) ← modelBo env range_X
  let X_test ← getSamples model_bo.range_X o.draws str_sampling_method num_samples
  let Y_train ← column X.length Y
  let (mu_Xs, _, Sigma_Xs) ← Gp.predictWithOptimizedHyps o.fitHyps (.vec X.get) Y_train
    (.vec X_test.get) "matern52" "BFGS" none
  match ← trySample o.normal mu_Xs Sigma_Xs listJitters with
  | none => .error .value
  | some Y_sampled =>
    let ind_min ← npArgmin ((← firstColumn Y_sampled).map .fin)
    pyIndex X_test ind_min

/-- `fun_target(x)`; the world records the calls. -/
def query (target : ℕ → Point d → Py Flt) (x : Point d) : RunM d Unit Flt := fun w =>
  ({ w with log := w.log ++ [x] }, target w.log.length x)

/-- The evaluation of the initial inputs (`thompson_sampling.py:156-160`). -/
def evaluate (target : ℕ → Point d → Py Flt) : List (Point d) → RunM d Unit (List Flt)
  | [] => pure []
  | bx :: rest => do
    let y ← query target bx
    let ys ← evaluate target rest
    return y :: ys

/-- The loop (`thompson_sampling.py:162-169`); `k` is `ind_iter` of the next pass. Infinite or NaN
responses are not followed. -/
noncomputable def loop (env : Installed) (o : ℕ → TsOracles d) (target : ℕ → Point d → Py Flt)
    (range_X : Bounds d) (normalize_Y : Bool) (str_sampling_method : String) (num_samples : ℤ) :
    ℕ → ℕ → List (Point d) → List Flt → RunM d Unit (List (Point d) × List Flt)
  | 0, _, X, Y => pure (X, Y)
  | n + 1, k, X, Y => do
    let Yr ← RunM.lift (finites Y)
    let next_point ← RunM.lift
      (iteration env (o k) range_X X Yr normalize_Y str_sampling_method num_samples)
    let y ← query target next_point
    loop env o target range_X normalize_Y str_sampling_method num_samples n (k + 1)
      (X ++ [next_point]) (Y ++ [y])

/-- `thompson_sampling_gp` (`thompson_sampling.py:106-171`). `r` are the generators of the initial
points, `o k` the routines of pass `k`. -/
noncomputable def thompsonSamplingGp (env : Installed) (r : Draws d) (o : ℕ → TsOracles d)
    (range_X : Bounds d) (fun_target : ℕ → Point d → Py Flt) (num_init num_iter : ℤ)
    (normalize_Y : Bool := NORMALIZE_RESPONSE) (str_sampling_method : String := "uniform")
    (num_samples : ℤ := 200) : RunM d Unit (List (Point d) × List Flt) := do
  let (model_bo, _) ← RunM.lift (modelBo env range_X)
  let X ← RunM.lift (getInitials model_bo.range_X r str_sampling_method num_init)
  let Y ← evaluate fun_target X
  loop env o fun_target range_X normalize_Y str_sampling_method num_samples num_iter.toNat 0 X Y

end Verif.ThompsonSampling
