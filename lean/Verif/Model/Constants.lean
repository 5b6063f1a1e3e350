import Verif.Model.Basic

/-!
# `bayeso/constants.py`
-/

namespace Verif.Constants

/-- `constants.py:13` -/
noncomputable def JITTER_ACQ : ℝ := 1e-5
/-- `constants.py:14` -/
noncomputable def JITTER_COV : ℝ := 1e-5
/-- `constants.py:15` -/
noncomputable def JITTER_LOG : ℝ := 1e-7
/-- `constants.py:17` -/
noncomputable def TOLERANCE_DUPLICATED_ACQ : ℝ := 1e-8

/-- `constants.py:19` -/
def STR_SURROGATE : String := "gp"
/-- `constants.py:20` -/
def STR_SURROGATE_TREES : String := "rf"
/-- `constants.py:21` -/
def STR_OPTIMIZER_METHOD_GP : String := "BFGS"
/-- `constants.py:22` -/
def STR_OPTIMIZER_METHOD_TP : String := "SLSQP"
/-- `constants.py:23` -/
def STR_COV : String := "matern52"
/-- `constants.py:24` -/
def STR_BO_ACQ : String := "ei"
/-- `constants.py:25` -/
def STR_INITIALIZING_METHOD_BO : String := "sobol"
/-- `constants.py:26` -/
def STR_OPTIMIZER_METHOD_AO : String := "L-BFGS-B"
/-- `constants.py:27` -/
def STR_SAMPLING_METHOD_AO : String := "sobol"
/-- `constants.py:28` -/
def STR_OPTIMIZER_METHOD_AO_TREES : String := "random_search"
/-- `constants.py:29` -/
def STR_SAMPLING_METHOD_AO_TREES : String := "uniform"
/-- `constants.py:30` -/
def STR_MLM_METHOD : String := "regular"
/-- `constants.py:31` -/
def STR_MODELSELECTION_METHOD : String := "ml"

/-- `constants.py:33` -/
def NUM_GRIDS_AO : ℕ := 50
/-- `constants.py:34` -/
def NUM_SAMPLES_AO : ℕ := 128
/-- `constants.py:35` -/
def NUM_SAMPLES_AO_TREES : ℕ := 5000

/-- `constants.py:37` -/
noncomputable def MULTIPLIER_ACQ : ℝ := 10
/-- `constants.py:38` -/
noncomputable def MULTIPLIER_RESPONSE : ℝ := 10

/-- `constants.py:40` -/
def NORMALIZE_RESPONSE : Bool := true
/-- `constants.py:42` -/
def USE_ARD : Bool := true
/-- `constants.py:43` -/
noncomputable def GP_NOISE : ℝ := 1e-2
/-- `constants.py:44` -/
def FIX_GP_NOISE : Bool := true
/-- `constants.py:45` -/
def BOUND_UPPER_GP_NOISE : Flt := Flt.pinf
/-- `constants.py:46` -/
noncomputable def RANGE_SIGNAL : List (ℝ × ℝ) := [(1e-2, 1e3)]
/-- `constants.py:47` -/
noncomputable def RANGE_LENGTHSCALES : List (ℝ × ℝ) := [(1e-2, 1e3)]
/-- `constants.py:48` -/
noncomputable def RANGE_NOISE : List (ℝ × ℝ) := [(1e-3, 1e1)]
/-- `constants.py:49` -/
noncomputable def RANGE_DOF : List (ℝ × ℝ) := [(2.00001, 200)]

/-- `constants.py:54` -/
def NUM_DATA_PER_SPLIT_TREES : ℕ := 100

/-- `constants.py:56-62` -/
def ALLOWED_OPTIMIZER_METHOD_GP : List String :=
  ["BFGS", "L-BFGS-B", "Nelder-Mead", "SLSQP", "SLSQP-Bounded"]
/-- `constants.py:63` -/
def ALLOWED_OPTIMIZER_METHOD_TP : List String := ["L-BFGS-B", "SLSQP"]
/-- `constants.py:64` -/
def ALLOWED_OPTIMIZER_METHOD_BO : List String := ["L-BFGS-B", "DIRECT", "CMA-ES"]
/-- `constants.py:65` -/
def ALLOWED_OPTIMIZER_METHOD_BO_TREES : List String := ["random_search"]
/-- `constants.py:68` -/
def ALLOWED_COV_BASE : List String := ["eq", "se", "matern32", "matern52"]
/-- `constants.py:69` -/
def ALLOWED_COV_SET : List String := ALLOWED_COV_BASE.map ("set_" ++ ·)
/-- `constants.py:70` -/
def ALLOWED_COV : List String := ALLOWED_COV_BASE ++ ALLOWED_COV_SET
/-- `constants.py:71` -/
def ALLOWED_BO_ACQ : List String :=
  ["pi", "ei", "ucb", "aei", "pure_exploit", "pure_explore"]
/-- `constants.py:72` -/
def ALLOWED_INITIALIZING_METHOD_BO : List String :=
  ["uniform", "gaussian", "sobol", "halton"]
/-- `constants.py:73` -/
def ALLOWED_SAMPLING_METHOD : List String := ALLOWED_INITIALIZING_METHOD_BO ++ ["grid"]
/-- `constants.py:74` -/
def ALLOWED_MLM_METHOD : List String := ["regular", "combined", "converged"]
/-- `constants.py:75` -/
def ALLOWED_MODELSELECTION_METHOD : List String := ["ml", "loocv"]
/-- `constants.py:76` -/
def ALLOWED_SURROGATE : List String := ["gp", "tp"]
/-- `constants.py:77` -/
def ALLOWED_SURROGATE_TREES : List String := ["rf"]

end Verif.Constants
