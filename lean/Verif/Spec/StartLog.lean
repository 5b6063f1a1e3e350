import Verif.Spec.Wrapper

/-! Vocabulary of C117. -/

namespace Verif.Spec

open Verif.UtilsBo Verif.WrapperClass

/-- The messages of a log that report on the setting of a name: they begin with the name, a colon and
a space. -/
def reports (log : List String) (name : String) : List String :=
  log.filter fun l => (name.toList ++ [':', ' ']).isPrefixOf l.toList

/-- A setting of a run: its name, its value as a text, and the surrogates it concerns. -/
structure Setting where
  name : String
  text : String
  concerns : List String
deriving DecidableEq

/-- The text of a truth value. -/
def truth : Bool → String
  | true => "True"
  | false => "False"

/-- The settings of a run besides the search space and the prior mean. The acquisition optimiser is the
one that is used. -/
def settings {d : ℕ} (env : Installed) (a : Args d) (debug : Bool) (num_init : ℤ)
    (seed : Option ℤ) : List Setting :=
  [⟨"num_init", toString num_init, ["gp", "tp", "rf"]⟩,
   ⟨"num_iter", toString a.num_iter, ["gp", "tp", "rf"]⟩,
   ⟨"str_surrogate", a.str_surrogate, ["gp", "tp", "rf"]⟩,
   ⟨"str_cov", a.str_cov, ["gp", "tp"]⟩,
   ⟨"str_acq", a.str_acq, ["gp", "tp", "rf"]⟩,
   ⟨"normalize_Y", truth a.normalize_Y, ["gp", "tp", "rf"]⟩,
   ⟨"use_ard", truth a.use_ard, ["gp", "tp"]⟩,
   ⟨"str_initial_method_bo", a.str_initial_method_bo, ["gp", "tp", "rf"]⟩,
   ⟨"str_sampling_method_ao", a.str_sampling_method_ao, ["gp", "tp", "rf"]⟩,
   ⟨"str_optimizer_method_gp", a.str_optimizer_method_gp, ["gp"]⟩,
   ⟨"str_optimizer_method_tp", a.str_optimizer_method_tp, ["tp"]⟩,
   ⟨"str_optimizer_method_bo", usedOptimizer env d a.str_optimizer_method_bo, ["gp", "tp", "rf"]⟩,
   ⟨"str_mlm_method", a.str_mlm_method, ["gp"]⟩,
   ⟨"str_modelselection_method", a.str_modelselection_method, ["gp"]⟩,
   ⟨"num_samples_ao", toString a.num_samples_ao, ["gp", "tp", "rf"]⟩,
   ⟨"seed", (seed.map toString).getD "None", ["gp", "tp", "rf"]⟩,
   ⟨"debug", truth debug, ["gp", "tp", "rf"]⟩]

end Verif.Spec
