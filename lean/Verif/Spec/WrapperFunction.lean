import Verif.Model.WrapperFunction

/-! How C153 compares the two interfaces. -/

namespace Verif.Spec

open Verif.Constants Verif.UtilsBo Verif.WrapperClass Verif.StartLog
open Verif.BoWGp (BOwGP GpState)

variable {d : ℕ}

/-- The arguments of `run_single_round` for those of the class. -/
def roundArgs (a : Args d) (num_init : ℤ) (seed : Option ℤ) : RoundArgs where
  num_init := num_init
  num_iter := a.num_iter
  str_initial_method_bo := a.str_initial_method_bo
  str_sampling_method_ao := a.str_sampling_method_ao
  num_samples_ao := a.num_samples_ao
  str_mlm_method := a.str_mlm_method
  seed := seed

/-- The object of the Gaussian process that a user of the functions makes of the same arguments. -/
noncomputable def objectOf (env : Installed) (a : Args d) : Py (BOwGP d × GpState) :=
  BoWGp.init env a.range_X a.str_cov a.str_acq a.normalize_Y a.use_ard a.prior_mu
    a.str_optimizer_method_gp a.str_optimizer_method_bo a.str_modelselection_method

/-- What the constructor of the class demands beyond the one of the object. -/
structure RunArguments (a : Args d) : Prop where
  num_iter : 0 < a.num_iter
  num_samples : 0 < a.num_samples_ao
  initial : a.str_initial_method_bo ∈ ALLOWED_INITIALIZING_METHOD_BO
  sampling : a.str_sampling_method_ao ∈ ALLOWED_SAMPLING_METHOD
  mlm : a.str_mlm_method ∈ ALLOWED_MLM_METHOD
  tp : a.str_optimizer_method_tp ∈ ALLOWED_OPTIMIZER_METHOD_TP

end Verif.Spec
