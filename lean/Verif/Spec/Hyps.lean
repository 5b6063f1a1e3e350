import Verif.Model.UtilsCovariance

/-! Specification of well-formed hyperparameter dictionaries (C19-C21). -/

namespace Verif.Spec

open Verif.UtilsCovariance

/-- The shape of the dictionaries the package builds itself: float noise, signal (and, for a
Student-t process, degrees of freedom), lengthscales an array with one entry per dimension or
one float. -/
structure Shaped (h : HypDict) (use_gp use_ard : Bool) (dim : ℕ) : Prop where
  noise : ∃ x, h.noise = some (.flt x)
  signal : ∃ x, h.signal = some (.flt x)
  dof : if use_gp then h.dof = none else ∃ x, h.dof = some (.flt x)
  lengthscales : if use_ard then ∃ v : List Flt, v.length = dim ∧ h.lengthscales = some (.arr v)
    else ∃ x, h.lengthscales = some (.flt x)

/-- The number of entries of the vector form. -/
def vectorLength (use_gp use_ard fix_noise : Bool) (dim : ℕ) : ℕ :=
  (if fix_noise then 0 else 1) + (if use_gp then 0 else 1) + 1 + (if use_ard then dim else 1)

/-- What `validate_hyps_dict` is documented to accept. -/
structure Acceptable (h : HypDict) (use_gp : Bool) (dim : ℕ) : Prop where
  noise : ∃ x, h.noise = some (.flt x)
  signal : ∃ x, h.signal = some (.flt x)
  dof : use_gp = false → ∃ x, h.dof = some (.flt x)
  lengthscales : (∃ v : List Flt, v.length = dim ∧ h.lengthscales = some (.arr v)) ∨
    ∃ x, h.lengthscales = some (.flt x)

end Verif.Spec
