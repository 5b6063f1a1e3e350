import Verif.Model.Constants

/-!
# `bayeso/utils/utils_covariance.py`
-/

namespace Verif.UtilsCovariance

open Verif.Constants

/-- A value stored in a hyperparameter dictionary: a float, a one-dimensional array of
floats, or anything else (an `int`, a string, `None`, ...). Arrays of other ranks are not
modelled. -/
inductive HVal
  | flt (x : Flt)
  | arr (v : List Flt)
  | other

/-- A hyperparameter dictionary. A field is `none` when the key is absent. Keys other than
these four are never read by the package. -/
structure HypDict where
  noise : Option HVal := none
  dof : Option HVal := none
  signal : Option HVal := none
  lengthscales : Option HVal := none

/-- `hyps[key]`: `KeyError` when the key is absent. -/
def getKey {α : Type _} : Option α → Py α
  | some v => .ok v
  | none => .error .key

/-- A dictionary entry used as one scalar entry of `np.array([...])`. Simplification: an
array or a non-float there is a `TypeError` (numpy would build an object or string array
that no caller can use). -/
def HVal.scalar : HVal → Py Flt
  | .flt x => .ok x
  | _ => .error .type

/-- `_get_list_first` (`utils_covariance.py:14-27`). -/
def getListFirst : List String :=
  let list_first := ["eq", "se", "matern32", "matern52"]
  list_first ++ list_first.map ("set_" ++ ·)

/-- `get_hyps` (`utils_covariance.py:30-77`); `dim` is a natural number. -/
noncomputable def getHyps (str_cov : String) (dim : ℕ) (use_gp : Bool := true)
    (use_ard : Bool := true) : Py HypDict := do
  pyAssert (str_cov ∈ ALLOWED_COV)
  let hyps : HypDict := { noise := some (.flt (.fin GP_NOISE)) }
  let hyps := if !use_gp then { hyps with dof := some (.flt (.fin 5)) } else hyps
  if str_cov ∈ getListFirst then
    let hyps := { hyps with signal := some (.flt (.fin 1)) }
    if use_ard then
      return { hyps with lengthscales := some (.arr (List.replicate dim (.fin 1))) }
    else
      return { hyps with lengthscales := some (.flt (.fin 1)) }
  else
    .error .notImplemented

/-- `get_range_hyps` (`utils_covariance.py:80-134`). -/
noncomputable def getRangeHyps (str_cov : String) (dim : ℕ) (use_gp : Bool := true)
    (use_ard : Bool := true) (fix_noise : Bool := false) : Py (List (ℝ × ℝ)) := do
  pyAssert (str_cov ∈ ALLOWED_COV)
  let range_hyps : List (ℝ × ℝ) := []
  let range_hyps := if !fix_noise then range_hyps ++ RANGE_NOISE else range_hyps
  let range_hyps := if !use_gp then range_hyps ++ RANGE_DOF else range_hyps
  if str_cov ∈ getListFirst then
    let range_hyps := range_hyps ++ RANGE_SIGNAL
    if use_ard then
      return (List.range dim).foldl (fun acc _ => acc ++ RANGE_LENGTHSCALES) range_hyps
    else
      return range_hyps ++ RANGE_LENGTHSCALES
  else
    .error .notImplemented

/-- `convert_hyps` (`utils_covariance.py:137-187`). -/
def convertHyps (str_cov : String) (hyps : HypDict) (use_gp : Bool := true)
    (fix_noise : Bool := false) : Py (List Flt) := do
  pyAssert (str_cov ∈ ALLOWED_COV)
  let list_hyps : List Flt := []
  let list_hyps ← if !fix_noise then do
      let v ← getKey hyps.noise
      pure (list_hyps ++ [← v.scalar])
    else pure list_hyps
  let list_hyps ← if !use_gp then do
      let v ← getKey hyps.dof
      pure (list_hyps ++ [← v.scalar])
    else pure list_hyps
  if str_cov ∈ getListFirst then
    let s ← getKey hyps.signal
    let list_hyps := list_hyps ++ [← s.scalar]
    let l ← getKey hyps.lengthscales
    match l with
    | .arr v => return list_hyps ++ v
    | .flt x => return list_hyps ++ [x]
    | .other => .error .value
  else
    .error .notImplemented

/-- `restore_hyps` (`utils_covariance.py:190-255`). -/
noncomputable def restoreHyps (str_cov : String) (hyps : List Flt) (use_gp : Bool := true)
    (use_ard : Bool := true) (fix_noise : Bool := false) (noise : Flt := .fin GP_NOISE) :
    Py HypDict := do
  pyAssert (str_cov ∈ ALLOWED_COV)
  let dict_hyps : HypDict := {}
  let (dict_hyps, ind_start) ← if !fix_noise then do
      let v ← pyIndex hyps 0
      pure (({ dict_hyps with noise := some (.flt v) } : HypDict), 1)
    else pure (({ dict_hyps with noise := some (.flt noise) } : HypDict), 0)
  let (dict_hyps, ind_start) ← if !use_gp then do
      let v ← pyIndex hyps ind_start
      pure (({ dict_hyps with dof := some (.flt v) } : HypDict), ind_start + 1)
    else pure (dict_hyps, ind_start)
  if str_cov ∈ getListFirst then
    let s ← pyIndex hyps ind_start
    let dict_hyps : HypDict := { dict_hyps with signal := some (.flt s) }
    if use_ard then
      let list_lengthscales ←
        (List.range' (ind_start + 1) (hyps.length - (ind_start + 1))).mapM (pyIndex hyps)
      return { dict_hyps with lengthscales := some (.arr list_lengthscales) }
    else
      pyAssert (hyps.length = ind_start + 2)
      let l ← pyIndex hyps (ind_start + 1)
      return { dict_hyps with lengthscales := some (.flt l) }
  else
    .error .notImplemented

/-- `np.abs`. -/
def absF : Flt → Flt
  | .fin x => .fin |x|
  | .nan => .nan
  | _ => .pinf

/-- The noise checks of `validate_hyps_dict` (`utils_covariance.py:286-293`); `none` is the
`ValueError`. -/
noncomputable def validateNoise (hyps : HypDict) : Option HypDict :=
  match hyps.noise with
  | some (.flt x) =>
    some { hyps with
      noise := some (.flt (if BOUND_UPPER_GP_NOISE ≤ absF x then BOUND_UPPER_GP_NOISE else x)) }
  | _ => none

/-- The checks of the degrees of freedom (`utils_covariance.py:295-303`). -/
noncomputable def validateDof (hyps : HypDict) (use_gp : Bool) : Option HypDict :=
  if !use_gp then
    match hyps.dof with
    | some (.flt v) =>
      some { hyps with dof := some (.flt (if v ≤ Flt.fin 2 then .fin 2.00001 else v)) }
    | _ => none
  else some hyps

/-- The check of the lengthscales (`utils_covariance.py:305-313`). -/
def validLengthscales (hyps : HypDict) (dim : ℕ) : Bool :=
  match hyps.lengthscales with
  | some (.arr v) => v.length = dim
  | some (.flt _) => true
  | _ => false

/-- The check of the signal (`utils_covariance.py:315-319`). -/
def validSignal (hyps : HypDict) : Bool :=
  match hyps.signal with
  | some (.flt _) => true
  | _ => false

/-- `validate_hyps_dict` (`utils_covariance.py:258-321`). The dictionary is changed in
place, also when a later check raises: the first component is the dictionary as the caller
sees it afterwards, the second the outcome of the call. -/
noncomputable def validateHypsDict (hyps : HypDict) (str_cov : String) (dim : ℕ)
    (use_gp : Bool := true) : HypDict × Py HypDict :=
  if str_cov ∉ ALLOWED_COV then (hyps, .error .assertion) else
  match validateNoise hyps with
  | none => (hyps, .error .value)
  | some hyps =>
    match validateDof hyps use_gp with
    | none => (hyps, .error .value)
    | some hyps =>
      if !validLengthscales hyps dim then (hyps, .error .value)
      else if !validSignal hyps then (hyps, .error .value)
      else (hyps, .ok hyps)

/-- `validate_hyps_arr` (`utils_covariance.py:324-354`): not implemented in the package. -/
def validateHypsArr (_hyps : List Flt) (str_cov : String) (_dim : ℕ) : Py Unit := do
  pyAssert (str_cov ∈ ALLOWED_COV)
  .error .notImplemented

/-- `check_str_cov` (`utils_covariance.py:357-395`); only the ranks of the two shapes are
read. -/
def checkStrCov (str_cov : String) (rank1 : ℕ) (rank2 : Option ℕ := none) : Py Unit :=
  if str_cov ∈ ALLOWED_COV_BASE then do
    pyAssert (rank1 = 2)
    match rank2 with
    | some r => pyAssert (r = 2)
    | none => pure ()
  else if str_cov ∈ ALLOWED_COV_SET then do
    pyAssert (rank1 = 3)
    match rank2 with
    | some r => pyAssert (r = 3)
    | none => pure ()
  else if str_cov ∈ ALLOWED_COV then .error .value
  else .error .value

end Verif.UtilsCovariance
