import Verif.Model.Acquisition
import Verif.Model.NonFinite

/-!
# Acquisition functions on arbitrary floats

The functions of `Acquisition.lean` once more, on predictions and responses that may be infinite or NaN and
with division by zero: finite numbers remain exact reals, everything else follows IEEE 754. A sum
`pred_std + jitter` that is zero is positive zero, so a positive number over it is plus infinity.
-/

namespace Verif.NonFiniteAcquisition

open Verif.Constants Verif.Acquisition Verif.NonFinite

/-- IEEE multiplication. -/
noncomputable def mul : Flt → Flt → Flt
  | .nan, _ => .nan
  | _, .nan => .nan
  | .fin x, .fin y => .fin (x * y)
  | .fin x, .pinf => if 0 < x then .pinf else if x < 0 then .ninf else .nan
  | .fin x, .ninf => if 0 < x then .ninf else if x < 0 then .pinf else .nan
  | .pinf, .fin y => if 0 < y then .pinf else if y < 0 then .ninf else .nan
  | .ninf, .fin y => if 0 < y then .ninf else if y < 0 then .pinf else .nan
  | .pinf, .pinf => .pinf
  | .ninf, .ninf => .pinf
  | _, _ => .ninf

/-- `scipy.stats.norm.cdf`. -/
noncomputable def normCdfF : Flt → Flt
  | .fin x => .fin (normCdf x)
  | .pinf => .fin 1
  | .ninf => .fin 0
  | .nan => .nan

/-- `scipy.stats.norm.pdf`. -/
noncomputable def normPdfF : Flt → Flt
  | .fin x => .fin (normPdf x)
  | .nan => .nan
  | _ => .fin 0

/-- `val_z` (`acquisition.py:48-49`, `84-85`, `174-175`). -/
noncomputable def valZ (best : Flt) (jitter : ℝ) (m s : Flt) : Flt :=
  div (best.sub m) (s.add (.fin jitter))

/-- `pi` (`acquisition.py:16-51`). -/
noncomputable def pi (pred_mean pred_std Y_train : List Flt) (jitter : ℝ := JITTER_ACQ) :
    Py (List Flt) := do
  pyAssert (pred_mean.length = pred_std.length)
  let best ← NonFinite.npMin Y_train
  let val_z := List.zipWith (valZ best jitter) pred_mean pred_std
  return val_z.map normCdfF

/-- The value of `ei` for one prediction (`acquisition.py:84-88`). -/
noncomputable def eiValue (best : Flt) (jitter : ℝ) (m s : Flt) : Flt :=
  let z := valZ best jitter m s
  (mul (best.sub m) (normCdfF z)).add (mul s (normPdfF z))

/-- `ei` (`acquisition.py:54-88`). -/
noncomputable def ei (pred_mean pred_std Y_train : List Flt) (jitter : ℝ := JITTER_ACQ) :
    Py (List Flt) := do
  pyAssert (pred_mean.length = pred_std.length)
  let best ← NonFinite.npMin Y_train
  return List.zipWith (eiValue best jitter) pred_mean pred_std

/-- `ucb` (`acquisition.py:91-137`). -/
noncomputable def ucb (pred_mean pred_std : List Flt) (Y_train : Option (List Flt) := none)
    (kappa : ℝ := 2) (increase_kappa : Bool := true) : Py (List Flt) := do
  pyAssert (pred_mean.length = pred_std.length)
  let kappa_ := match increase_kappa, Y_train with
    | true, some Y => kappa * Real.log ((Y.length : ℝ) + 1)
    | _, _ => kappa
  return List.zipWith (fun m s => m.neg.add (mul (.fin kappa_) s)) pred_mean pred_std

/-- `aei` (`acquisition.py:140-179`). -/
noncomputable def aei (pred_mean pred_std Y_train : List Flt) (noise : ℝ)
    (jitter : ℝ := JITTER_ACQ) : Py (List Flt) := do
  pyAssert (pred_mean.length = pred_std.length)
  let best ← NonFinite.npMin Y_train
  return List.zipWith
    (fun m s =>
      mul (eiValue best jitter m s)
        ((Flt.fin 1).sub (div (.fin noise) (s.sq.add (.fin (noise ^ 2))).sqrt))) pred_mean pred_std

end Verif.NonFiniteAcquisition
