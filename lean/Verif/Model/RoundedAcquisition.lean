import Verif.Model.Acquisition

/-!
# Acquisition functions with rounding

The functions of `Acquisition.lean` once more, with every arithmetic operation followed by a rounding
`fl`. `cdf` and `pdf` are `scipy.stats.norm.cdf` and `scipy.stats.norm.pdf`, and `lg` is `np.log`, as the
libraries compute them. Taking the minimum and changing the sign are exact. With `fl = id` and the exact
functions these are the functions without rounding (`Lemmas/RoundedAcquisition.lean`).
-/

namespace Verif.RoundedAcquisition

open Verif.Constants Verif.Acquisition

variable (fl cdf pdf lg : ℝ → ℝ)

/-- `val_z` (`acquisition.py:48-49`, `84-85`, `174-175`). -/
noncomputable def valZ (best jitter m s : ℝ) : ℝ := fl (fl (best - m) / fl (s + jitter))

/-- `pi` (`acquisition.py:16-51`). -/
noncomputable def pi (pred_mean pred_std Y_train : List ℝ) (jitter : ℝ := JITTER_ACQ) :
    Py (List ℝ) := do
  pyAssert (pred_mean.length = pred_std.length)
  let best ← npMin Y_train
  guardDiv (pred_std.map fun s => fl (s + jitter))
  let val_z := List.zipWith (valZ fl best jitter) pred_mean pred_std
  return val_z.map cdf

/-- `ei` (`acquisition.py:54-88`). -/
noncomputable def ei (pred_mean pred_std Y_train : List ℝ) (jitter : ℝ := JITTER_ACQ) :
    Py (List ℝ) := do
  pyAssert (pred_mean.length = pred_std.length)
  let best ← npMin Y_train
  guardDiv (pred_std.map fun s => fl (s + jitter))
  return List.zipWith
    (fun m s =>
      let z := valZ fl best jitter m s
      fl (fl (fl (best - m) * cdf z) + fl (s * pdf z))) pred_mean pred_std

/-- `ucb` (`acquisition.py:91-137`). -/
noncomputable def ucb (pred_mean pred_std : List ℝ) (Y_train : Option (List ℝ) := none)
    (kappa : ℝ := 2) (increase_kappa : Bool := true) : Py (List ℝ) := do
  pyAssert (pred_mean.length = pred_std.length)
  let kappa_ := match increase_kappa, Y_train with
    | true, some Y => fl (kappa * lg (fl ((Y.length : ℝ) + 1)))
    | _, _ => kappa
  return List.zipWith (fun m s => fl (-m + fl (kappa_ * s))) pred_mean pred_std

/-- `aei` (`acquisition.py:140-179`). Squares are rounded products. -/
noncomputable def aei (pred_mean pred_std Y_train : List ℝ) (noise : ℝ)
    (jitter : ℝ := JITTER_ACQ) : Py (List ℝ) := do
  pyAssert (pred_mean.length = pred_std.length)
  let best ← npMin Y_train
  guardDiv (pred_std.map fun s => fl (s + jitter))
  let root := fun s : ℝ => fl √(fl (fl (s ^ 2) + fl (noise ^ 2)))
  guardDiv (pred_std.map root)
  return List.zipWith
    (fun m s =>
      let z := valZ fl best jitter m s
      let val_ei := fl (fl (fl (best - m) * cdf z) + fl (s * pdf z))
      fl (val_ei * fl (1 - fl (noise / root s)))) pred_mean pred_std

end Verif.RoundedAcquisition
