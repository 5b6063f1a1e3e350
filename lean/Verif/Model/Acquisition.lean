import Mathlib.Probability.Distributions.Gaussian.Real
import Mathlib.Probability.CDF
import Verif.Model.Constants

/-!
# `bayeso/acquisition.py`

Prediction vectors are lists of reals. `scipy.stats.norm.cdf` / `.pdf` are the exact
distribution function and density of the standard normal law. numpy's division by zero
(`pred_std + jitter = 0`) gives an infinity or NaN which the real model does not follow: the
model reports `outOfModel` then (`guardDiv`).
-/

namespace Verif.Acquisition

open Verif.Constants

/-- `scipy.stats.norm.cdf`. -/
noncomputable def normCdf (x : ℝ) : ℝ := ProbabilityTheory.cdf (ProbabilityTheory.gaussianReal 0 1) x

/-- `scipy.stats.norm.pdf`. -/
noncomputable def normPdf (x : ℝ) : ℝ := ProbabilityTheory.gaussianPDFReal 0 1 x

/-- Divisors of an elementwise division; a zero divisor leaves the model. -/
noncomputable def guardDiv (divisors : List ℝ) : Py Unit :=
  if (0 : ℝ) ∈ divisors then .error .outOfModel else .ok ()

/-- `pi` (`acquisition.py:16-51`). -/
noncomputable def pi (pred_mean pred_std Y_train : List ℝ) (jitter : ℝ := JITTER_ACQ) :
    Py (List ℝ) := do
  pyAssert (pred_mean.length = pred_std.length)
  let best ← npMin Y_train
  guardDiv (pred_std.map (· + jitter))
  let val_z := List.zipWith (fun m s => (best - m) / (s + jitter)) pred_mean pred_std
  return val_z.map normCdf

/-- `ei` (`acquisition.py:54-88`). -/
noncomputable def ei (pred_mean pred_std Y_train : List ℝ) (jitter : ℝ := JITTER_ACQ) :
    Py (List ℝ) := do
  pyAssert (pred_mean.length = pred_std.length)
  let best ← npMin Y_train
  guardDiv (pred_std.map (· + jitter))
  return List.zipWith
    (fun m s =>
      let z := (best - m) / (s + jitter)
      (best - m) * normCdf z + s * normPdf z) pred_mean pred_std

/-- `ucb` (`acquisition.py:91-137`). -/
noncomputable def ucb (pred_mean pred_std : List ℝ) (Y_train : Option (List ℝ) := none)
    (kappa : ℝ := 2) (increase_kappa : Bool := true) : Py (List ℝ) := do
  pyAssert (pred_mean.length = pred_std.length)
  let kappa_ := match increase_kappa, Y_train with
    | true, some Y => kappa * Real.log ((Y.length : ℝ) + 1)
    | _, _ => kappa
  return List.zipWith (fun m s => -m + kappa_ * s) pred_mean pred_std

/-- `aei` (`acquisition.py:140-179`). -/
noncomputable def aei (pred_mean pred_std Y_train : List ℝ) (noise : ℝ)
    (jitter : ℝ := JITTER_ACQ) : Py (List ℝ) := do
  pyAssert (pred_mean.length = pred_std.length)
  let best ← npMin Y_train
  guardDiv (pred_std.map (· + jitter))
  guardDiv (pred_std.map (fun s => Real.sqrt (s ^ 2 + noise ^ 2)))
  return List.zipWith
    (fun m s =>
      let z := (best - m) / (s + jitter)
      let val_ei := (best - m) * normCdf z + s * normPdf z
      val_ei * (1 - noise / Real.sqrt (s ^ 2 + noise ^ 2))) pred_mean pred_std

/-- `pure_exploit` (`acquisition.py:182-199`). -/
def pureExploit (pred_mean : List ℝ) : Py (List ℝ) := return pred_mean.map (fun m => -m)

/-- `pure_explore` (`acquisition.py:202-219`). -/
def pureExplore (pred_std : List ℝ) : Py (List ℝ) := return pred_std

end Verif.Acquisition
