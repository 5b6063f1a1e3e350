import Mathlib.Analysis.SpecialFunctions.Exp
import Mathlib.Analysis.SpecialFunctions.Sqrt
import Verif.Model.UtilsCovariance

/-!
Specification of covariance functions (C24-C31): the textbook kernels as functions of the
scaled distance, quadratic forms, and what it means for a hyperparameter dictionary to
describe given numbers. Nothing here uses `Model/Covariance.lean`.
-/

namespace Verif.Spec

open Verif.UtilsCovariance

/-- The distance between two inputs after dividing each coordinate by its lengthscale. -/
noncomputable def scaledDistance {d : ℕ} (l : Fin d → ℝ) (x y : Point d) : ℝ :=
  √(∑ k, ((x k - y k) / l k) ^ 2)

/-- Squared exponential profile. -/
noncomputable def seProfile (r : ℝ) : ℝ := Real.exp (-(r ^ 2 / 2))

/-- Matern 3/2 profile. -/
noncomputable def m32Profile (r : ℝ) : ℝ := (1 + √3 * r) * Real.exp (-(√3 * r))

/-- Matern 5/2 profile. -/
noncomputable def m52Profile (r : ℝ) : ℝ :=
  (1 + √5 * r + 5 * r ^ 2 / 3) * Real.exp (-(√5 * r))

/-- The four names of base covariance functions. -/
def baseNames : List String := ["eq", "se", "matern32", "matern52"]

/-- The profile a name stands for. -/
noncomputable def profile (name : String) : ℝ → ℝ :=
  if name = "matern32" then m32Profile
  else if name = "matern52" then m52Profile
  else seProfile

/-- The covariance of two inputs: signal variance times profile of the scaled distance. -/
noncomputable def kernel {d : ℕ} (name : String) (s : ℝ) (l : Fin d → ℝ) (x y : Point d) : ℝ :=
  s ^ 2 * profile name (scaledDistance l x y)

/-- The average covariance over all pairs of elements of two sets. -/
noncomputable def setKernel {d p q : ℕ} (name : String) (s : ℝ) (l : Fin d → ℝ)
    (x : Fin p → Point d) (y : Fin q → Point d) : ℝ :=
  (∑ a, ∑ b, kernel name s l (x a) (y b)) / (p * q)

/-- All quadratic forms of a matrix are non-negative. -/
def QuadNonneg {n : ℕ} (A : Fin n → Fin n → ℝ) : Prop :=
  ∀ c : Fin n → ℝ, 0 ≤ ∑ i, ∑ j, c i * A i j * c j

/-- All quadratic forms of a matrix with a non-zero vector are positive. -/
def QuadPos {n : ℕ} (A : Fin n → Fin n → ℝ) : Prop :=
  ∀ c : Fin n → ℝ, c ≠ 0 → 0 < ∑ i, ∑ j, c i * A i j * c j

/-- The dictionary holds these numbers: float noise and signal, and lengthscales that are
either one float (used in every dimension) or an array of `d` floats, none of them zero. -/
structure Describes {d : ℕ} (h : HypDict) (noise signal : ℝ) (l : Fin d → ℝ) : Prop where
  noise : h.noise = some (.flt (.fin noise))
  signal : h.signal = some (.flt (.fin signal))
  lengthscales : h.lengthscales = some (.arr (List.ofFn fun k => .fin (l k))) ∨
    ∃ a, a ≠ 0 ∧ (∀ k, l k = a) ∧ h.lengthscales = some (.flt (.fin a))
  nonzero : ∀ k, l k ≠ 0

end Verif.Spec
