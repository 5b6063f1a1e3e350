import Mathlib.Data.Matrix.Basic
import Verif.Spec.Kernels

/-!
Specification of covariances with hyperparameters that are any floats (C149). Nothing here uses
`Model/NonFiniteKernels.lean`.
-/

namespace Verif.Spec

open Verif.UtilsCovariance

/-- The dictionary holds these floats: noise and signal, and lengthscales that are either one float (used in
every dimension) or an array of `d` floats. -/
structure DescribesFloats {d : ℕ} (h : HypDict) (noise signal : Flt) (l : Fin d → Flt) : Prop where
  noise : h.noise = some (.flt noise)
  signal : h.signal = some (.flt signal)
  lengthscales : h.lengthscales = some (.arr (List.ofFn l)) ∨
    ∃ a, (∀ k, l k = a) ∧ h.lengthscales = some (.flt a)

/-- A float one can divide by: neither zero nor NaN. Infinities are among them. -/
def Divisor (a : Flt) : Prop := a ≠ .fin 0 ∧ a ≠ .nan

/-- The part of one coordinate in the squared distance. Coordinates with an infinite lengthscale do not
count. -/
noncomputable def coordinatePart (a : Flt) (x y : ℝ) : ℝ :=
  match a with
  | .fin r => ((x - y) / r) ^ 2
  | _ => 0

/-- The covariance that ignores coordinates with an infinite lengthscale. -/
noncomputable def kernelIgnoring {d : ℕ} (name : String) (s : ℝ) (l : Fin d → Flt) (x y : Point d) : ℝ :=
  s ^ 2 * profile name √(∑ k, coordinatePart (l k) (x k) (y k))

/-- The covariance matrix of noisy observations for this covariance: noise variance and the package's jitter
of `1e-5` are added on the diagonal. -/
noncomputable def noisyIgnoring {n d : ℕ} (name : String) (σ s : ℝ) (l : Fin d → Flt) (X : Fin n → Point d) :
    Matrix (Fin n) (Fin n) ℝ :=
  Matrix.of fun i j => kernelIgnoring name s l (X i) (X j) + if i = j then σ ^ 2 + 1 / 100000 else 0

end Verif.Spec
