import Verif.Model.RoundedStep
import Verif.Spec.Kernels
import Verif.Spec.RoundedKernels
import Verif.Spec.RoundedPredict
import Verif.Spec.RoundedAcquisition
import Verif.Spec.RoundedLikelihood

/-! What is asked of a library for a whole step in double precision, with numbers (C158). -/

namespace Verif.Spec

open Verif.UtilsCovariance Verif.RoundedStep

variable {n d : ℕ}

/-- Hyperparameters of ordinary size: the default noise, a signal of at most one, and every point of `P` at
most two lengthscales away from the origin. -/
structure OrdinaryHyps (P : Point d → Prop) (h : HypDict) (s : ℝ) (l : Fin d → ℝ) : Prop where
  describes : Describes h (1 / 100) s l
  signal : s ^ 2 ≤ 1
  points : ∀ x, P x → scaledLength l x ≤ 2

/-- A library whose routines have the accuracy of ordinary ones. Factors, solutions and inverses are only
asked for kernel matrices of inputs `X` under hyperparameters of ordinary size. Gradients need not be accurate,
they need to exist. -/
structure Accurate (lib : Library n) (X : Fin n → Point d) (name : String) : Prop where
  nearest : Nearest lib.fl
  exp : ExpWithin (1 / 2 ^ 50) lib.ex
  log : LogRelative (1 / 2 ^ 50) lib.lg
  cdf : CdfWithin (1 / 2 ^ 40) lib.cdf
  pdf : PdfWithin (1 / 2 ^ 40) lib.pdf
  order : lib.o.Covers d
  order' : lib.o'.Covers n
  mul : MultipliesWithin n ((4 * n + 1) / 2 ^ 53) (2 * n * (2 : ℝ) ^ (-1075 : ℤ)) lib.mm
  factor : ∀ h s l K, OrdinaryHyps (fun x => ∃ i, x = X i) h s l →
    RoundedKernels.kernelMatrix lib.fl lib.ex lib.o X h name = .ok K →
    ∃ L, lib.chol K = .ok L ∧ FactorsWithin (1 / 10 ^ 12) K L ∧
      ∀ r, (∀ i, |r i| ≤ 10) → SolvesWithin (1 / 10 ^ 9) K r (lib.solve L r)
  inverse : ∀ h s l K, OrdinaryHyps (fun x => ∃ i, x = X i) h s l →
    RoundedKernels.kernelMatrix lib.fl lib.ex lib.o X h name = .ok K →
    ∃ V, lib.inv K = .ok V ∧ ∀ i j, V i j ∈ Double ∧ |V i j - K⁻¹ i j| ≤ 1 / 10 ^ 6
  gradient : ∀ v ard h s l, restoreHyps name v true ard true = .ok h →
    OrdinaryHyps (fun x => ∃ i, x = X i) h s l → s ≠ 0 → ∃ g, lib.grad v = .ok g

end Verif.Spec
