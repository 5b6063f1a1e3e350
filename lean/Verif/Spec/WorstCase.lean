import Verif.Spec.Inputs
import Verif.Model.Gp
import Verif.Model.Acquisition

/-! Specification for C123 to C125: functions of bounded norm in the space the kernel reproduces. -/

namespace Verif.Spec

open Verif.UtilsCovariance

/-- The norm of `f` in the space of functions that the kernel reproduces is at most `B`, said without
the space: no combination of values of `f` exceeds `B` times the norm of the same combination of
kernel functions. -/
def NormAtMost {d : ℕ} (base : String) (s : ℝ) (l : Fin d → ℝ) (B : ℝ) (f : Point d → ℝ) : Prop :=
  0 ≤ B ∧ ∀ (n : ℕ) (z : Fin n → Point d) (c : Fin n → ℝ),
    |∑ i, c i * f (z i)| ≤ B * √(∑ i, ∑ j, c i * kernel base s l (z i) (z j) * c j)

/-- The same for values on a set only. -/
def NormAtMostOn {d : ℕ} (D : Set (Point d)) (base : String) (s : ℝ) (l : Fin d → ℝ) (B : ℝ)
    (f : Point d → ℝ) : Prop :=
  0 ≤ B ∧ ∀ (n : ℕ) (z : Fin n → Point d), (∀ i, z i ∈ D) → ∀ c : Fin n → ℝ,
    |∑ i, c i * f (z i)| ≤ B * √(∑ i, ∑ j, c i * kernel base s l (z i) (z j) * c j)

/-- The prior mean handed over evaluates the function `m` row by row. -/
def PriorFunction {d : ℕ} (prior : Gp.PriorMu d) (m : Point d → ℝ) : Prop :=
  ∀ (n : ℕ) (X : Fin n → Point d), Gp.getPriorMu prior (.vec X) = .ok fun i => m (X i)

/-- A value moved and scaled as responses between `lo` and `hi` are when they are normalised to `[0, 10]`;
unchanged if these are the same. -/
noncomputable def minMaxImage (lo hi t : ℝ) : ℝ :=
  if hi = lo then t else 10 * (t - lo) / (hi - lo)

end Verif.Spec
