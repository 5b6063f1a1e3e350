import Mathlib.Analysis.SpecialFunctions.ExpDeriv
import Mathlib.Analysis.Real.Pi.Bounds
import Mathlib.LinearAlgebra.Matrix.NonsingularInverse
import Mathlib.Analysis.SpecialFunctions.Gamma.Basic
import Mathlib.MeasureTheory.Constructions.Pi
import Mathlib.MeasureTheory.Measure.WithDensity
import Mathlib.MeasureTheory.Measure.Lebesgue.Basic

/-! Specification of the multivariate normal density and of the multivariate Student-t density
(C36-C40). -/

namespace Verif.Spec

open Matrix

/-- The density of the multivariate normal distribution with mean `m` and covariance `K`. -/
noncomputable def mvnDensity {ι : Type*} [Fintype ι] [DecidableEq ι] (m : ι → ℝ)
    (K : Matrix ι ι ℝ) (y : ι → ℝ) : ℝ :=
  Real.exp (-(1 / 2) * ((y - m) ⬝ᵥ (K⁻¹ *ᵥ (y - m)))) /
    √((2 * Real.pi) ^ Fintype.card ι * K.det)

/-- The density of the multivariate Student-t distribution with `ν` degrees of freedom, mean `m`
and covariance `K` (Shah, Wilson and Ghahramani 2014, definition 2). -/
noncomputable def mvtDensity {ι : Type*} [Fintype ι] [DecidableEq ι] (ν : ℝ) (m : ι → ℝ)
    (K : Matrix ι ι ℝ) (y : ι → ℝ) : ℝ :=
  Real.Gamma ((ν + Fintype.card ι) / 2) /
      (Real.Gamma (ν / 2) * √(((ν - 2) * Real.pi) ^ Fintype.card ι * K.det)) *
    (1 + ((y - m) ⬝ᵥ (K⁻¹ *ᵥ (y - m))) / (ν - 2)) ^ (-((ν + Fintype.card ι) / 2))

open MeasureTheory in
/-- The multivariate Student-t distribution: the measure with density `mvtDensity`. -/
noncomputable def studentT {ι : Type*} [Fintype ι] [DecidableEq ι] (ν : ℝ) (m : ι → ℝ)
    (K : Matrix ι ι ℝ) : Measure (ι → ℝ) :=
  volume.withDensity fun y => ENNReal.ofReal (mvtDensity ν m K y)

end Verif.Spec
