import Mathlib.MeasureTheory.Measure.Lebesgue.Basic
import Mathlib.MeasureTheory.Measure.WithDensity
import Mathlib.Analysis.SpecialFunctions.Gamma.Basic

/-! The Student-t law of one number with mean zero and variance one (for C151). -/

namespace Verif.Spec

open MeasureTheory

/-- The density of the Student-t distribution with `ν` degrees of freedom, mean zero and variance
one. -/
noncomputable def unitStudentDensity (ν x : ℝ) : ℝ :=
  Real.Gamma ((ν + 1) / 2) / (Real.Gamma (ν / 2) * √((ν - 2) * Real.pi)) *
    (1 + x ^ 2 / (ν - 2)) ^ (-((ν + 1) / 2))

/-- The Student-t distribution with `ν` degrees of freedom, mean zero and variance one. -/
noncomputable def unitStudent (ν : ℝ) : Measure ℝ :=
  volume.withDensity fun x => ENNReal.ofReal (unitStudentDensity ν x)

end Verif.Spec
