import Mathlib.Probability.Distributions.Gaussian.Real
import Verif.Model.Basic

/-! What a choice among candidates should achieve (C157). -/

namespace Verif.Spec

/-- `x` is one of the candidates, and no candidate has a value of `A` larger by more than `ε`. -/
def NearBest {d : ℕ} (A : Point d → ℝ) (ps : List (Point d)) (ε : ℝ) (x : Point d) : Prop :=
  x ∈ ps ∧ ∀ y ∈ ps, A y ≤ A x + ε

/-- By how much a normal variable with mean `m` and deviation `s` falls below `b` on average. -/
noncomputable def meanImprovement (b m s : ℝ) : ℝ :=
  ∫ y, max (b - y) 0 ∂(ProbabilityTheory.gaussianReal m (s ^ 2).toNNReal)

/-- The chance that a normal variable with mean `m` and deviation `s` falls below `b`. -/
noncomputable def improvementChance (b m s : ℝ) : ℝ :=
  (ProbabilityTheory.gaussianReal m (s ^ 2).toNNReal).real (Set.Iio b)

end Verif.Spec
