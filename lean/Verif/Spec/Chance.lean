import Mathlib.Probability.ConditionalProbability
import Mathlib.Probability.Independence.Basic
import Mathlib.Probability.Distributions.Gaussian.Real
import Mathlib.MeasureTheory.Measure.Lebesgue.Basic
import Verif.Model.BaseBo

/-! Random draws and the distributions of samples (C111). -/

namespace Verif.Spec

open MeasureTheory ProbabilityTheory

variable {Ω : Type} [MeasurableSpace Ω]

/-- Independent draws with the same distribution. -/
structure Iid (μ : Measure Ω) (x : ℕ → Ω → ℝ) (law : Measure ℝ) : Prop where
  meas : ∀ k, Measurable (x k)
  indep : iIndepFun x μ
  law : ∀ k, μ.map (x k) = law

/-- The uniform distribution on the unit interval `[0, 1)`. -/
noncomputable def unitLaw : Measure ℝ := volume.restrict (Set.Ico 0 1)

/-- The uniform distribution on an interval, a point mass if the interval is a point. -/
noncomputable def uniformLaw (lo hi : ℝ) : Measure ℝ :=
  if lo < hi then volume[|Set.Icc lo hi] else Measure.dirac lo

/-- The uniform distribution on a search space. -/
noncomputable def boxLaw {d : ℕ} (B : Bounds d) : Measure (Point d) :=
  Measure.pi fun j => uniformLaw (B j).1 (B j).2

/-- The normal distribution around the middle of an interval, with a quarter of its width as standard
deviation, moved to the nearest point of the interval. -/
noncomputable def clippedNormal (lo hi : ℝ) : Measure ℝ :=
  (gaussianReal ((lo + hi) / 2) (((hi - lo) / 4) ^ 2).toNNReal).map fun x => max lo (min x hi)

end Verif.Spec
