import Verif.Spec.Chance
import Verif.Spec.Thompson

/-! Vocabulary of C155. -/

namespace Verif.Spec

open MeasureTheory ProbabilityTheory
open Verif.ThompsonSampling

/-- All uniform draws of a run: block 0 is for the initial points, block `k + 1` for pass `k`. -/
def blockDraw {d : ℕ} (r : BaseBo.Draws d) (o : ℕ → TsOracles d) : ℕ × ℕ → ℝ
  | (0, i) => r.uniform i
  | (k + 1, i) => (o k).draws.uniform i

/-- All uniform draws of a run are independent and uniform on the unit interval. -/
structure FreshDraws {Ω : Type} [MeasurableSpace Ω] (μ : Measure Ω) {d : ℕ}
    (r : Ω → BaseBo.Draws d) (o : Ω → ℕ → TsOracles d) : Prop where
  meas : ∀ p, Measurable fun ω => blockDraw (r ω) (o ω) p
  indep : iIndepFun (fun p ω => blockDraw (r ω) (o ω) p) μ
  law : ∀ p, μ.map (fun ω => blockDraw (r ω) (o ω) p) = unitLaw

end Verif.Spec
