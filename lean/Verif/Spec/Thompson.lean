import Verif.Model.ThompsonSampling
import Verif.Spec.Total
import Verif.Spec.Kernels

/-! Vocabulary of C54, C55 and C73. -/

namespace Verif.Spec

open Verif.SampleFunctions Verif.ThompsonSampling Verif.BoCommon

/-- `p` is a test point at which the sampled function is smallest; `f i` is its value at the
`i`-th test point. -/
def AtMinimum {d : ℕ} (points : List (Point d)) (f : ℕ → ℝ) (p : Point d) : Prop :=
  ∃ i, points[i]? = some p ∧ ∀ j < points.length, f i ≤ f j

/-- The generator that always draws the function `f`. -/
def Normal.always (f : ℕ → ℝ) : Normal := ⟨fun _ _ => .ok fun _ i => f i⟩

/-- As many responses as inputs, and the `i`-th is what the `i`-th call of the target gave. -/
def Paired {d : ℕ} (target : ℕ → Point d → Py Flt) (X : List (Point d)) (Y : List Flt) : Prop :=
  Y.length = X.length ∧ ∀ i y, Y[i]? = some y → ∃ p, X[i]? = some p ∧ target i p = .ok y

/-- The normal distribution can be drawn from for every symmetric positive definite covariance
matrix. -/
def DrawsDefinite (g : Normal) : Prop :=
  ∀ (n : ℕ) (mean : Fin n → ℝ) (S : Matrix (Fin n) (Fin n) ℝ), (∀ i j, S i j = S j i) → QuadPos S →
    ∃ rv, g.frozen mean S = .ok rv

/-- The routines of a run work. -/
structure TsWell {d : ℕ} (o : TsOracles d) : Prop where
  fit : Minimizes o.fitHyps (FitVector d)
  draws : UnitDraws o.draws
  normal : DrawsDefinite o.normal

end Verif.Spec
