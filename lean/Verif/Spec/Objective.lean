import Verif.Spec.Inputs
import Verif.Spec.Run
import Verif.Spec.Steps

/-! Vocabulary for the acquisition function as a function of the candidate (C98, C99). -/

namespace Verif.Spec

/-- The prior mean is the function `p`, row by row. -/
def PriorIs {d : ℕ} (prior : Gp.PriorMu d) (p : Point d → ℝ) : Prop :=
  ∀ (m : ℕ) (Z : Fin m → Point d), Gp.getPriorMu prior (.vec Z) = .ok fun i => p (Z i)

/-- `x` is a best point of the box for `a`. -/
def BestInBox {d : ℕ} (B : Bounds d) (a : Point d → ℝ) (x : Point d) : Prop :=
  InBox B x ∧ ∀ y, InBox B y → a y ≤ a x

/-- All elements of all test rows have at least distance `R` (in units of the lengthscales) from all
elements of all training rows. -/
def FarRows {n m d : ℕ} (R : ℝ) (l : Fin d → ℝ) (X : Covariance.Inputs n d)
    (Xs : Covariance.Inputs m d) : Prop :=
  ∀ i j a b, R ≤ scaledDistance l ((item X i).2 a) ((item Xs j).2 b)

/-- The covariance of two test values before any observation, with the package's `1e-5` on the
diagonal. -/
noncomputable def priorCov {m d : ℕ} (base : String) (s : ℝ) (l : Fin d → ℝ)
    (Xs : Covariance.Inputs m d) (j j' : Fin m) : ℝ :=
  itemKernel base s l (item Xs j) (item Xs j') + if j = j' then 1 / 100000 else 0

end Verif.Spec
