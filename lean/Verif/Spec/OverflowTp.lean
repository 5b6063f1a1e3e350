import Mathlib.Analysis.SpecialFunctions.Gamma.Basic
import Verif.Model.OverflowTp
import Verif.Spec.HypSearch

/-! What a Gamma function of doubles does, and what a bounded minimiser does. -/

namespace Verif.Spec

open Verif.OverflowTp

/-- A Gamma function of doubles on positive numbers: plus infinity for values that are too large for a
double, and otherwise the value up to the relative error `ε`. What happens close to the largest double
is left open. -/
def GammaOfDoubles (ε : ℝ) (gamma : ℝ → Flt) : Prop :=
  ∀ x > 0, (2 ^ 1024 ≤ Real.Gamma x → gamma x = .pinf) ∧
    (Real.Gamma x ≤ 2 ^ 1023 → ∃ v, gamma x = .fin v ∧ |v - Real.Gamma x| ≤ ε * Real.Gamma x)

/-- A minimiser that evaluates its objective within the bounds only: objectives that agree there give
the same result. -/
def StaysWithin (minimize : MinimizeF) : Prop :=
  ∀ method f g v₀ r jac, (∀ v, Within r v → f (v.map .fin) = g (v.map .fin)) →
    minimize method f v₀ (some r) jac = minimize method g v₀ (some r) jac

/-- A minimiser that, started within the bounds on an objective with a value everywhere within them, ends
within the bounds. -/
def ReturnsWithin (minimize : MinimizeF) : Prop :=
  ∀ method f v₀ r jac, Within r v₀ → (∀ v, Within r v → ∃ a, f (v.map .fin) = .ok a) →
    ∃ v, Within r v ∧ minimize method f (v₀.map .fin) (some r) jac = .ok (v.map .fin)

end Verif.Spec
