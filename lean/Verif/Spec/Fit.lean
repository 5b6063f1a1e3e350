import Verif.Model.Tp

/-! Vocabulary of C82. -/

namespace Verif.Spec

open Verif.Gp

/-- A minimiser that never ends worse than it started: if the objective has a value at the start, it
has one at the result, and not a larger one. -/
def Descends (m : Minimize) : Prop :=
  ∀ method f x0 bounds jac v, m method f x0 bounds jac = .ok v →
    ∀ y0 g0, f x0 = .ok (y0, g0) → ∃ y g, f v = .ok (y, g) ∧ y ≤ y0

end Verif.Spec
