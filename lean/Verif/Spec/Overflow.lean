import Verif.Spec.Rounded

/-! Numbers of bounded size (C110). -/

namespace Verif.Spec

/-- A search space whose ends are finite doubles, those below `2^1024` in size. -/
def FiniteBox {d : ℕ} (B : Bounds d) : Prop :=
  DoubleBox B ∧ ∀ i, |(B i).1| < 2 ^ 1024 ∧ |(B i).2| < 2 ^ 1024

/-- A point of floats that are all numbers and lie in the search space. -/
def FiniteInBox {d : ℕ} (B : Bounds d) (p : Fin d → Flt) : Prop :=
  ∀ i, ∃ x : ℝ, p i = .fin x ∧ (B i).1 ≤ x ∧ x ≤ (B i).2

end Verif.Spec
