import Verif.Spec.Doubles
import Verif.Model.BaseBo

/-! Search spaces and generators in double precision (C103). -/

namespace Verif.Spec

/-- A search space whose ends are doubles. -/
def DoubleBox {d : ℕ} (B : Bounds d) : Prop :=
  ∀ i, (B i).1 ∈ Double ∧ (B i).2 ∈ Double ∧ (B i).1 ≤ (B i).2

/-- Generators of the unit interval return doubles of `[0, 1)`. -/
def DoubleDraws {d : ℕ} (r : BaseBo.Draws d) : Prop :=
  (∀ k, r.uniform k ∈ Double ∧ 0 ≤ r.uniform k ∧ r.uniform k < 1) ∧
    (∀ k j, r.sobol k j ∈ Double ∧ 0 ≤ r.sobol k j ∧ r.sobol k j < 1) ∧
    (∀ k j, r.halton k j ∈ Double ∧ 0 ≤ r.halton k j ∧ r.halton k j < 1)

end Verif.Spec
