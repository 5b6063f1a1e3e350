import Verif.Model.Basic

/-! Specification of best-so-far values (C16). -/

namespace Verif.Spec

/-- `m` is the best observation of `l`: a lower bound of every observation that is a number,
and attained unless there is no such observation below `+inf`. -/
def BestSoFar (l : List Flt) (m : Flt) : Prop :=
  m ≠ Flt.nan ∧ (∀ y ∈ l, y = Flt.nan ∨ m ≤ y) ∧ (m ∈ l ∨ m = Flt.pinf)

end Verif.Spec
