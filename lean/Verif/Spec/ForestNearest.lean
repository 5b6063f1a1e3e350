import Verif.Spec.ForestShape

/-! Vocabulary for which training rows a forest prediction reads (C144). -/

namespace Verif.Spec

open Verif.Trees

variable {d : ℕ}

/-- `z` lies in the box spanned by `x` and `p`. -/
def Spanned (x p z : Point d) : Prop := ∀ f, min (x f) (p f) ≤ z f ∧ z f ≤ max (x f) (p f)

/-- `p` is as near to `x` as `z` is, and if they are equally near, not below `z`. -/
def AsNear (x p z : Point 1) : Prop :=
  |x 0 - p 0| < |x 0 - z 0| ∨ (|x 0 - p 0| = |x 0 - z 0| ∧ z 0 ≤ p 0)

/-- `(p, y)` is one of the rows with the indices `idx`. -/
def Drawn (X : List (Point d)) (Y : List ℝ) (idx : List ℕ) (p : Point d) (y : ℝ) : Prop :=
  ∃ i ∈ idx, X[i]? = some p ∧ Y[i]? = some y

end Verif.Spec
