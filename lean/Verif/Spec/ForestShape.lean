import Verif.Spec.Trees

/-! Vocabulary for the shape of forest predictions (C135, C136). -/

namespace Verif.Spec

open Verif.Trees

variable {d : ℕ}

/-- `x'` is `x` with every coordinate moved to the nearest value between the least and the greatest
one of the inputs `X`. -/
def MovedInto (X : List (Point d)) (x x' : Point d) : Prop :=
  ∀ f, ∃ lo hi, IsLeast {v | ∃ z ∈ X, z f = v} lo ∧ IsGreatest {v | ∃ z ∈ X, z f = v} hi ∧
    x' f = max lo (min hi (x f))

/-- `x` and `x'` lie on the same side of every midpoint of two values that a coordinate takes in the
inputs `X`. -/
def SameCell (X : List (Point d)) (x x' : Point d) : Prop :=
  ∀ f, ∀ y ∈ X, ∀ z ∈ X, y f < z f → (x f < (y f + z f) / 2 ↔ x' f < (y f + z f) / 2)

/-- No two inputs agree in a coordinate. -/
def NoTies (X : List (Point d)) : Prop := ∀ f, (X.map fun x => x f).Nodup

/-- The number of the first `m` trees that have not drawn row `i` for their samples of `k` of `n`
rows. -/
noncomputable def missedBy (rnd : ForestRnd d) (m n k i : ℕ) : ℕ :=
  ((List.range m).filter fun t => i ∉ rnd.sample t n k).length

end Verif.Spec
