import Verif.Spec.RoundedTrees
import Verif.Model.OverflowTrees

/-! Vocabulary for trees and forests with overflow (C143). -/

namespace Verif.Spec

open Verif.Trees Verif.OverflowTrees

variable {d : ℕ}

/-- A tree whose thresholds and responses are numbers, as a tree of floats. -/
def asFloats : Tree d → TreeF d
  | .leaf rows => .leaf (rows.map fun q => (q.1, .fin q.2))
  | .node f v l r => .node f (.fin v) (asFloats l) (asFloats r)

/-- At most `2^20` training pairs, inputs up to `2^1000` and responses up to `2^500` in size. -/
def Moderate (X : List (Point d)) (Y : List ℝ) : Prop :=
  X.length ≤ 2 ^ 20 ∧ (∀ x ∈ X, ∀ f, |x f| ≤ (2 : ℝ) ^ (1000 : ℤ)) ∧
    ∀ y ∈ Y, |y| ≤ (2 : ℝ) ^ (500 : ℤ)

end Verif.Spec
