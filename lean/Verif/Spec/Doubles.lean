import Mathlib.Data.Real.Basic
import Mathlib.Algebra.Order.Floor.Ring

/-! Numbers in double precision (C103-C105). -/

namespace Verif.Spec

/-- The finite doubles (IEEE 754 binary64), gradual underflow included. Overflow is left out: there is
no greatest exponent. -/
def Double : Set ℝ := {x | ∃ m e : ℤ, |m| < 2 ^ 53 ∧ -1074 ≤ e ∧ x = m * (2 : ℝ) ^ e}

/-- `fl` rounds every real number to a nearest double; ties are broken in any way. -/
structure Nearest (fl : ℝ → ℝ) : Prop where
  mem : ∀ x, fl x ∈ Double
  near : ∀ x, ∀ z ∈ Double, |fl x - x| ≤ |z - x|

end Verif.Spec
