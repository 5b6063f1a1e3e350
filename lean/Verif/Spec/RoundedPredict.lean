import Verif.Spec.Doubles
import Mathlib.Data.Matrix.Mul

/-! Products of matrices in double precision (C129). -/

namespace Verif.Spec

/-- `mm` multiplies matrices of doubles with inner dimension `b`. The error of an entry is at most `γ` times the
sum of the sizes of its terms, plus `t` for underflow; entries are doubles. This covers every order of
additions, fused operations and extended precision. -/
def MultipliesWithin (b : ℕ) (γ t : ℝ)
    (mm : ∀ {a b c : ℕ}, Matrix (Fin a) (Fin b) ℝ → Matrix (Fin b) (Fin c) ℝ →
      Matrix (Fin a) (Fin c) ℝ) : Prop :=
  ∀ (a c : ℕ) (A : Matrix (Fin a) (Fin b) ℝ) (B : Matrix (Fin b) (Fin c) ℝ),
    (∀ i k, A i k ∈ Double) → (∀ k j, B k j ∈ Double) → ∀ i j, mm A B i j ∈ Double ∧
      |mm A B i j - ∑ k, A i k * B k j| ≤ γ * ∑ k, |A i k| * |B k j| + t

end Verif.Spec
