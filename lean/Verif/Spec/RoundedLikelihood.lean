import Verif.Spec.Doubles
import Mathlib.Analysis.SpecialFunctions.Log.Basic

/-! What is asked of the library routines behind the likelihood (C156). -/

namespace Verif.Spec

/-- A logarithm of relative error `ζ` on positive doubles, with doubles as values. -/
structure LogRelative (ζ : ℝ) (lg : ℝ → ℝ) : Prop where
  mem : ∀ x, lg x ∈ Double
  near : ∀ x ∈ Double, 0 < x → |lg x - Real.log x| ≤ ζ * |Real.log x|

/-- `L` is a factor of `K` up to `δ` in each entry: lower triangular, a positive diagonal, doubles. -/
structure FactorsWithin {n : ℕ} (δ : ℝ) (K L : Matrix (Fin n) (Fin n) ℝ) : Prop where
  mem : ∀ i j, L i j ∈ Double
  upper : ∀ i j, i < j → L i j = 0
  diag : ∀ i, 0 < L i i
  near : ∀ i j, |∑ k, L i k * L j k - K i j| ≤ δ

/-- `a` solves `K a = r` up to `ε` in each equation, and consists of doubles. -/
structure SolvesWithin {n : ℕ} (ε : ℝ) (K : Matrix (Fin n) (Fin n) ℝ) (r a : Fin n → ℝ) : Prop where
  mem : ∀ i, a i ∈ Double
  near : ∀ i, |∑ j, K i j * a j - r i| ≤ ε

end Verif.Spec
