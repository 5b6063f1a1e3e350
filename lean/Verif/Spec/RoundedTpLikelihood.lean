import Verif.Spec.Doubles
import Mathlib.Analysis.SpecialFunctions.Gamma.Basic
import Mathlib.LinearAlgebra.Matrix.Determinant.Basic
import Mathlib.Analysis.SpecialFunctions.Log.Basic

/-! # Accuracy of the routines of the Student-t likelihood -/

namespace Verif.Spec

/-- A Gamma function of relative error `g` on doubles from 1 on. -/
structure GammaRelative (g : ℝ) (gm : ℝ → ℝ) : Prop where
  near : ∀ x ∈ Double, 1 ≤ x → |gm x - Real.Gamma x| ≤ g * Real.Gamma x

/-- The pair returned for the determinant of `K` has a positive sign, and a number within `δ` of the logarithm of
the determinant. -/
structure LogDetWithin {n : ℕ} (δ : ℝ) (K : Matrix (Fin n) (Fin n) ℝ) (p : ℝ × ℝ) : Prop where
  sign : 0 < p.1
  near : |p.2 - Real.log K.det| ≤ δ

end Verif.Spec
