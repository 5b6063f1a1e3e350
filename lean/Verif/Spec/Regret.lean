import Verif.Spec.Inputs
import Mathlib.Analysis.SpecialFunctions.Log.Basic
import Mathlib.LinearAlgebra.Matrix.Determinant.Basic

/-! Specification for C114: how much the responses at given inputs tell about the function, and the
weights of the deviations in the upper confidence bound. -/

namespace Verif.Spec

open Verif.Covariance Verif.UtilsCovariance

/-- Twice the mutual information between the responses at the rows of `X` and the values of the
function there, the noise having variance `σ ^ 2 + 1e-5`. -/
noncomputable def informationGain {n d : ℕ} (base : String) (σ s : ℝ) (l : Fin d → ℝ)
    (X : Inputs n d) : ℝ :=
  Real.log (1 + (σ ^ 2 + 1 / 100000 : ℝ)⁻¹ • gram base s l X X).det

/-- The weight of the deviation with `n` responses: growing with the logarithm, or fixed. -/
noncomputable def confidenceWeight (kappa : ℝ) (grow : Bool) (n : ℕ) : ℝ :=
  if grow then kappa * Real.log (n + 1) else kappa

/-- Observations one after the other: the rows of `X n` are the first `n` of the rows `x`. -/
def Successive {d : ℕ} (name base : String) (X : (n : ℕ) → Inputs n d) (x : ℕ → Inputs 1 d) : Prop :=
  (∀ n, Suits name base (X n)) ∧ (∀ n, Suits name base (x n)) ∧
    ∀ n (i : Fin n), item (X n) i = item (x i) 0

end Verif.Spec
