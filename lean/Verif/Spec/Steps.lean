import Verif.Model.Gp
import Mathlib.Probability.Distributions.Gaussian.Real
import Mathlib.Probability.CDF

/-! Vocabulary for one step of an optimisation (C22, C23, C58-C61). -/

namespace Verif.Spec

/-- `b` is the smallest response. -/
def IsBest (b : ℝ) (Y : List ℝ) : Prop := b ∈ Y ∧ ∀ y ∈ Y, b ≤ y

/-- Probability of a standard normal variable to be at most `x`. -/
noncomputable def Phi (x : ℝ) : ℝ := ProbabilityTheory.cdf (ProbabilityTheory.gaussianReal 0 1) x

/-- Density of the standard normal law. -/
noncomputable def phi (x : ℝ) : ℝ := ProbabilityTheory.gaussianPDFReal 0 1 x

/-- `v` is the value of the named acquisition function at a point with predicted mean `m` and
standard deviation `s`, the responses so far being `Y`. -/
def AcqAt (name : String) (noise : Option ℝ) (m s : ℝ) (Y : List ℝ) (v : ℝ) : Prop :=
  (name = "pi" ∧ ∃ b, IsBest b Y ∧ v = Phi ((b - m) / (s + 1e-5))) ∨
  (name = "ei" ∧ ∃ b, IsBest b Y ∧
    v = (b - m) * Phi ((b - m) / (s + 1e-5)) + s * phi ((b - m) / (s + 1e-5))) ∨
  (name = "ucb" ∧ v = -m + 2 * Real.log (Y.length + 1) * s) ∨
  (name = "aei" ∧ ∃ b e, IsBest b Y ∧ noise = some e ∧
    v = ((b - m) * Phi ((b - m) / (s + 1e-5)) + s * phi ((b - m) / (s + 1e-5))) *
      (1 - e / √(s ^ 2 + e ^ 2))) ∨
  (name = "pure_exploit" ∧ v = -m) ∨
  (name = "pure_explore" ∧ v = s)

/-- A prior mean that treats its rows separately. -/
def RowWise {d : ℕ} (prior : Gp.PriorMu d) : Prop :=
  ∀ {n : ℕ} (X : Fin n → Point d) (μ : Fin n → ℝ), Gp.getPriorMu prior (.vec X) = .ok μ →
    ∀ i, Gp.getPriorMu prior (.vec fun _ : Fin 1 => X i) = .ok fun _ => μ i

/-- The finite noise level a hyperparameter dictionary holds. -/
def noiseOf (h : UtilsCovariance.HypDict) : Option ℝ :=
  match h.noise with
  | some (.flt (.fin e)) => some e
  | _ => none

/-- Position `k` of the candidates holds `p`; no candidate has a smaller value `g` and every
earlier one has a larger value. -/
def FirstLowest {α : Type} (g : α → ℝ) (l : List α) (k : ℕ) (p : α) : Prop :=
  l[k]? = some p ∧ (∀ q ∈ l, g p ≤ g q) ∧ ∀ (j : ℕ) q, j < k → l[j]? = some q → g p < g q

end Verif.Spec
