import Verif.Model.UtilsCovariance

/-!
Specification of the search for hyperparameters (C133): vectors of numbers within bounds, and a
best vector within bounds for an objective that may raise. Nothing here uses the likelihoods.
-/

namespace Verif.Spec

/-- A vector with as many entries as there are bounds, each entry within its bounds. -/
def Within (r : List (ℝ × ℝ)) (v : List ℝ) : Prop :=
  List.Forall₂ (fun p x => p.1 ≤ x ∧ x ≤ p.2) r v

/-- The objective has a value at every vector within the bounds, and one of these vectors has
the least value. -/
def HasBest {α : Type} (value : α → ℝ) (f : List Flt → Py α) (r : List (ℝ × ℝ)) : Prop :=
  ∃ v₀ a, Within r v₀ ∧ f (v₀.map .fin) = .ok a ∧
    ∀ v, Within r v → ∃ b, f (v.map .fin) = .ok b ∧ value a ≤ value b

/-- The objective has a value at every vector of `S`, and on `S` this value is a continuous
function of the entries. -/
def ContinuousOnVectors {α : Type} {N : ℕ} (value : α → ℝ) (f : List Flt → Py α)
    (S : Set (Fin N → ℝ)) : Prop :=
  ∃ F : (Fin N → ℝ) → ℝ, ContinuousOn F S ∧
    ∀ v ∈ S, ∃ a, f ((List.ofFn v).map .fin) = .ok a ∧ value a = F v

end Verif.Spec
