import Verif.Spec.Inputs
import Verif.Model.Gp

/-! Specification for C121 to C125: inputs chosen one after the other by an acquisition function. -/

namespace Verif.Spec

open Verif.UtilsCovariance

/-- The `n`-th choice `x n`, made with the inputs and responses before it, scores at most `δ` less
than any point of `C`, by the acquisition function `acq` of the means and deviations predicted and
the responses. -/
def ChosenBy {d : ℕ} (acq : List ℝ → List ℝ → List ℝ → Py (List ℝ)) (C : Set (Point d))
    (x : ℕ → Point d) (Y : ℕ → ℝ) (h : HypDict) (base : String) (prior : Gp.PriorMu d) (δ : ℝ)
    (n : ℕ) : Prop :=
  ∀ z ∈ C, ∃ mu sd S v v', Gp.predictWithHyps (.vec fun i : Fin n => x i) (fun i => Y i)
    (.vec ![x n, z]) h base prior = .ok (mu, sd, S) ∧
    acq (List.ofFn mu) (List.ofFn sd) (List.ofFn fun i : Fin n => Y i) = .ok [v, v'] ∧ v' ≤ v + δ

end Verif.Spec
