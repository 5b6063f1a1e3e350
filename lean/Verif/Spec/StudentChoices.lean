import Verif.Model.Tp
import Verif.Model.Acquisition

/-! # Choices with predictions of a Student-t process (for C141) -/

namespace Verif.Spec

open Verif.UtilsCovariance

/-- The `n`-th choice `x n`, made with the inputs and responses before it, scores at most `δ` less
than any point of `C`, by the acquisition function `acq` of the means and deviations that the
Student-t process predicts and the responses. -/
def ChosenByStudent {d : ℕ} (acq : List ℝ → List ℝ → List ℝ → Py (List ℝ)) (C : Set (Point d))
    (x : ℕ → Point d) (Y : ℕ → ℝ) (h : HypDict) (base : String) (prior : Gp.PriorMu d) (δ : ℝ)
    (n : ℕ) : Prop :=
  ∀ z ∈ C, ∃ ν mu sd S v v', Tp.predictWithHyps (.vec fun i : Fin n => x i) (fun i => Y i)
    (.vec ![x n, z]) h base prior = .ok (ν, mu, sd, S) ∧
    acq (List.ofFn mu) (List.ofFn sd) (List.ofFn fun i : Fin n => Y i) = .ok [v, v'] ∧ v' ≤ v + δ

end Verif.Spec
