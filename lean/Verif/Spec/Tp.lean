import Verif.Spec.Gp
import Verif.Spec.Densities

/-! Specification of Student-t process regression (C39, C40, C68). -/

namespace Verif.Spec

open MeasureTheory Verif.Covariance

/-- The Student-t process prior with `ν` degrees of freedom at the training rows `X` and the test
rows `Xs`: the responses `y` and the test values `f` together follow the multivariate Student-t
distribution, with means `μ`, `μs` and the covariances given by the kernel (the noise and the
package's jitter on the variances). -/
def StudentPrior {Ω : Type*} [MeasurableSpace Ω] (P : Measure Ω) {n m d : ℕ} (ν : ℝ)
    (base : String) (σ s : ℝ) (l : Fin d → ℝ) (X : Inputs n d) (Xs : Inputs m d) (μ : Fin n → ℝ)
    (μs : Fin m → ℝ) (y : Fin n → Ω → ℝ) (f : Fin m → Ω → ℝ) : Prop :=
  (∀ i, AEMeasurable (y i) P) ∧ (∀ j, AEMeasurable (f j) P) ∧
  ∃ K : Matrix (Fin n ⊕ Fin m) (Fin n ⊕ Fin m) ℝ,
    (∀ i j, K (.inl i) (.inl j) =
      itemKernel base s l (item X i) (item X j) + if i = j then σ ^ 2 + 1 / 100000 else 0) ∧
    (∀ i j, K (.inl i) (.inr j) = itemKernel base s l (item X i) (item Xs j)) ∧
    (∀ i j, K (.inr j) (.inl i) = itemKernel base s l (item X i) (item Xs j)) ∧
    (∀ i j, K (.inr i) (.inr j) =
      itemKernel base s l (item Xs i) (item Xs j) + if i = j then 1 / 100000 else 0) ∧
    P.map (fun ω => Sum.elim (fun i => y i ω) fun j => f j ω) = studentT ν (Sum.elim μ μs) K

end Verif.Spec
