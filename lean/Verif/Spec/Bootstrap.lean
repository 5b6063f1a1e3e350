import Mathlib.MeasureTheory.Measure.Typeclasses.Probability
import Mathlib.MeasureTheory.MeasurableSpace.Constructions
import Mathlib.Data.Nat.Factorial.Basic

/-! Random choices of rows (C112). -/

namespace Verif.Spec

open MeasureTheory

variable {Ω : Type} [MeasurableSpace Ω]

/-- `k` out of `n` positions, drawn with replacement: all `n^k` sequences are equally likely. -/
def WithReplacement (μ : Measure Ω) (n k : ℕ) (c : Ω → List ℕ) : Prop :=
  ∃ J : Ω → Fin k → Fin n, Measurable J ∧ (∀ ω, c ω = List.ofFn fun t => (J ω t : ℕ)) ∧
    ∀ v, μ (J ⁻¹' {v}) = ((n : ENNReal) ^ k)⁻¹

/-- `k` out of `n` positions, drawn without replacement: all `n (n-1) ... (n-k+1)` sequences of
different positions are equally likely. -/
def WithoutReplacement (μ : Measure Ω) (n k : ℕ) (c : Ω → List ℕ) : Prop :=
  ∃ J : Ω → Fin k → Fin n, Measurable J ∧ (∀ ω, c ω = List.ofFn fun t => (J ω t : ℕ)) ∧
    (∀ ω, Function.Injective (J ω)) ∧
    ∀ v, Function.Injective v → μ (J ⁻¹' {v}) = (n.descFactorial k : ENNReal)⁻¹

/-- The draws of `m` trees, each of `k` out of `n` positions with replacement, independent of each
other: all combinations are equally likely. -/
def TreeDraws (μ : Measure Ω) (m n k : ℕ) (c : Ω → ℕ → List ℕ) : Prop :=
  ∃ J : Ω → Fin m → Fin k → Fin n, Measurable J ∧
    (∀ ω t, c ω (t : Fin m) = List.ofFn fun s => (J ω t s : ℕ)) ∧
    ∀ v, μ (J ⁻¹' {v}) = (((n : ENNReal) ^ k) ^ m)⁻¹

end Verif.Spec
