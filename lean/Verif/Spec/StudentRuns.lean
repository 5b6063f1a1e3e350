import Verif.Spec.EndToEnd

/-! What C152 expects of the numerical routines of a search with the Student-t process. -/

namespace Verif.Spec

open Verif.Gp Verif.BoCommon Verif.UtilsCovariance

/-- Whatever vector the minimiser of the hyperparameters returns is one of degrees of freedom, a signal
and lengthscales of the set `H`. -/
def FitsInStudent {d : ℕ} (H : Set (ℝ × ℝ × (Fin d → ℝ))) (ard : Bool) (m : Minimize) : Prop :=
  ∀ method f x0 bounds jac v, m method f x0 bounds jac = .ok v →
    ∃ ν s, ∃ l : Fin d → ℝ, ∃ v', (ν, s, l) ∈ H ∧ v = .fin ν :: v' ∧ VectorOf ard s l v'

/-- The hyperparameters are these, with more than two degrees of freedom. -/
structure DescribesStudent {d : ℕ} (h : HypDict) (ν σ s : ℝ) (l : Fin d → ℝ) : Prop where
  describes : Describes h σ s l
  dof : h.dof = some (.flt (.fin ν))
  more : 2 < ν

/-- A search by the acquisition function `score` with a Student-t process whose routines do what they
are for: as `GoodSearch`, with more than two degrees of freedom. -/
structure GoodStudentSearch {d : ℕ} (score : String) (a : WrapperClass.Args d) (m : Point d → ℝ)
    (Λ smax lmin δ : ℝ) (H : Set (ℝ × ℝ × (Fin d → ℝ))) (o : WrapperClass.RunOracles d) : Prop where
  surrogate : a.str_surrogate = "tp"
  acq : a.str_acq = score
  prior : PriorFunction a.prior_mu m
  lipschitz : ∀ u v, |m u - m v| ≤ Λ * dist u v
  hyps : ∀ ν s l, (ν, s, l) ∈ H → 2 < ν ∧ |s| ≤ smax ∧ ∀ k, lmin ≤ |l k|
  fits : ∀ k, FitsInStudent H a.use_ard (o.routines k).fitHyps
  finds : ∀ k, FindsLow (o.routines k) a.range_X a.str_sampling_method_ao a.num_samples_ao δ

end Verif.Spec
