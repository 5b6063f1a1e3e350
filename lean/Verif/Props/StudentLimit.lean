import Verif.Lemmas.StudentLimit
import Verif.Props.Tp

/-! C93: with many degrees of freedom the Student-t process is the Gaussian process. -/

namespace Verif.Props

open Verif.Spec Verif.Covariance Verif.UtilsCovariance Verif.Constants Verif.Lemmas
open Matrix hiding gram
open scoped Topology

/-- C93, predictions: with the same kernel hyperparameters the means are equal whatever the degrees
of freedom, and as these grow the standard deviations and the covariances converge to those of the
Gaussian process; the Student-t process is the less certain one exactly if the misfit of the
responses is greater than their number. -/
theorem C93_predictions {n m d : ℕ} {name base : String} {X : Inputs n d} {Xs : Inputs m d}
    (hX : Suits name base X) (hXs : Suits name base Xs) {h : HypDict} {σ s : ℝ} {l : Fin d → ℝ}
    (hd : Describes h σ s l) (Y : Fin n → ℝ) {prior : Gp.PriorMu d} {μ : Fin n → ℝ}
    {μs : Fin m → ℝ} (hμ : Gp.getPriorMu prior X = .ok μ) (hμs : Gp.getPriorMu prior Xs = .ok μs) :
    ∃ (mu sd : Fin m → ℝ) (S K P : Matrix _ _ ℝ) (sdT : ℝ → Fin m → ℝ)
      (ST : ℝ → Matrix (Fin m) (Fin m) ℝ),
      getKernelInverse X h name = .ok (K, P, none) ∧
      Gp.predictWithHyps X Y Xs h name prior = .ok (mu, sd, S) ∧
      (∀ ν, 2 < ν → Tp.predictWithHyps X Y Xs { h with dof := some (.flt (.fin ν)) } name prior =
        .ok (ν + n, mu, sdT ν, ST ν)) ∧
      (∀ i, Filter.Tendsto (fun ν => sdT ν i) Filter.atTop (𝓝 (sd i))) ∧
      (∀ i j, Filter.Tendsto (fun ν => ST ν i j) Filter.atTop (𝓝 (S i j))) ∧
      ∀ ν, 2 < ν → ∀ i, (sd i < sdT ν i ↔ (n : ℝ) < (Y - μ) ⬝ᵥ (P *ᵥ (Y - μ))) := by
  have hp := noisyGram_posDef base σ s l X
  have hn : (0 : ℝ) ≤ n := Nat.cast_nonneg n
  have hβ := misfit_nonneg hp (Y - μ)
  have hS := postCov_posDef base σ s l X Xs
  refine ⟨_, _, postCov base σ s l X Xs, noisyGram base σ s l X, (noisyGram base σ s l X)⁻¹,
    fun ν i => √(max ((((ν + misfit (noisyGram base σ s l X) (Y - μ) - 2) / (ν + n - 2)) •
      postCov base σ s l X Xs) i i) 0),
    fun ν => ((ν + misfit (noisyGram base σ s l X) (Y - μ) - 2) / (ν + n - 2)) •
      postCov base σ s l X Xs, getKernelInverse_ok hX hd _,
    predictWithHyps_ok hX hXs hd Y hμ hμs, fun ν hν => ?_, fun i => ?_, fun i j => ?_,
    fun ν hν i => ?_⟩
  · exact tpPredictWithHyps_ok hX hXs (h := { h with dof := some (.flt (.fin ν)) })
      ⟨hd.1, hd.2, hd.3, hd.4⟩ hν rfl Y hμ hμs
  · have h1 : Filter.Tendsto (fun ν : ℝ => ((((ν + misfit (noisyGram base σ s l X) (Y - μ) - 2) /
        (ν + n - 2)) • postCov base σ s l X Xs) i i)) Filter.atTop
        (𝓝 (postCov base σ s l X Xs i i)) := by
      simpa using (tendsto_tpFactor (misfit (noisyGram base σ s l X) (Y - μ)) n).mul_const
        (postCov base σ s l X Xs i i)
    exact (Real.continuous_sqrt.tendsto _).comp (h1.max tendsto_const_nhds)
  · simpa using (tendsto_tpFactor (misfit (noisyGram base σ s l X) (Y - μ)) n).mul_const
      (postCov base σ s l X Xs i j)
  · have hii : 0 < postCov base σ s l X Xs i i := hS.diag_pos
    have hc : 0 < (ν + misfit (noisyGram base σ s l X) (Y - μ) - 2) / (ν + n - 2) :=
      div_pos (by linarith) (by linarith)
    have hprod := mul_pos hc hii
    change √(max (postCov base σ s l X Xs i i) 0) < √(max (_ * postCov base σ s l X Xs i i) 0) ↔
      (n : ℝ) < misfit (noisyGram base σ s l X) (Y - μ)
    rw [max_eq_left hii.le, max_eq_left hprod.le, Real.sqrt_lt_sqrt_iff hii.le,
      lt_mul_iff_one_lt_left hii, one_lt_div (by linarith)]
    constructor <;> intro h <;> linarith

/-- C93, likelihoods: the value minimised when a Student-t process is fitted converges, as the
degrees of freedom in the vector grow, to the value that is minimised for a Gaussian process at the
same vector without them. -/
theorem C93_likelihoods {n d : ℕ} {name base : String} {X : Inputs n d} (hX : Suits name base X)
    {θ : List ℝ} {ard fix : Bool} {h : HypDict}
    (hr : restoreHyps name (θ.map Flt.fin) true ard fix = .ok h) {σ s : ℝ} {l : Fin d → ℝ}
    (hd : Describes h σ s l) (hn : n ≠ 0) (hθ : θ ≠ []) (Y μ : Fin n → ℝ) :
    ∃ (v : ℝ) (vT : ℝ → ℝ), Gp.negLogMl X Y (θ.map Flt.fin) name μ ard fix false false =
        .ok (v, none) ∧
      (∀ ν, 2 < ν → Tp.negLogMl X Y ((withDof fix ν θ).map Flt.fin) name μ ard fix false =
        .ok (vT ν, none)) ∧
      Filter.Tendsto vT Filter.atTop (𝓝 v) := by
  have hp := noisyGram_posDef base σ s l X
  refine ⟨_, fun ν => tllExact ν (noisyGram base σ s l X) (Y - μ),
    negLogMl_inverse_ok hX hr hd hn Y μ false, fun ν hν => ?_, tendsto_tllExact _⟩
  have hr' : restoreHyps name ((withDof fix ν θ).map Flt.fin) false ard fix =
      .ok { h with dof := some (.flt (.fin ν)) } := by
    rw [restore_withDof name ard fix ν θ fun _ => hθ, hr]; rfl
  exact tpNegLogMl_of_noisyCov hX hr' hν rfl
    (noisyCov_ok hX (h := { h with dof := some (.flt (.fin ν)) }) ⟨hd.1, hd.2, hd.3, hd.4⟩)
    hp.det_pos hn Y μ

/-- The hypotheses of C93 at the concrete data. -/
example : Suits "matern32" "matern32" exTrain3 ∧
    restoreHyps "matern32" ([2, 3].map Flt.fin) true true true =
      .ok ⟨some (.flt (.fin GP_NOISE)), none, some (.flt (.fin 2)), some (.arr [.fin 3])⟩ ∧
    Describes ⟨some (.flt (.fin GP_NOISE)), none, some (.flt (.fin 2)), some (.arr [.fin 3])⟩
      GP_NOISE 2 (fun _ : Fin 1 => 3) ∧ Gp.getPriorMu none exTrain3 = .ok (0 : Fin 3 → ℝ) := by
  refine ⟨exTrain3_suits, ?_, ⟨rfl, rfl, .inl rfl, by intro; norm_num⟩, rfl⟩
  have := restore_vec (name := "matern32") (by simp [baseNames]) true GP_NOISE 2 [3]
  simpa [hypVector] using this

end Verif.Props
