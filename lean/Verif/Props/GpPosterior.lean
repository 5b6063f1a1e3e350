import Verif.Props.Gp
import Verif.Lemmas.GaussianCond

/-! C67: the prediction is the conditional distribution under the Gaussian process prior. -/

namespace Verif.Props

open Verif.Spec Verif.Covariance Verif.UtilsCovariance Verif.Constants Verif.Lemmas Verif.Gp
open Matrix hiding gram
open MeasureTheory ProbabilityTheory WithLp

/-- The covariance matrix of responses and test values together. -/
noncomputable def jointCov {n m d : ℕ} (base : String) (σ s : ℝ) (l : Fin d → ℝ) (X : Inputs n d)
    (Xs : Inputs m d) : Matrix (Fin n ⊕ Fin m) (Fin n ⊕ Fin m) ℝ :=
  Matrix.fromBlocks (noisyGram base σ s l X) (gram base s l X Xs) (gram base s l X Xs)ᵀ
    (gram base s l Xs Xs + (1 / 100000 : ℝ) • (1 : Matrix (Fin m) (Fin m) ℝ))

theorem jointCov_posDef {n m d : ℕ} (base : String) (σ s : ℝ) (l : Fin d → ℝ)
    (X : Inputs n d) (Xs : Inputs m d) : (jointCov base σ s l X Xs).PosDef := by
  have hg : (gram base s l Xs Xs)ᵀ = gram base s l Xs Xs := by
    ext i j; exact gram_symm base s l Xs Xs j i
  refine Matrix.PosDef.of_dotProduct_mulVec_pos ?_ fun v hv0 => ?_
  · rw [Matrix.IsHermitian, Matrix.conjTranspose_eq_transpose_of_trivial, jointCov,
      Matrix.fromBlocks_transpose]
    congr 1
    · exact noisyGram_transpose base σ s l X
    · simp [hg]
  · have h := errForm_ge base σ s l X Xs (fun j => v (Sum.inr j)) (fun i => -v (Sum.inl i))
    have h1 := dot_self_nonneg (fun j => v (Sum.inr j))
    have h2 := dot_self_nonneg (fun i => -v (Sum.inl i))
    have h3 : 1 / 100000 * ((fun i => -v (Sum.inl i)) ⬝ᵥ (fun i => -v (Sum.inl i))) ≤
        (σ ^ 2 + 1 / 100000) * ((fun i => -v (Sum.inl i)) ⬝ᵥ (fun i => -v (Sum.inl i))) :=
      mul_le_mul_of_nonneg_right (by nlinarith [sq_nonneg σ]) h2
    have hv : v = Sum.elim (fun i => v (Sum.inl i)) (fun j => v (Sum.inr j)) := by
      ext (i | j) <;> rfl
    have hpos : 0 < (fun j => v (Sum.inr j)) ⬝ᵥ (fun j => v (Sum.inr j)) +
        (fun i => -v (Sum.inl i)) ⬝ᵥ (fun i => -v (Sum.inl i)) := by
      refine lt_of_le_of_ne (by linarith) fun h0 => hv0 ?_
      have e1 := dotProduct_self_eq_zero.mp (le_antisymm (by linarith) h1)
      have e2 := dotProduct_self_eq_zero.mp (le_antisymm (by linarith) h2)
      ext (i | j)
      · simpa using congrFun e2 i
      · exact congrFun e1 j
    refine lt_of_lt_of_le (b := 1 / 100000 * ((fun j => v (Sum.inr j)) ⬝ᵥ (fun j => v (Sum.inr j)) +
        (fun i => -v (Sum.inl i)) ⬝ᵥ (fun i => -v (Sum.inl i)))) (by positivity)
      (le_trans (by linarith) (le_trans h (le_of_eq ?_)))
    have hneg : (fun i => -v (Sum.inl i)) = -(fun i : Fin n => v (Sum.inl i)) := rfl
    rw [hneg, errForm, star_trivial]
    conv_rhs => rw [hv]
    rw [jointCov, Matrix.fromBlocks_mulVec, sumElim_dotProduct_sumElim]
    simp only [dotProduct_add, neg_dotProduct, Matrix.mulVec_neg, dotProduct_neg, neg_neg]
    have : (fun j => v (Sum.inr j)) ⬝ᵥ ((gram base s l X Xs)ᵀ *ᵥ fun i => v (Sum.inl i)) =
        (fun i => v (Sum.inl i)) ⬝ᵥ (gram base s l X Xs *ᵥ fun j => v (Sum.inr j)) := by
      rw [Matrix.dotProduct_mulVec, Matrix.vecMul_transpose, dotProduct_comm]
    rw [Function.comp_def, Function.comp_def]
    simp only [Sum.elim_inl, Sum.elim_inr]
    rw [this]
    ring

theorem jointCov_posSemidef {n m d : ℕ} (base : String) (σ s : ℝ) (l : Fin d → ℝ)
    (X : Inputs n d) (Xs : Inputs m d) : (jointCov base σ s l X Xs).PosSemidef :=
  (jointCov_posDef base σ s l X Xs).posSemidef

/-- C67: the prior the predictions refer to exists, whatever kernel, hyperparameters, inputs
and mean values. -/
theorem C67_prior_exists {n m d : ℕ} (base : String) (σ s : ℝ) (l : Fin d → ℝ) (X : Inputs n d)
    (Xs : Inputs m d) (μ : Fin n → ℝ) (μs : Fin m → ℝ) :
    ∃ (Ω : Type) (_ : MeasurableSpace Ω) (P : Measure Ω) (y : Fin n → Ω → ℝ) (f : Fin m → Ω → ℝ),
      IsProbabilityMeasure P ∧ GaussianPrior P base σ s l X Xs μ μs y f := by
  have hS := jointCov_posSemidef base σ s l X Xs
  have hi := IsGaussian.integrable_id (μ := multivariateGaussian (toLp 2 (Sum.elim μ μs))
    (jointCov base σ s l X Xs))
  have hm := integral_id_multivariateGaussian' (μ := toLp 2 (Sum.elim μ μs))
    (S := jointCov base σ s l X Xs)
  refine ⟨EuclideanSpace ℝ (Fin n ⊕ Fin m), inferInstance,
    multivariateGaussian (toLp 2 (Sum.elim μ μs)) (jointCov base σ s l X Xs),
    fun i x => x (Sum.inl i), fun j x => x (Sum.inr j), inferInstance, ?_, ?_, ?_, ?_, ?_, ?_⟩
  · let L : EuclideanSpace ℝ (Fin n ⊕ Fin m) →L[ℝ] ((Fin n → ℝ) × (Fin m → ℝ)) :=
      (ContinuousLinearMap.pi fun i => EuclideanSpace.proj (Sum.inl i)).prod
        (ContinuousLinearMap.pi fun j => EuclideanSpace.proj (Sum.inr j))
    exact (IsGaussian.hasGaussianLaw_id (μ := multivariateGaussian (toLp 2 (Sum.elim μ μs))
      (jointCov base σ s l X Xs))).map_fun L
  · intro i
    have := (EuclideanSpace.proj (𝕜 := ℝ) (Sum.inl i : Fin n ⊕ Fin m)).integral_comp_comm hi
    rw [hm] at this
    exact this
  · intro i
    have := (EuclideanSpace.proj (𝕜 := ℝ) (Sum.inr i : Fin n ⊕ Fin m)).integral_comp_comm hi
    rw [hm] at this
    exact this
  · intro i j
    rw [covariance_eval_multivariateGaussian hS]
    simp [jointCov, noisyGram, gram, Matrix.one_apply]
  · intro j i
    rw [covariance_eval_multivariateGaussian hS]
    simp [jointCov, gram]
  · intro i j
    rw [covariance_eval_multivariateGaussian hS]
    simp [jointCov, gram, Matrix.one_apply]

theorem postCov_posDef {n m d : ℕ} (base : String) (σ s : ℝ) (l : Fin d → ℝ)
    (X : Inputs n d) (Xs : Inputs m d) : (postCov base σ s l X Xs).PosDef := by
  refine Matrix.PosDef.of_dotProduct_mulVec_pos ?_ fun v hv => ?_
  · rw [Matrix.IsHermitian, Matrix.conjTranspose_eq_transpose_of_trivial]
    ext i j
    exact postCov_symm base σ s l X Xs j i
  · rw [star_trivial]
    refine lt_of_lt_of_le ?_ (postCov_ge base σ s l X Xs v)
    refine mul_pos (by norm_num) (lt_of_le_of_ne (dot_self_nonneg v) fun h0 => hv ?_)
    exact dotProduct_self_eq_zero.mp h0.symm

/-- C67: under the Gaussian process prior, the conditional distribution of the test values
given the responses is, for almost every vector of responses `Y`, the multivariate Gaussian with
exactly the mean vector and covariance matrix that prediction returns for `Y`. -/
theorem C67_exact_posterior {n m d : ℕ} {name base : String} {X : Inputs n d}
    {Xs : Inputs m d} (hX : Suits name base X) (hXs : Suits name base Xs) {h : HypDict} {σ s : ℝ}
    {l : Fin d → ℝ} (hd : Describes h σ s l) {prior : PriorMu d} {μ : Fin n → ℝ}
    {μs : Fin m → ℝ} (hμ : getPriorMu prior X = .ok μ) (hμs : getPriorMu prior Xs = .ok μs)
    {Ω : Type} [MeasurableSpace Ω] {P : Measure Ω} [IsProbabilityMeasure P] {y : Fin n → Ω → ℝ}
    {f : Fin m → Ω → ℝ} (hP : GaussianPrior P base σ s l X Xs μ μs y f) :
    ∃ (mu : (Fin n → ℝ) → Fin m → ℝ) (sd : Fin m → ℝ) (S : Matrix (Fin m) (Fin m) ℝ),
      (∀ Y, predictWithHyps X Y Xs h name prior = .ok (mu Y, sd, S)) ∧ S.PosDef ∧
      condDistrib (fun ω => toLp 2 (fun j => f j ω)) (fun ω i => y i ω) P
        =ᵐ[P.map (fun ω i => y i ω)] fun Y => multivariateGaussian (toLp 2 (mu Y)) S := by
  have hp := postCov_posDef base σ s l X Xs
  refine ⟨fun Y => postMean base σ s l X Xs (Y - μ) + μs, _, _,
    fun Y => predictWithHyps_ok hX hXs hd Y hμ hμs, hp, ?_⟩
  have hu : IsUnit (noisyGram base σ s l X).det := (noisyGram_posDef base σ s l X).det_pos.ne'.isUnit
  refine gaussian_conditional (K := noisyGram base σ s l X) (k := gram base s l X Xs)
    (C := gram base s l Xs Xs + (1 / 100000 : ℝ) • (1 : Matrix (Fin m) (Fin m) ℝ))
    (W := (gram base s l X Xs)ᵀ * (noisyGram base σ s l X)⁻¹)
    hP.law hP.mean_y hP.mean_f (fun i j => ?_) (fun j i => ?_) (fun i j => ?_) ?_ hp.posSemidef
  · rw [hP.cov_yy]; simp [noisyGram, gram, Matrix.one_apply]
  · rw [hP.cov_fy]; simp [gram]
  · rw [hP.cov_ff]; simp [gram, Matrix.one_apply]
  · rw [Matrix.mul_assoc, Matrix.nonsing_inv_mul _ hu, Matrix.mul_one]

/-- The prior of C67 has the second moments of C35 when its mean is zero. -/
theorem gaussianPrior_moments {Ω : Type} [MeasurableSpace Ω] {P : Measure Ω}
    [IsProbabilityMeasure P] {n m d : ℕ} {base : String} {σ s : ℝ} {l : Fin d → ℝ}
    {X : Inputs n d} {Xs : Inputs m d} {y : Fin n → Ω → ℝ} {f : Fin m → Ω → ℝ}
    (h : GaussianPrior P base σ s l X Xs 0 0 y f) (j : Fin m) :
    PriorMoments P base σ s l X (item Xs j) y (f j) := by
  have hy2 : ∀ i, MemLp (y i) 2 P := fun i => (h.law.fst.eval i).memLp_two
  have hf2 : ∀ j, MemLp (f j) 2 P := fun j => (h.law.snd.eval j).memLp_two
  have e : ∀ {a b : Ω → ℝ}, MemLp a 2 P → MemLp b 2 P → ∫ ω, a ω ∂P = 0 →
      ∫ ω, a ω * b ω ∂P = cov[a, b; P] := by
    intro a b ha hb h0
    rw [covariance_eq_sub ha hb, h0, zero_mul, sub_zero]
    rfl
  refine ⟨hy2, hf2 j, fun i i' => ?_, fun i => ?_, ?_⟩
  · rw [e (hy2 i) (hy2 i') (h.mean_y i), h.cov_yy]
  · rw [e (hf2 j) (hy2 i) (h.mean_f j), h.cov_fy]
  · rw [e (hf2 j) (hf2 j) (h.mean_f j), h.cov_ff, if_pos rfl]

/-- A prior satisfying C67 (and, its mean being zero, C35) at three equal training inputs and
one test input. -/
example : ∃ (Ω : Type) (_ : MeasurableSpace Ω) (P : Measure Ω) (y : Fin 3 → Ω → ℝ)
    (f : Fin 1 → Ω → ℝ), GaussianPrior P "matern32" 0 2 (fun _ => 3) exTrain3 exTrain 0 0 y f ∧
      PriorMoments P "matern32" 0 2 (fun _ => 3) exTrain3 (item exTrain 0) y (f 0) := by
  obtain ⟨Ω, _, P, y, f, _, h⟩ := C67_prior_exists "matern32" 0 2 (fun _ => 3) exTrain3 exTrain 0 0
  exact ⟨Ω, _, P, y, f, h, gaussianPrior_moments h 0⟩

end Verif.Props
