import Mathlib.Probability.Distributions.Gaussian.Multivariate
import Mathlib.Probability.Distributions.Gaussian.HasGaussianLaw.Independence
import Mathlib.Probability.Kernel.CondDistrib
import Mathlib.Probability.Distributions.Gaussian.Fernique
import Mathlib.Probability.Distributions.Gaussian.CharFun

/-! Conditioning a jointly Gaussian vector. -/

namespace Verif.Lemmas

open MeasureTheory ProbabilityTheory Matrix WithLp

variable {Ω : Type*} [MeasurableSpace Ω] {P : Measure Ω} [IsProbabilityMeasure P]
  {n m : ℕ}

/-- A Gaussian vector with given means and covariances has the multivariate Gaussian law. -/
theorem map_eq_multivariateGaussian {z : Fin m → Ω → ℝ}
    (hz : HasGaussianLaw (fun ω j => z j ω) P) {a : Fin m → ℝ} {S : Matrix (Fin m) (Fin m) ℝ}
    (hS : S.PosSemidef) (ha : ∀ j, ∫ ω, z j ω ∂P = a j)
    (hc : ∀ i j, cov[z i, z j; P] = S i j) :
    P.map (fun ω => toLp 2 (fun j => z j ω)) = multivariateGaussian (toLp 2 a) S := by
  have hz' : HasGaussianLaw (fun ω => toLp 2 (fun j => z j ω)) P := hz.toLp_pi 2
  have hm : AEMeasurable (fun ω => toLp 2 (fun j => z j ω)) P := hz'.aemeasurable
  have hG : IsGaussian (P.map (fun ω => toLp 2 (fun j => z j ω))) := hz'.isGaussian_map
  apply IsGaussian.ext
  · rw [integral_id_multivariateGaussian', integral_map hm (by fun_prop)]
    ext j
    have h1 : ∫ ω, z j ω ∂P = (∫ ω, toLp 2 (fun j => z j ω) ∂P) j :=
      (EuclideanSpace.proj (𝕜 := ℝ) j).integral_comp_comm (μ := P) hz'.integrable
    simp only [id]
    rw [← h1]
    exact ha j
  rw [← ContinuousLinearMap.toBilinForm_inj]
  refine LinearMap.BilinForm.ext_basis (EuclideanSpace.basisFun (Fin m) ℝ).toBasis fun i j ↦ ?_
  rw [ContinuousLinearMap.toBilinForm_apply, ContinuousLinearMap.toBilinForm_apply,
    covarianceBilin_apply_eq_cov, covariance_map, covarianceBilin_multivariateGaussian hS]
  · have e : ∀ i : Fin m, (fun u : EuclideanSpace ℝ (Fin m) ↦
        inner ℝ ((EuclideanSpace.basisFun (Fin m) ℝ).toBasis i) u) ∘
        (fun ω => toLp 2 (fun j => z j ω)) = z i := by
      intro i; ext ω; simp [PiLp.inner_apply]
    rw [e, e, hc]
    simp
  · exact Measurable.aestronglyMeasurable (by fun_prop)
  · exact Measurable.aestronglyMeasurable (by fun_prop)
  · exact hm
  · exact IsGaussian.memLp_two_id

theorem multivariateGaussian_translate (a b : EuclideanSpace ℝ (Fin m))
    (S : Matrix (Fin m) (Fin m) ℝ) :
    (multivariateGaussian a S).map (fun z => z + b) = multivariateGaussian (a + b) S := by
  rw [multivariateGaussian, multivariateGaussian, Measure.map_map (by fun_prop) (by fun_prop)]
  congr 1
  ext z
  simp only [Function.comp_apply]
  abel_nf

/-- The conditional law of `f` given `y`, for jointly Gaussian `(y, f)`. `W` are the regression
weights. -/
theorem gaussian_conditional {y : Fin n → Ω → ℝ} {f : Fin m → Ω → ℝ}
    (hlaw : HasGaussianLaw (fun ω => (fun i => y i ω, fun j => f j ω)) P)
    {μ : Fin n → ℝ} {μs : Fin m → ℝ} {K : Matrix (Fin n) (Fin n) ℝ}
    {k : Matrix (Fin n) (Fin m) ℝ} {C : Matrix (Fin m) (Fin m) ℝ} {W : Matrix (Fin m) (Fin n) ℝ}
    (hy : ∀ i, ∫ ω, y i ω ∂P = μ i) (hf : ∀ j, ∫ ω, f j ω ∂P = μs j)
    (hyy : ∀ i i', cov[y i, y i'; P] = K i i') (hfy : ∀ j i, cov[f j, y i; P] = k i j)
    (hff : ∀ j j', cov[f j, f j'; P] = C j j')
    (hW : W * K = kᵀ) (hS : (C - W * k).PosSemidef) :
    condDistrib (fun ω => toLp 2 (fun j => f j ω)) (fun ω i => y i ω) P
      =ᵐ[P.map (fun ω i => y i ω)]
      fun Y => multivariateGaussian (toLp 2 (W *ᵥ (Y - μ) + μs)) (C - W * k) := by
  have hyl : HasGaussianLaw (fun ω i => y i ω) P := hlaw.fst
  have hfl : HasGaussianLaw (fun ω j => f j ω) P := hlaw.snd
  have hy2 : ∀ i, MemLp (y i) 2 P := fun i => (hyl.eval i).memLp_two
  have hf2 : ∀ j, MemLp (f j) 2 P := fun j => (hfl.eval j).memLp_two
  let z : Fin m → Ω → ℝ := fun j ω => f j ω - ∑ i, W j i * y i ω
  have hWy2 : ∀ j, MemLp (fun ω => ∑ i, W j i * y i ω) 2 P := fun j =>
    memLp_finset_sum _ fun i _ => (hy2 i).const_mul _
  -- the joint law of responses and residuals
  let L : ((Fin n → ℝ) × (Fin m → ℝ)) →L[ℝ] ((Fin n → ℝ) × (Fin m → ℝ)) :=
    (ContinuousLinearMap.fst ℝ _ _).prod
      (ContinuousLinearMap.snd ℝ _ _ -
        (LinearMap.toContinuousLinearMap (Matrix.mulVecLin W)).comp (ContinuousLinearMap.fst ℝ _ _))
  have hzl : HasGaussianLaw (fun ω => (fun i => y i ω, fun j => z j ω)) P := by
    have h := hlaw.map_fun L
    have e : (fun ω => L (fun i => y i ω, fun j => f j ω)) =
        fun ω => (fun i => y i ω, fun j => z j ω) := by
      ext ω j
      · rfl
      · simp [L, z, mulVec, dotProduct]
    rwa [e] at h
  have hcov : ∀ i j, cov[y i, z j; P] = 0 := by
    intro i j
    have h1 : cov[y i, z j; P] = cov[y i, f j; P] - ∑ i', W j i' * cov[y i, y i'; P] := by
      rw [show z j = fun ω => f j ω - ∑ i', W j i' * y i' ω from rfl,
        covariance_fun_sub_right (hy2 i) (hf2 j) (hWy2 j),
        covariance_fun_sum_right (fun i' => (hy2 i').const_mul _) (hy2 i)]
      simp only [covariance_const_mul_right]
    rw [h1, covariance_comm, hfy]
    have h2 : ∑ i', W j i' * cov[y i, y i'; P] = (W * K) j i := by
      simp only [Matrix.mul_apply]
      refine Finset.sum_congr rfl fun i' _ => ?_
      rw [covariance_comm, hyy]
    rw [h2, hW, Matrix.transpose_apply, sub_self]
  have hind : IndepFun (fun ω i => y i ω) (fun ω j => z j ω) P :=
    hzl.indepFun_of_covariance_eval hcov
  have hzc : ∀ j j', cov[z j, z j'; P] = (C - W * k) j j' := by
    intro j j'
    have h1 : cov[z j, z j'; P] = cov[f j, z j'; P] - ∑ i, W j i * cov[y i, z j'; P] := by
      have hz2 : MemLp (z j') 2 P := (hf2 j').sub (hWy2 j')
      rw [show z j = fun ω => f j ω - ∑ i', W j i' * y i' ω from rfl,
        covariance_fun_sub_left (hf2 j) (hWy2 j) hz2,
        covariance_fun_sum_left (fun i' => (hy2 i').const_mul _) hz2]
      simp only [covariance_const_mul_left]
    have h2 : cov[f j, z j'; P] = cov[f j, f j'; P] - ∑ i', W j' i' * cov[f j, y i'; P] := by
      rw [show z j' = fun ω => f j' ω - ∑ i', W j' i' * y i' ω from rfl,
        covariance_fun_sub_right (hf2 j) (hf2 j') (hWy2 j'),
        covariance_fun_sum_right (fun i' => (hy2 i').const_mul _) (hf2 j)]
      simp only [covariance_const_mul_right]
    have h3 : ∑ i', W j' i' * cov[f j, y i'; P] = (W * k) j' j := by
      simp only [Matrix.mul_apply, hfy]
    have hsym : (C - W * k) j' j = (C - W * k) j j' := by
      have := hS.isHermitian.apply j j'
      simpa using this
    have hCs : C j j' = C j' j := by rw [← hff, covariance_comm, hff]
    rw [h1, h2, h3, hff]
    simp only [hcov, mul_zero, Finset.sum_const_zero, sub_zero]
    rw [← hsym, hCs, Matrix.sub_apply]
  have hzm : ∀ j, ∫ ω, z j ω ∂P = (μs - W *ᵥ μ) j := by
    intro j
    have hyi : ∀ i, Integrable (y i) P := fun i => (hyl.eval i).integrable
    rw [show (fun ω => z j ω) = fun ω => f j ω - ∑ i', W j i' * y i' ω from rfl,
      integral_sub (hfl.eval j).integrable (integrable_finset_sum _ fun i _ => (hyi i).const_mul _),
      integral_finset_sum _ fun i _ => (hyi i).const_mul _, hf]
    simp only [integral_const_mul, hy, Pi.sub_apply, mulVec, dotProduct]
  have hzlaw := map_eq_multivariateGaussian hzl.snd hS hzm hzc
  set ν := multivariateGaussian (toLp 2 (μs - W *ᵥ μ)) (C - W * k) with hν
  have hym : AEMeasurable (fun ω i => y i ω) P := hyl.aemeasurable
  have hzm' : AEMeasurable (fun ω => toLp 2 (fun j => z j ω)) P := (hzl.snd.toLp_pi 2).aemeasurable
  have hfm' : AEMeasurable (fun ω => toLp 2 (fun j => f j ω)) P := (hfl.toLp_pi 2).aemeasurable
  have hind' : P.map (fun ω => ((fun i => y i ω), toLp 2 (fun j => z j ω))) =
      (P.map (fun ω i => y i ω)).prod ν := by
    rw [← hzlaw]
    refine (indepFun_iff_map_prod_eq_prod_map_map hym hzm').mp ?_
    exact hind.comp (φ := id) (ψ := toLp 2) measurable_id (by fun_prop)
  -- the kernel
  have hWc : Measurable fun Y : Fin n → ℝ => (toLp 2 (W *ᵥ Y) : EuclideanSpace ℝ (Fin m)) := by
    have : Measurable fun Y : Fin n → ℝ => W *ᵥ Y :=
      (LinearMap.toContinuousLinearMap (Matrix.mulVecLin W)).continuous.measurable
    fun_prop
  let T : (Fin n → ℝ) × EuclideanSpace ℝ (Fin m) → EuclideanSpace ℝ (Fin m) :=
    fun p => p.2 + toLp 2 (W *ᵥ p.1)
  have hT : Measurable T := measurable_snd.add (hWc.comp measurable_fst)
  let κ : Kernel (Fin n → ℝ) (EuclideanSpace ℝ (Fin m)) :=
    (Kernel.id ×ₖ Kernel.const _ ν).map T
  have hκ : ∀ Y, κ Y = ν.map fun z => z + toLp 2 (W *ᵥ Y) := by
    intro Y
    simp only [κ]
    rw [Kernel.map_apply _ hT, Kernel.prod_apply, Kernel.id_apply, Kernel.const_apply,
      Measure.dirac_prod, Measure.map_map hT (by fun_prop)]
    rfl
  have : IsMarkovKernel κ := Kernel.IsMarkovKernel.map _ hT
  have hmain : condDistrib (fun ω => toLp 2 (fun j => f j ω)) (fun ω i => y i ω) P
      =ᵐ[P.map (fun ω i => y i ω)] κ := by
    refine condDistrib_ae_eq_of_measure_eq_compProd _ hfm' ?_
    have hT' : Measurable fun p : (Fin n → ℝ) × EuclideanSpace ℝ (Fin m) => (p.1, T p) :=
      measurable_fst.prodMk hT
    have e1 : P.map (fun ω => ((fun i => y i ω), toLp 2 (fun j => f j ω))) =
        ((P.map (fun ω i => y i ω)).prod ν).map fun p => (p.1, T p) := by
      rw [← hind', AEMeasurable.map_map_of_aemeasurable hT'.aemeasurable (hym.prodMk hzm')]
      congr 1
      ext ω j
      · rfl
      · simp [T, z, mulVec, dotProduct]
    have : IsProbabilityMeasure (P.map (fun ω i => y i ω)) := Measure.isProbabilityMeasure_map hym
    rw [e1]
    ext s hs
    rw [Measure.map_apply hT' hs, Measure.prod_apply (hT' hs), Measure.compProd_apply hs]
    refine lintegral_congr fun Y => ?_
    rw [hκ, Measure.map_apply (by fun_prop) (measurable_prodMk_left hs)]
    rfl
  refine hmain.trans (Filter.Eventually.of_forall fun Y => ?_)
  simp only [hκ, hν]
  rw [multivariateGaussian_translate]
  congr 1
  ext j
  simp [Matrix.mulVec_sub]
  ring

end Verif.Lemmas
