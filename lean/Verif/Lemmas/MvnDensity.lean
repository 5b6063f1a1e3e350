import Verif.Spec.Densities
import Mathlib.Probability.Distributions.Gaussian.Multivariate
import Mathlib.MeasureTheory.Integral.Pi
import Mathlib.MeasureTheory.Measure.Lebesgue.Basic
import Mathlib.MeasureTheory.Measure.Haar.OfBasis

/-! The density of the multivariate normal distribution. -/

namespace Verif.Lemmas

open MeasureTheory ProbabilityTheory Matrix WithLp Verif.Spec
open scoped MatrixOrder

variable {ι : Type} [Fintype ι] [DecidableEq ι]

theorem pi_gaussian_density :
    (Measure.pi fun _ : ι => gaussianReal 0 1) = (volume : Measure (ι → ℝ)).withDensity
      fun x => ENNReal.ofReal (∏ i, gaussianPDFReal 0 1 (x i)) := by
  refine Measure.pi_eq fun s hs => ?_
  have hmeas : MeasurableSet (Set.univ.pi s) := MeasurableSet.univ_pi hs
  have hpos : ∀ x : ι → ℝ, 0 ≤ ∏ i, gaussianPDFReal 0 1 (x i) :=
    fun x => Finset.prod_nonneg fun i _ => gaussianPDFReal_nonneg _ _ _
  have hint : Integrable (fun x : ι → ℝ => ∏ i, gaussianPDFReal 0 1 (x i)) :=
    Integrable.fintype_prod fun _ => integrable_gaussianPDFReal 0 1
  rw [withDensity_apply _ hmeas, ← ofReal_integral_eq_lintegral_ofReal hint.integrableOn
    (Filter.Eventually.of_forall hpos), volume_pi, Measure.restrict_pi_pi,
    integral_fintype_prod_eq_prod (fun _ x => gaussianPDFReal 0 1 x),
    ENNReal.ofReal_prod_of_nonneg fun i _ =>
      setIntegral_nonneg (hs i) fun x _ => gaussianPDFReal_nonneg _ _ _]
  refine Finset.prod_congr rfl fun i _ => ?_
  rw [gaussianReal_apply_eq_integral 0 one_ne_zero]

/-- The law of a multivariate Gaussian with positive definite covariance has the textbook
density. -/
theorem multivariateGaussian_density (m : ι → ℝ) {K : Matrix ι ι ℝ}
    (hK : K.PosDef) :
    (multivariateGaussian (toLp 2 m) K).map (ofLp (p := 2)) =
      (volume : Measure (ι → ℝ)).withDensity fun y => ENNReal.ofReal (mvnDensity m K y) := by
  set A := CFC.sqrt K with hA
  have hAA : A * A = K := CFC.sqrt_mul_sqrt_self _ hK.posSemidef.nonneg
  have hdet : A.det * A.det = K.det := by rw [← Matrix.det_mul, hAA]
  have hA0 : A.det ≠ 0 := by
    intro h0
    rw [h0, zero_mul] at hdet
    exact hK.det_pos.ne hdet
  have hu : IsUnit A.det := hA0.isUnit
  have hAt : Aᵀ = A := by
    have h1 : A.PosSemidef := by
      have := CFC.sqrt_nonneg K
      rwa [Matrix.nonneg_iff_posSemidef] at this
    have := h1.isHermitian
    rwa [Matrix.IsHermitian, Matrix.conjTranspose_eq_transpose_of_trivial] at this
  have hKi : K⁻¹ = A⁻¹ * A⁻¹ := by rw [← hAA, Matrix.mul_inv_rev]
  let T : (ι → ℝ) → (ι → ℝ) := fun x => m + A *ᵥ x
  let U : (ι → ℝ) → (ι → ℝ) := fun y => A⁻¹ *ᵥ (y - m)
  have hUT : ∀ x, U (T x) = x := by
    intro x
    simp only [U, T, add_sub_cancel_left, Matrix.mulVec_mulVec, Matrix.nonsing_inv_mul _ hu,
      Matrix.one_mulVec]
  have hmul : ∀ B : Matrix ι ι ℝ, Measurable fun x : ι → ℝ => B *ᵥ x := fun B =>
    (LinearMap.toContinuousLinearMap (Matrix.mulVecLin B)).continuous.measurable
  have hT : Measurable T := (hmul A).const_add m
  have hU : Measurable U := (hmul A⁻¹).comp (measurable_id.sub_const m)
  have e1 : (multivariateGaussian (toLp 2 m) K).map (ofLp (p := 2)) =
      (Measure.pi fun _ : ι => gaussianReal 0 1).map T := by
    rw [multivariateGaussian, ← map_pi_eq_stdGaussian,
      Measure.map_map (by fun_prop) (by fun_prop), Measure.map_map (by fun_prop) (by fun_prop)]
    rfl
  have hvol : (volume : Measure (ι → ℝ)).map T = ENNReal.ofReal |A.det⁻¹| • volume := by
    have : T = (fun x => m + x) ∘ (Matrix.toLin' A) := by ext x; simp [T]
    have hl : Measurable (Matrix.toLin' A) := hmul A
    rw [this, ← Measure.map_map (measurable_const_add m) hl,
      Real.map_matrix_volume_pi_eq_smul_volume_pi hA0, Measure.map_smul, map_add_left_eq_self]
  rw [e1, pi_gaussian_density]
  ext s hs
  have hphi : Measurable fun x : ι → ℝ => ENNReal.ofReal (∏ i, gaussianPDFReal 0 1 (x i)) :=
    ENNReal.measurable_ofReal.comp
      (Finset.measurable_prod _ fun i _ => (measurable_gaussianPDFReal 0 1).comp (measurable_pi_apply i))
  have hphiU : Measurable fun y : ι → ℝ =>
      ENNReal.ofReal (∏ i, gaussianPDFReal 0 1 (U y i)) := hphi.comp hU
  rw [Measure.map_apply hT hs, withDensity_apply _ (hT hs), withDensity_apply _ hs]
  have e2 : ∫⁻ x in T ⁻¹' s, ENNReal.ofReal (∏ i, gaussianPDFReal 0 1 (x i)) =
      ∫⁻ y in s, ENNReal.ofReal (∏ i, gaussianPDFReal 0 1 (U y i)) ∂((volume).map T) := by
    rw [setLIntegral_map hs hphiU hT]
    simp only [hUT]
  rw [e2, hvol, Measure.restrict_smul, lintegral_smul_measure, smul_eq_mul,
    ← lintegral_const_mul _ hphiU]
  refine lintegral_congr fun y => ?_
  rw [← ENNReal.ofReal_mul (abs_nonneg _)]
  congr 1
  have hq : U y ⬝ᵥ U y = (y - m) ⬝ᵥ (K⁻¹ *ᵥ (y - m)) := by
    have hAti : (A⁻¹)ᵀ = A⁻¹ := by rw [Matrix.transpose_nonsing_inv, hAt]
    simp only [U]
    rw [hKi, ← Matrix.mulVec_mulVec, Matrix.dotProduct_mulVec (y - m), ← Matrix.mulVec_transpose,
      hAti]
  have hp : ∀ x : ℝ, gaussianPDFReal 0 1 x = (√(2 * Real.pi))⁻¹ * Real.exp (-(1 / 2) * (x * x)) := by
    intro x
    simp only [gaussianPDFReal, NNReal.coe_one, mul_one, sub_zero]
    congr 2
    ring
  simp only [hp, Finset.prod_mul_distrib, Finset.prod_const, Finset.card_univ,
    ← Real.exp_sum, ← Finset.mul_sum]
  have hs2 : ∑ i, U y i * U y i = U y ⬝ᵥ U y := rfl
  have hsq : √((2 * Real.pi) ^ Fintype.card ι * K.det) = √(2 * Real.pi) ^ Fintype.card ι * |A.det| := by
    have h0 : (2 * Real.pi) ^ Fintype.card ι = (√(2 * Real.pi) ^ Fintype.card ι) ^ 2 := by
      rw [← pow_mul, mul_comm _ 2, pow_mul, Real.sq_sqrt (by positivity)]
    rw [← hdet, Real.sqrt_mul (by positivity) (A.det * A.det), Real.sqrt_mul_self_eq_abs, h0,
      Real.sqrt_sq (by positivity)]
  rw [hs2, hq, mvnDensity, hsq, abs_inv, inv_pow]
  have h1 : |A.det| ≠ 0 := abs_ne_zero.mpr hA0
  have h2 : √(2 * Real.pi) ^ Fintype.card ι ≠ 0 := by positivity
  field_simp

end Verif.Lemmas
