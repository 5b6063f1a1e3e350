import Verif.Lemmas.StudentLaw
import Mathlib.Probability.HasLaw
import Mathlib.Probability.Distributions.Gaussian.Multivariate
import Mathlib.Probability.Independence.Integration

/-! A normal vector divided by the root of an independent chi-squared variable. -/

namespace Verif.Lemmas

open MeasureTheory ProbabilityTheory Matrix WithLp Verif.Spec

variable {ι : Type} [Fintype ι] [DecidableEq ι]

theorem multivariateGaussian_scale (m : EuclideanSpace ℝ ι) {S : Matrix ι ι ℝ} (hS : S.PosSemidef)
    {t : ℝ} (ht : 0 ≤ t) :
    (multivariateGaussian 0 S).map (fun z => m + t • z) = multivariateGaussian m ((t ^ 2) • S) := by
  have hS' : ((t ^ 2) • S).PosSemidef := hS.smul (by positivity)
  have h1 : (multivariateGaussian 0 S).map (fun z => m + t • z) =
      ((multivariateGaussian 0 S).map (t • ·)).map (m + ·) := by
    rw [Measure.map_map (by fun_prop) (by fun_prop)]
    rfl
  rw [h1]
  refine Measure.ext_of_charFun ?_
  funext x
  rw [charFun_map_const_add, charFun_map_smul, charFun_multivariateGaussian hS,
    charFun_multivariateGaussian hS', ← Complex.exp_add]
  congr 1
  simp only [inner_zero_right, ofLp_smul, mulVec_smul, dotProduct_smul, smul_dotProduct,
    smul_mulVec, smul_eq_mul, Complex.ofReal_zero]
  push_cast
  rw [real_inner_comm]
  ring

/-- The law of `m + z / √(c / ν)` for a normal `z` with covariance `S` and an independent
chi-squared `c` with `ν` degrees of freedom. -/
theorem student_sample_law {Ω : Type*} [MeasurableSpace Ω] {P : Measure Ω} [IsProbabilityMeasure P]
    {ν : ℝ} (hν : 2 < ν) (m : ι → ℝ) {S : Matrix ι ι ℝ} (hS : S.PosDef) {c : Ω → ℝ} {z : Ω → ι → ℝ}
    (hc : HasLaw c (gammaMeasure (ν / 2) (1 / 2)) P)
    (hz : HasLaw z ((multivariateGaussian 0 S).map (ofLp (p := 2))) P) (hi : IndepFun c z P) :
    HasLaw (fun ω i => m i + z ω i / √(c ω / ν)) (studentT ν m ((ν / (ν - 2)) • S)) P := by
  have hA : 0 < ν - 2 := by linarith
  have hp : IsProbabilityMeasure (gammaMeasure (ν / 2) (1 / 2)) :=
    isProbabilityMeasure_gammaMeasure (by linarith) (by norm_num)
  have hcm := hc.aemeasurable
  have hzm := hz.aemeasurable
  set F : ℝ × (ι → ℝ) → ι → ℝ := fun p i => m i + p.2 i / √(p.1 / ν) with hF
  have hFm : Measurable F := by
    refine measurable_pi_lambda _ fun i => ?_
    refine measurable_const.add (Measurable.div ?_ ?_)
    · exact (measurable_pi_apply i).comp measurable_snd
    · exact (measurable_fst.div_const ν).sqrt
  have hprod := hi.hasLaw_prod hc hz
  refine ⟨(hFm.comp_aemeasurable (hcm.prodMk hzm)), ?_⟩
  have h1 : P.map (fun ω i => m i + z ω i / √(c ω / ν)) =
      ((gammaMeasure (ν / 2) (1 / 2)).prod ((multivariateGaussian 0 S).map (ofLp (p := 2)))).map F := by
    rw [← hprod.map_eq, AEMeasurable.map_map_of_aemeasurable hFm.aemeasurable hprod.aemeasurable]
    rfl
  rw [h1]
  have hK : ((ν / (ν - 2)) • S).PosDef := hS.smul (div_pos (by linarith) hA)
  ext A hAm
  rw [Measure.map_apply hFm hAm, Measure.prod_apply (hFm hAm), studentT_mixture hν m hK hAm]
  refine lintegral_congr_ae ?_
  filter_upwards [gammaMeasure_pos (ν / 2) (1 / 2)] with r hr
  have hrν : 0 < r / ν := div_pos hr (by linarith)
  have ht : 0 ≤ (√(r / ν))⁻¹ := by positivity
  have e1 : ((ν - 2) / r) • ((ν / (ν - 2)) • S) = ((√(r / ν))⁻¹ ^ 2) • S := by
    rw [smul_smul, inv_pow, Real.sq_sqrt hrν.le]
    congr 1
    field_simp
  rw [e1, ← multivariateGaussian_scale _ hS.posSemidef ht, Measure.map_map (by fun_prop) (by fun_prop),
    Measure.map_apply (by fun_prop) hAm, Measure.map_apply (by fun_prop)]
  · congr 1
    ext x
    simp only [hF, Set.mem_preimage, Function.comp_apply]
    have : (fun i => m i + x.ofLp i / √(r / ν)) = ofLp (toLp 2 m + (√(r / ν))⁻¹ • x) := by
      funext i
      simp [div_eq_inv_mul]
    rw [this]
  · exact (hFm.comp measurable_prodMk_left) hAm

/-- The mean of `1 / c` for a chi-squared `c` with `ν` degrees of freedom. -/
theorem gamma_inv {ν : ℝ} (hν : 2 < ν) :
    Integrable (fun r : ℝ => r⁻¹) (gammaMeasure (ν / 2) (1 / 2)) ∧
    ∫ r, r⁻¹ ∂gammaMeasure (ν / 2) (1 / 2) = 1 / (ν - 2) := by
  have hG : 0 < Real.Gamma (ν / 2) := Real.Gamma_pos_of_pos (by linarith)
  have hpos : ∀ r, 0 ≤ gammaPDFReal (ν / 2) (1 / 2) r := fun r =>
    gammaPDFReal_nonneg (by linarith) (by norm_num) r
  have hm := measurable_gammaPDFReal (ν / 2) (1 / 2)
  have hg : AEMeasurable (gammaPDF (ν / 2) (1 / 2)) := hm.ennreal_ofReal.aemeasurable
  have heq : ∀ r ∈ Set.Ioi (0 : ℝ), gammaPDFReal (ν / 2) (1 / 2) r * r⁻¹ =
      ((1 / 2) ^ (ν / 2) / Real.Gamma (ν / 2)) * (r ^ ((ν - 2) / 2 - 1) * Real.exp (-(1 / 2 * r))) := by
    intro r hr
    have hr : 0 < r := hr
    rw [gammaPDFReal, if_pos hr.le, show (ν - 2) / 2 - 1 = (ν / 2 - 1) + (-1) by ring,
      Real.rpow_add hr, Real.rpow_neg_one]
    ring
  have hint : IntegrableOn (fun r : ℝ => r ^ ((ν - 2) / 2 - 1) * Real.exp (-(1 / 2 * r)))
      (Set.Ioi 0) := by
    have := integrableOn_rpow_mul_exp_neg_mul_rpow (p := 1) (s := (ν - 2) / 2 - 1) (b := 1 / 2)
      (by linarith) one_pos (by norm_num)
    simpa [neg_mul] using this
  have hint' : IntegrableOn (fun r => gammaPDFReal (ν / 2) (1 / 2) r * r⁻¹) (Set.Ioi 0) :=
    IntegrableOn.congr_fun (hint.const_mul _) (fun r hr => (heq r hr).symm) measurableSet_Ioi
  have hz : ∀ r ∈ Set.Iic (0 : ℝ), r ≠ 0 → gammaPDFReal (ν / 2) (1 / 2) r * r⁻¹ = 0 := by
    intro r hr h0
    rw [gammaPDFReal, if_neg (not_le.2 (lt_of_le_of_ne hr h0)), zero_mul]
  have hz' : ∀ r ∈ Set.Iic (0 : ℝ), gammaPDFReal (ν / 2) (1 / 2) r * r⁻¹ = 0 := by
    intro r hr
    by_cases h0 : r = 0
    · rw [h0, _root_.inv_zero, mul_zero]
    · exact hz r hr h0
  have hintf : Integrable (fun r => gammaPDFReal (ν / 2) (1 / 2) r * r⁻¹) := by
    rw [← integrableOn_univ, ← Set.Iic_union_Ioi (a := (0 : ℝ)), integrableOn_union]
    refine ⟨?_, hint'⟩
    exact (integrableOn_zero (μ := volume)).congr_fun (fun r hr => (hz' r hr).symm) measurableSet_Iic
  constructor
  · rw [gammaMeasure, integrable_withDensity_iff_integrable_smul₀'
      hg (by simp [gammaPDF])]
    refine hintf.congr (Filter.Eventually.of_forall fun r => ?_)
    simp only [gammaPDF, ENNReal.toReal_ofReal (hpos r), smul_eq_mul]
  · rw [gammaMeasure, integral_withDensity_eq_integral_toReal_smul₀
      hg (by simp [gammaPDF])]
    have : ∀ r, (gammaPDF (ν / 2) (1 / 2) r).toReal • r⁻¹ = gammaPDFReal (ν / 2) (1 / 2) r * r⁻¹ := by
      intro r
      simp only [gammaPDF, ENNReal.toReal_ofReal (hpos r), smul_eq_mul]
    simp only [this]
    rw [← integral_add_compl (measurableSet_Iic (a := (0 : ℝ))) hintf, Set.compl_Iic,
      setIntegral_congr_fun measurableSet_Iic hz', setIntegral_congr_fun measurableSet_Ioi heq,
      integral_const_mul, Real.integral_rpow_mul_exp_neg_mul_Ioi (by linarith) (by norm_num)]
    have h2 : Real.Gamma (ν / 2) = (ν - 2) / 2 * Real.Gamma ((ν - 2) / 2) := by
      rw [← Real.Gamma_add_one (by linarith)]
      congr 1
      ring
    have h3 : 0 < Real.Gamma ((ν - 2) / 2) := Real.Gamma_pos_of_pos (by linarith)
    have h4 : (1 / 2 : ℝ) ^ (ν / 2) = (1 / 2) ^ ((ν - 2) / 2) * (1 / 2) := by
      rw [show ν / 2 = (ν - 2) / 2 + 1 by ring, Real.rpow_add (by norm_num), Real.rpow_one]
    have h5 : (1 / (1 / 2) : ℝ) ^ ((ν - 2) / 2) = ((1 / 2) ^ ((ν - 2) / 2))⁻¹ := by
      rw [one_div (1 / 2 : ℝ), Real.inv_rpow (by norm_num)]
    have h6 : (0 : ℝ) < (1 / 2) ^ ((ν - 2) / 2) := by positivity
    have h7 : ν - 2 ≠ 0 := by linarith
    rw [h2, h4, h5]
    simp only [integral_zero, zero_add]
    field_simp

/-- The second moments of `m + z / √(c / ν)` about `m`. -/
theorem student_sample_cov {Ω : Type*} [MeasurableSpace Ω] {P : Measure Ω} [IsProbabilityMeasure P]
    {ν : ℝ} (hν : 2 < ν) {S : Matrix ι ι ℝ} (hS : S.PosSemidef) {c : Ω → ℝ} {z : Ω → ι → ℝ}
    (hc : HasLaw c (gammaMeasure (ν / 2) (1 / 2)) P)
    (hz : HasLaw z ((multivariateGaussian 0 S).map (ofLp (p := 2))) P) (hi : IndepFun c z P)
    (a b : ι) :
    ∫ ω, (z ω a / √(c ω / ν)) * (z ω b / √(c ω / ν)) ∂P = ν / (ν - 2) * S a b := by
  have hcm := hc.aemeasurable
  have hzm := hz.aemeasurable
  have hcpos : ∀ᵐ ω ∂P, 0 < c ω :=
    (hc.ae_iff (p := fun r => 0 < r) (measurableSet_lt measurable_const measurable_id).mem).2
      (gammaMeasure_pos _ _)
  have h1 : ∫ ω, (z ω a / √(c ω / ν)) * (z ω b / √(c ω / ν)) ∂P =
      ∫ ω, ((fun ω => ν * (c ω)⁻¹) * fun ω => z ω a * z ω b) ω ∂P := by
    refine integral_congr_ae ?_
    filter_upwards [hcpos] with ω hω
    have : 0 ≤ c ω / ν := div_nonneg hω.le (by linarith)
    rw [div_mul_div_comm, Real.mul_self_sqrt this]
    simp only [Pi.mul_apply]
    field_simp
  rw [h1, IndepFun.integral_mul_eq_mul_integral]
  · have h2 : ∫ ω, ν * (c ω)⁻¹ ∂P = ν / (ν - 2) := by
      rw [integral_const_mul]
      have := hc.integral_comp (f := fun r : ℝ => r⁻¹) (by fun_prop)
      simp only [Function.comp_def] at this
      rw [this, (gamma_inv hν).2]
      ring
    have h3 : ∫ ω, z ω a * z ω b ∂P = S a b := by
      have := hz.integral_comp (f := fun x : ι → ℝ => x a * x b) (by fun_prop)
      simp only [Function.comp_def] at this
      rw [this, integral_map (by fun_prop) (by fun_prop)]
      have hcov := covariance_eval_multivariateGaussian (μ := (0 : EuclideanSpace ℝ ι)) hS a b
      have hmean : ∀ i : ι, ∫ x : EuclideanSpace ℝ ι, x i ∂multivariateGaussian 0 S = 0 := by
        intro i
        have h := (EuclideanSpace.proj (𝕜 := ℝ) i).integral_comp_comm
          (μ := multivariateGaussian (0 : EuclideanSpace ℝ ι) S) IsGaussian.integrable_id
        simp only [id] at h
        rw [integral_id_multivariateGaussian] at h
        exact h
      rw [covariance] at hcov
      simpa [hmean] using hcov
    rw [h2, h3]
  · exact hi.comp (φ := fun r : ℝ => ν * r⁻¹) (ψ := fun x : ι → ℝ => x a * x b) (by fun_prop)
      (by fun_prop)
  · fun_prop
  · fun_prop

end Verif.Lemmas
