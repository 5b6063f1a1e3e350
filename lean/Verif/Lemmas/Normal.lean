import Verif.Model.Acquisition
import Mathlib.MeasureTheory.Integral.IntegralEqImproper
import Mathlib.Analysis.SpecialFunctions.Gaussian.GaussianIntegral
import Mathlib.MeasureTheory.Measure.Lebesgue.Basic

/-! Helper lemmas about the standard normal law. -/

namespace Verif.Acquisition

open MeasureTheory ProbabilityTheory Set Filter Topology

theorem normPdf_eq (x : ℝ) : normPdf x = (Real.sqrt (2 * Real.pi))⁻¹ * Real.exp (-x ^ 2 / 2) := by
  simp [normPdf, gaussianPDFReal]

theorem normPdf_pos (x : ℝ) : 0 < normPdf x := gaussianPDFReal_pos 0 1 x one_ne_zero

theorem normPdf_neg (x : ℝ) : normPdf (-x) = normPdf x := by
  simp [normPdf_eq]

theorem hasDerivAt_normPdf (x : ℝ) : HasDerivAt normPdf (-(x * normPdf x)) x := by
  have h : HasDerivAt (fun x : ℝ => (Real.sqrt (2 * Real.pi))⁻¹ * Real.exp (-x ^ 2 / 2))
      ((Real.sqrt (2 * Real.pi))⁻¹ * (Real.exp (-x ^ 2 / 2) * (-(2 * x) / 2))) x := by
    apply HasDerivAt.const_mul
    apply HasDerivAt.exp
    apply HasDerivAt.div_const
    have h2 : HasDerivAt (fun x : ℝ => x ^ 2) (2 * x) x := by simpa using hasDerivAt_pow 2 x
    exact h2.fun_neg
  have e : normPdf = fun x : ℝ => (Real.sqrt (2 * Real.pi))⁻¹ * Real.exp (-x ^ 2 / 2) :=
    funext normPdf_eq
  rw [e]
  convert h using 1
  ring

theorem continuous_normPdf : Continuous normPdf :=
  continuous_iff_continuousAt.2 fun x => (hasDerivAt_normPdf x).continuousAt

theorem integrable_normPdf : Integrable normPdf := integrable_gaussianPDFReal 0 1

theorem integrable_mul_normPdf : Integrable (fun x => x * normPdf x) := by
  have h := (integrable_mul_exp_neg_mul_sq (b := 1 / 2) (by norm_num)).const_mul
    (Real.sqrt (2 * Real.pi))⁻¹
  refine h.congr (Eventually.of_forall fun x => ?_)
  simp only [normPdf_eq]
  rw [show -(1 / 2) * x ^ 2 = -x ^ 2 / 2 by ring]
  ring

theorem tendsto_normPdf_atBot : Tendsto normPdf atBot (𝓝 0) := by
  have h1 : Tendsto (fun x : ℝ => x ^ 2 / 2) atBot atTop := by
    have h0 : Tendsto (fun x : ℝ => -x) atBot atTop := tendsto_neg_atBot_atTop
    have := (tendsto_pow_atTop (α := ℝ) (n := 2) (by norm_num)).comp h0
    have h2 : Tendsto (fun x : ℝ => x ^ 2) atBot atTop := by
      refine this.congr fun x => ?_
      simp
    exact h2.atTop_div_const (by norm_num)
  have h3 := (Real.tendsto_exp_neg_atTop_nhds_zero.comp h1).const_mul (Real.sqrt (2 * Real.pi))⁻¹
  rw [mul_zero] at h3
  refine h3.congr fun x => ?_
  simp only [Function.comp, normPdf_eq]
  rw [show -(x ^ 2 / 2) = -x ^ 2 / 2 by ring]

theorem normCdf_eq_integral (z : ℝ) : normCdf z = ∫ x in Iic z, normPdf x := by
  rw [normCdf, cdf_eq_real, measureReal_def, gaussianReal_apply_eq_integral 0 one_ne_zero]
  rw [ENNReal.toReal_ofReal]
  · rfl
  · exact setIntegral_nonneg measurableSet_Iic fun x _ => gaussianPDFReal_nonneg 0 1 x

theorem integral_Iic_mul_normPdf (z : ℝ) : ∫ x in Iic z, x * normPdf x = -normPdf z := by
  have h := integral_Iic_of_hasDerivAt_of_tendsto (f := fun x => -normPdf x)
    (f' := fun x => x * normPdf x) (a := z) (m := 0)
    (continuous_normPdf.neg.continuousWithinAt)
    (fun x _ => by simpa using (hasDerivAt_normPdf x).fun_neg)
    integrable_mul_normPdf.integrableOn
    (by simpa using tendsto_normPdf_atBot.neg)
  rw [h]; ring

theorem normCdf_nonneg (z : ℝ) : 0 ≤ normCdf z := cdf_nonneg _ z
theorem normCdf_le_one (z : ℝ) : normCdf z ≤ 1 := cdf_le_one _ z

theorem normCdf_strictMono : StrictMono normCdf := by
  intro a b hab
  have h1 : normCdf b - normCdf a = ∫ x in Ioc a b, normPdf x := by
    rw [normCdf_eq_integral, normCdf_eq_integral]
    have hu : Iic b = Iic a ∪ Ioc a b := (Iic_union_Ioc_eq_Iic hab.le).symm
    rw [hu, setIntegral_union]
    · ring
    · exact Set.disjoint_left.2 fun x hx hx' => absurd hx'.1 (not_lt.2 hx)
    · exact measurableSet_Ioc
    · exact integrable_normPdf.integrableOn
    · exact integrable_normPdf.integrableOn
  have h2 : 0 < ∫ x in Ioc a b, normPdf x := by
    rw [setIntegral_pos_iff_support_of_nonneg_ae]
    · have : Function.support normPdf = univ := by
        ext x; simp [(normPdf_pos x).ne']
      rw [this, univ_inter, Real.volume_Ioc]
      simpa using hab
    · exact Eventually.of_forall fun x => (normPdf_pos x).le
    · exact integrable_normPdf.integrableOn
  linarith

theorem normCdf_pos (z : ℝ) : 0 < normCdf z :=
  lt_of_le_of_lt (normCdf_nonneg (z - 1)) (normCdf_strictMono (by linarith))

theorem normCdf_lt_one (z : ℝ) : normCdf z < 1 :=
  lt_of_lt_of_le (normCdf_strictMono (by linarith : z < z + 1)) (normCdf_le_one (z + 1))

theorem normCdf_neg (z : ℝ) : normCdf (-z) = 1 - normCdf z := by
  have h1 : ∫ x in Iic (-z), normPdf x = ∫ x in Ioi z, normPdf x := by
    have := integral_comp_neg_Ioi z normPdf
    rw [← this]
    simp only [normPdf_neg]
  have h2 : (∫ x in Iic z, normPdf x) + ∫ x in Ioi z, normPdf x = 1 := by
    have := integral_add_compl (μ := volume) (s := Iic z) measurableSet_Iic integrable_normPdf
    rw [compl_Iic] at this
    rw [this]
    exact integral_gaussianPDFReal_eq_one 0 one_ne_zero
  rw [normCdf_eq_integral, normCdf_eq_integral, h1]
  linarith

theorem integrable_id_std : Integrable (fun x : ℝ => x) (gaussianReal 0 1) := by
  have h : MemLp (fun x : ℝ => x) 1 (gaussianReal 0 1) := memLp_id_gaussianReal' 1 (by simp)
  exact memLp_one_iff_integrable.1 h

theorem integrable_posPart_std (z : ℝ) :
    Integrable (fun x : ℝ => max (z - x) 0) (gaussianReal 0 1) :=
  ((integrable_const z).sub integrable_id_std).pos_part

/-- `E (z - Z)^+` for a standard normal `Z`. -/
theorem integral_posPart_std (z : ℝ) :
    ∫ x, max (z - x) 0 ∂(gaussianReal 0 1) = z * normCdf z + normPdf z := by
  rw [integral_gaussianReal_eq_integral_smul one_ne_zero]
  have h1 : (fun x => gaussianPDFReal 0 1 x • max (z - x) 0) =
      (Iic z).indicator (fun x => z * normPdf x - x * normPdf x) := by
    funext x
    by_cases hx : x ≤ z
    · rw [indicator_of_mem (show x ∈ Iic z from hx), max_eq_left (by linarith)]
      simp only [normPdf, smul_eq_mul]; ring
    · rw [indicator_of_notMem (show x ∉ Iic z from hx), max_eq_right (by linarith)]
      simp
  rw [h1, integral_indicator measurableSet_Iic, integral_sub, integral_const_mul,
    ← normCdf_eq_integral, integral_Iic_mul_normPdf]
  · ring
  · exact (integrable_normPdf.const_mul z).integrableOn
  · exact integrable_mul_normPdf.integrableOn

/-- The tangent of `z ↦ z Φ(z) + φ(z)` lies below it. -/
theorem psi_tangent (z z' : ℝ) :
    z' * normCdf z + normPdf z ≤ z' * normCdf z' + normPdf z' := by
  rw [← integral_posPart_std z']
  have h1 : ∫ x, max (z - x) 0 + (Iic z).indicator (fun _ => z' - z) x ∂(gaussianReal 0 1) ≤
      ∫ x, max (z' - x) 0 ∂(gaussianReal 0 1) := by
    apply integral_mono
    · exact (integrable_posPart_std z).add ((integrable_const _).indicator measurableSet_Iic)
    · exact integrable_posPart_std z'
    · intro x
      simp only
      by_cases hx : x ≤ z
      · rw [indicator_of_mem (show x ∈ Iic z from hx), max_eq_left (by linarith)]
        have := le_max_left (z' - x) 0
        linarith
      · rw [indicator_of_notMem (show x ∉ Iic z from hx), max_eq_right (by linarith)]
        simp
  rw [integral_add (integrable_posPart_std z)
    ((integrable_const _).indicator measurableSet_Iic), integral_posPart_std,
    integral_indicator_const _ measurableSet_Iic, smul_eq_mul, ← cdf_eq_real] at h1
  have h2 : cdf (gaussianReal 0 1) z = normCdf z := rfl
  rw [h2] at h1
  linarith

theorem psi_pos (z : ℝ) : 0 < z * normCdf z + normPdf z := by
  have h1 : 0 ≤ (z - 1) * normCdf (z - 1) + normPdf (z - 1) := by
    rw [← integral_posPart_std]
    exact integral_nonneg fun x => le_max_right _ _
  have h2 := psi_tangent (z - 1) z
  have h3 := normCdf_pos (z - 1)
  linarith

/-- Below the best response: the law of a normal variable with mean `m` and deviation `s`. -/
theorem gaussianReal_eq_map (m s : ℝ) :
    (gaussianReal 0 1).map (fun x => m + s * x) = gaussianReal m (s ^ 2).toNNReal := by
  have h1 : (gaussianReal 0 1).map (fun x => s * x) = gaussianReal (s * 0) ((s ^ 2).toNNReal * 1) := by
    rw [gaussianReal_map_const_mul (μ := 0) (v := 1) s]
    congr 2
    exact (Real.toNNReal_of_nonneg (sq_nonneg s)).symm
  have h2 := gaussianReal_map_const_add (μ := s * 0) (v := (s ^ 2).toNNReal * 1) m
  have e : (fun x => m + s * x) = (fun x => m + x) ∘ (fun x => s * x) := rfl
  rw [e, ← Measure.map_map (by fun_prop) (by fun_prop), h1, h2]
  simp

theorem prob_le_eq (m s b : ℝ) (hs : 0 < s) :
    (gaussianReal m (s ^ 2).toNNReal).real (Iic b) = normCdf ((b - m) / s) := by
  rw [← gaussianReal_eq_map, measureReal_def,
    Measure.map_apply (by fun_prop) measurableSet_Iic, ← measureReal_def, normCdf, cdf_eq_real]
  congr 1
  ext x
  simp only [mem_preimage, mem_Iic]
  rw [le_div_iff₀ hs]
  constructor <;> intro h <;> linarith

theorem expect_improve_eq (m s b : ℝ) (hs : 0 < s) :
    ∫ y, max (b - y) 0 ∂(gaussianReal m (s ^ 2).toNNReal) =
      (b - m) * normCdf ((b - m) / s) + s * normPdf ((b - m) / s) := by
  rw [← gaussianReal_eq_map, integral_map (by fun_prop) (by fun_prop)]
  have h : ∀ x : ℝ, max (b - (m + s * x)) 0 = s * max ((b - m) / s - x) 0 := by
    intro x
    rw [mul_max_of_nonneg _ _ hs.le, mul_zero, mul_sub, mul_div_cancel₀ _ hs.ne']
    congr 1; ring
  simp only [h]
  rw [integral_const_mul, integral_posPart_std]
  field_simp

end Verif.Acquisition
