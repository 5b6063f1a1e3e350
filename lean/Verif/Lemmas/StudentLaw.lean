import Verif.Lemmas.Student
import Verif.Lemmas.MvnDensity
import Mathlib.Probability.Distributions.Gamma
import Mathlib.Analysis.SpecialFunctions.Gaussian.GaussianIntegral
import Mathlib.MeasureTheory.Measure.Prod

/-! The multivariate Student-t density is a scale mixture of normal densities, hence the density of
a probability measure. -/

namespace Verif.Lemmas

open MeasureTheory ProbabilityTheory Matrix WithLp Verif.Spec

variable {ι : Type} [Fintype ι] [DecidableEq ι]

/-- The normal density with covariance `((ν - 2) / r) • K`, as a function of `r`. -/
theorem mvnDensity_scaled {ν r : ℝ} (hν : 2 < ν) (hr : 0 < r) (m : ι → ℝ) {K : Matrix ι ι ℝ}
    (hK : K.PosDef) (y : ι → ℝ) :
    mvnDensity m (((ν - 2) / r) • K) y =
      r ^ ((Fintype.card ι : ℝ) / 2) *
        Real.exp (-(((y - m) ⬝ᵥ (K⁻¹ *ᵥ (y - m))) / (ν - 2) / 2 * r)) /
        √((2 * Real.pi * (ν - 2)) ^ Fintype.card ι * K.det) := by
  have hA : 0 < ν - 2 := by linarith
  have hc : 0 < (ν - 2) / r := div_pos hA hr
  have hd := hK.det_pos
  have hpi := Real.pi_pos
  have hinv : (((ν - 2) / r) • K)⁻¹ = ((ν - 2) / r)⁻¹ • K⁻¹ := by
    refine inv_eq_right_inv ?_
    rw [smul_mul_smul_comm, mul_inv_cancel₀ hc.ne', mul_nonsing_inv _ hd.ne'.isUnit, one_smul]
  have hsq : √((2 * Real.pi * (ν - 2)) ^ Fintype.card ι * K.det) =
      r ^ ((Fintype.card ι : ℝ) / 2) *
        √((2 * Real.pi) ^ Fintype.card ι * (((ν - 2) / r) ^ Fintype.card ι * K.det)) := by
    have h1 : r ^ ((Fintype.card ι : ℝ) / 2) = √(r ^ Fintype.card ι) := by
      rw [Real.sqrt_eq_rpow, ← Real.rpow_natCast, ← Real.rpow_mul hr.le]
      congr 1
      ring
    rw [h1, ← Real.sqrt_mul (by positivity)]
    congr 1
    rw [div_pow, mul_pow]
    field_simp
  have hrp : 0 < r ^ ((Fintype.card ι : ℝ) / 2) := Real.rpow_pos_of_pos hr _
  have hs : 0 < √((2 * Real.pi) ^ Fintype.card ι * (((ν - 2) / r) ^ Fintype.card ι * K.det)) := by
    positivity
  rw [mvnDensity, hinv, smul_mulVec, dotProduct_smul, smul_eq_mul, det_smul, hsq,
    mul_div_mul_left _ _ hrp.ne']
  congr 2
  field_simp

private theorem density_integral {ν : ℝ} (hν : 2 < ν) (m : ι → ℝ) {K : Matrix ι ι ℝ}
    (hK : K.PosDef) (y : ι → ℝ) :
    IntegrableOn (fun r => gammaPDFReal (ν / 2) (1 / 2) r * mvnDensity m (((ν - 2) / r) • K) y)
      (Set.Ioi 0) ∧
    ∫ r in Set.Ioi 0, gammaPDFReal (ν / 2) (1 / 2) r * mvnDensity m (((ν - 2) / r) • K) y =
      mvtDensity ν m K y := by
  have hA : 0 < ν - 2 := by linarith
  have hd := hK.det_pos
  have hpi := Real.pi_pos
  have hq : 0 ≤ (y - m) ⬝ᵥ (K⁻¹ *ᵥ (y - m)) := by
    have := hK.inv.posSemidef.dotProduct_mulVec_nonneg (y - m)
    rwa [star_trivial] at this
  have hG : 0 < Real.Gamma (ν / 2) := Real.Gamma_pos_of_pos (by linarith)
  set N : ℝ := (Fintype.card ι : ℝ) with hN
  have hN0 : 0 ≤ N := Nat.cast_nonneg _
  set b : ℝ := (1 + (y - m) ⬝ᵥ (K⁻¹ *ᵥ (y - m)) / (ν - 2)) / 2 with hb
  have hb0 : 0 < b := by positivity
  set D := √((2 * Real.pi * (ν - 2)) ^ Fintype.card ι * K.det) with hD
  have hD0 : 0 < D := by positivity
  have heq : ∀ r ∈ Set.Ioi (0 : ℝ),
      gammaPDFReal (ν / 2) (1 / 2) r * mvnDensity m (((ν - 2) / r) • K) y =
        ((1 / 2) ^ (ν / 2) / Real.Gamma (ν / 2) / D) *
          (r ^ ((ν + N) / 2 - 1) * Real.exp (-(b * r))) := by
    intro r hr
    have hr : 0 < r := hr
    rw [gammaPDFReal, if_pos hr.le, mvnDensity_scaled hν hr m hK y, ← hD, ← hN,
      show (ν + N) / 2 - 1 = (ν / 2 - 1) + N / 2 by ring, Real.rpow_add hr,
      show -(b * r) = -(1 / 2 * r) + -((y - m) ⬝ᵥ (K⁻¹ *ᵥ (y - m)) / (ν - 2) / 2 * r) by
        rw [hb]; ring, Real.exp_add]
    field_simp
  have hint : IntegrableOn (fun r : ℝ => r ^ ((ν + N) / 2 - 1) * Real.exp (-(b * r)))
      (Set.Ioi 0) := by
    have := integrableOn_rpow_mul_exp_neg_mul_rpow (p := 1) (s := (ν + N) / 2 - 1) (b := b)
      (by linarith) one_pos hb0
    simpa [neg_mul] using this
  constructor
  · exact IntegrableOn.congr_fun (hint.const_mul _) (fun r hr => (heq r hr).symm) measurableSet_Ioi
  · rw [setIntegral_congr_fun measurableSet_Ioi heq, integral_const_mul,
      Real.integral_rpow_mul_exp_neg_mul_Ioi (by linarith) hb0, mvtDensity, ← hN]
    have h2 : (1 / b) ^ ((ν + N) / 2) = 2 ^ ((ν + N) / 2) *
        (1 + (y - m) ⬝ᵥ (K⁻¹ *ᵥ (y - m)) / (ν - 2)) ^ (-((ν + N) / 2)) := by
      have h5 : 0 < 1 + (y - m) ⬝ᵥ (K⁻¹ *ᵥ (y - m)) / (ν - 2) := by positivity
      rw [hb, one_div_div, Real.div_rpow (by norm_num) h5.le, Real.rpow_neg h5.le, div_eq_mul_inv]
    have h3 : D = 2 ^ (N / 2) * √(((ν - 2) * Real.pi) ^ Fintype.card ι * K.det) := by
      have h1 : (2 : ℝ) ^ (N / 2) = √(2 ^ Fintype.card ι) := by
        rw [Real.sqrt_eq_rpow, ← Real.rpow_natCast, ← Real.rpow_mul (by norm_num)]
        congr 1
        rw [hN]; ring
      rw [h1, ← Real.sqrt_mul (by positivity), hD]
      congr 1
      rw [mul_pow, mul_pow, mul_pow]
      ring
    have h4 : (2 : ℝ) ^ ((ν + N) / 2) = 2 ^ (ν / 2) * 2 ^ (N / 2) := by
      rw [← Real.rpow_add (by norm_num)]; congr 1; ring
    have h6 : (1 / 2 : ℝ) ^ (ν / 2) = (2 ^ (ν / 2))⁻¹ := by
      rw [one_div, Real.inv_rpow (by norm_num)]
    have h7 : (0 : ℝ) < 2 ^ (ν / 2) := by positivity
    have h8 : (0 : ℝ) < 2 ^ (N / 2) := by positivity
    rw [h2, h3, h4, h6]
    generalize (1 + (y - m) ⬝ᵥ (K⁻¹ *ᵥ (y - m)) / (ν - 2)) ^ (-((ν + N) / 2)) = z
    have h9 : 0 < √(((ν - 2) * Real.pi) ^ Fintype.card ι * K.det) := by positivity
    field_simp

theorem mvnDensity_nonneg (m : ι → ℝ) (K : Matrix ι ι ℝ) (y : ι → ℝ) : 0 ≤ mvnDensity m K y :=
  div_nonneg (Real.exp_pos _).le (Real.sqrt_nonneg _)

theorem gammaMeasure_pos (a b : ℝ) : ∀ᵐ r ∂gammaMeasure a b, 0 < r := by
  have h : gammaMeasure a b (Set.Iic 0) = 0 := by
    rw [gammaMeasure, withDensity_apply _ measurableSet_Iic, setLIntegral_congr Iio_ae_eq_Iic.symm]
    exact lintegral_gammaPDF_of_nonpos le_rfl
  rw [ae_iff]
  simpa [Set.Iic] using h

/-- The normal density with covariance `((ν - 2) / r) • K` as a measurable function of both. -/
noncomputable def scaledMvn (ν : ℝ) (m : ι → ℝ) (K : Matrix ι ι ℝ) (p : ℝ × (ι → ℝ)) : ENNReal :=
  ENNReal.ofReal (p.1 ^ ((Fintype.card ι : ℝ) / 2) *
    Real.exp (-(((p.2 - m) ⬝ᵥ (K⁻¹ *ᵥ (p.2 - m))) / (ν - 2) / 2 * p.1)) /
    √((2 * Real.pi * (ν - 2)) ^ Fintype.card ι * K.det))

theorem measurable_quad (m : ι → ℝ) (A : Matrix ι ι ℝ) :
    Measurable fun y : ι → ℝ => (y - m) ⬝ᵥ (A *ᵥ (y - m)) := by
  simp only [dotProduct, mulVec, Pi.sub_apply]
  fun_prop

theorem measurable_scaledMvn (ν : ℝ) (m : ι → ℝ) (K : Matrix ι ι ℝ) :
    Measurable (scaledMvn ν m K) := by
  have h' : Measurable fun p : ℝ × (ι → ℝ) => (p.2 - m) ⬝ᵥ (K⁻¹ *ᵥ (p.2 - m)) :=
    (measurable_quad m K⁻¹).comp measurable_snd
  unfold scaledMvn
  refine ENNReal.measurable_ofReal.comp ?_
  refine Measurable.div_const ?_ _
  refine (measurable_fst.pow_const _).mul (Real.measurable_exp.comp ?_)
  exact (((h'.div_const _).div_const _).mul measurable_fst).neg

theorem scaledMvn_eq {ν r : ℝ} (hν : 2 < ν) (hr : 0 < r) (m : ι → ℝ) {K : Matrix ι ι ℝ}
    (hK : K.PosDef) (y : ι → ℝ) :
    scaledMvn ν m K (r, y) = ENNReal.ofReal (mvnDensity m (((ν - 2) / r) • K) y) := by
  rw [scaledMvn, mvnDensity_scaled hν hr m hK]

/-- The Student-t density is the mean of normal densities whose covariance is divided by a
chi-squared variable with `ν` degrees of freedom. -/
theorem mvtDensity_mixture {ν : ℝ} (hν : 2 < ν) (m : ι → ℝ) {K : Matrix ι ι ℝ} (hK : K.PosDef)
    (y : ι → ℝ) :
    ENNReal.ofReal (mvtDensity ν m K y) =
      ∫⁻ r, scaledMvn ν m K (r, y) ∂gammaMeasure (ν / 2) (1 / 2) := by
  obtain ⟨hint, hval⟩ := density_integral hν m hK y
  have hm : Measurable fun r => scaledMvn ν m K (r, y) :=
    (measurable_scaledMvn ν m K).comp (measurable_id.prodMk measurable_const)
  have hg : Measurable (gammaPDF (ν / 2) (1 / 2)) :=
    (measurable_gammaPDFReal _ _).ennreal_ofReal
  have hpos : ∀ r, 0 ≤ gammaPDFReal (ν / 2) (1 / 2) r := fun r =>
    gammaPDFReal_nonneg (by linarith) (by norm_num) r
  rw [← hval, ofReal_integral_eq_lintegral_ofReal hint
    (Filter.Eventually.of_forall fun r => mul_nonneg (hpos r) (mvnDensity_nonneg _ _ _)),
    gammaMeasure, lintegral_withDensity_eq_lintegral_mul _ hg hm]
  rw [← lintegral_add_compl (gammaPDF (ν / 2) (1 / 2) * fun r => scaledMvn ν m K (r, y))
    (measurableSet_Ioi (a := (0 : ℝ))), Set.compl_Ioi]
  have hz : ∫⁻ r in Set.Iic 0, (gammaPDF (ν / 2) (1 / 2) * fun r => scaledMvn ν m K (r, y)) r = 0 := by
    rw [setLIntegral_congr Iio_ae_eq_Iic.symm]
    refine (setLIntegral_congr_fun measurableSet_Iio (g := fun _ => 0) fun r hr => ?_).trans (by simp)
    rw [Pi.mul_apply, gammaPDF_of_neg hr, zero_mul]
  rw [hz, add_zero]
  refine setLIntegral_congr_fun measurableSet_Ioi fun r hr => ?_
  rw [Pi.mul_apply, scaledMvn_eq hν hr m hK, gammaPDF, ENNReal.ofReal_mul (hpos r)]

/-- The normal law with covariance `((ν - 2) / r) • K`, through its density. -/
theorem scaled_law {ν r : ℝ} (hν : 2 < ν) (hr : 0 < r) (m : ι → ℝ) {K : Matrix ι ι ℝ}
    (hK : K.PosDef) : (multivariateGaussian (toLp 2 m) (((ν - 2) / r) • K)).map (ofLp (p := 2)) =
      (volume : Measure (ι → ℝ)).withDensity fun y => scaledMvn ν m K (r, y) := by
  have hc : 0 < (ν - 2) / r := div_pos (by linarith) hr
  rw [multivariateGaussian_density m (hK.smul hc)]
  congr 1
  funext y
  rw [scaledMvn_eq hν hr m hK]

/-- It is the law of a normal vector whose covariance `K` is multiplied by `ν - 2` and divided by
a chi-squared variable with `ν` degrees of freedom. -/
theorem studentT_mixture {ν : ℝ} (hν : 2 < ν) (m : ι → ℝ) {K : Matrix ι ι ℝ} (hK : K.PosDef)
    {s : Set (ι → ℝ)} (hs : MeasurableSet s) :
    studentT ν m K s = ∫⁻ r, (multivariateGaussian (toLp 2 m) (((ν - 2) / r) • K)).map
      (ofLp (p := 2)) s ∂gammaMeasure (ν / 2) (1 / 2) := by
  have hp : IsProbabilityMeasure (gammaMeasure (ν / 2) (1 / 2)) :=
    isProbabilityMeasure_gammaMeasure (by linarith) (by norm_num)
  rw [studentT, withDensity_apply _ hs]
  simp only [mvtDensity_mixture hν m hK]
  rw [lintegral_lintegral_swap
    (f := fun y r => scaledMvn ν m K (r, y))
    ((measurable_scaledMvn ν m K).comp measurable_swap).aemeasurable]
  refine lintegral_congr_ae ?_
  filter_upwards [gammaMeasure_pos (ν / 2) (1 / 2)] with r hr
  rw [scaled_law hν hr m hK, withDensity_apply _ hs]

theorem isProbabilityMeasure_studentT {ν : ℝ} (hν : 2 < ν) (m : ι → ℝ) {K : Matrix ι ι ℝ}
    (hK : K.PosDef) : IsProbabilityMeasure (studentT ν m K) where
  measure_univ := by
    have hp : IsProbabilityMeasure (gammaMeasure (ν / 2) (1 / 2)) :=
      isProbabilityMeasure_gammaMeasure (by linarith) (by norm_num)
    rw [studentT_mixture hν m hK MeasurableSet.univ]
    have : ∀ r, (multivariateGaussian (toLp 2 m) (((ν - 2) / r) • K)).map (ofLp (p := 2))
        Set.univ = 1 := by
      intro r
      rw [Measure.map_apply (by fun_prop) MeasurableSet.univ, Set.preimage_univ, measure_univ]
    simp only [this, lintegral_one, measure_univ]

end Verif.Lemmas
