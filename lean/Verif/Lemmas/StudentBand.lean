import Verif.Spec.StudentBand
import Verif.Lemmas.StudentSample
import Verif.Lemmas.Band
import Verif.Lemmas.Mills
import Verif.Lemmas.StudentLimit

/-! # One entry of a Student-t vector in units of its deviation (lemmas for C151) -/

namespace Verif.Lemmas

open Verif.Spec MeasureTheory ProbabilityTheory Matrix WithLp Verif.Acquisition

/-- One entry of a Student-t vector, in units of its deviation, is a normal number whose variance is
`ν - 2` divided by a chi-squared variable. -/
theorem studentT_entry {ι : Type} [Fintype ι] [DecidableEq ι] {ν : ℝ} (hν : 2 < ν) (m : ι → ℝ)
    {K : Matrix ι ι ℝ} (hK : K.PosDef) (j : ι) {t : ℝ} (ht : 0 < t) (hj : K j j = t ^ 2)
    {A : Set ℝ} (hA : MeasurableSet A) :
    (studentT ν m K).map (fun v => (v j - m j) / t) A =
      ∫⁻ r, gaussianReal 0 ((ν - 2) / r).toNNReal A ∂gammaMeasure (ν / 2) (1 / 2) := by
  have hm : Measurable fun v : ι → ℝ => (v j - m j) / t := by fun_prop
  rw [Measure.map_apply hm hA, studentT_mixture hν m hK (hm hA)]
  refine lintegral_congr_ae ?_
  filter_upwards [gammaMeasure_pos (ν / 2) (1 / 2)] with r hr
  have hc : 0 < (ν - 2) / r := div_pos (by linarith) hr
  rw [← Measure.map_apply hm hA, Measure.map_map hm (by fun_prop)]
  have e : (fun v : ι → ℝ => (v j - m j) / t) ∘ (ofLp (p := 2)) =
      (fun z : ℝ => (z - m j) / t) ∘ fun v : EuclideanSpace ℝ ι => v j := rfl
  have hev := measurePreserving_eval_multivariateGaussian (μ := toLp 2 m)
    (hK.smul hc).posSemidef (i := j)
  rw [e, ← Measure.map_map (by fun_prop) (by fun_prop), hev.map_eq]
  have e2 : (fun z : ℝ => (z - m j) / t) = (· / t) ∘ (· - m j) := rfl
  rw [e2, ← Measure.map_map (by fun_prop) (by fun_prop), gaussianReal_map_sub_const,
    gaussianReal_map_div_const]
  have e3 : ((toLp 2 m).ofLp j - m j) / t = 0 := by simp
  rw [e3]
  congr 2
  rw [← NNReal.coe_inj, NNReal.coe_div, Real.coe_toNNReal _ hc.le, Matrix.smul_apply, smul_eq_mul, hj,
    Real.coe_toNNReal _ (by positivity)]
  simp only [NNReal.coe_mk]
  field_simp

/-- So its law is the Student-t law of one number with mean zero and variance one. -/
theorem studentT_standard {ι : Type} [Fintype ι] [DecidableEq ι] {ν : ℝ} (hν : 2 < ν) (m : ι → ℝ)
    {K : Matrix ι ι ℝ} (hK : K.PosDef) (j : ι) {t : ℝ} (ht : 0 < t) (hj : K j j = t ^ 2) :
    (studentT ν m K).map (fun v => (v j - m j) / t) = unitStudent ν := by
  ext A hA
  rw [studentT_entry hν m hK j ht hj hA,
    ← studentT_entry hν (0 : Unit → ℝ) (K := 1) Matrix.PosDef.one () (t := 1) one_pos (by simp) hA,
    Measure.map_apply (by fun_prop) hA, studentT, unitStudent,
    withDensity_apply _ ((by fun_prop : Measurable fun v : Unit → ℝ => (v () - (0 : Unit → ℝ) ()) / 1) hA),
    withDensity_apply _ hA,
    ← (volume_preserving_funUnique Unit ℝ).setLIntegral_comp_preimage hA
      (f := fun x => ENNReal.ofReal (unitStudentDensity ν x))
      (by unfold unitStudentDensity; fun_prop)]
  have hs : (fun v : Unit → ℝ => (v () - (0 : Unit → ℝ) ()) / 1) ⁻¹' A =
      (MeasurableEquiv.funUnique Unit ℝ) ⁻¹' A := by
    ext v
    simp [MeasurableEquiv.funUnique]
  rw [hs]
  refine setLIntegral_congr_fun ((MeasurableEquiv.funUnique Unit ℝ).measurable hA) fun v _ => ?_
  congr 1
  simp [mvtDensity, unitStudentDensity, MeasurableEquiv.funUnique, dotProduct, sq]

theorem unitStudent_mixture {ν : ℝ} (hν : 2 < ν) {A : Set ℝ} (hA : MeasurableSet A) :
    unitStudent ν A =
      ∫⁻ r, gaussianReal 0 ((ν - 2) / r).toNNReal A ∂gammaMeasure (ν / 2) (1 / 2) := by
  rw [← studentT_standard hν (0 : Unit → ℝ) (K := 1) Matrix.PosDef.one () (t := 1) one_pos (by simp),
    studentT_entry hν (0 : Unit → ℝ) (K := 1) Matrix.PosDef.one () (t := 1) one_pos (by simp) hA]

theorem isProbabilityMeasure_unitStudent {ν : ℝ} (hν : 2 < ν) :
    IsProbabilityMeasure (unitStudent ν) where
  measure_univ := by
    have hp : IsProbabilityMeasure (gammaMeasure (ν / 2) (1 / 2)) :=
      isProbabilityMeasure_gammaMeasure (by linarith) (by norm_num)
    rw [unitStudent_mixture hν MeasurableSet.univ]
    simp only [measure_univ, lintegral_const, one_mul]

/-- The probability that a standard normal number is further than `t` from zero is at most
`0.37 / t ^ 2`. -/
theorem normal_tail_sq {t : ℝ} (ht : 0 < t) : 2 - 2 * Phi t ≤ 0.37 / t ^ 2 := by
  have h1 : 2 - 2 * Phi t = 2 * normCdf (-t) := by
    rw [normCdf_neg]
    change _ = 2 * (1 - Phi t)
    ring
  have h2 := mills_upper ht
  have h3 : normPdf t ≤ 0.399 / (1 + t ^ 2 / 2 + t ^ 4 / 8 + t ^ 6 / 48) := by
    have hs : (√(2 * Real.pi))⁻¹ ≤ 0.399 := by
      rw [inv_le_comm₀ (by positivity) (by norm_num)]
      refine Real.le_sqrt_of_sq_le ?_
      have := Real.pi_gt_d6
      norm_num
      linarith
    have he : 1 + t ^ 2 / 2 + t ^ 4 / 8 + t ^ 6 / 48 ≤ Real.exp (t ^ 2 / 2) := by
      have := Real.sum_le_exp_of_nonneg (x := t ^ 2 / 2) (by positivity) 4
      simp [Finset.sum_range_succ, Nat.factorial] at this
      refine le_trans (le_of_eq ?_) this
      ring
    have hpos : 0 < 1 + t ^ 2 / 2 + t ^ 4 / 8 + t ^ 6 / 48 := by positivity
    rw [normPdf_eq, neg_div, Real.exp_neg, div_eq_mul_inv 0.399]
    exact mul_le_mul hs (inv_anti₀ hpos he) (by positivity) (by norm_num)
  have hpos : 0 < 1 + t ^ 2 / 2 + t ^ 4 / 8 + t ^ 6 / 48 := by positivity
  have h4 : 2 * t ^ 2 * normCdf (-t) ≤ 0.37 := by
    have a : t * (t ^ 2 + 3) * normCdf (-t) ≤
        (t ^ 2 + 2) * (0.399 / (1 + t ^ 2 / 2 + t ^ 4 / 8 + t ^ 6 / 48)) :=
      h2.le.trans (mul_le_mul_of_nonneg_left h3 (by positivity))
    have b : normCdf (-t) ≤
        (t ^ 2 + 2) * (0.399 / (1 + t ^ 2 / 2 + t ^ 4 / 8 + t ^ 6 / 48)) / (t * (t ^ 2 + 3)) := by
      rw [le_div_iff₀ (by positivity)]
      linarith
    refine (mul_le_mul_of_nonneg_left b (by positivity)).trans ?_
    have e : 2 * t ^ 2 * ((t ^ 2 + 2) * (0.399 / (1 + t ^ 2 / 2 + t ^ 4 / 8 + t ^ 6 / 48)) /
        (t * (t ^ 2 + 3))) =
        (0.798 * t * (t ^ 2 + 2)) / ((t ^ 2 + 3) * (1 + t ^ 2 / 2 + t ^ 4 / 8 + t ^ 6 / 48)) := by
      field_simp
      ring
    rw [e, div_le_iff₀ (by positivity)]
    nlinarith [sq_nonneg (t - 1.1), sq_nonneg (t ^ 2 - 1.21), sq_nonneg (t * (t - 1.1)),
      sq_nonneg (t ^ 3 - 1.331), sq_nonneg (t ^ 2 - 1.1 * t), sq_nonneg (t ^ 4 - 1.4641), ht]
  rw [h1, le_div_iff₀ (by positivity)]
  linarith

theorem normal_scaled_tail {v c : ℝ} (hv : 0 < v) (hc : 0 < c) :
    gaussianReal 0 v.toNNReal (Set.Icc (-c) c)ᶜ ≤ ENNReal.ofReal (0.37 * v / c ^ 2) := by
  have ht : 0 < √v := Real.sqrt_pos.2 hv
  have hmap : gaussianReal 0 v.toNNReal = (gaussianReal 0 1).map (√v * ·) := by
    rw [gaussianReal_map_const_mul, mul_zero]
    congr 1
    rw [← NNReal.coe_inj, Real.coe_toNNReal _ hv.le]
    simp [Real.sq_sqrt hv.le]
  have hpre : (√v * ·) ⁻¹' (Set.Icc (-c) c)ᶜ = (Set.Icc (-(c / √v)) (c / √v))ᶜ := by
    ext x
    simp only [Set.mem_preimage, Set.mem_compl_iff, Set.mem_Icc, ← neg_div, div_le_iff₀ ht,
      le_div_iff₀ ht, mul_comm x]
  have hd : 0 < c / √v := div_pos hc ht
  rw [hmap, Measure.map_apply (by fun_prop) measurableSet_Icc.compl, hpre,
    prob_compl_eq_one_sub measurableSet_Icc, normal_icc hd.le, ← ENNReal.ofReal_one,
    ← ENNReal.ofReal_sub _ (phi_band_nonneg hd.le)]
  refine ENNReal.ofReal_le_ofReal ?_
  have := normal_tail_sq hd
  have e : 0.37 / (c / √v) ^ 2 = 0.37 * v / c ^ 2 := by
    rw [div_pow, Real.sq_sqrt hv.le]
    field_simp
  linarith

/-- A Student-t number with mean zero and variance one is further than `c` from zero with probability
at most `0.37 / c ^ 2`, whatever the degrees of freedom. -/
theorem unitStudent_tail {ν c : ℝ} (hν : 2 < ν) (hc : 0 < c) :
    unitStudent ν (Set.Icc (-c) c)ᶜ ≤ ENNReal.ofReal (0.37 / c ^ 2) := by
  have hp : IsProbabilityMeasure (gammaMeasure (ν / 2) (1 / 2)) :=
    isProbabilityMeasure_gammaMeasure (by linarith) (by norm_num)
  obtain ⟨hi, hv⟩ := gamma_inv hν
  have hA : 0 < ν - 2 := by linarith
  rw [unitStudent_mixture hν measurableSet_Icc.compl]
  calc _ ≤ ∫⁻ r, ENNReal.ofReal (0.37 * (ν - 2) / c ^ 2 * r⁻¹) ∂gammaMeasure (ν / 2) (1 / 2) := by
        refine lintegral_mono_ae ?_
        filter_upwards [gammaMeasure_pos (ν / 2) (1 / 2)] with r hr
        refine (normal_scaled_tail (div_pos hA hr) hc).trans (le_of_eq ?_)
        congr 1
        field_simp
    _ = ENNReal.ofReal (∫ r, 0.37 * (ν - 2) / c ^ 2 * r⁻¹ ∂gammaMeasure (ν / 2) (1 / 2)) := by
        refine (ofReal_integral_eq_lintegral_ofReal (hi.const_mul _) ?_).symm
        filter_upwards [gammaMeasure_pos (ν / 2) (1 / 2)] with r hr
        positivity
    _ = _ := by
        rw [integral_const_mul, hv]
        congr 1
        field_simp

theorem unitStudentDensity_eq {ν : ℝ} (hν : 2 < ν) (x : ℝ) :
    unitStudentDensity ν x = Real.exp (-tllExact ν (1 : Matrix (Fin 1) (Fin 1) ℝ) (fun _ => x)) := by
  have hA : 0 < ν - 2 := by linarith
  have hpi := Real.pi_pos
  have h := tllExact_eq hν (Matrix.PosDef.one (n := Fin 1) (R := ℝ)) 0 (fun _ => x)
  rw [sub_zero] at h
  have e : mvtDensity ν 0 (1 : Matrix (Fin 1) (Fin 1) ℝ) (fun _ => x) = unitStudentDensity ν x := by
    simp [mvtDensity, unitStudentDensity, dotProduct, sq]
  have hpos : 0 < unitStudentDensity ν x := by
    have h1 : 0 < Real.Gamma ((ν + 1) / 2) := Real.Gamma_pos_of_pos (by linarith)
    have h2 : 0 < Real.Gamma (ν / 2) := Real.Gamma_pos_of_pos (by linarith)
    unfold unitStudentDensity
    positivity
  rw [h, e]
  simp [Real.exp_log hpos]

theorem tendsto_unitStudentDensity (x : ℝ) :
    Filter.Tendsto (fun ν => unitStudentDensity ν x) Filter.atTop (nhds (normPdf x)) := by
  have h := (tendsto_tllExact (K := (1 : Matrix (Fin 1) (Fin 1) ℝ)) (fun _ => x)).neg
  have h2 := (Real.continuous_exp.tendsto _).comp h
  have e : Real.exp (-nllExact (1 : Matrix (Fin 1) (Fin 1) ℝ) fun _ => x) = normPdf x := by
    rw [normPdf_eq, nllExact]
    have hs : √(2 * Real.pi) = Real.exp (1 / 2 * Real.log (2 * Real.pi)) := by
      rw [Real.sqrt_eq_rpow, Real.rpow_def_of_pos (by positivity)]
      ring_nf
    rw [hs, ← Real.exp_neg, ← Real.exp_add]
    congr 1
    simp [dotProduct, sq]
    ring
  rw [e] at h2
  refine h2.congr' ?_
  filter_upwards [Filter.eventually_gt_atTop 2] with ν hν
  rw [unitStudentDensity_eq hν]
  rfl

/-- As the degrees of freedom grow, it becomes a standard normal number. -/
theorem tendsto_unitStudent {c : ℝ} (hc : 0 ≤ c) :
    Filter.Tendsto (fun ν => unitStudent ν (Set.Icc (-c) c)) Filter.atTop
      (nhds (ENNReal.ofReal (2 * Phi c - 1))) := by
  rw [← normal_icc hc, gaussianReal_apply 0 one_ne_zero]
  simp only [unitStudent, withDensity_apply _ measurableSet_Icc]
  have h0 : ∀ᶠ ν in Filter.atTop, unitStudentDensity ν 0 ≤ normPdf 0 + 1 := by
    filter_upwards [(tendsto_unitStudentDensity 0).eventually (gt_mem_nhds (lt_add_one _))] with ν h
    exact h.le
  refine tendsto_lintegral_filter_of_dominated_convergence
    (fun _ => ENNReal.ofReal (normPdf 0 + 1)) ?_ ?_ ?_ ?_
  · refine Filter.Eventually.of_forall fun ν => ?_
    unfold unitStudentDensity
    fun_prop
  · filter_upwards [h0, Filter.eventually_gt_atTop 2] with ν h0 hν
    refine Filter.Eventually.of_forall fun x => ENNReal.ofReal_le_ofReal (le_trans ?_ h0)
    have hA : 0 < ν - 2 := by linarith
    have h1 : 0 < Real.Gamma ((ν + 1) / 2) := Real.Gamma_pos_of_pos (by linarith)
    have h2 : 0 < Real.Gamma (ν / 2) := Real.Gamma_pos_of_pos (by linarith)
    unfold unitStudentDensity
    refine mul_le_mul_of_nonneg_left ?_ (by positivity)
    refine Real.rpow_le_rpow_of_nonpos (by norm_num) ?_ (by linarith)
    have : 0 ≤ x ^ 2 / (ν - 2) := by positivity
    simpa using this
  · rw [setLIntegral_const]
    exact ENNReal.mul_ne_top ENNReal.ofReal_ne_top (by simp)
  · refine Filter.Eventually.of_forall fun x => ?_
    exact (ENNReal.continuous_ofReal.tendsto _).comp (tendsto_unitStudentDensity x)

end Verif.Lemmas
