import Verif.Spec.Steps
import Mathlib.Analysis.Calculus.MeanValue
import Mathlib.Analysis.SpecialFunctions.ExpDeriv
import Mathlib.Analysis.SpecialFunctions.Integrals.Basic
import Mathlib.Analysis.Real.Pi.Bounds
import Mathlib.Probability.Distributions.Gaussian.Real
import Mathlib.Probability.CDF

/-! # Probabilities of intervals around the mean (lemmas for C115) -/

namespace Verif.Lemmas

open Verif.Spec MeasureTheory ProbabilityTheory

/-- Partial sums of the alternating series of `exp (-u)`. -/
noncomputable def expSum (n : ℕ) (u : ℝ) : ℝ := ∑ k ∈ Finset.range n, (-u) ^ k / (k.factorial : ℝ)

theorem expSum_hasDerivAt (n : ℕ) (u : ℝ) : HasDerivAt (expSum (n + 1)) (-expSum n u) u := by
  unfold expSum
  have h : ∀ k ∈ Finset.range (n + 1), HasDerivAt (fun u : ℝ => (-u) ^ k / (k.factorial : ℝ))
      ((k : ℝ) * (-u) ^ (k - 1) * (-1) / (k.factorial : ℝ)) u := fun k _ =>
    (((hasDerivAt_id u).neg.pow k).div_const _)
  have := HasDerivAt.fun_sum h
  refine this.congr_deriv ?_
  rw [Finset.sum_range_succ', ← Finset.sum_neg_distrib]
  simp only [Nat.cast_zero, zero_mul, zero_div, add_zero]
  refine Finset.sum_congr rfl fun k _ => ?_
  rw [Nat.add_sub_cancel, Nat.factorial_succ]
  push_cast
  have h1 : (k.factorial : ℝ) ≠ 0 := by exact_mod_cast k.factorial_ne_zero
  have h2 : (k : ℝ) + 1 ≠ 0 := by positivity
  field_simp

/-- The partial sums lie alternately above and below. -/
theorem expSum_alternate (n : ℕ) {u : ℝ} (hu : 0 ≤ u) :
    0 ≤ (-1) ^ n * (Real.exp (-u) - expSum n u) := by
  induction n generalizing u with
  | zero => simp [expSum, Real.exp_nonneg]
  | succ n ih =>
    have hd : ∀ v : ℝ, HasDerivAt (fun v => (-1) ^ (n + 1) * (Real.exp (-v) - expSum (n + 1) v))
        ((-1) ^ n * (Real.exp (-v) - expSum n v)) v := by
      intro v
      have h1 : HasDerivAt (fun v : ℝ => Real.exp (-v)) (Real.exp (-v) * (-1)) v :=
        (hasDerivAt_id v).neg.exp
      refine ((h1.sub (expSum_hasDerivAt n v)).const_mul _).congr_deriv ?_
      ring
    have hm : MonotoneOn (fun v => (-1 : ℝ) ^ (n + 1) * (Real.exp (-v) - expSum (n + 1) v))
        (Set.Ici 0) := by
      refine monotoneOn_of_deriv_nonneg (convex_Ici 0)
        (fun v _ => (hd v).continuousAt.continuousWithinAt)
        (fun v _ => (hd v).differentiableAt.differentiableWithinAt) fun v hv => ?_
      rw [(hd v).deriv]
      rw [interior_Ici] at hv
      exact ih (le_of_lt hv)
    have h0 := hm (Set.mem_Ici.2 le_rfl) (Set.mem_Ici.2 hu) hu
    have e : expSum (n + 1) 0 = 1 := by
      unfold expSum
      rw [Finset.sum_range_succ']
      simp
    simpa [e] using h0

theorem phi_nonneg (c : ℝ) : 0 ≤ Phi c := cdf_nonneg _ _

theorem phi_le_one (c : ℝ) : Phi c ≤ 1 := cdf_le_one _ _

theorem normal_icc {c : ℝ} (hc : 0 ≤ c) :
    gaussianReal 0 1 (Set.Icc (-c) c) = ENNReal.ofReal (2 * Phi c - 1) := by
  have h1 : gaussianReal 0 1 (Set.Iio (-c)) = ENNReal.ofReal (1 - Phi c) := by
    have h := gaussianReal_map_neg (μ := 0) (v := 1)
    rw [neg_zero] at h
    have e : gaussianReal 0 1 (Set.Iio (-c)) = gaussianReal 0 1 (Set.Iic c)ᶜ := by
      conv_lhs => rw [← h]
      rw [Measure.map_apply (by fun_prop) measurableSet_Iio]
      congr 1
      ext y
      simp
    rw [e, prob_compl_eq_one_sub measurableSet_Iic, ← ofReal_cdf, ← Phi,
      ENNReal.ofReal_sub _ (phi_nonneg c), ENNReal.ofReal_one]
  have h2 : Set.Icc (-c) c = Set.Iic c \ Set.Iio (-c) := by
    ext y
    simp [and_comm]
  have h3 : Set.Iio (-c) ⊆ Set.Iic c := fun y hy =>
    Set.mem_Iic.2 ((Set.mem_Iio.1 hy).le.trans (by linarith))
  rw [h2, measure_diff h3
    measurableSet_Iio.nullMeasurableSet (measure_ne_top _ _), h1, ← ofReal_cdf, ← Phi,
    ← ENNReal.ofReal_sub _ (by linarith [phi_le_one c])]
  congr 1
  ring

theorem phi_half : Phi 0 = 1 / 2 := by
  have : NullSingletonClass (gaussianReal 0 1) := nullSingletonClass_gaussianReal one_ne_zero
  have h := normal_icc (le_refl 0)
  rw [neg_zero, Set.Icc_self, measure_singleton] at h
  have h1 := ENNReal.ofReal_eq_zero.1 h.symm
  have h2 : gaussianReal 0 1 (Set.Iic 0) = gaussianReal 0 1 (Set.Ici 0) := by
    have h := gaussianReal_map_neg (μ := 0) (v := 1)
    rw [neg_zero] at h
    conv_lhs => rw [← h]
    rw [Measure.map_apply (by fun_prop) measurableSet_Iic]
    congr 1
    ext y
    simp
  have h3 : (1 : ENNReal) ≤ gaussianReal 0 1 (Set.Iic 0) + gaussianReal 0 1 (Set.Ici 0) := by
    rw [← measure_univ (μ := gaussianReal 0 1), ← Set.Iic_union_Ici (a := (0 : ℝ))]
    exact measure_union_le _ _
  rw [← h2, ← ofReal_cdf, ← Phi, ← ENNReal.ofReal_add (phi_nonneg 0) (phi_nonneg 0),
    ← ENNReal.ofReal_one, ENNReal.ofReal_le_ofReal_iff (add_nonneg (phi_nonneg 0) (phi_nonneg 0))]
    at h3
  linarith

theorem phi_band_nonneg {c : ℝ} (hc : 0 ≤ c) : 0 ≤ 2 * Phi c - 1 := by
  have : Phi 0 ≤ Phi c := monotone_cdf _ hc
  rw [phi_half] at this
  linarith

theorem phi_band_integral {c : ℝ} (hc : 0 ≤ c) :
    2 * Phi c - 1 = 2 * ((√(2 * Real.pi))⁻¹ * ∫ x in (0 : ℝ)..c, Real.exp (-(x ^ 2 / 2))) := by
  have h := normal_icc hc
  rw [gaussianReal_apply_eq_integral _ one_ne_zero] at h
  have hpos : 0 ≤ ∫ x in Set.Icc (-c) c, gaussianPDFReal 0 1 x :=
    integral_nonneg fun x => gaussianPDFReal_nonneg _ _ _
  have h' := (ENNReal.ofReal_eq_ofReal_iff hpos (phi_band_nonneg hc)).1 h
  rw [← h', integral_Icc_eq_integral_Ioc, ← intervalIntegral.integral_of_le (by linarith)]
  have e : ∀ x : ℝ, gaussianPDFReal 0 1 x = (√(2 * Real.pi))⁻¹ * Real.exp (-(x ^ 2 / 2)) := by
    intro x
    simp [gaussianPDFReal, neg_div]
  simp only [e]
  rw [intervalIntegral.integral_const_mul]
  have hi : ∀ a b : ℝ, IntervalIntegrable (fun x : ℝ => Real.exp (-(x ^ 2 / 2))) volume a b :=
    fun a b => (by fun_prop : Continuous fun x : ℝ => Real.exp (-(x ^ 2 / 2))).intervalIntegrable a b
  rw [← intervalIntegral.integral_add_adjacent_intervals (hi (-c) 0) (hi 0 c)]
  have hs : ∫ x in (-c)..0, Real.exp (-(x ^ 2 / 2)) = ∫ x in (0 : ℝ)..c, Real.exp (-(x ^ 2 / 2)) := by
    have := intervalIntegral.integral_comp_neg (a := (0 : ℝ)) (b := c)
      (fun x : ℝ => Real.exp (-(x ^ 2 / 2)))
    simp only [neg_zero, neg_sq] at this
    exact this.symm
  rw [hs]
  ring

theorem expSum_integral (n : ℕ) (c : ℝ) : ∫ x in (0 : ℝ)..c, expSum n (x ^ 2 / 2) =
    ∑ k ∈ Finset.range n, (-1 / 2) ^ k / (k.factorial : ℝ) * (c ^ (2 * k + 1) / (2 * k + 1)) := by
  unfold expSum
  rw [intervalIntegral.integral_finsetSum fun k _ =>
    (by fun_prop : Continuous fun x : ℝ => (-(x ^ 2 / 2)) ^ k / (k.factorial : ℝ)).intervalIntegrable
      _ _]
  refine Finset.sum_congr rfl fun k _ => ?_
  have e : ∀ x : ℝ, (-(x ^ 2 / 2)) ^ k / (k.factorial : ℝ) =
      (-1 / 2) ^ k / (k.factorial : ℝ) * x ^ (2 * k) := by
    intro x
    rw [show -(x ^ 2 / 2) = -1 / 2 * x ^ 2 by ring, mul_pow, ← pow_mul]
    ring
  simp only [e]
  rw [intervalIntegral.integral_const_mul, integral_pow]
  simp

/-- The probability of the interval of 1.96 deviations around the mean. -/
theorem band_number : 0.9499 < 2 * Phi 1.96 - 1 ∧ 2 * Phi 1.96 - 1 < 0.9501 := by
  have hc : (0 : ℝ) ≤ 1.96 := by norm_num
  rw [phi_band_integral hc]
  have hi : IntervalIntegrable (fun x : ℝ => Real.exp (-(x ^ 2 / 2))) volume 0 1.96 :=
    (by fun_prop : Continuous fun x : ℝ => Real.exp (-(x ^ 2 / 2))).intervalIntegrable _ _
  have hp : ∀ n, IntervalIntegrable (fun x : ℝ => expSum n (x ^ 2 / 2)) volume 0 1.96 := fun n =>
    (by unfold expSum; fun_prop : Continuous fun x : ℝ => expSum n (x ^ 2 / 2)).intervalIntegrable _ _
  have hlo : ∫ x in (0 : ℝ)..1.96, expSum 12 (x ^ 2 / 2) ≤
      ∫ x in (0 : ℝ)..1.96, Real.exp (-(x ^ 2 / 2)) := by
    refine intervalIntegral.integral_mono_on hc (hp 12) hi fun x _ => ?_
    have := expSum_alternate 12 (u := x ^ 2 / 2) (by positivity)
    norm_num at this
    linarith
  have hhi : ∫ x in (0 : ℝ)..1.96, Real.exp (-(x ^ 2 / 2)) ≤
      ∫ x in (0 : ℝ)..1.96, expSum 13 (x ^ 2 / 2) := by
    refine intervalIntegral.integral_mono_on hc hi (hp 13) fun x _ => ?_
    have := expSum_alternate 13 (u := x ^ 2 / 2) (by positivity)
    norm_num at this
    linarith
  rw [expSum_integral] at hlo hhi
  have nlo : (1.19062 : ℝ) < ∑ k ∈ Finset.range 12, (-1 / 2 : ℝ) ^ k / (k.factorial : ℝ) *
      (1.96 ^ (2 * k + 1) / (2 * k + 1)) := by
    simp only [Finset.sum_range_succ, Finset.sum_range_zero, Nat.factorial]
    norm_num
  have nhi : ∑ k ∈ Finset.range 13, (-1 / 2 : ℝ) ^ k / (k.factorial : ℝ) *
      (1.96 ^ (2 * k + 1) / (2 * k + 1)) < (1.19069 : ℝ) := by
    simp only [Finset.sum_range_succ, Finset.sum_range_zero, Nat.factorial]
    norm_num
  have hr1 : √(2 * Real.pi) < 2.50664 := by
    rw [Real.sqrt_lt' (by norm_num)]
    have := Real.pi_lt_d6
    norm_num
    linarith
  have hr2 : 2.50661 < √(2 * Real.pi) := by
    rw [Real.lt_sqrt (by norm_num)]
    have := Real.pi_gt_d6
    norm_num
    linarith
  have hr : 0 < √(2 * Real.pi) := by linarith
  set I := ∫ x in (0 : ℝ)..1.96, Real.exp (-(x ^ 2 / 2))
  have e : 2 * ((√(2 * Real.pi))⁻¹ * I) = 2 * I / √(2 * Real.pi) := by
    field_simp
  rw [e, lt_div_iff₀ hr, div_lt_iff₀ hr]
  constructor
  · nlinarith
  · nlinarith

end Verif.Lemmas
