import Verif.Lemmas.Normal
import Mathlib.Analysis.Calculus.Deriv.MeanValue
import Mathlib.MeasureTheory.Integral.IntervalIntegral.FundThmCalculus

/-! Bounds on the tail of the standard normal distribution. -/

namespace Verif.Lemmas

open Verif.Acquisition MeasureTheory Set

theorem hasDerivAt_normCdf (z : ℝ) : HasDerivAt normCdf (normPdf z) z := by
  have h1 : normCdf = fun z => normCdf 0 + ∫ x in (0 : ℝ)..z, normPdf x := by
    funext z
    have := intervalIntegral.integral_Iic_sub_Iic (f := normPdf) (μ := volume) (a := 0) (b := z)
      integrable_normPdf.integrableOn integrable_normPdf.integrableOn
    rw [normCdf_eq_integral, normCdf_eq_integral, ← this]
    ring
  rw [h1]
  exact (continuous_normPdf.integral_hasStrictDerivAt 0 z).hasDerivAt.const_add _

theorem tendsto_normPdf_atTop : Filter.Tendsto normPdf Filter.atTop (nhds 0) := by
  have := tendsto_normPdf_atBot.comp Filter.tendsto_neg_atTop_atBot
  refine this.congr fun x => ?_
  simp [normPdf_neg]

theorem tendsto_normCdf_atBot : Filter.Tendsto normCdf Filter.atBot (nhds 0) :=
  ProbabilityTheory.tendsto_cdf_atBot _

/-- A function on `[0, ∞)` or `(0, ∞)` with negative derivative and limit zero is positive. -/
theorem pos_of_deriv_neg {f f' : ℝ → ℝ} {a : ℝ} (hf : ∀ x, a ≤ x → HasDerivAt f (f' x) x)
    (h' : ∀ x, a ≤ x → f' x < 0) (hl : Filter.Tendsto f Filter.atTop (nhds 0)) : 0 < f a := by
  have hanti : StrictAntiOn f (Ici a) := by
    refine strictAntiOn_of_deriv_neg (convex_Ici a)
      (fun x hx => (hf x hx).continuousAt.continuousWithinAt) fun x hx => ?_
    rw [interior_Ici] at hx
    rw [(hf x (le_of_lt hx)).deriv]
    exact h' x (le_of_lt hx)
  have h1 : f (a + 1) < f a := hanti (by simp) (by simp) (by linarith)
  have h2 : 0 ≤ f (a + 1) := by
    refine le_of_tendsto hl ((Filter.eventually_ge_atTop (a + 1)).mono fun y hy => ?_)
    exact hanti.antitoneOn (by simp) (by simp; linarith) hy
  linarith

theorem tail_zero : Filter.Tendsto (fun x => normCdf (-x)) Filter.atTop (nhds 0) :=
  tendsto_normCdf_atBot.comp Filter.tendsto_neg_atTop_atBot

theorem hasDerivAt_tail (x : ℝ) : HasDerivAt (fun x => normCdf (-x)) (-normPdf x) x := by
  have := (hasDerivAt_normCdf (-x)).comp x (hasDerivAt_neg x)
  rw [normPdf_neg, mul_neg_one] at this
  exact this

/-- A bounded multiple of the density vanishes at infinity. -/
theorem pdf_mul_zero {g : ℝ → ℝ} (hg : ∀ x, 1 ≤ x → 0 ≤ g x ∧ g x ≤ 1) :
    Filter.Tendsto (fun x => g x * normPdf x) Filter.atTop (nhds 0) := by
  refine tendsto_of_tendsto_of_tendsto_of_le_of_le' tendsto_const_nhds tendsto_normPdf_atTop ?_ ?_
  · filter_upwards [Filter.eventually_ge_atTop 1] with x hx
    exact mul_nonneg (hg x hx).1 (normPdf_pos x).le
  · filter_upwards [Filter.eventually_ge_atTop 1] with x hx
    nlinarith [hg x hx, normPdf_pos x]

theorem mills_lower {x : ℝ} (hx : 0 ≤ x) : x * normPdf x < (1 + x ^ 2) * normCdf (-x) := by
  have key := pos_of_deriv_neg (a := x) (f := fun x => normCdf (-x) - x / (1 + x ^ 2) * normPdf x)
    (f' := fun x => -normPdf x - ((1 * (1 + x ^ 2) - x * (2 * x)) / (1 + x ^ 2) ^ 2 * normPdf x +
      x / (1 + x ^ 2) * -(x * normPdf x))) (fun y hy => ?_) (fun y hy => ?_) ?_
  · have h : 0 < 1 + x ^ 2 := by positivity
    simp only [sub_pos] at key
    rw [div_mul_eq_mul_div, div_lt_iff₀ h] at key
    linarith
  · have h : (1 + y ^ 2) ≠ 0 := by positivity
    refine (hasDerivAt_tail y).sub (HasDerivAt.mul ?_ (hasDerivAt_normPdf y))
    refine (hasDerivAt_id y).div ?_ h
    have h2 : HasDerivAt (fun x : ℝ => x ^ 2) (2 * y) y := by simpa using hasDerivAt_pow 2 y
    exact h2.const_add 1
  · have h : 0 < 1 + y ^ 2 := by positivity
    have e : -normPdf y - ((1 * (1 + y ^ 2) - y * (2 * y)) / (1 + y ^ 2) ^ 2 * normPdf y +
      y / (1 + y ^ 2) * -(y * normPdf y)) = -(2 / (1 + y ^ 2) ^ 2 * normPdf y) := by
      field_simp
      ring
    rw [e]
    have := normPdf_pos y
    have : 0 < 2 / (1 + y ^ 2) ^ 2 * normPdf y := by positivity
    linarith
  · have := (tail_zero).sub (pdf_mul_zero (g := fun x => x / (1 + x ^ 2)) fun x hx =>
      ⟨by positivity, by rw [div_le_one (by positivity)]; nlinarith⟩)
    simpa using this

theorem mills_upper {x : ℝ} (hx : 0 < x) :
    x * (x ^ 2 + 3) * normCdf (-x) < (x ^ 2 + 2) * normPdf x := by
  have key := pos_of_deriv_neg (a := x)
    (f := fun x => (x ^ 2 + 2) / (x * (x ^ 2 + 3)) * normPdf x - normCdf (-x))
    (f' := fun x => (((2 * x) * (x * (x ^ 2 + 3)) - (x ^ 2 + 2) * (1 * (x ^ 2 + 3) + x * (2 * x))) /
      (x * (x ^ 2 + 3)) ^ 2 * normPdf x + (x ^ 2 + 2) / (x * (x ^ 2 + 3)) * -(x * normPdf x)) -
        -normPdf x) (fun y hy => ?_) (fun y hy => ?_) ?_
  · have h : 0 < x * (x ^ 2 + 3) := by positivity
    simp only [sub_pos] at key
    rw [div_mul_eq_mul_div, lt_div_iff₀ h] at key
    linarith
  · have hy0 : 0 < y := lt_of_lt_of_le hx hy
    have h : y * (y ^ 2 + 3) ≠ 0 := by positivity
    have h2 : HasDerivAt (fun x : ℝ => x ^ 2) (2 * y) y := by simpa using hasDerivAt_pow 2 y
    refine HasDerivAt.sub (HasDerivAt.mul ?_ (hasDerivAt_normPdf y)) (hasDerivAt_tail y)
    exact (h2.add_const 2).div ((hasDerivAt_id y).mul (h2.add_const 3)) h
  · have hy0 : 0 < y := lt_of_lt_of_le hx hy
    have e : (((2 * y) * (y * (y ^ 2 + 3)) - (y ^ 2 + 2) * (1 * (y ^ 2 + 3) + y * (2 * y))) /
      (y * (y ^ 2 + 3)) ^ 2 * normPdf y + (y ^ 2 + 2) / (y * (y ^ 2 + 3)) * -(y * normPdf y)) -
        -normPdf y = -(6 / (y * (y ^ 2 + 3)) ^ 2 * normPdf y) := by
      field_simp
      ring
    rw [e]
    have := normPdf_pos y
    have : 0 < 6 / (y * (y ^ 2 + 3)) ^ 2 * normPdf y := by positivity
    linarith
  · have := (pdf_mul_zero (g := fun x => (x ^ 2 + 2) / (x * (x ^ 2 + 3))) fun x hx =>
      ⟨by positivity, by rw [div_le_one (by positivity)]; nlinarith⟩).sub tail_zero
    simpa using this

end Verif.Lemmas
