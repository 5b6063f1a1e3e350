import Verif.Lemmas.Tp
import Verif.Lemmas.Likelihood
import Mathlib.Analysis.SpecialFunctions.Complex.LogBounds

/-! The likelihood of a Student-t process as the degrees of freedom grow. -/

namespace Verif.Lemmas

open Filter Matrix
open scoped Topology

private theorem logGamma_succ {x : ℝ} (hx : 0 < x) :
    Real.log (Real.Gamma (x + 1)) = Real.log (Real.Gamma x) + Real.log x := by
  rw [Real.Gamma_add_one hx.ne', Real.log_mul hx.ne' (Real.Gamma_pos_of_pos hx).ne', add_comm]

private theorem logGamma_mid {x : ℝ} (hx : 0 < x) :
    2 * Real.log (Real.Gamma (x + 1 / 2)) ≤
      Real.log (Real.Gamma x) + Real.log (Real.Gamma (x + 1)) := by
  have hy : x + 1 ∈ Set.Ioi (0 : ℝ) := by simp only [Set.mem_Ioi]; linarith
  have hx' : x ∈ Set.Ioi (0 : ℝ) := hx
  have hh : (0 : ℝ) ≤ 1 / 2 := by norm_num
  have := Real.convexOn_log_Gamma.2 hx' hy hh hh (by norm_num)
  simp only [smul_eq_mul, Function.comp_apply] at this
  have e : 1 / 2 * x + 1 / 2 * (x + 1) = x + 1 / 2 := by ring
  rw [e] at this
  linarith

private theorem tendsto_log_add (c : ℝ) :
    Tendsto (fun x : ℝ => Real.log (x + c) - Real.log x) atTop (𝓝 0) := by
  have h1 : Tendsto (fun x : ℝ => Real.log (1 + c / x)) atTop (𝓝 0) := by
    have h : Tendsto (fun x : ℝ => 1 + c / x) atTop (𝓝 (1 + 0)) :=
      tendsto_const_nhds.add (tendsto_const_nhds.div_atTop tendsto_id)
    rw [add_zero] at h
    have := (Real.continuousAt_log (x := 1) one_ne_zero).tendsto.comp h
    rwa [Real.log_one] at this
  refine h1.congr' ?_
  filter_upwards [eventually_gt_atTop 0, eventually_gt_atTop (-c)] with x hx hc
  rw [← Real.log_div (by linarith) hx.ne']
  congr 1
  field_simp

/-- `Γ(x + n/2) / Γ(x)` grows like `x^(n/2)`. -/
theorem tendsto_logGamma_half (n : ℕ) :
    Tendsto (fun x : ℝ => Real.log (Real.Gamma (x + n / 2)) - Real.log (Real.Gamma x) -
      n / 2 * Real.log x) atTop (𝓝 0) := by
  induction n using Nat.twoStepInduction with
  | zero => simp
  | one =>
    have hlow : Tendsto (fun x : ℝ => -(1 / 2) * (Real.log (x + 1 / 2) - Real.log x)) atTop
        (𝓝 0) := by
      have := (tendsto_log_add (1 / 2)).const_mul (-(1 / 2))
      rwa [mul_zero] at this
    refine tendsto_of_tendsto_of_tendsto_of_le_of_le' hlow tendsto_const_nhds ?_ ?_
    · filter_upwards [eventually_gt_atTop 0] with x hx
      have h1 := logGamma_mid (x := x + 1 / 2) (by linarith)
      have h2 := logGamma_succ (x := x + 1 / 2) (by linarith)
      have h3 := logGamma_succ hx
      have e : x + 1 / 2 + 1 / 2 = x + 1 := by ring
      rw [e] at h1
      push_cast
      linarith
    · filter_upwards [eventually_gt_atTop 0] with x hx
      have h1 := logGamma_mid hx
      have h3 := logGamma_succ hx
      push_cast
      linarith
  | more n ih _ =>
    have := ih.add (tendsto_log_add (n / 2))
    rw [add_zero] at this
    refine this.congr' ?_
    filter_upwards [eventually_gt_atTop 0] with x hx
    have h := logGamma_succ (x := x + n / 2) (by positivity)
    have e : x + ((n + 2 : ℕ) : ℝ) / 2 = x + n / 2 + 1 := by push_cast; ring
    rw [e, h]
    push_cast
    ring

/-- The negative log likelihood of the Student-t process converges to that of the Gaussian
process. -/
theorem tendsto_tllExact {n : ℕ} {K : Matrix (Fin n) (Fin n) ℝ} (y : Fin n → ℝ) :
    Tendsto (fun ν => tllExact ν K y) atTop (𝓝 (nllExact K y)) := by
  set β := misfit K y with hβ
  have hu : Tendsto (fun ν : ℝ => ν - 2) atTop atTop := tendsto_atTop_add_const_right _ _ tendsto_id
  have h1 : Tendsto (fun ν : ℝ => (n : ℝ) / 2 * (Real.log (ν + -2) - Real.log ν)) atTop (𝓝 0) := by
    simpa using (tendsto_log_add (-2)).const_mul ((n : ℝ) / 2)
  have h2 := (tendsto_logGamma_half n).comp (tendsto_id.atTop_div_const (zero_lt_two (α := ℝ)))
  have h3 := (Real.tendsto_mul_log_one_add_div_atTop β).comp hu
  have h4 : Tendsto (fun ν : ℝ => Real.log (1 + β / (ν - 2))) atTop (𝓝 0) := by
    have h : Tendsto (fun x : ℝ => 1 + β / (x - 2)) atTop (𝓝 (1 + 0)) :=
      tendsto_const_nhds.add (tendsto_const_nhds.div_atTop hu)
    rw [add_zero] at h
    have := (Real.continuousAt_log (x := 1) one_ne_zero).tendsto.comp h
    rwa [Real.log_one] at this
  have key := ((((h1.sub h2).add (h3.const_mul (1 / 2))).add
    (h4.const_mul (((n : ℝ) + 2) / 2))).add_const
      (n / 2 * Real.log (2 * Real.pi) + 1 / 2 * Real.log K.det)).div_const (n : ℝ)
  have e : (0 - 0 + 1 / 2 * β + ((n : ℝ) + 2) / 2 * 0 + (n / 2 * Real.log (2 * Real.pi) +
      1 / 2 * Real.log K.det)) / n = nllExact K y := by
    rw [nllExact, hβ, misfit]; ring
  rw [e] at key
  refine key.congr' ?_
  filter_upwards [eventually_gt_atTop 2] with ν hν
  have hpi := Real.pi_pos
  have hn : (0 : ℝ) ≤ n := Nat.cast_nonneg n
  simp only [Function.comp_apply, id, tllExact]
  rw [Real.log_div (Real.Gamma_pos_of_pos (by linarith)).ne'
    (Real.Gamma_pos_of_pos (by linarith)).ne', Real.log_mul (by linarith : ν - 2 ≠ 0) hpi.ne',
    Real.log_mul two_ne_zero hpi.ne', Real.log_div (by linarith : ν ≠ 0) two_ne_zero, add_div ν,
    ← hβ, ← sub_eq_add_neg]
  ring

/-- The factor of the predicted covariance converges to one. -/
theorem tendsto_tpFactor (β : ℝ) (n : ℕ) :
    Tendsto (fun ν : ℝ => (ν + β - 2) / (ν + n - 2)) atTop (𝓝 1) := by
  have hu : Tendsto (fun ν : ℝ => ν + n - 2) atTop atTop := by
    simpa [add_sub_assoc] using
      tendsto_atTop_add_const_right atTop ((n : ℝ) - 2) (tendsto_id (α := ℝ))
  have h : Tendsto (fun ν : ℝ => 1 + (β - n) / (ν + n - 2)) atTop (𝓝 (1 + 0)) :=
    tendsto_const_nhds.add (tendsto_const_nhds.div_atTop hu)
  rw [add_zero] at h
  refine h.congr' ?_
  filter_upwards [eventually_gt_atTop 2] with ν hν
  have hn : (0 : ℝ) ≤ n := Nat.cast_nonneg n
  have : ν + n - 2 ≠ 0 := by linarith
  field_simp
  ring

end Verif.Lemmas
