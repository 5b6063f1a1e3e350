import Verif.Model.RoundedTpLikelihood
import Verif.Spec.RoundedTpLikelihood
import Verif.Lemmas.RoundedTp
import Verif.Lemmas.RoundedLikelihood
import Mathlib.Analysis.SpecialFunctions.Gamma.BohrMollerup

/-! # The likelihood of the Student-t process with rounding (lemmas for C162) -/

namespace Verif.Lemmas

open Verif.Spec Verif.Covariance Verif.UtilsCovariance Verif.Rounded Verif.RoundedPredict Verif.Constants Matrix

variable {fl ex lg gm : ℝ → ℝ} {n d : ℕ}

/-- The logarithm of a number known up to a relative error. -/
theorem log_of_rel {z z' r : ℝ} (hz : 0 < z) (h : |z' - z| ≤ r * z) (hr : r ≤ 1 / 2) :
    0 < z' ∧ |Real.log z' - Real.log z| ≤ 2 * r := by
  obtain ⟨h1, h2⟩ := abs_le.1 h
  have hr0 : 0 ≤ r := by
    by_contra hc
    have : r * z < 0 := mul_neg_of_neg_of_pos (not_le.1 hc) hz
    linarith
  have h3 : r * z ≤ 1 / 2 * z := mul_le_mul_of_nonneg_right hr hz.le
  have hz' : 0 < z' := by linarith
  refine ⟨hz', abs_le.2 ⟨?_, ?_⟩⟩
  · have h4 := Real.log_le_sub_one_of_pos (div_pos hz hz')
    rw [Real.log_div hz.ne' hz'.ne'] at h4
    have h5 : z / z' ≤ 1 + 2 * r := by
      rw [div_le_iff₀ hz']
      have h6 : r * (z - 2 * z') ≤ 0 := mul_nonpos_of_nonneg_of_nonpos hr0 (by linarith)
      nlinarith
    linarith
  · have h4 := Real.log_le_sub_one_of_pos (div_pos hz' hz)
    rw [Real.log_div hz'.ne' hz.ne'] at h4
    have h5 : z' / z ≤ 1 + r := by
      rw [div_le_iff₀ hz]
      linarith
    linarith

/-- A rounded product of a negative coefficient and a logarithm. -/
theorem coefficient_error (hf : Nearest fl) {c c' g G e u : ℝ} (hu : u = 1 / 2 ^ 53) (hc : 0 ≤ c)
    (hc' : |c' - -c| ≤ 3 * u * c) (hg : |g - G| ≤ e) :
    |fl (c' * g) - -(c * G)| ≤ c * (3 * e) + 5 * u * (c * |G|) + (2 : ℝ) ^ (-1075 : ℤ) := by
  have h1 := fl_error hf (c' * g)
  have hu0 : 0 ≤ u := by rw [hu]; positivity
  have hu1 : u ≤ 1 / 100 := by rw [hu]; norm_num
  rw [← hu, abs_mul] at h1
  have he : 0 ≤ e := (abs_nonneg _).trans hg
  have h2 : |c'| ≤ 104 / 100 * c := by
    have h3 := abs_sub_abs_le_abs_sub c' (-c)
    rw [abs_neg, abs_of_nonneg hc] at h3
    have h4 : u * c ≤ 1 / 100 * c := mul_le_mul_of_nonneg_right hu1 hc
    linarith
  have h3 : |g| ≤ |G| + e := by
    have := abs_sub_abs_le_abs_sub g G
    linarith
  have h4 : |c'| * |g| ≤ 104 / 100 * c * (|G| + e) := mul_le_mul h2 h3 (abs_nonneg _) (by positivity)
  have h5 := mul_le_mul_of_nonneg_left h4 hu0
  have h6 : |c' * (g - G)| ≤ 104 / 100 * c * e := by
    rw [abs_mul]
    exact mul_le_mul h2 hg (abs_nonneg _) (by positivity)
  have h7 : |(c' - -c) * G| ≤ 3 * u * c * |G| := by
    rw [abs_mul]
    exact mul_le_mul_of_nonneg_right hc' (abs_nonneg _)
  have e1 : fl (c' * g) - -(c * G) = (fl (c' * g) - c' * g) + (c' * (g - G) + (c' - -c) * G) := by ring
  have h8 := abs_add_le (fl (c' * g) - c' * g) (c' * (g - G) + (c' - -c) * G)
  have h9 := abs_add_le (c' * (g - G)) ((c' - -c) * G)
  rw [e1]
  have hce : 0 ≤ c * e := by positivity
  have h10 : u * (c * e) ≤ 1 / 100 * (c * e) := mul_le_mul_of_nonneg_right hu1 hce
  have h11 : 0 ≤ u * (c * |G|) := by positivity
  generalize (2 : ℝ) ^ (-1075 : ℤ) = w at *
  nlinarith

/-! ### The Gamma function -/

theorem log_gamma_succ {x : ℝ} (hx : 0 < x) :
    Real.log (Real.Gamma (x + 1)) - Real.log (Real.Gamma x) = Real.log x := by
  rw [Real.Gamma_add_one hx.ne', Real.log_mul hx.ne' (Real.Gamma_pos_of_pos hx).ne']
  ring

theorem log_gamma_lower {x y : ℝ} (hx : 1 ≤ x) (hxy : x ≤ y) :
    -(2 * (y - x)) ≤ Real.log (Real.Gamma y) - Real.log (Real.Gamma x) := by
  rcases hxy.eq_or_lt with rfl | hlt
  · simp
  have hc := Real.convexOn_log_Gamma
  have hhalf : -2 ≤ (Real.log (Real.Gamma 1) - Real.log (Real.Gamma (1 / 2))) / (1 - 1 / 2) := by
    rw [Real.Gamma_one, Real.log_one, Real.Gamma_one_half_eq, Real.log_sqrt Real.pi_pos.le]
    have h1 : Real.log Real.pi ≤ Real.log 4 := Real.log_le_log Real.pi_pos Real.pi_lt_four.le
    have h2 : Real.log 4 = 2 * Real.log 2 := by
      rw [show (4 : ℝ) = 2 ^ 2 by norm_num, Real.log_pow]
      norm_num
    have h3 := Real.log_two_lt_d9
    norm_num
    linarith
  have key : -2 ≤ (Real.log (Real.Gamma y) - Real.log (Real.Gamma x)) / (y - x) := by
    rcases hx.eq_or_lt with rfl | h1
    · exact hhalf.trans (hc.slope_mono_adjacent (x := 1 / 2) (by norm_num)
        (Set.mem_Ioi.2 (by linarith)) (by norm_num) hlt)
    · have h2 := hc.slope_mono_adjacent (x := 1 / 2) (y := 1) (z := x) (Set.mem_Ioi.2 (by norm_num))
        (Set.mem_Ioi.2 (by linarith)) (by norm_num) h1
      have h3 := hc.slope_mono_adjacent (x := 1) (y := x) (z := y) (Set.mem_Ioi.2 (by norm_num))
        (Set.mem_Ioi.2 (by linarith)) h1 hlt
      exact hhalf.trans (h2.trans h3)
  rw [le_div_iff₀ (sub_pos.2 hlt)] at key
  linarith

theorem log_gamma_upper {x y : ℝ} (hx : 1 ≤ x) (hxy : x ≤ y) :
    Real.log (Real.Gamma y) - Real.log (Real.Gamma x) ≤ Real.log y * (y - x) := by
  rcases hxy.eq_or_lt with rfl | hlt
  · simp
  have h1 := Real.convexOn_log_Gamma.slope_mono_adjacent (x := x) (y := y) (z := y + 1)
    (Set.mem_Ioi.2 (by linarith)) (Set.mem_Ioi.2 (by linarith)) hlt (by linarith)
  simp only [Function.comp] at h1
  rw [log_gamma_succ (by linarith), add_sub_cancel_left, div_one, div_le_iff₀ (sub_pos.2 hlt)] at h1
  exact h1

/-- How much the logarithm of the Gamma function moves. -/
theorem log_gamma_near {x x' y : ℝ} (hx : 1 ≤ x) (hx' : 1 ≤ x') (hy : x ≤ y) (hy' : x' ≤ y) :
    |Real.log (Real.Gamma x') - Real.log (Real.Gamma x)| ≤ (2 + Real.log y) * |x' - x| := by
  wlog h : x ≤ x' generalizing x x'
  · rw [abs_sub_comm, abs_sub_comm x']
    exact this hx' hx hy' hy (by linarith)
  have h1 := log_gamma_lower hx h
  have h2 := log_gamma_upper hx h
  have h3 : Real.log x' ≤ Real.log y := Real.log_le_log (by linarith) hy'
  have h4 : 0 ≤ Real.log x' := Real.log_nonneg hx'
  have h5 : 0 ≤ x' - x := sub_nonneg.2 h
  have h6 := mul_le_mul_of_nonneg_right h3 h5
  have h7 := mul_nonneg (h4.trans h3) h5
  rw [abs_of_nonneg h5, abs_le]
  constructor <;> nlinarith

/-! ### The four terms -/

theorem normal_of_one_le {x : ℝ} (hx : 1 / 2 ^ 60 ≤ x) : (2 : ℝ) ^ (-1022 : ℤ) ≤ |x| := by
  have h1 : (2 : ℝ) ^ (-1022 : ℤ) ≤ (2 : ℝ) ^ (-60 : ℤ) := zpow_le_zpow_right₀ (by norm_num) (by norm_num)
  have h2 : (2 : ℝ) ^ (-60 : ℤ) = 1 / 2 ^ 60 := by norm_num
  rw [h2] at h1
  rw [abs_of_nonneg (le_trans (by positivity) hx)]
  exact h1.trans hx

/-- The logarithm of `(ν - 2) π`. -/
theorem tp_first_error (hf : Nearest fl) {ζ u ν : ℝ} (hu : u = 1 / 2 ^ 53) (hlg : LogRelative ζ lg)
    (hζ : 0 ≤ ζ) (hζ1 : ζ ≤ 1 / 4) (hν : 2 + 1 / 2 ^ 20 ≤ ν) (hνd : ν ∈ Double) :
    |lg (fl (fl (ν - 2) * fl Real.pi)) - Real.log ((ν - 2) * Real.pi)| ≤
      ζ * |Real.log ((ν - 2) * Real.pi)| + 12 * u := by
  have hu0 : 0 ≤ u := by rw [hu]; positivity
  have hu1 : u ≤ 1 / 10 ^ 10 := by rw [hu]; norm_num
  have h2d : (2 : ℝ) ∈ Double := ⟨2, 0, by norm_num, by norm_num, by norm_num⟩
  have ha := fl_sub_rel hf hνd h2d
  have hπ := Real.pi_pos
  have hπ3 := Real.pi_gt_three
  have hp := fl_rel hf (normal_of_one_le (x := Real.pi) (by norm_num; linarith))
  have ha0 : 1 / 2 ^ 20 ≤ ν - 2 := by linarith
  have ha1 : 0 < ν - 2 := lt_of_lt_of_le (by positivity) ha0
  rw [← hu, abs_of_pos ha1] at ha
  rw [← hu, abs_of_pos hπ] at hp
  set a := ν - 2
  set a' := fl a
  set p' := fl Real.pi
  have hprod : |a' * p' - a * Real.pi| ≤ 3 * u * (a * Real.pi) := by
    have e : a' * p' - a * Real.pi = (a' - a) * (p' - Real.pi) + (a' - a) * Real.pi + a * (p' - Real.pi) := by
      ring
    have k1 : |(a' - a) * (p' - Real.pi)| ≤ u * a * (u * Real.pi) := by
      rw [abs_mul]
      exact mul_le_mul ha hp (abs_nonneg _) (by positivity)
    have k2 : |(a' - a) * Real.pi| ≤ u * a * Real.pi := by
      rw [abs_mul, abs_of_pos hπ]
      exact mul_le_mul_of_nonneg_right ha hπ.le
    have k3 : |a * (p' - Real.pi)| ≤ a * (u * Real.pi) := by
      rw [abs_mul, abs_of_pos ha1]
      exact mul_le_mul_of_nonneg_left hp ha1.le
    have k4 := abs_add_le ((a' - a) * (p' - Real.pi) + (a' - a) * Real.pi) (a * (p' - Real.pi))
    have k5 := abs_add_le ((a' - a) * (p' - Real.pi)) ((a' - a) * Real.pi)
    have k6 : u * (u * (a * Real.pi)) ≤ 1 * (u * (a * Real.pi)) :=
      mul_le_mul_of_nonneg_right (by linarith) (by positivity)
    rw [e]
    nlinarith
  have hz : 0 < a * Real.pi := by positivity
  have hpr1 : 1 / 2 ^ 60 ≤ a' * p' := by
    have k1 := (abs_le.1 hprod).1
    have k2 : 1 / 2 ^ 20 * 3 ≤ a * Real.pi := mul_le_mul ha0 hπ3.le (by norm_num) ha1.le
    have k3 : u * (a * Real.pi) ≤ 1 / 10 ^ 10 * (a * Real.pi) := mul_le_mul_of_nonneg_right hu1 hz.le
    norm_num at k1 k2 k3 ⊢
    linarith
  have hr := fl_rel hf (normal_of_one_le hpr1)
  have hpp : 0 < a' * p' := lt_of_lt_of_le (by positivity) hpr1
  rw [← hu, abs_of_pos hpp] at hr
  have hrel : |fl (a' * p') - a * Real.pi| ≤ 9 / 2 * u * (a * Real.pi) := by
    have k1 := abs_sub_le (fl (a' * p')) (a' * p') (a * Real.pi)
    have k2 := (abs_le.1 hprod).2
    have k3 : u * (u * (a * Real.pi)) ≤ 1 / 10 ^ 10 * (u * (a * Real.pi)) :=
      mul_le_mul_of_nonneg_right hu1 (by positivity)
    have k4 := mul_le_mul_of_nonneg_left (show a' * p' ≤ a * Real.pi + 3 * u * (a * Real.pi) by linarith) hu0
    have k5 : 0 ≤ u * (a * Real.pi) := by positivity
    norm_num at k3
    nlinarith
  obtain ⟨hz', hl⟩ := log_of_rel hz hrel (by norm_num at hu1 ⊢; linarith)
  have hg := hlg.near _ (hf.mem _) hz'
  set Z := Real.log (a * Real.pi)
  set Z' := Real.log (fl (a' * p'))
  have k1 := abs_sub_le (lg (fl (a' * p'))) Z' Z
  have k2 := abs_sub_abs_le_abs_sub Z' Z
  have k3 : ζ * |Z'| ≤ ζ * (|Z| + 9 * u) := mul_le_mul_of_nonneg_left (by linarith) hζ
  have k4 : ζ * u ≤ 1 / 4 * u := mul_le_mul_of_nonneg_right hζ1 hu0
  have k5 : ζ * (9 * u) + 9 * u ≤ 12 * u := by linarith
  nlinarith

/-- The logarithm of the quotient of Gamma functions. -/
theorem tp_third_error (hf : Nearest fl) {ζ u ν g κ : ℝ} (hu : u = 1 / 2 ^ 53) (hlg : LogRelative ζ lg)
    (hζ : 0 ≤ ζ) (hζ1 : ζ ≤ 1 / 4) (hgm : GammaRelative g gm) (hg0 : 0 ≤ g) (hg1 : g ≤ 1 / 8)
    (hν : 2 ≤ ν) (hνd : ν ∈ Double) (hn : ν + n ≤ 340)
    (hκ : κ = 2 * u + 4 * g + 2 * u * ((ν + n) * (2 + Real.log (ν + n)))) :
    |lg (fl (gm (fl (fl (ν + n) / 2)) / gm (fl (ν / 2)))) -
        Real.log (Real.Gamma ((ν + n) / 2) / Real.Gamma (ν / 2))| ≤
      ζ * |Real.log (Real.Gamma ((ν + n) / 2) / Real.Gamma (ν / 2))| + 2 * κ := by
  have hu0 : 0 ≤ u := by rw [hu]; positivity
  have hu1 : u ≤ 1 / 10 ^ 10 := by rw [hu]; norm_num
  have hn0 : (0 : ℝ) ≤ n := Nat.cast_nonneg n
  have h1d : (1 : ℝ) ∈ Double := ⟨1, 0, by norm_num, by norm_num, by norm_num⟩
  have h2d : (2 : ℝ) ∈ Double := ⟨2, 0, by norm_num, by norm_num, by norm_num⟩
  have hnd : (n : ℝ) ∈ Double := double_nat (by
    have : (n : ℝ) < 2 ^ 53 := lt_of_le_of_lt (by linarith : (n : ℝ) ≤ 340) (by norm_num)
    exact_mod_cast this)
  have hs := fl_add_rel hf hνd hnd
  rw [← hu, abs_of_nonneg (show 0 ≤ ν + n by linarith)] at hs
  have hs2 : 2 ≤ fl (ν + n) := le_fl_of_le hf h2d (by linarith)
  set s := ν + n
  set s' := fl s
  have hx := fl_rel hf (normal_of_one_le (x := s' / 2) (by norm_num; linarith))
  have hy := fl_rel hf (normal_of_one_le (x := ν / 2) (by norm_num; linarith))
  rw [← hu, abs_of_nonneg (show 0 ≤ s' / 2 by linarith)] at hx
  rw [← hu, abs_of_nonneg (show 0 ≤ ν / 2 by linarith)] at hy
  have hy1 : 1 ≤ fl (ν / 2) := le_fl_of_le hf h1d (by linarith)
  have hνs : ν ≤ s' := le_fl_of_le hf hνd (by simp only [s]; linarith)
  have hyx : fl (ν / 2) ≤ fl (s' / 2) := fl_mono hf (by linarith)
  set x' := fl (s' / 2)
  set y' := fl (ν / 2)
  have hsν : ν ≤ s := by simp only [s]; linarith
  have hus : u * s ≤ 1 / 10 ^ 10 * s := mul_le_mul_of_nonneg_right hu1 (by linarith)
  have hs3 := (abs_le.1 hs).2
  have husn : 0 ≤ u * s := mul_nonneg hu0 (by linarith)
  have hus' : u * s' ≤ u * s + u * (u * s) := by
    have := mul_le_mul_of_nonneg_left (show s' ≤ s + u * s by linarith) hu0
    linarith
  have huus : u * (u * s) ≤ 1 / 10 ^ 10 * (u * s) := mul_le_mul_of_nonneg_right hu1 husn
  have hxe : |x' - s / 2| ≤ 3 / 2 * u * s := by
    have k1 := abs_sub_le x' (s' / 2) (s / 2)
    have k2 : |s' / 2 - s / 2| = |s' - s| / 2 := by
      rw [← sub_div, abs_div, abs_of_pos (by norm_num : (0 : ℝ) < 2)]
    norm_num at huus
    linarith
  have hye : |y' - ν / 2| ≤ 1 / 2 * u * s := by
    have := mul_le_mul_of_nonneg_left hsν hu0
    linarith
  have hxs : x' ≤ s := by
    have := (abs_le.1 hxe).2
    norm_num at hus
    linarith
  have hG1 := log_gamma_near (x := s / 2) (x' := x') (y := s) (by linarith) (hy1.trans hyx) (by linarith) hxs
  have hG2 := log_gamma_near (x := ν / 2) (x' := y') (y := s) (by linarith) hy1 (by linarith)
    (hyx.trans hxs)
  have hGx : 0 < Real.Gamma (s / 2) := Real.Gamma_pos_of_pos (by linarith)
  have hGy : 0 < Real.Gamma (ν / 2) := Real.Gamma_pos_of_pos (by linarith)
  have hGx' : 0 < Real.Gamma x' := Real.Gamma_pos_of_pos (by linarith)
  have hGy' : 0 < Real.Gamma y' := Real.Gamma_pos_of_pos (by linarith)
  obtain ⟨px, hgx⟩ := log_of_rel hGx' (hgm.near x' (hf.mem _) (hy1.trans hyx)) (by linarith)
  obtain ⟨py, hgy⟩ := log_of_rel hGy' (hgm.near y' (hf.mem _) hy1) (by linarith)
  have hq : 0 < gm x' / gm y' := div_pos px py
  have hlq : Real.log (gm x' / gm y') = Real.log (gm x') - Real.log (gm y') :=
    Real.log_div px.ne' py.ne'
  have hlow := log_gamma_lower hy1 hyx
  have hq1 : (2 : ℝ) ^ (-1022 : ℤ) ≤ |gm x' / gm y'| := by
    rw [abs_of_pos hq, ← Real.log_le_log_iff (by positivity) hq, Real.log_zpow, hlq]
    have k1 := (abs_le.1 hgx).1
    have k2 := (abs_le.1 hgy).2
    have k3 := Real.log_two_gt_d9
    norm_num at k3 ⊢
    linarith
  have hr := fl_rel hf hq1
  rw [← hu, abs_of_pos hq] at hr
  obtain ⟨pq, hl⟩ := log_of_rel hq hr (by norm_num at hu1 ⊢; linarith)
  have hL0 : 0 ≤ 2 + Real.log s := by
    have := Real.log_nonneg (show 1 ≤ s by linarith)
    linarith
  have hG1' := hG1.trans (mul_le_mul_of_nonneg_left hxe hL0)
  have hG2' := hG2.trans (mul_le_mul_of_nonneg_left hye hL0)
  have hB : Real.log (Real.Gamma (s / 2) / Real.Gamma (ν / 2)) =
      Real.log (Real.Gamma (s / 2)) - Real.log (Real.Gamma (ν / 2)) := Real.log_div hGx.ne' hGy.ne'
  have htot : |Real.log (fl (gm x' / gm y')) -
      Real.log (Real.Gamma (s / 2) / Real.Gamma (ν / 2))| ≤ κ := by
    rw [hlq] at hl
    rw [hB, hκ, abs_le]
    rw [abs_le] at hl hgx hgy hG1' hG2'
    constructor <;> linarith [hl.1, hl.2, hgx.1, hgx.2, hgy.1, hgy.2, hG1'.1, hG1'.2, hG2'.1, hG2'.2]
  have hg := hlg.near _ (hf.mem _) pq
  set B := Real.log (Real.Gamma (s / 2) / Real.Gamma (ν / 2))
  set Z := Real.log (fl (gm x' / gm y'))
  have hκ0 : 0 ≤ κ := (abs_nonneg _).trans htot
  have k1 := abs_sub_le (lg (fl (gm x' / gm y'))) Z B
  have k2 := abs_sub_abs_le_abs_sub Z B
  have k3 : ζ * |Z| ≤ ζ * (|B| + κ) := mul_le_mul_of_nonneg_left (by linarith) hζ
  have k4 : ζ * κ ≤ 1 / 4 * κ := mul_le_mul_of_nonneg_right hζ1 hκ0
  linarith

/-- The logarithm of `1 + β / (ν - 2)`, for a misfit known up to `D`. -/
theorem tp_fourth_error (hf : Nearest fl) {ζ u ν β β' D : ℝ} (hu : u = 1 / 2 ^ 53) (hlg : LogRelative ζ lg)
    (hζ : 0 ≤ ζ) (hζ1 : ζ ≤ 1 / 4) (hν : 2 < ν) (hνd : ν ∈ Double) (hβ : 0 ≤ β) (hβ' : |β' - β| ≤ D)
    (hD : D ≤ (ν - 2 + β) / 4) :
    |lg (fl (1 + fl (β' / fl (ν - 2)))) - Real.log (1 + β / (ν - 2))| ≤
      ζ * Real.log (1 + β / (ν - 2)) + (4 * D / (ν - 2 + β) + 28 * u) := by
  have hu0 : 0 ≤ u := by rw [hu]; positivity
  have hu1 : u ≤ 1 / 10 ^ 10 := by rw [hu]; norm_num
  have hD0 : 0 ≤ D := (abs_nonneg _).trans hβ'
  have h1d : (1 : ℝ) ∈ Double := ⟨1, 0, by norm_num, by norm_num, by norm_num⟩
  have h2d : (2 : ℝ) ∈ Double := ⟨2, 0, by norm_num, by norm_num, by norm_num⟩
  have ha := fl_sub_rel hf hνd h2d
  have ha1 : 0 < ν - 2 := by linarith
  rw [← hu, abs_of_pos ha1] at ha
  set a := ν - 2
  set a' := fl a
  have hua : u * a ≤ 1 / 10 ^ 10 * a := mul_le_mul_of_nonneg_right hu1 ha1.le
  have ha2 := abs_le.1 ha
  have ha' : 0 < a' := by norm_num at hua; linarith
  have hr1 : 1 ≤ 1 + β / a := by
    have := div_nonneg hβ ha1.le
    linarith
  set r := 1 + β / a with hrd
  have har : a * r = a + β := by
    rw [hrd, mul_add, mul_one, mul_div_cancel₀ _ ha1.ne']
  have hβa : |β'| ≤ 5 / 4 * (a * r) := by
    have k1 := abs_sub_abs_le_abs_sub β' β
    rw [abs_of_nonneg hβ] at k1
    linarith
  -- the quotient
  have hquot : |β' / a' - β' / a| ≤ 2 * u * r := by
    have e : β' / a' - β' / a = β' * (a - a') / (a' * a) := by
      field_simp
    rw [e, abs_div, abs_mul, abs_of_pos (mul_pos ha' ha1), div_le_iff₀ (mul_pos ha' ha1), abs_sub_comm]
    have k1 : |β'| * |a' - a| ≤ 5 / 4 * (a * r) * (u * a) :=
      mul_le_mul hβa ha (abs_nonneg _) (by positivity)
    have k2 : 5 / 4 * a ≤ 2 * a' := by norm_num at hua; linarith
    have k3 : u * r * a * (5 / 4 * a) ≤ u * r * a * (2 * a') := mul_le_mul_of_nonneg_left k2 (by positivity)
    nlinarith
  have hfirst : |β' / a - β / a| ≤ D / a := by
    rw [← sub_div, abs_div, abs_of_pos ha1]
    exact div_le_div_of_nonneg_right hβ' ha1.le
  have hb := fl_error hf (β' / a')
  rw [← hu] at hb
  have hw0 : (0 : ℝ) < (2 : ℝ) ^ (-1075 : ℤ) := by positivity
  have hw1 : (2 : ℝ) ^ (-1075 : ℤ) ≤ u := by
    rw [hu]
    exact tiny_lt.trans (by norm_num)
  generalize (2 : ℝ) ^ (-1075 : ℤ) = w at *
  have hDa : D / a ≤ 1 / 4 * r := by
    rw [div_le_iff₀ ha1]
    linarith
  have hDr : D / (a + β) * r = D / a := by
    rw [← har]
    field_simp
  have hur : 0 ≤ u * r := by positivity
  have hur' : u * r ≤ 1 / 10 ^ 10 * r := mul_le_mul_of_nonneg_right hu1 (by linarith)
  have hu1r : u ≤ u * r := le_mul_of_one_le_right hu0 hr1
  have hqb : |β' / a'| ≤ 2 * r := by
    have k1 := abs_sub_abs_le_abs_sub (β' / a') (β' / a)
    have k2 : |β' / a| ≤ 5 / 4 * r := by
      rw [abs_div, abs_of_pos ha1, div_le_iff₀ ha1]
      linarith
    norm_num at hur'
    linarith
  have hqb' := mul_le_mul_of_nonneg_left hqb hu0
  set b := fl (β' / a')
  have hbe : |b - β / a| ≤ D / a + 5 * (u * r) := by
    have k1 := abs_sub_le b (β' / a') (β / a)
    have k2 := abs_sub_le (β' / a') (β' / a) (β / a)
    linarith
  have hs := fl_add_rel hf h1d (hf.mem (β' / a'))
  rw [← hu] at hs
  have hsb : |1 + b| ≤ 2 * r := by
    have k1 := abs_add_le (b - β / a) r
    rw [show b - β / a + r = 1 + b by rw [hrd]; ring, abs_of_nonneg (by linarith : 0 ≤ r)] at k1
    norm_num at hur'
    linarith
  have hsb' := mul_le_mul_of_nonneg_left hsb hu0
  have hrel : |fl (1 + b) - r| ≤ (D / (a + β) + 7 * u) * r := by
    have k1 := abs_sub_le (fl (1 + b)) (1 + b) r
    have k2 : 1 + b - r = b - β / a := by rw [hrd]; ring
    rw [k2] at k1
    rw [add_mul, hDr]
    linarith
  have hsmall : D / (a + β) + 7 * u ≤ 1 / 2 := by
    have k1 : D / (a + β) ≤ 1 / 4 := by
      rw [div_le_iff₀ (by linarith)]
      linarith
    norm_num at hu1 ⊢
    linarith
  obtain ⟨hp, hl⟩ := log_of_rel (by linarith) hrel hsmall
  have hg := hlg.near _ (hf.mem _) hp
  have hZ : 0 ≤ Real.log r := Real.log_nonneg hr1
  set Z := Real.log r
  set Z' := Real.log (fl (1 + b))
  have k0 : 0 ≤ D / (a + β) := by positivity
  have k1 := abs_sub_le (lg (fl (1 + b))) Z' Z
  have k2 := abs_sub_abs_le_abs_sub Z' Z
  rw [abs_of_nonneg hZ] at k2
  have k3 : ζ * |Z'| ≤ ζ * (Z + 2 * (D / (a + β) + 7 * u)) := mul_le_mul_of_nonneg_left (by linarith) hζ
  have k4 : ζ * (2 * (D / (a + β) + 7 * u)) ≤ 1 / 4 * (2 * (D / (a + β) + 7 * u)) :=
    mul_le_mul_of_nonneg_right hζ1 (by linarith)
  have k5 : 4 * D / (a + β) = 4 * (D / (a + β)) := by ring
  rw [k5]
  linarith

/-- The last operations: three sums, a division and a sign. -/
theorem tp_assemble_error (hf : Nearest fl) {a b c e A B C E ε M u : ℝ} (hn : 1 ≤ n) (ha : a ∈ Double)
    (hb : b ∈ Double) (hc : c ∈ Double) (he : e ∈ Double) (hu : u = 1 / 2 ^ 53)
    (h : |a - A| + |b - B| + |c - C| + |e - E| ≤ ε) (hM : |A| + |B| + |C| + |E| ≤ M) :
    |fl (-1 * fl (fl (fl (fl (a + b) + c) + e) / n)) - -(A + B + C + E) / n| ≤
      (ε + 6 * u * (M + ε)) / n + (2 : ℝ) ^ (-1075 : ℤ) := by
  have hn' : (1 : ℝ) ≤ n := by exact_mod_cast hn
  have hn0 : (0 : ℝ) < n := by linarith
  have hu0 : 0 ≤ u := by rw [hu]; positivity
  have hu1 : u ≤ 1 / 100 := by rw [hu]; norm_num
  have hneg : ∀ x ∈ Double, fl (-1 * x) = -x := fun x hx => by
    rw [neg_one_mul]
    exact fl_of_mem hf (double_neg hx)
  rw [hneg _ (hf.mem _)]
  have h1 := fl_add_rel hf ha hb
  set p := fl (a + b) with hp
  have h2 := fl_add_rel hf (hf.mem (a + b)) hc
  rw [← hp] at h2
  set q := fl (p + c) with hq
  have h3 := fl_add_rel hf (hf.mem (p + c)) he
  rw [← hq] at h3
  set r := fl (q + e)
  have h4 := fl_error hf (r / n)
  rw [abs_div, abs_of_pos hn0] at h4
  rw [← hu] at h1 h2 h3 h4
  have ka := abs_sub_abs_le_abs_sub a A
  have kb := abs_sub_abs_le_abs_sub b B
  have kc := abs_sub_abs_le_abs_sub c C
  have ke := abs_sub_abs_le_abs_sub e E
  obtain ⟨S, hS⟩ : ∃ S : ℝ, S = M + ε := ⟨_, rfl⟩
  rw [← hS]
  have hsum : |a| + |b| + |c| + |e| ≤ S := by linarith
  have n1 := abs_nonneg a
  have n2 := abs_nonneg b
  have n3 := abs_nonneg c
  have n4 := abs_nonneg e
  have hS0 : 0 ≤ S := by linarith
  have huS : u * S ≤ 1 / 100 * S := mul_le_mul_of_nonneg_right hu1 hS0
  have huS0 : 0 ≤ u * S := by positivity
  have s1 := abs_add_le a b
  have t1 := h1.trans (mul_le_mul_of_nonneg_left (show |a + b| ≤ S by linarith) hu0)
  have s2 : |p| ≤ |a| + |b| + u * S := by
    have := abs_sub_abs_le_abs_sub p (a + b)
    linarith
  have s3 := abs_add_le p c
  have t2 := h2.trans (mul_le_mul_of_nonneg_left (show |p + c| ≤ 11 / 10 * S by linarith) hu0)
  have s4 : |q| ≤ |a| + |b| + |c| + 3 * (u * S) := by
    have := abs_sub_abs_le_abs_sub q (p + c)
    linarith
  have s5 := abs_add_le q e
  have t3 := h3.trans (mul_le_mul_of_nonneg_left (show |q + e| ≤ 11 / 10 * S by linarith) hu0)
  have s6 : |r| ≤ 2 * S := by
    have := abs_sub_abs_le_abs_sub r (q + e)
    linarith
  have t4 : u * (|r| / n) ≤ 2 * (u * S) / n := by
    rw [← mul_div_assoc]
    exact div_le_div_of_nonneg_right ((mul_le_mul_of_nonneg_left s6 hu0).trans_eq (by ring)) hn0.le
  have hr : |r - (A + B + C + E)| ≤ ε + 4 * (u * S) := by
    have x1 : r - (A + B + C + E) = (r - (q + e)) + (q - (p + c)) + (p - (a + b)) + (a - A) + (b - B) +
      (c - C) + (e - E) := by ring
    rw [x1]
    have y1 := abs_add_le ((r - (q + e)) + (q - (p + c)) + (p - (a + b)) + (a - A) + (b - B) + (c - C)) (e - E)
    have y2 := abs_add_le ((r - (q + e)) + (q - (p + c)) + (p - (a + b)) + (a - A) + (b - B)) (c - C)
    have y3 := abs_add_le ((r - (q + e)) + (q - (p + c)) + (p - (a + b)) + (a - A)) (b - B)
    have y4 := abs_add_le ((r - (q + e)) + (q - (p + c)) + (p - (a + b))) (a - A)
    have y5 := abs_add_le ((r - (q + e)) + (q - (p + c))) (p - (a + b))
    have y6 := abs_add_le (r - (q + e)) (q - (p + c))
    linarith
  set J := fl (r / n)
  have e1 : -J - -(A + B + C + E) / n = -(J - r / n) + -((r - (A + B + C + E)) / n) := by
    field_simp
    ring
  rw [e1]
  have b1 := abs_add_le (-(J - r / n)) (-((r - (A + B + C + E)) / n))
  rw [abs_neg, abs_neg, abs_div, abs_of_pos hn0] at b1
  have b2 := div_le_div_of_nonneg_right hr hn0.le
  have b3 : (ε + 6 * u * S) / n = (ε + 4 * (u * S)) / n + 2 * (u * S) / n := by ring
  rw [b3]
  linarith

/-- The four terms together. -/
theorem tp_terms_error (hf : Nearest fl) {u ν g₁ ld g₃ g₄ T₁ T₂ T₃ T₄ ε₁ ε₂ ε₃ ε₄ S P : ℝ}
    (hu : u = 1 / 2 ^ 53) (hn1 : 1 ≤ n) (hν : 2 ≤ ν) (hνd : ν ∈ Double) (hnd : (n : ℝ) ∈ Double)
    (k1 : |g₁ - T₁| ≤ ε₁) (k2 : |ld - T₂| ≤ ε₂) (k3 : |g₃ - T₃| ≤ ε₃) (k4 : |g₄ - T₄| ≤ ε₄)
    (h3 : g₃ ∈ Double) (hT4 : 0 ≤ T₄) (hS : S = (3 * n * ε₁ + ε₂) / 2 + ε₃ + 3 * ((ν + n) / 2) * ε₄)
    (hP : P = (n * |T₁| + |T₂|) / 2 + |T₃| + (ν + n) / 2 * T₄) :
    |fl (-1 * fl (fl (fl (fl (fl (fl (-(1 / 2) * n) * g₁) + fl (-(1 / 2) * ld)) + g₃) +
        fl (fl (-(1 / 2) * fl (ν + n)) * g₄)) / n)) -
        (n / 2 * T₁ + 1 / 2 * T₂ - T₃ + (ν + n) / 2 * T₄) / n| ≤
      (S + 12 * u * (P + S)) / n + 5 * (2 : ℝ) ^ (-1075 : ℤ) := by
  have hn1' : (1 : ℝ) ≤ n := by exact_mod_cast hn1
  have hnp : (0 : ℝ) < n := by linarith
  have hu0 : 0 ≤ u := by rw [hu]; positivity
  have hu1 : u ≤ 1 / 10 ^ 10 := by rw [hu]; norm_num
  have c1 : |fl (-(1 / 2) * (n : ℝ)) - -((n : ℝ) / 2)| ≤ 3 * u * (n / 2) := by
    have e1 : -(1 / 2) * (n : ℝ) = -(n / 2) := by ring
    have h1 := fl_rel hf (x := -((n : ℝ) / 2)) (by
      rw [abs_neg]
      exact normal_of_one_le (by norm_num; linarith))
    rw [← hu, abs_neg, abs_of_pos (show 0 < (n : ℝ) / 2 by positivity)] at h1
    rw [e1]
    have : 0 ≤ u * ((n : ℝ) / 2) := by positivity
    linarith
  have hs0 : 0 < ν + n := by linarith
  have c4 : |fl (-(1 / 2) * fl (ν + n)) - -((ν + n) / 2)| ≤ 3 * u * ((ν + n) / 2) := by
    have h1 := fl_add_rel hf hνd hnd
    rw [← hu, abs_of_pos hs0] at h1
    have hs2 : 2 ≤ fl (ν + n) := le_fl_of_le hf ⟨2, 0, by norm_num, by norm_num, by norm_num⟩ (by linarith)
    have e1 : -(1 / 2) * fl (ν + n) = -(fl (ν + n) / 2) := by ring
    have h2 := fl_rel hf (x := -(fl (ν + n) / 2)) (by
      rw [abs_neg]
      exact normal_of_one_le (by norm_num; linarith))
    rw [← hu, abs_neg, abs_of_pos (show 0 < fl (ν + n) / 2 by linarith)] at h2
    rw [e1]
    have h3 := abs_sub_le (fl (-(fl (ν + n) / 2))) (-(fl (ν + n) / 2)) (-((ν + n) / 2))
    have h4 : |-(fl (ν + n) / 2) - -((ν + n) / 2)| = |fl (ν + n) - (ν + n)| / 2 := by
      rw [show -(fl (ν + n) / 2) - -((ν + n) / 2) = -((fl (ν + n) - (ν + n)) / 2) by ring, abs_neg, abs_div,
        abs_of_pos (by norm_num : (0 : ℝ) < 2)]
    have h5 := (abs_le.1 h1).2
    have h6 := mul_le_mul_of_nonneg_left (show fl (ν + n) ≤ 2 * (ν + n) by
      have : u * (ν + n) ≤ 1 * (ν + n) := mul_le_mul_of_nonneg_right (by norm_num at hu1; linarith) hs0.le
      linarith) hu0
    have h7 : 0 ≤ u * (ν + n) := by positivity
    linarith
  have t1 := coefficient_error hf hu (by positivity) c1 k1
  have t4 := coefficient_error hf hu (by positivity) c4 k4
  have t2 : |fl (-(1 / 2) * ld) - -(1 / 2 * T₂)| ≤
      ε₂ / 2 + u * ((|T₂| + ε₂) / 2) + (2 : ℝ) ^ (-1075 : ℤ) := by
    have h1 := fl_error hf (-(1 / 2) * ld)
    have e1 : |-(1 / 2) * ld| = 1 / 2 * |ld| := by rw [abs_mul, abs_neg]; norm_num
    rw [← hu, e1] at h1
    have h2 := abs_sub_abs_le_abs_sub ld T₂
    have h3 := mul_le_mul_of_nonneg_left (show 1 / 2 * |ld| ≤ (|T₂| + ε₂) / 2 by linarith) hu0
    have h4 := abs_sub_le (fl (-(1 / 2) * ld)) (-(1 / 2) * ld) (-(1 / 2 * T₂))
    have h5 : |-(1 / 2) * ld - -(1 / 2 * T₂)| = 1 / 2 * |ld - T₂| := by
      rw [show -(1 / 2) * ld - -(1 / 2 * T₂) = -(1 / 2 * (ld - T₂)) by ring, abs_neg, abs_mul]
      norm_num
    linarith
  rw [abs_of_nonneg hT4] at t4
  have hε10 : 0 ≤ ε₁ := (abs_nonneg _).trans k1
  have hε20 : 0 ≤ ε₂ := (abs_nonneg _).trans k2
  have hε30 : 0 ≤ ε₃ := (abs_nonneg _).trans k3
  have hε40 : 0 ≤ ε₄ := (abs_nonneg _).trans k4
  obtain ⟨w, hw⟩ : ∃ w : ℝ, w = (2 : ℝ) ^ (-1075 : ℤ) := ⟨_, rfl⟩
  have hw0 : 0 < w := by rw [hw]; positivity
  rw [← hw] at t1 t2 t4
  have hsum : |fl (fl (-(1 / 2) * (n : ℝ)) * g₁) - -((n : ℝ) / 2 * T₁)| + |fl (-(1 / 2) * ld) - -(1 / 2 * T₂)| +
      |g₃ - T₃| + |fl (fl (-(1 / 2) * fl (ν + n)) * g₄) - -((ν + n) / 2 * T₄)| ≤
      S + 5 * u * P + u * S + 3 * w := by
    have x1 : 0 ≤ u * ((n : ℝ) * ε₁) := by positivity
    have x2 : 0 ≤ u * ε₃ := by positivity
    have x3 : 0 ≤ u * ((ν + n) * ε₄) := by positivity
    have x4 : 0 ≤ u * |T₂| := by positivity
    have x5 : 0 ≤ u * |T₃| := by positivity
    refine (add_le_add (add_le_add (add_le_add t1 t2) k3) t4).trans ?_
    rw [hS, hP]
    clear t1 t2 t4 k1 k2 k3 k4 c1 c4 hS hP
    ring_nf at x1 x2 x3 x4 x5 ⊢
    linarith
  have hsize : |-((n : ℝ) / 2 * T₁)| + |-(1 / 2 * T₂)| + |T₃| + |-((ν + n) / 2 * T₄)| ≤ P := by
    rw [abs_neg, abs_neg, abs_neg, abs_mul, abs_mul, abs_mul, abs_of_nonneg hT4,
      abs_of_pos (show 0 < (n : ℝ) / 2 by positivity), abs_of_pos (show 0 < (ν + n) / 2 by positivity),
      abs_of_pos (show (0 : ℝ) < 1 / 2 by norm_num), hP]
    linarith
  have hfin := tp_assemble_error (n := n) hf hn1 (hf.mem _) (hf.mem _) h3 (hf.mem _) hu hsum hsize
  rw [show (n / 2 * T₁ + 1 / 2 * T₂ - T₃ + (ν + n) / 2 * T₄) / (n : ℝ) =
    -(-(n / 2 * T₁) + -(1 / 2 * T₂) + T₃ + -((ν + n) / 2 * T₄)) / n by ring]
  refine hfin.trans ?_
  rw [← hw]
  have hS0 : 0 ≤ S := by rw [hS]; positivity
  have hP0 : 0 ≤ P := by rw [hP]; positivity
  clear hfin hsum hsize t1 t2 t4 k1 k2 k3 k4 c1 c4 hS hP
  have y2 : u * w ≤ 1 / 10 ^ 10 * w := mul_le_mul_of_nonneg_right hu1 hw0.le
  have y3 : 0 ≤ u * P := by positivity
  have y4 : 0 ≤ u * S := by positivity
  have z1 : u * (u * P) ≤ 1 / 10 ^ 10 * (u * P) := mul_le_mul_of_nonneg_right hu1 y3
  have z2 : u * (u * S) ≤ 1 / 10 ^ 10 * (u * S) := mul_le_mul_of_nonneg_right hu1 y4
  have y5 : S + 5 * u * P + u * S + 3 * w + 6 * u * (P + (S + 5 * u * P + u * S + 3 * w)) ≤
      S + 12 * u * (P + S) + 4 * w := by
    norm_num at y2 z1 z2
    have e1 : S + 5 * u * P + u * S + 3 * w + 6 * u * (P + (S + 5 * u * P + u * S + 3 * w)) =
      S + 11 * (u * P) + 7 * (u * S) + 3 * w + 30 * (u * (u * P)) + 6 * (u * (u * S)) + 18 * (u * w) := by ring
    rw [e1]
    linarith
  have y6 := div_le_div_of_nonneg_right y5 hnp.le
  rw [add_div _ (4 * w)] at y6
  have y7 : 4 * w / n ≤ 4 * w := div_le_self (by positivity) hn1'
  linarith

/-! ### The function -/

/-- The value, written out. -/
theorem roundedTpNegLogMl_ok {o : SumOrder} {mm : MatMul}
    {inv : Matrix (Fin n) (Fin n) ℝ → Py (Matrix (Fin n) (Fin n) ℝ)}
    {sld : Matrix (Fin n) (Fin n) ℝ → ℝ × ℝ} {name : String} (hn : name ∈ baseNames) {v : List Flt}
    {ard fix : Bool} {h : HypDict} (hr : restoreHyps name v false ard fix = .ok h) {ν : ℝ} (hν : 2 < ν)
    (hdof : h.dof = some (.flt (.fin ν))) {X : Fin n → Point d} {K V : Matrix (Fin n) (Fin n) ℝ}
    (hK : RoundedKernels.kernelMatrix fl ex o X h name = .ok K) (hV : inv K = .ok V)
    (hsign : 0 < (sld K).1) (h0 : n ≠ 0) (Y μ : Fin n → ℝ) :
    RoundedTpLikelihood.negLogMl fl ex lg gm o mm inv sld X Y v name μ ard fix = .ok
      (fl (-1 * fl (fl (fl (fl (
        fl (fl (-(1 / 2) * n) * lg (fl (fl (ν - 2) * fl Real.pi))) +
        fl (-(1 / 2) * (sld K).2)) +
        lg (fl (gm (fl (fl (ν + n) / 2)) / gm (fl (ν / 2))))) +
        fl (fl (-(1 / 2) * fl (ν + n)) *
          lg (fl (1 + fl (roundedMisfit mm V (fun i => fl (Y i - μ i)) / fl (ν - 2)))))) / n))) := by
  have hch : checkStrCov name 2 = .ok () := by
    simp [checkStrCov, base_allowed hn, pyAssert, bind, Except.bind, pure, Except.pure]
  have hnu : numKey h.dof = .ok ν := by rw [hdof]; exact numKey_fin ν
  simp only [RoundedTpLikelihood.negLogMl, hch, hr, hnu, hK, hV, bind, Except.bind, pure, Except.pure, h0,
    if_false, hν.not_ge, hsign.not_ge]
  rfl

end Verif.Lemmas
