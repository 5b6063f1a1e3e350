import Verif.Model.RoundedAcquisition
import Verif.Spec.RoundedAcquisition
import Verif.Lemmas.RoundedKernels
import Verif.Lemmas.Mills
import Mathlib.Analysis.Real.Pi.Bounds

/-! # Rounding errors of acquisition functions (lemmas for C131) -/

namespace Verif.Lemmas

open Verif.Spec Verif.Acquisition Verif.RoundedAcquisition

variable {fl cdf pdf lg : ℝ → ℝ}

/-! ### The normal density -/

theorem inv_sqrt_two_pi_le : (√(2 * Real.pi))⁻¹ ≤ 2 / 5 := by
  have h1 : (5 / 2 : ℝ) ≤ √(2 * Real.pi) := by
    apply Real.le_sqrt_of_sq_le
    linarith [Real.pi_gt_d2]
  calc (√(2 * Real.pi))⁻¹ ≤ (5 / 2 : ℝ)⁻¹ := inv_anti₀ (by norm_num) h1
    _ = 2 / 5 := by norm_num

theorem normPdf_weighted {x w : ℝ} (hw : 0 ≤ w) (h : w ≤ Real.exp (x ^ 2 / 2)) :
    w * normPdf x ≤ 2 / 5 := by
  rw [normPdf_eq]
  have h1 : w * Real.exp (-x ^ 2 / 2) ≤ 1 := by
    have := mul_le_mul_of_nonneg_right h (Real.exp_pos (-x ^ 2 / 2)).le
    rw [← Real.exp_add] at this
    have e : x ^ 2 / 2 + -x ^ 2 / 2 = 0 := by ring
    rwa [e, Real.exp_zero] at this
  have h2 := inv_sqrt_two_pi_le
  have h3 : 0 ≤ (√(2 * Real.pi))⁻¹ := by positivity
  calc w * ((√(2 * Real.pi))⁻¹ * Real.exp (-x ^ 2 / 2))
      = (√(2 * Real.pi))⁻¹ * (w * Real.exp (-x ^ 2 / 2)) := by ring
    _ ≤ (√(2 * Real.pi))⁻¹ * 1 := mul_le_mul_of_nonneg_left h1 h3
    _ ≤ 2 / 5 := by linarith

theorem normPdf_le (x : ℝ) : normPdf x ≤ 2 / 5 := by
  have := normPdf_weighted (x := x) (w := 1) zero_le_one (Real.one_le_exp (by positivity))
  linarith

theorem abs_mul_normPdf_le (x : ℝ) : |x| * normPdf x ≤ 2 / 5 := by
  refine normPdf_weighted (abs_nonneg x) ?_
  have h1 := Real.add_one_le_exp (x ^ 2 / 2)
  have h2 := sq_nonneg (|x| - 1)
  have h3 := sq_abs x
  nlinarith

theorem sq_mul_normPdf_le (x : ℝ) : x ^ 2 * normPdf x ≤ 2 / 5 := by
  refine normPdf_weighted (sq_nonneg x) ?_
  have := exp_ge_two_mul (x ^ 2 / 2)
  linarith

/-! ### A relative error in the argument -/

/-- A function whose slope, and whose slope times its argument, are at most 2/5 hardly changes under a
relative error of its argument. -/
theorem rel_variation {g g' : ℝ → ℝ} (hg : ∀ x, HasDerivAt g (g' x) x) (hb : ∀ x, |g' x| ≤ 2 / 5)
    (hbx : ∀ x, |x| * |g' x| ≤ 2 / 5) {z z' δ τ : ℝ} (hδ : 0 ≤ δ) (hδ1 : δ ≤ 1 / 2) (hτ : 0 ≤ τ)
    (h : |z' - z| ≤ δ * |z| + τ) : |g z' - g z| ≤ 4 / 5 * δ + 2 / 5 * τ := by
  obtain ⟨w, hw1, hw2⟩ : ∃ w, |w - z| ≤ δ * |z| ∧ |z' - w| ≤ τ := by
    have hp : 0 ≤ δ * |z| := by positivity
    obtain ⟨h1, h2⟩ := abs_le.1 h
    rcases le_total z' (z + δ * |z|) with h3 | h3
    · rcases le_total (z - δ * |z|) z' with h4 | h4
      · exact ⟨z', abs_le.2 ⟨by linarith, by linarith⟩, by simpa using hτ⟩
      · refine ⟨z - δ * |z|, abs_le.2 ⟨by linarith, by linarith⟩, abs_le.2 ⟨by linarith, by linarith⟩⟩
    · refine ⟨z + δ * |z|, abs_le.2 ⟨by linarith, by linarith⟩, abs_le.2 ⟨by linarith, by linarith⟩⟩
  have a1 : |g z' - g w| ≤ 2 / 5 * τ := by
    have := Convex.norm_image_sub_le_of_norm_hasDerivWithin_le (s := Set.univ) (f := g) (f' := g')
      (C := 2 / 5) (fun x _ => (hg x).hasDerivWithinAt) (fun x _ => hb x) convex_univ
      (Set.mem_univ w) (Set.mem_univ z')
    rw [Real.norm_eq_abs, Real.norm_eq_abs] at this
    linarith
  have a2 : |g w - g z| ≤ 4 / 5 * δ := by
    rcases eq_or_ne z 0 with rfl | hz
    · have e : w = 0 := by
        rw [abs_zero, mul_zero, sub_zero] at hw1
        exact abs_eq_zero.1 (le_antisymm hw1 (abs_nonneg _))
      rw [e, sub_self, abs_zero]
      positivity
    have hz0 : 0 < |z| := abs_pos.2 hz
    have := Convex.norm_image_sub_le_of_norm_hasDerivWithin_le (s := Set.Icc (z - δ * |z|) (z + δ * |z|))
      (f := g) (f' := g') (C := 4 / 5 / |z|) (fun x _ => (hg x).hasDerivWithinAt) (fun x hx => ?_)
      (convex_Icc _ _) (x := z) (y := w) ⟨by nlinarith, by nlinarith⟩
      ⟨by linarith [(abs_le.1 hw1).1], by linarith [(abs_le.1 hw1).2]⟩
    · rw [Real.norm_eq_abs, Real.norm_eq_abs] at this
      calc |g w - g z| ≤ 4 / 5 / |z| * |w - z| := this
        _ ≤ 4 / 5 / |z| * (δ * |z|) := mul_le_mul_of_nonneg_left hw1 (by positivity)
        _ = 4 / 5 * δ := by field_simp
    · have h1 : |x - z| ≤ δ * |z| := abs_le.2 ⟨by linarith [hx.1], by linarith [hx.2]⟩
      have h2 : |z| / 2 ≤ |x| := by
        have := abs_sub_abs_le_abs_sub z x
        rw [abs_sub_comm z x] at this
        nlinarith
      rw [Real.norm_eq_abs, le_div_iff₀ hz0]
      have h3 := hbx x
      have h4 := mul_le_mul_of_nonneg_right h2 (abs_nonneg (g' x))
      linarith
  calc |g z' - g z| ≤ |g z' - g w| + |g w - g z| := abs_sub_le _ _ _
    _ ≤ _ := by linarith

theorem normCdf_variation {z z' δ τ : ℝ} (hδ : 0 ≤ δ) (hδ1 : δ ≤ 1 / 2) (hτ : 0 ≤ τ)
    (h : |z' - z| ≤ δ * |z| + τ) : |normCdf z' - normCdf z| ≤ 4 / 5 * δ + 2 / 5 * τ := by
  refine rel_variation hasDerivAt_normCdf (fun x => ?_) (fun x => ?_) hδ hδ1 hτ h
  · rw [abs_of_pos (normPdf_pos x)]
    exact normPdf_le x
  · rw [abs_of_pos (normPdf_pos x)]
    exact abs_mul_normPdf_le x

theorem normPdf_variation {z z' δ τ : ℝ} (hδ : 0 ≤ δ) (hδ1 : δ ≤ 1 / 2) (hτ : 0 ≤ τ)
    (h : |z' - z| ≤ δ * |z| + τ) : |normPdf z' - normPdf z| ≤ 4 / 5 * δ + 2 / 5 * τ := by
  refine rel_variation hasDerivAt_normPdf (fun x => ?_) (fun x => ?_) hδ hδ1 hτ h
  · rw [abs_neg, abs_mul, abs_of_pos (normPdf_pos x)]
    exact abs_mul_normPdf_le x
  · rw [abs_neg, abs_mul, abs_of_pos (normPdf_pos x), ← mul_assoc, abs_mul_abs_self, ← sq]
    exact sq_mul_normPdf_le x

/-! ### The standardised distance to the best response -/

/-- Division of two rounded numbers. -/
theorem quotient_error {c c' t t' u : ℝ} (hu : 0 ≤ u) (hu1 : u ≤ 1 / 1000) (ht : 0 < t)
    (hc : |c' - c| ≤ u * |c|) (ht' : |t' - t| ≤ u * t) :
    0 < t' ∧ |c' / t' - c / t| ≤ 21 / 10 * u * |c / t| := by
  have h1 := (abs_le.1 ht').1
  have h0 : (999 / 1000) * t ≤ t' := by nlinarith
  have hp : 0 < t' := by linarith
  refine ⟨hp, ?_⟩
  have e : c' / t' - c / t = ((c' - c) * t - c * (t' - t)) / (t' * t) := by
    field_simp
    ring
  rw [e, abs_div, abs_of_pos (mul_pos hp ht), div_le_iff₀ (mul_pos hp ht), abs_div, abs_of_pos ht]
  have h2 : |(c' - c) * t - c * (t' - t)| ≤ 2 * u * |c| * t := by
    calc |(c' - c) * t - c * (t' - t)| ≤ |(c' - c) * t| + |c * (t' - t)| := abs_sub _ _
      _ = |c' - c| * t + |c| * |t' - t| := by rw [abs_mul, abs_mul, abs_of_pos ht]
      _ ≤ u * |c| * t + |c| * (u * t) :=
          add_le_add (mul_le_mul_of_nonneg_right hc ht.le) (mul_le_mul_of_nonneg_left ht' (abs_nonneg _))
      _ = 2 * u * |c| * t := by ring
  have e2 : 21 / 10 * u * (|c| / t) * (t' * t) = 21 / 10 * u * |c| * t' := by
    field_simp
  rw [e2]
  have h3 : 0 ≤ u * |c| := by positivity
  nlinarith [mul_le_mul_of_nonneg_left h0 h3]

theorem unit_small : (1 : ℝ) / 2 ^ 53 ≤ 1 / 2 ^ 40 := by norm_num

theorem valZ_error (h : Nearest fl) {b j m s : ℝ} (hb : b ∈ Double) (hj : j ∈ Double) (hm : m ∈ Double)
    (hs : s ∈ Double) (hsj : 0 < s + j) :
    0 < fl (s + j) ∧ |valZ fl b j m s - (b - m) / (s + j)| ≤
      7 / 2 * (1 / 2 ^ 53) * |(b - m) / (s + j)| + (2 : ℝ) ^ (-1075 : ℤ) := by
  have h1 := fl_sub_rel h hb hm
  have h2 := fl_add_rel h hs hj
  rw [abs_of_pos hsj] at h2
  have hu := unit_small
  have h3 := quotient_error (by positivity) (by linarith) hsj h1 h2
  refine ⟨h3.1, ?_⟩
  have h4 := fl_error h (fl (b - m) / fl (s + j))
  generalize (2 : ℝ) ^ (-1075 : ℤ) = T at *
  have h3 := h3.2
  rw [valZ]
  generalize fl (b - m) / fl (s + j) = q at *
  generalize (b - m) / (s + j) = z at *
  have hq : |q| ≤ |z| + |q - z| := by
    have := abs_add_le z (q - z)
    rwa [add_sub_cancel] at this
  have h5 := abs_sub_le (fl q) q z
  have hz := abs_nonneg z
  generalize hU : (1 : ℝ) / 2 ^ 53 = u at *
  have hu0 : 0 ≤ u := by rw [← hU]; positivity
  have h6 : u * |q| ≤ u * (|z| + 21 / 10 * u * |z|) := mul_le_mul_of_nonneg_left (by linarith) hu0
  have h7 : u * (u * |z|) ≤ 1 / 2 ^ 40 * (u * |z|) := mul_le_mul_of_nonneg_right hu (by positivity)
  have h8 : 0 ≤ u * |z| := by positivity
  nlinarith

theorem tiny_below_unit : (2 : ℝ) ^ (-1075 : ℤ) ≤ 1 / 2 ^ 53 / 2 ^ 100 := by
  have := tiny_le_unit
  rw [le_div_iff₀ (by positivity)]
  linarith

/-- The distribution function at the computed argument. -/
theorem cdf_at_error (h : Nearest fl) {η : ℝ} (hc : CdfWithin η cdf) {b j m s : ℝ} (hb : b ∈ Double)
    (hj : j ∈ Double) (hm : m ∈ Double) (hs : s ∈ Double) (hsj : 0 < s + j) :
    |cdf (valZ fl b j m s) - normCdf ((b - m) / (s + j))| ≤ η + 3 * (1 / 2 ^ 53) := by
  have h1 := (valZ_error h hb hj hm hs hsj).2
  have h2 := normCdf_variation (by positivity) (by norm_num) (by positivity) h1
  have h3 : |cdf (valZ fl b j m s) - normCdf (valZ fl b j m s)| ≤ η := hc.near _
  have h4 := abs_sub_le (cdf (valZ fl b j m s)) (normCdf (valZ fl b j m s)) (normCdf ((b - m) / (s + j)))
  have h5 := tiny_below_unit
  generalize (2 : ℝ) ^ (-1075 : ℤ) = T at *
  linarith

/-- The density at the computed argument. -/
theorem pdf_at_error (h : Nearest fl) {η : ℝ} (hc : PdfWithin η pdf) {b j m s : ℝ} (hb : b ∈ Double)
    (hj : j ∈ Double) (hm : m ∈ Double) (hs : s ∈ Double) (hsj : 0 < s + j) :
    |pdf (valZ fl b j m s) - normPdf ((b - m) / (s + j))| ≤ η + 3 * (1 / 2 ^ 53) := by
  have h1 := (valZ_error h hb hj hm hs hsj).2
  have h2 := normPdf_variation (by positivity) (by norm_num) (by positivity) h1
  have h3 : |pdf (valZ fl b j m s) - normPdf (valZ fl b j m s)| ≤ η := hc _
  have h4 := abs_sub_le (pdf (valZ fl b j m s)) (normPdf (valZ fl b j m s)) (normPdf ((b - m) / (s + j)))
  have h5 := tiny_below_unit
  generalize (2 : ℝ) ^ (-1075 : ℤ) = T at *
  linarith

/-! ### Expected improvement -/

theorem abs_product_le {a a' p p' A e : ℝ} (ha : |a' - a| ≤ e) (hp : |p' - p| ≤ A) (hp1 : |p'| ≤ 1) :
    |a' * p' - a * p| ≤ e + |a| * A := by
  have e1 : a' * p' - a * p = (a' - a) * p' + a * (p' - p) := by ring
  rw [e1]
  calc |(a' - a) * p' + a * (p' - p)| ≤ |a' - a| * |p'| + |a| * |p' - p| := by
        rw [← abs_mul, ← abs_mul]
        exact abs_add_le _ _
    _ ≤ e * 1 + |a| * A :=
        add_le_add (mul_le_mul ha hp1 (abs_nonneg _) ((abs_nonneg _).trans ha))
          (mul_le_mul_of_nonneg_left hp (abs_nonneg _))
    _ = e + |a| * A := by ring

/-- Rounding a number near `x`. -/
theorem fl_near (h : Nearest fl) {x y e X : ℝ} (hxy : |y - x| ≤ e) (hx : |x| ≤ X) :
    |fl y - x| ≤ e + 1 / 2 ^ 53 * (X + e) + (2 : ℝ) ^ (-1075 : ℤ) := by
  have h1 := fl_error h y
  have h2 := abs_sub_le (fl y) y x
  have h3 : |y| ≤ X + e := by
    have := abs_add_le x (y - x)
    rw [add_sub_cancel] at this
    linarith
  have h4 : 1 / 2 ^ 53 * |y| ≤ 1 / 2 ^ 53 * (X + e) := mul_le_mul_of_nonneg_left h3 (by positivity)
  linarith

/-- Rounding a sum of two doubles. -/
theorem fl_add_near (h : Nearest fl) {x y x' y' e f X : ℝ} (hx : x' ∈ Double) (hy : y' ∈ Double)
    (he : |x' - x| ≤ e) (hf : |y' - y| ≤ f) (hX : |x + y| ≤ X) :
    |fl (x' + y') - (x + y)| ≤ e + f + 1 / 2 ^ 53 * (X + (e + f)) := by
  have h1 := fl_add_rel h hx hy
  have h2 := abs_sub_le (fl (x' + y')) (x' + y') (x + y)
  have h0 : |(x' + y') - (x + y)| ≤ e + f := by
    have e1 : (x' + y') - (x + y) = (x' - x) + (y' - y) := by ring
    rw [e1]
    exact (abs_add_le _ _).trans (add_le_add he hf)
  have h3 : |x' + y'| ≤ X + (e + f) := by
    have := abs_add_le (x + y) ((x' + y') - (x + y))
    rw [add_sub_cancel] at this
    linarith
  have h4 : 1 / 2 ^ 53 * |x' + y'| ≤ 1 / 2 ^ 53 * (X + (e + f)) :=
    mul_le_mul_of_nonneg_left h3 (by positivity)
  linarith

theorem ei_value_le (c s z : ℝ) : |c * normCdf z + s * normPdf z| ≤ |c| + |s| := by
  have h1 : |c * normCdf z| ≤ |c| := by
    rw [abs_mul, abs_of_nonneg (normCdf_nonneg z)]
    exact mul_le_of_le_one_right (abs_nonneg _) (normCdf_le_one z)
  have h2 : |s * normPdf z| ≤ |s| := by
    rw [abs_mul, abs_of_pos (normPdf_pos z)]
    exact mul_le_of_le_one_right (abs_nonneg _) (by linarith [normPdf_le z])
  exact (abs_add_le _ _).trans (add_le_add h1 h2)

theorem ei_error (h : Nearest fl) {η : ℝ} (hη : 0 ≤ η) (hη1 : η ≤ 1 / 2) (hc : CdfWithin η cdf)
    (hd : PdfWithin η pdf) {b j m s : ℝ} (hb : b ∈ Double) (hj : j ∈ Double) (hm : m ∈ Double)
    (hs : s ∈ Double) (hsj : 0 < s + j) :
    |fl (fl (fl (b - m) * cdf (valZ fl b j m s)) + fl (s * pdf (valZ fl b j m s))) -
        ((b - m) * normCdf ((b - m) / (s + j)) + s * normPdf ((b - m) / (s + j)))| ≤
      (η + 8 * (1 / 2 ^ 53)) * (|b - m| + |s|) + (2 : ℝ) ^ (-1073 : ℤ) := by
  have hP := cdf_at_error h hc hb hj hm hs hsj
  have hD := pdf_at_error h hd hb hj hm hs hsj
  have h1 := fl_sub_rel h hb hm
  have hP1 : |cdf (valZ fl b j m s)| ≤ 1 := by
    rw [abs_of_nonneg (hc.nonneg _)]
    exact hc.le_one _
  have hS := ei_value_le (b - m) s ((b - m) / (s + j))
  generalize valZ fl b j m s = z' at *
  generalize (b - m) / (s + j) = z at *
  have hphi := normPdf_le z
  have hphi0 := normPdf_pos z
  have hD1 : |pdf z'| ≤ 1 := by
    have := abs_add_le (normPdf z) (pdf z' - normPdf z)
    rw [add_sub_cancel, abs_of_pos hphi0] at this
    have hu := unit_small
    have : (1 : ℝ) / 2 ^ 40 ≤ 1 / 100 := by norm_num
    linarith
  have hx := abs_product_le h1 hP hP1
  have hy := abs_product_le (a := s) (a' := s) (e := 0) (by simp) hD hD1
  have bx : |(b - m) * normCdf z| ≤ |b - m| := by
    rw [abs_mul, abs_of_nonneg (normCdf_nonneg z)]
    exact mul_le_of_le_one_right (abs_nonneg _) (normCdf_le_one z)
  have by' : |s * normPdf z| ≤ 2 / 5 * |s| := by
    rw [abs_mul, abs_of_pos hphi0, mul_comm]
    exact mul_le_mul_of_nonneg_right hphi (abs_nonneg _)
  have hx2 := fl_near h hx bx
  have hy2 := fl_near h hy by'
  have h3 := fl_add_near h (h.mem _) (h.mem _) hx2 hy2 hS
  refine h3.trans ?_
  have hT : (2 : ℝ) ^ (-1073 : ℤ) = 4 * (2 : ℝ) ^ (-1075 : ℤ) := by
    rw [show (-1073 : ℤ) = 2 + -1075 by norm_num, zpow_add₀ two_ne_zero]
    norm_num
  rw [hT]
  have hT0 : 0 < (2 : ℝ) ^ (-1075 : ℤ) := by positivity
  have hc0 := abs_nonneg (b - m)
  have hs0 := abs_nonneg s
  have hu := unit_small
  clear h3 hx2 hy2 hx hy bx by' hS h1 hP hD hP1 hD1
  generalize |b - m| = c at *
  generalize |s| = r at *
  generalize (2 : ℝ) ^ (-1075 : ℤ) = T at *
  generalize hU : (1 : ℝ) / 2 ^ 53 = u at *
  have hu0 : 0 ≤ u := by rw [← hU]; positivity
  have hu2 : u ≤ 1 / 1000 := by
    have : (1 : ℝ) / 2 ^ 40 ≤ 1 / 1000 := by norm_num
    linarith
  -- products with `u` are small
  have q1 : u * (η * c) ≤ 1 / 2 * (u * c) := by
    have := mul_le_mul_of_nonneg_right hη1 (show 0 ≤ u * c by positivity)
    linarith
  have q2 : u * (η * r) ≤ 1 / 2 * (u * r) := by
    have := mul_le_mul_of_nonneg_right hη1 (show 0 ≤ u * r by positivity)
    linarith
  have q3 : u * (u * c) ≤ 1 / 1000 * (u * c) := mul_le_mul_of_nonneg_right hu2 (by positivity)
  have q4 : u * (u * r) ≤ 1 / 1000 * (u * r) := mul_le_mul_of_nonneg_right hu2 (by positivity)
  have q5 : u * T ≤ 1 / 1000 * T := mul_le_mul_of_nonneg_right hu2 (by positivity)
  have r1 : 0 ≤ u * c := by positivity
  have r2 : 0 ≤ u * r := by positivity
  have r3 : u * (u * (η * c)) ≤ 1 / 1000 * (u * c) := by
    have := mul_le_mul_of_nonneg_left q1 hu0
    linarith
  have r4 : u * (u * (η * r)) ≤ 1 / 1000 * (u * r) := by
    have := mul_le_mul_of_nonneg_left q2 hu0
    linarith
  have r5 : u * (u * (u * c)) ≤ 1 / 1000 * (u * c) := by
    have := mul_le_mul_of_nonneg_left q3 hu0
    linarith
  have r6 : u * (u * (u * r)) ≤ 1 / 1000 * (u * r) := by
    have := mul_le_mul_of_nonneg_left q4 hu0
    linarith
  nlinarith only [q1, q2, q3, q4, q5, r1, r2, r3, r4, r5, r6, hT0]

/-! ### Upper confidence bound -/

theorem ucb_weight_error (h : Nearest fl) {η : ℝ} (hη : 0 ≤ η) (hη1 : η ≤ 1 / 2) (hlg : LogWithin η lg)
    (kappa : ℝ) {n : ℕ} (hn : n < 2 ^ 52) :
    |fl (kappa * lg (fl ((n : ℝ) + 1))) - kappa * Real.log ((n : ℝ) + 1)| ≤
      (η + 2 * (1 / 2 ^ 53)) * |kappa * Real.log ((n : ℝ) + 1)| + (2 : ℝ) ^ (-1075 : ℤ) := by
  have e : fl ((n : ℝ) + 1) = (n : ℝ) + 1 := by
    have := double_nat (show n + 1 < 2 ^ 53 by omega)
    push_cast at this
    exact fl_of_mem h this
  rw [e]
  have h1 : (1 : ℝ) ≤ (n : ℝ) + 1 := by linarith [Nat.cast_nonneg (α := ℝ) n]
  have h2 := hlg n
  have h3 := Real.log_nonneg h1
  have h4 : |kappa * lg ((n : ℝ) + 1) - kappa * Real.log ((n : ℝ) + 1)| ≤
      η * |kappa * Real.log ((n : ℝ) + 1)| := by
    rw [← mul_sub, abs_mul, abs_mul, abs_of_nonneg h3]
    have := mul_le_mul_of_nonneg_left h2 (abs_nonneg kappa)
    linarith
  have h5 := fl_near h h4 le_rfl
  refine h5.trans ?_
  have h0 := abs_nonneg (kappa * Real.log ((n : ℝ) + 1))
  generalize |kappa * Real.log ((n : ℝ) + 1)| = K at *
  generalize (2 : ℝ) ^ (-1075 : ℤ) = T at *
  generalize hU : (1 : ℝ) / 2 ^ 53 = u at *
  have hu0 : 0 ≤ u := by rw [← hU]; positivity
  have q1 : u * (η * K) ≤ 1 / 2 * (u * K) := by
    have := mul_le_mul_of_nonneg_right hη1 (show 0 ≤ u * K by positivity)
    linarith
  have q2 : 0 ≤ u * K := by positivity
  linarith

theorem ucb_error (h : Nearest fl) {η k k' m s : ℝ} (hη : 0 ≤ η) (hη1 : η ≤ 1 / 2) (hm : m ∈ Double)
    (hk : |k' - k| ≤ (η + 2 * (1 / 2 ^ 53)) * |k| + (2 : ℝ) ^ (-1075 : ℤ)) :
    |fl (-m + fl (k' * s)) - (-m + k * s)| ≤
      (η + 6 * (1 / 2 ^ 53)) * (|m| + |k * s|) + (2 : ℝ) ^ (-1074 : ℤ) * (1 + |s|) := by
  have h1 : |k' * s - k * s| ≤ (η + 2 * (1 / 2 ^ 53)) * |k * s| + (2 : ℝ) ^ (-1075 : ℤ) * |s| := by
    rw [← sub_mul, abs_mul, abs_mul]
    have := mul_le_mul_of_nonneg_right hk (abs_nonneg s)
    linarith
  have h2 := fl_near h h1 le_rfl
  have h3 := fl_add_near h (double_neg hm) (h.mem _) (e := 0) (by simp) h2 (abs_add_le (-m) (k * s))
  refine h3.trans ?_
  rw [abs_neg, tiny_twice]
  have hm0 := abs_nonneg m
  have hs0 := abs_nonneg s
  have hk0 := abs_nonneg (k * s)
  have hT0 : 0 < (2 : ℝ) ^ (-1075 : ℤ) := by positivity
  have hu := unit_small
  clear h3 h2 h1 hk
  generalize |m| = M at *
  generalize |k * s| = K at *
  generalize |s| = r at *
  generalize (2 : ℝ) ^ (-1075 : ℤ) = T at *
  generalize hU : (1 : ℝ) / 2 ^ 53 = u at *
  have hu0 : 0 ≤ u := by rw [← hU]; positivity
  have hu2 : u ≤ 1 / 1000 := by
    have : (1 : ℝ) / 2 ^ 40 ≤ 1 / 1000 := by norm_num
    linarith
  have q1 : u * (η * K) ≤ 1 / 2 * (u * K) := by
    have := mul_le_mul_of_nonneg_right hη1 (show 0 ≤ u * K by positivity)
    linarith
  have q2 : u * (u * K) ≤ 1 / 1000 * (u * K) := mul_le_mul_of_nonneg_right hu2 (by positivity)
  have q3 : u * T ≤ 1 / 1000 * T := mul_le_mul_of_nonneg_right hu2 (by positivity)
  have q4 : u * (T * r) ≤ 1 / 1000 * (T * r) := mul_le_mul_of_nonneg_right hu2 (by positivity)
  have r1 : 0 ≤ u * K := by positivity
  have r2 : 0 ≤ u * M := by positivity
  have r3 : 0 ≤ T * r := by positivity
  have r4 : u * (u * (η * K)) ≤ 1 / 1000 * (u * K) := by
    have := mul_le_mul_of_nonneg_left q1 hu0
    linarith
  have r5 : u * (u * (u * K)) ≤ 1 / 1000 * (u * K) := by
    have := mul_le_mul_of_nonneg_left q2 hu0
    linarith
  have r6 : u * (u * (T * r)) ≤ 1 / 1000 * (T * r) := by
    have := mul_le_mul_of_nonneg_left q4 hu0
    linarith
  have r7 : 0 ≤ η * M := by positivity
  nlinarith only [q1, q2, q3, q4, r1, r2, r3, r4, r5, r6, r7, hT0]

/-! ### The discount of the augmented expected improvement -/

theorem sqrt_rel {A B k : ℝ} (hA : 0 < A) (hB : 0 ≤ B) (h : |B - A| ≤ k * A) : |√B - √A| ≤ k * √A := by
  have a0 := Real.sqrt_pos.2 hA
  have b0 := Real.sqrt_nonneg B
  have e : (√B - √A) * (√B + √A) = B - A := by
    have := Real.sq_sqrt hA.le
    have := Real.sq_sqrt hB
    nlinarith
  have h1 : |√B - √A| * (√B + √A) ≤ k * √A * √A := by
    rw [← abs_of_pos (show 0 < √B + √A by linarith), ← abs_mul, e, mul_assoc, Real.mul_self_sqrt hA.le]
    exact h
  have h2 : |√B - √A| * √A ≤ k * √A * √A :=
    (mul_le_mul_of_nonneg_left (by linarith) (abs_nonneg _)).trans h1
  exact le_of_mul_le_mul_right h2 a0

theorem root_error (h : Nearest fl) {n s : ℝ} (hn : (2 : ℝ) ^ (-400 : ℤ) ≤ n) :
    0 < fl √(fl (fl (s ^ 2) + fl (n ^ 2))) ∧
      |fl √(fl (fl (s ^ 2) + fl (n ^ 2))) - √(s ^ 2 + n ^ 2)| ≤
        13 / 2 * (1 / 2 ^ 53) * √(s ^ 2 + n ^ 2) := by
  have hp : (0 : ℝ) < (2 : ℝ) ^ (-400 : ℤ) := by positivity
  have hn0 : 0 < n := hp.trans_le hn
  have hT1 : (2 : ℝ) ^ (-1075 : ℤ) ≤ 1 / 2 ^ 53 / 10 * (2 : ℝ) ^ (-800 : ℤ) := by
    have e : (2 : ℝ) ^ (-1075 : ℤ) = (2 : ℝ) ^ (-275 : ℤ) * (2 : ℝ) ^ (-800 : ℤ) := by
      rw [← zpow_add₀ two_ne_zero]
      norm_num
    rw [e]
    refine mul_le_mul_of_nonneg_right ?_ (by positivity)
    refine (zpow_le_zpow_right₀ (by norm_num) (show (-275 : ℤ) ≤ -60 by norm_num)).trans ?_
    norm_num
  have hT2 : (2 : ℝ) ^ (-1075 : ℤ) ≤ 1 / 2 ^ 53 / 10 * (2 : ℝ) ^ (-400 : ℤ) := by
    refine hT1.trans (mul_le_mul_of_nonneg_left ?_ (by positivity))
    exact zpow_le_zpow_right₀ (by norm_num) (by norm_num)
  have h800 : (2 : ℝ) ^ (-800 : ℤ) ≤ n ^ 2 := by
    have e : (2 : ℝ) ^ (-800 : ℤ) = ((2 : ℝ) ^ (-400 : ℤ)) ^ 2 := by
      rw [sq, ← zpow_add₀ two_ne_zero]
      norm_num
    rw [e]
    exact pow_le_pow_left₀ hp.le hn 2
  have a1 := fl_error h (s ^ 2)
  have a2 := fl_error h (n ^ 2)
  rw [abs_of_nonneg (sq_nonneg s)] at a1
  rw [abs_of_nonneg (sq_nonneg n)] at a2
  have hQ : 0 < s ^ 2 + n ^ 2 := by positivity
  have a3 := fl_add_near h (h.mem (s ^ 2)) (h.mem (n ^ 2)) a1 a2 (abs_of_pos hQ).le
  have hQ' : 0 ≤ fl (fl (s ^ 2) + fl (n ^ 2)) :=
    fl_nonneg h (add_nonneg (fl_nonneg h (sq_nonneg s)) (fl_nonneg h (sq_nonneg n)))
  have hu := unit_small
  have hu3 : (1 : ℝ) / 2 ^ 40 ≤ 1 / 1000 := by norm_num
  have b1 : |fl (fl (s ^ 2) + fl (n ^ 2)) - (s ^ 2 + n ^ 2)| ≤
      5 / 2 * (1 / 2 ^ 53) * (s ^ 2 + n ^ 2) := by
    refine a3.trans ?_
    have c1 : (2 : ℝ) ^ (-1075 : ℤ) ≤ 1 / 2 ^ 53 / 10 * n ^ 2 :=
      hT1.trans (mul_le_mul_of_nonneg_left h800 (by positivity))
    have c2 := sq_nonneg s
    have c3 := sq_nonneg n
    clear a1 a2 a3 hT1 hT2 h800
    generalize s ^ 2 = S at *
    generalize n ^ 2 = N at *
    generalize (2 : ℝ) ^ (-1075 : ℤ) = T at *
    generalize hU : (1 : ℝ) / 2 ^ 53 = u at *
    have hu0 : 0 ≤ u := by rw [← hU]; positivity
    have q1 : u * (u * S) ≤ 1 / 1000 * (u * S) :=
      mul_le_mul_of_nonneg_right (hu.trans hu3) (by positivity)
    have q2 : u * (u * N) ≤ 1 / 1000 * (u * N) :=
      mul_le_mul_of_nonneg_right (hu.trans hu3) (by positivity)
    have q3 : u * T ≤ u * (u / 10 * N) := mul_le_mul_of_nonneg_left c1 hu0
    have q4 : 0 ≤ u * S := by positivity
    have q5 : 0 ≤ u * N := by positivity
    nlinarith only [q1, q2, q3, q4, q5, c1]
  have b2 := sqrt_rel hQ hQ' b1
  have b3 := fl_near h b2 (abs_of_nonneg (Real.sqrt_nonneg _)).le
  have hr : n ≤ √(s ^ 2 + n ^ 2) := Real.le_sqrt_of_sq_le (by nlinarith [sq_nonneg s])
  have hT3 : (2 : ℝ) ^ (-1075 : ℤ) ≤ 1 / 2 ^ 53 / 10 * √(s ^ 2 + n ^ 2) :=
    hT2.trans (mul_le_mul_of_nonneg_left (hn.trans hr) (by positivity))
  have hr0 : 0 < √(s ^ 2 + n ^ 2) := hn0.trans_le hr
  clear b2 b1 a1 a2 a3 hT1 hT2 h800 hp hn
  generalize fl √(fl (fl (s ^ 2) + fl (n ^ 2))) = R at *
  generalize √(s ^ 2 + n ^ 2) = r at *
  generalize (2 : ℝ) ^ (-1075 : ℤ) = T at *
  generalize hU : (1 : ℝ) / 2 ^ 53 = u at *
  have hu0 : 0 ≤ u := by rw [← hU]; positivity
  have q1 : u * (u * r) ≤ 1 / 1000 * (u * r) :=
    mul_le_mul_of_nonneg_right (hu.trans hu3) (by positivity)
  have q2 : 0 ≤ u * r := by positivity
  have hfin : |R - r| ≤ 13 / 2 * u * r := by
    refine b3.trans ?_
    nlinarith only [q1, q2, hT3]
  refine ⟨?_, hfin⟩
  have q3 : u * r ≤ 1 / 1000 * r := mul_le_mul_of_nonneg_right (hu.trans hu3) hr0.le
  have := (abs_le.1 hfin).1
  nlinarith only [this, q3, hr0]

theorem discount_error (h : Nearest fl) {n s : ℝ} (hn : (2 : ℝ) ^ (-400 : ℤ) ≤ n) :
    |fl (1 - fl (n / fl √(fl (fl (s ^ 2) + fl (n ^ 2))))) - (1 - n / √(s ^ 2 + n ^ 2))| ≤
      10 * (1 / 2 ^ 53) := by
  have hp : (0 : ℝ) < (2 : ℝ) ^ (-400 : ℤ) := by positivity
  have hn0 : 0 < n := hp.trans_le hn
  obtain ⟨hR, hRr⟩ := root_error h (s := s) hn
  have hr : n ≤ √(s ^ 2 + n ^ 2) := Real.le_sqrt_of_sq_le (by nlinarith [sq_nonneg s])
  have hr0 : 0 < √(s ^ 2 + n ^ 2) := hn0.trans_le hr
  generalize fl √(fl (fl (s ^ 2) + fl (n ^ 2))) = R at *
  generalize √(s ^ 2 + n ^ 2) = r at *
  have hu := unit_small
  have hu3 : (1 : ℝ) / 2 ^ 40 ≤ 1 / 100000 := by norm_num
  have hT := tiny_below_unit
  have hq : |n / r| ≤ 1 := by
    rw [abs_of_pos (by positivity), div_le_one hr0]
    exact hr
  have h1 : |n / R - n / r| ≤ 7 * (1 / 2 ^ 53) := by
    have e : n / R - n / r = n / r * ((r - R) / R) := by
      field_simp
    rw [e, abs_mul, abs_div (r - R), abs_of_pos hR]
    have h2 : |r - R| / R ≤ 7 * (1 / 2 ^ 53) := by
      rw [div_le_iff₀ hR, abs_sub_comm]
      refine hRr.trans ?_
      have h3 := (abs_le.1 hRr).1
      generalize hU : (1 : ℝ) / 2 ^ 53 = u at *
      have hu0 : 0 ≤ u := by rw [← hU]; positivity
      have q1 : u * (u * r) ≤ 1 / 100000 * (u * r) :=
        mul_le_mul_of_nonneg_right (hu.trans hu3) (by positivity)
      have q2 : 0 ≤ u * r := by positivity
      have q3 := mul_le_mul_of_nonneg_left h3 hu0
      nlinarith only [q1, q2, q3]
    calc |n / r| * (|r - R| / R) ≤ 1 * (7 * (1 / 2 ^ 53)) :=
          mul_le_mul hq h2 (by positivity) zero_le_one
      _ = _ := one_mul _
  have h2 := fl_near h h1 hq
  have one : (1 : ℝ) ∈ Double := by simpa using double_nat (show 1 < 2 ^ 53 by norm_num)
  have h3 : |-fl (n / R) - -(n / r)| ≤
      7 * (1 / 2 ^ 53) + 1 / 2 ^ 53 * (1 + 7 * (1 / 2 ^ 53)) + (2 : ℝ) ^ (-1075 : ℤ) := by
    rw [neg_sub_neg, abs_sub_comm]
    exact h2
  have h4 := fl_add_near h one (double_neg (h.mem (n / R))) (x := 1) (e := 0) (by simp) h3
    (X := 1) ?_
  · rw [← sub_eq_add_neg, ← sub_eq_add_neg] at h4
    refine h4.trans ?_
    generalize (2 : ℝ) ^ (-1075 : ℤ) = T at *
    generalize hU : (1 : ℝ) / 2 ^ 53 = u at *
    have hu0 : 0 ≤ u := by rw [← hU]; positivity
    have hT' : T ≤ u / 10 := by
      refine hT.trans ?_
      have : u / 2 ^ 100 = u * (1 / 2 ^ 100) := by ring
      rw [this]
      have : (1 : ℝ) / 2 ^ 100 ≤ 1 / 10 := by norm_num
      nlinarith
    have q1 : u * u ≤ 1 / 100000 * u := mul_le_mul_of_nonneg_right (hu.trans hu3) hu0
    have q2 : u * (u * u) ≤ 1 / 100000 * u := by
      have := mul_le_mul_of_nonneg_left q1 hu0
      nlinarith
    have q3 : u * T ≤ u * (u / 10) := mul_le_mul_of_nonneg_left hT' hu0
    nlinarith only [q1, q2, q3, hT', hu0]
  · rw [← sub_eq_add_neg, abs_le]
    rw [abs_of_pos (by positivity)] at hq
    have : 0 < n / r := by positivity
    constructor <;> linarith

theorem discount_le {n s : ℝ} (hn : 0 < n) : |1 - n / √(s ^ 2 + n ^ 2)| ≤ 1 := by
  have hr : n ≤ √(s ^ 2 + n ^ 2) := Real.le_sqrt_of_sq_le (by nlinarith [sq_nonneg s])
  have hr0 : 0 < √(s ^ 2 + n ^ 2) := hn.trans_le hr
  have h1 : n / √(s ^ 2 + n ^ 2) ≤ 1 := (div_le_one hr0).2 hr
  have h2 : 0 < n / √(s ^ 2 + n ^ 2) := by positivity
  rw [abs_le]
  constructor <;> linarith

theorem aei_error (h : Nearest fl) {η v v' g g' S : ℝ} (hη : 0 ≤ η) (hη1 : η ≤ 1 / 2) (hS : 0 ≤ S)
    (hv : |v' - v| ≤ (η + 8 * (1 / 2 ^ 53)) * S + (2 : ℝ) ^ (-1073 : ℤ)) (hvS : |v| ≤ S)
    (hg : |g' - g| ≤ 10 * (1 / 2 ^ 53)) (hg1 : |g| ≤ 1) :
    |fl (v' * g') - v * g| ≤ (η + 32 * (1 / 2 ^ 53)) * S + (2 : ℝ) ^ (-1072 : ℤ) := by
  have e : v' * g' - v * g = (v' - v) * (g' - g) + (v' - v) * g + v * (g' - g) := by ring
  have hE : 0 ≤ (η + 8 * (1 / 2 ^ 53)) * S + (2 : ℝ) ^ (-1073 : ℤ) := (abs_nonneg _).trans hv
  have h1 : |v' * g' - v * g| ≤ ((η + 8 * (1 / 2 ^ 53)) * S + (2 : ℝ) ^ (-1073 : ℤ)) * (10 * (1 / 2 ^ 53)) +
      ((η + 8 * (1 / 2 ^ 53)) * S + (2 : ℝ) ^ (-1073 : ℤ)) * 1 + S * (10 * (1 / 2 ^ 53)) := by
    rw [e]
    refine (abs_add_le _ _).trans (add_le_add ((abs_add_le _ _).trans (add_le_add ?_ ?_)) ?_)
    · rw [abs_mul]
      exact mul_le_mul hv hg (abs_nonneg _) hE
    · rw [abs_mul]
      exact mul_le_mul hv hg1 (abs_nonneg _) hE
    · rw [abs_mul]
      exact mul_le_mul hvS hg (abs_nonneg _) hS
  have hvg : |v * g| ≤ S := by
    rw [abs_mul]
    have := mul_le_mul hvS hg1 (abs_nonneg _) hS
    linarith
  have h2 := fl_near h h1 hvg
  refine h2.trans ?_
  have hT : (2 : ℝ) ^ (-1073 : ℤ) = 4 * (2 : ℝ) ^ (-1075 : ℤ) := by
    rw [show (-1073 : ℤ) = 2 + -1075 by norm_num, zpow_add₀ two_ne_zero]
    norm_num
  have hT' : (2 : ℝ) ^ (-1072 : ℤ) = 8 * (2 : ℝ) ^ (-1075 : ℤ) := by
    rw [show (-1072 : ℤ) = 3 + -1075 by norm_num, zpow_add₀ two_ne_zero]
    norm_num
  rw [hT, hT']
  have hT0 : 0 < (2 : ℝ) ^ (-1075 : ℤ) := by positivity
  have hu := unit_small
  have hu3 : (1 : ℝ) / 2 ^ 40 ≤ 1 / 100000 := by norm_num
  clear h2 h1 hE hv hg hT hT' hvg hvS hg1 e
  generalize (2 : ℝ) ^ (-1075 : ℤ) = T at *
  generalize hU : (1 : ℝ) / 2 ^ 53 = u at *
  have hu0 : 0 ≤ u := by rw [← hU]; positivity
  have hu2 := hu.trans hu3
  have q0 : 0 ≤ u * S := by positivity
  have q1 : u * (η * S) ≤ 1 / 2 * (u * S) := by
    have := mul_le_mul_of_nonneg_right hη1 q0
    linarith
  have q2 : u * (u * S) ≤ 1 / 100000 * (u * S) := mul_le_mul_of_nonneg_right hu2 q0
  have q3 : u * T ≤ 1 / 100000 * T := mul_le_mul_of_nonneg_right hu2 hT0.le
  have r1 : u * (u * (η * S)) ≤ 1 / 100000 * (u * S) := by
    have := mul_le_mul_of_nonneg_left q1 hu0
    linarith
  have r2 : u * (u * (u * S)) ≤ 1 / 100000 * (u * S) := by
    have := mul_le_mul_of_nonneg_left q2 hu0
    linarith
  have r3 : u * (u * T) ≤ 1 / 100000 * T := by
    have := mul_le_mul_of_nonneg_left q3 hu0
    linarith
  nlinarith only [q0, q1, q2, q3, r1, r2, r3, hT0]

/-! ### Errors of the predictions -/

theorem ei_slope_mean {b s j : ℝ} (hs : 0 ≤ s) (hj : 0 ≤ j) (hsj : 0 < s + j) (m m' : ℝ) :
    |((b - m') * normCdf ((b - m') / (s + j)) + s * normPdf ((b - m') / (s + j))) -
      ((b - m) * normCdf ((b - m) / (s + j)) + s * normPdf ((b - m) / (s + j)))| ≤
        3 / 2 * |m' - m| := by
  have hd : ∀ m : ℝ, HasDerivAt
      (fun m => (b - m) * normCdf ((b - m) / (s + j)) + s * normPdf ((b - m) / (s + j)))
      (-normCdf ((b - m) / (s + j)) -
        (b - m) / (s + j) * normPdf ((b - m) / (s + j)) * (j / (s + j))) m := by
    intro m
    have h0 : HasDerivAt (fun m => b - m) (-1) m := by
      simpa using (hasDerivAt_id m).const_sub b
    have h1 : HasDerivAt (fun m => (b - m) / (s + j)) (-1 / (s + j)) m := h0.div_const _
    have h2 := (hasDerivAt_normCdf ((b - m) / (s + j))).comp m h1
    have h3 := (hasDerivAt_normPdf ((b - m) / (s + j))).comp m h1
    have h4 := (h0.mul h2).add (h3.const_mul s)
    refine h4.congr_deriv ?_
    simp only [Function.comp]
    field_simp
    ring
  have := Convex.norm_image_sub_le_of_norm_hasDerivWithin_le (s := Set.univ) (C := 3 / 2)
    (fun x _ => (hd x).hasDerivWithinAt) (fun x _ => ?_) convex_univ (Set.mem_univ m) (Set.mem_univ m')
  · simpa using this
  · have hf : j / (s + j) ≤ 1 := (div_le_one hsj).2 (by linarith)
    have hf0 : 0 ≤ j / (s + j) := by positivity
    generalize (b - x) / (s + j) = z
    rw [Real.norm_eq_abs]
    have h1 : |z * normPdf z * (j / (s + j))| ≤ 2 / 5 := by
      rw [abs_mul, abs_mul, abs_of_pos (normPdf_pos z), abs_of_nonneg hf0]
      have := abs_mul_normPdf_le z
      have h0 : 0 ≤ |z| * normPdf z := mul_nonneg (abs_nonneg _) (normPdf_pos z).le
      nlinarith
    have h2 : |-normCdf z| ≤ 1 := by
      rw [abs_neg, abs_of_nonneg (normCdf_nonneg z)]
      exact normCdf_le_one z
    have := abs_sub (-normCdf z) (z * normPdf z * (j / (s + j)))
    linarith

theorem ei_slope_std {c j s s' : ℝ} (hj : 0 ≤ j) (hs : 0 ≤ s) (hs' : 0 ≤ s') (hsj : 0 < s + j)
    (hsj' : 0 < s' + j) :
    |(c * normCdf (c / (s' + j)) + s' * normPdf (c / (s' + j))) -
      (c * normCdf (c / (s + j)) + s * normPdf (c / (s + j)))| ≤ |s' - s| := by
  have hd : ∀ s : ℝ, 0 < s + j → HasDerivAt
      (fun s => c * normCdf (c / (s + j)) + s * normPdf (c / (s + j)))
      (normPdf (c / (s + j)) * (1 - (c / (s + j)) ^ 2 * (j / (s + j)))) s := by
    intro s hsj
    have h0 : HasDerivAt (fun s => s + j) 1 s := by
      simpa using (hasDerivAt_id s).add_const j
    have h1 : HasDerivAt (fun s => c / (s + j)) ((0 * (s + j) - c * 1) / (s + j) ^ 2) s :=
      (hasDerivAt_const s c).div h0 hsj.ne'
    have h2 := (hasDerivAt_normCdf (c / (s + j))).comp s h1
    have h3 := (hasDerivAt_normPdf (c / (s + j))).comp s h1
    have h4 := (h2.const_mul c).add ((hasDerivAt_id s).mul h3)
    refine h4.congr_deriv ?_
    simp only [Function.comp, id_eq]
    field_simp
    ring
  have := Convex.norm_image_sub_le_of_norm_hasDerivWithin_le (s := {x : ℝ | 0 ≤ x ∧ 0 < x + j})
    (C := 1) (fun x hx => (hd x hx.2).hasDerivWithinAt) (fun x hx => ?_) ?_
    (x := s) (y := s') ⟨hs, hsj⟩ ⟨hs', hsj'⟩
  · simpa using this
  · have hf : j / (x + j) ≤ 1 := (div_le_one hx.2).2 (by linarith [hx.1])
    have hf0 : 0 ≤ j / (x + j) := div_nonneg hj hx.2.le
    generalize c / (x + j) = z
    rw [Real.norm_eq_abs]
    have p := normPdf_pos z
    have h1 := normPdf_le z
    have h2 := sq_mul_normPdf_le z
    have h3 : 0 ≤ z ^ 2 * normPdf z := by positivity
    have h4 : 0 ≤ z ^ 2 * normPdf z * (j / (x + j)) := by positivity
    have h5 : z ^ 2 * normPdf z * (j / (x + j)) ≤ 2 / 5 := by nlinarith
    rw [abs_le]
    constructor <;> nlinarith
  · intro x hx y hy a b ha hb hab
    refine ⟨add_nonneg (mul_nonneg ha hx.1) (mul_nonneg hb hy.1), ?_⟩
    have e : a • x + b • y + j = a * (x + j) + b * (y + j) := by
      simp only [smul_eq_mul]
      linear_combination -j * hab
    rw [e]
    rcases ha.lt_or_eq with h | h
    · exact add_pos_of_pos_of_nonneg (mul_pos h hx.2) (mul_nonneg hb hy.2.le)
    · have : b = 1 := by linarith
      rw [this, ← h]
      have := hy.2
      linarith

/-! ### Without rounding, and libraries that round correctly -/

theorem roundedPi_id (ms ss Y : List ℝ) (j : ℝ) :
    RoundedAcquisition.pi id normCdf ms ss Y j = Acquisition.pi ms ss Y j := rfl

theorem roundedEi_id (ms ss Y : List ℝ) (j : ℝ) :
    RoundedAcquisition.ei id normCdf normPdf ms ss Y j = Acquisition.ei ms ss Y j := rfl

theorem roundedUcb_id (ms ss : List ℝ) (Y : Option (List ℝ)) (k : ℝ) (inc : Bool) :
    RoundedAcquisition.ucb id Real.log ms ss Y k inc = Acquisition.ucb ms ss Y k inc := rfl

theorem roundedAei_id (ms ss Y : List ℝ) (noise j : ℝ) :
    RoundedAcquisition.aei id normCdf normPdf ms ss Y noise j = Acquisition.aei ms ss Y noise j := rfl

theorem cdfWithin_round (h : Nearest fl) : CdfWithin (1 / 2 ^ 52) fun x => fl (normCdf x) where
  nonneg x := fl_nonneg h (normCdf_nonneg x)
  le_one x := fl_le_of_le h (by simpa using double_nat (show 1 < 2 ^ 53 by norm_num)) (normCdf_le_one x)
  near x := by
    have h1 := fl_error h (normCdf x)
    rw [abs_of_nonneg (normCdf_nonneg x)] at h1
    have h2 := tiny_below_unit
    have h3 := normCdf_le_one x
    generalize (2 : ℝ) ^ (-1075 : ℤ) = T at *
    refine h1.trans ?_
    linarith

theorem pdfWithin_round (h : Nearest fl) : PdfWithin (1 / 2 ^ 52) fun x => fl (normPdf x) := by
  intro x
  have h1 := fl_error h (normPdf x)
  rw [abs_of_pos (normPdf_pos x)] at h1
  have h2 := tiny_below_unit
  have h3 := normPdf_le x
  generalize (2 : ℝ) ^ (-1075 : ℤ) = T at *
  refine h1.trans ?_
  linarith

theorem logWithin_round (h : Nearest fl) : LogWithin (1 / 2 ^ 52) fun x => fl (Real.log x) := by
  intro n
  rcases Nat.eq_zero_or_pos n with rfl | hn
  · simp [fl_zero h]
  have h1 := fl_error h (Real.log ((n : ℝ) + 1))
  have h4 : Real.log 2 ≤ Real.log ((n : ℝ) + 1) := by
    apply Real.log_le_log (by norm_num)
    have : (1 : ℝ) ≤ n := by exact_mod_cast hn
    linarith
  have h5 : (1 / 2 : ℝ) ≤ Real.log 2 := by
    have := Real.one_sub_inv_le_log_of_pos (show (0 : ℝ) < 2 by norm_num)
    linarith
  rw [abs_of_nonneg (show 0 ≤ Real.log ((n : ℝ) + 1) by linarith)] at h1
  have h2 := tiny_below_unit
  generalize (2 : ℝ) ^ (-1075 : ℤ) = T at *
  beta_reduce
  refine h1.trans ?_
  linarith

end Verif.Lemmas
