import Mathlib.Analysis.SpecialFunctions.Gaussian.GaussianIntegral
import Mathlib.MeasureTheory.Integral.IntegralEqImproper
import Mathlib.Analysis.SpecialFunctions.Pow.Asymptotics

/-! The Matern 3/2 and 5/2 profiles as mixtures of Gaussians. -/

namespace Verif.Lemmas

open MeasureTheory Filter Topology

/-- The fundamental theorem on `(0, ∞)` for a function with limits at both ends. -/
theorem ioi_ftc {f f' : ℝ → ℝ} {L0 L1 : ℝ} (hd : ∀ x ∈ Set.Ioi (0 : ℝ), HasDerivAt f (f' x) x)
    (hp : ∀ x ∈ Set.Ioi (0 : ℝ), 0 ≤ f' x) (h0 : Tendsto f (𝓝[>] 0) (𝓝 L0))
    (h1 : Tendsto f atTop (𝓝 L1)) :
    IntegrableOn f' (Set.Ioi 0) ∧ ∫ x in Set.Ioi (0 : ℝ), f' x = L1 - L0 := by
  let g : ℝ → ℝ := fun x => if x ≤ 0 then L0 else f x
  have hg0 : g 0 = L0 := by simp [g]
  have hgf : ∀ x ∈ Set.Ioi (0 : ℝ), g x = f x := fun x hx => by
    simp [g, not_le.mpr (Set.mem_Ioi.mp hx)]
  have hc : ContinuousWithinAt g (Set.Ici 0) 0 := by
    rw [← continuousWithinAt_Ioi_iff_Ici]
    unfold ContinuousWithinAt
    rw [hg0]
    refine h0.congr' ?_
    filter_upwards [self_mem_nhdsWithin] with x hx
    exact (hgf x hx).symm
  have hgd : ∀ x ∈ Set.Ioi (0 : ℝ), HasDerivAt g (f' x) x := fun x hx => by
    refine (hd x hx).congr_of_eventuallyEq ?_
    filter_upwards [Ioi_mem_nhds (Set.mem_Ioi.mp hx)] with y hy
    exact hgf y hy
  have hg1 : Tendsto g atTop (𝓝 L1) := by
    refine h1.congr' ?_
    filter_upwards [Ioi_mem_atTop (0 : ℝ)] with x hx
    exact (hgf x hx).symm
  have := integral_Ioi_of_hasDerivAt_of_nonneg hc hgd hp hg1
  rw [hg0] at this
  exact ⟨integrableOn_Ioi_deriv_of_nonneg hc hgd hp hg1, this⟩

/-- `∫₀ˣ exp(-t²) dt`. -/
noncomputable def gaussE (x : ℝ) : ℝ := ∫ t in (0 : ℝ)..x, Real.exp (-t ^ 2)

theorem gaussE_deriv (x : ℝ) : HasDerivAt gaussE (Real.exp (-x ^ 2)) x := by
  have hc : Continuous fun t : ℝ => Real.exp (-t ^ 2) := by fun_prop
  exact (hc.integral_hasStrictDerivAt 0 x).hasDerivAt

theorem gaussE_neg (x : ℝ) : gaussE (-x) = -gaussE x := by
  unfold gaussE
  have h := intervalIntegral.integral_comp_neg (a := 0) (b := x)
    (fun t : ℝ => Real.exp (-t ^ 2))
  simp only [neg_sq, neg_zero] at h
  rw [h, intervalIntegral.integral_symm]

theorem gaussE_top : Tendsto gaussE atTop (𝓝 (√Real.pi / 2)) := by
  have hi : IntegrableOn (fun t : ℝ => Real.exp (-t ^ 2)) (Set.Ioi 0) := by
    have := (integrable_exp_neg_mul_sq (b := 1) one_pos).integrableOn (s := Set.Ioi 0)
    simpa using this
  have := intervalIntegral_tendsto_integral_Ioi (0 : ℝ) hi tendsto_id
  have e := integral_gaussian_Ioi 1
  simp only [neg_mul, one_mul, div_one] at e
  rw [e] at this
  exact this

theorem gaussE_bot : Tendsto gaussE atBot (𝓝 (-(√Real.pi / 2))) := by
  have := (gaussE_top.comp tendsto_neg_atBot_atTop).neg
  refine this.congr fun x => ?_
  simp [gaussE_neg]

section

variable (a : ℝ)

/-- The mixture integrand without the power. -/
noncomputable def mixG (u : ℝ) : ℝ := Real.exp (-u ^ 2) * Real.exp (-(a / u) ^ 2)

noncomputable def mixP (u : ℝ) : ℝ := Real.exp (2 * a) * gaussE (u + a / u)

noncomputable def mixQ (u : ℝ) : ℝ := Real.exp (-(2 * a)) * gaussE (u - a / u)

theorem div_deriv {u : ℝ} (hu : u ≠ 0) : HasDerivAt (fun u => a / u) (-(a / u ^ 2)) u := by
  have := (hasDerivAt_inv hu).const_mul a
  simpa [div_eq_mul_inv] using this

theorem mixG_deriv {u : ℝ} (hu : u ≠ 0) :
    HasDerivAt (mixG a) (mixG a u * (-2 * u + 2 * a ^ 2 / u ^ 3)) u := by
  have h1 : HasDerivAt (fun u : ℝ => Real.exp (-u ^ 2)) (Real.exp (-u ^ 2) * (-(2 * u))) u := by
    have := ((hasDerivAt_pow 2 u).neg).exp
    simpa using this
  have h2 : HasDerivAt (fun u : ℝ => Real.exp (-(a / u) ^ 2))
      (Real.exp (-(a / u) ^ 2) * (-(2 * (a / u) * -(a / u ^ 2)))) u := by
    have := (((div_deriv a hu).pow 2).neg).exp
    simpa using this
  refine (h1.mul h2).congr_deriv ?_
  unfold mixG
  field_simp

theorem mixP_deriv {u : ℝ} (hu : u ≠ 0) :
    HasDerivAt (mixP a) (mixG a u * (1 - a / u ^ 2)) u := by
  have h := ((gaussE_deriv (u + a / u)).comp u ((hasDerivAt_id u).add (div_deriv a hu))).const_mul
    (Real.exp (2 * a))
  refine h.congr_deriv ?_
  unfold mixG
  rw [← mul_assoc, ← Real.exp_add, ← Real.exp_add]
  have : 2 * a + -(u + a / u) ^ 2 = -u ^ 2 + -(a / u) ^ 2 := by field_simp; ring
  rw [this]; ring

theorem mixQ_deriv {u : ℝ} (hu : u ≠ 0) :
    HasDerivAt (mixQ a) (mixG a u * (1 + a / u ^ 2)) u := by
  have h := ((gaussE_deriv (u - a / u)).comp u ((hasDerivAt_id u).sub (div_deriv a hu))).const_mul
    (Real.exp (-(2 * a)))
  refine h.congr_deriv ?_
  unfold mixG
  rw [← mul_assoc, ← Real.exp_add, ← Real.exp_add]
  have : -(2 * a) + -(u - a / u) ^ 2 = -u ^ 2 + -(a / u) ^ 2 := by field_simp; ring
  rw [this]; ring

theorem mixG_pos (u : ℝ) : 0 < mixG a u := by unfold mixG; positivity

theorem mixG_le (u : ℝ) : mixG a u ≤ Real.exp (-u ^ 2) := by
  unfold mixG
  have : Real.exp (-(a / u) ^ 2) ≤ 1 := Real.exp_le_one_iff.mpr (by nlinarith [sq_nonneg (a / u)])
  nlinarith [Real.exp_pos (-u ^ 2)]

theorem mixG_le_one (u : ℝ) : mixG a u ≤ 1 :=
  (mixG_le a u).trans (Real.exp_le_one_iff.mpr (by nlinarith [sq_nonneg u]))

/-- `u ^ k * mixG` vanishes at infinity. -/
theorem pow_mixG_top (k : ℕ) : Tendsto (fun u => u ^ k * mixG a u) atTop (𝓝 0) := by
  have h1 : Tendsto (fun u : ℝ => u ^ k * Real.exp (-u)) atTop (𝓝 0) :=
    Real.tendsto_pow_mul_exp_neg_atTop_nhds_zero k
  refine squeeze_zero' ?_ ?_ h1
  · filter_upwards [Ioi_mem_atTop (0 : ℝ)] with u hu
    have := mixG_pos a u
    have hu : 0 < u := hu
    positivity
  · filter_upwards [Ici_mem_atTop (1 : ℝ)] with u hu
    have hu : 1 ≤ u := hu
    have h2 : mixG a u ≤ Real.exp (-u) :=
      (mixG_le a u).trans (Real.exp_le_exp.mpr (by nlinarith))
    exact mul_le_mul_of_nonneg_left h2 (by positivity)

/-- `u ^ (k+1) * mixG` vanishes at zero. -/
theorem pow_mixG_zero (k : ℕ) : Tendsto (fun u => u ^ (k + 1) * mixG a u) (𝓝[>] 0) (𝓝 0) := by
  have h1 : Tendsto (fun u : ℝ => u ^ (k + 1)) (𝓝[>] 0) (𝓝 0) := by
    have : Tendsto (fun u : ℝ => u ^ (k + 1)) (𝓝 0) (𝓝 (0 ^ (k + 1))) :=
      (continuous_pow (k + 1)).tendsto 0
    simp only [ne_eq, Nat.add_eq_zero_iff, one_ne_zero, and_false, not_false_eq_true,
      zero_pow] at this
    exact this.mono_left nhdsWithin_le_nhds
  refine squeeze_zero' ?_ ?_ h1
  · filter_upwards [self_mem_nhdsWithin] with u hu
    have := mixG_pos a u
    have hu : 0 < u := hu
    positivity
  · filter_upwards [self_mem_nhdsWithin] with u hu
    have hu : 0 < u := hu
    exact mul_le_of_le_one_right (by positivity) (mixG_le_one a u)

theorem div_top : Tendsto (fun u => a / u) atTop (𝓝 0) := tendsto_const_nhds.div_atTop tendsto_id

theorem mixP_top : Tendsto (mixP a) atTop (𝓝 (Real.exp (2 * a) * (√Real.pi / 2))) := by
  have : Tendsto (fun u => u + a / u) atTop atTop := tendsto_id.atTop_add (div_top a)
  exact (gaussE_top.comp this).const_mul _

theorem mixQ_top : Tendsto (mixQ a) atTop (𝓝 (Real.exp (-(2 * a)) * (√Real.pi / 2))) := by
  have : Tendsto (fun u => u - a / u) atTop atTop := by
    have := tendsto_id.atTop_add (div_top a).neg
    simpa [sub_eq_add_neg] using this
  exact (gaussE_top.comp this).const_mul _

variable {a}

theorem div_zero_top (ha : 0 < a) : Tendsto (fun u => a / u) (𝓝[>] 0) atTop := by
  have := tendsto_inv_nhdsGT_zero (𝕜 := ℝ)
  simpa [div_eq_mul_inv] using this.const_mul_atTop ha

theorem mixP_zero (ha : 0 < a) :
    Tendsto (mixP a) (𝓝[>] 0) (𝓝 (Real.exp (2 * a) * (√Real.pi / 2))) := by
  have h0 : Tendsto (fun u : ℝ => u) (𝓝[>] 0) (𝓝 0) := nhdsWithin_le_nhds
  have : Tendsto (fun u => u + a / u) (𝓝[>] 0) atTop := h0.add_atTop (div_zero_top ha)
  exact (gaussE_top.comp this).const_mul _

theorem mixQ_zero (ha : 0 < a) :
    Tendsto (mixQ a) (𝓝[>] 0) (𝓝 (-(Real.exp (-(2 * a)) * (√Real.pi / 2)))) := by
  have h0 : Tendsto (fun u : ℝ => u) (𝓝[>] 0) (𝓝 0) := nhdsWithin_le_nhds
  have : Tendsto (fun u => u - a / u) (𝓝[>] 0) atBot := by
    have := h0.add_atBot (tendsto_neg_atTop_atBot.comp (div_zero_top ha))
    simpa [sub_eq_add_neg, Function.comp_def] using this
  have := (gaussE_bot.comp this).const_mul (Real.exp (-(2 * a)))
  rw [mul_neg] at this
  exact this

theorem gaussE_zero : Tendsto gaussE (𝓝[>] 0) (𝓝 0) := by
  have := (gaussE_deriv 0).continuousAt.tendsto
  have e : gaussE 0 = 0 := by simp [gaussE]
  rw [e] at this
  exact this.mono_left nhdsWithin_le_nhds

theorem mixP_zero' : Tendsto (mixP 0) (𝓝[>] 0) (𝓝 0) := by
  have e : mixP 0 = gaussE := by ext u; simp [mixP]
  rw [e]; exact gaussE_zero

theorem mixQ_zero' : Tendsto (mixQ 0) (𝓝[>] 0) (𝓝 0) := by
  have e : mixQ 0 = gaussE := by ext u; simp [mixQ]
  rw [e]; exact gaussE_zero

variable (a)

noncomputable def mix1 (u : ℝ) : ℝ :=
  ((mixP a u + mixQ a u) / 2 + a * (mixQ a u - mixP a u) - u ^ 1 * mixG a u) / 2

noncomputable def mix2 (u : ℝ) : ℝ :=
  (3 * mix1 a u + a ^ 2 * (mixP a u + mixQ a u) - u ^ 3 * mixG a u) / 2

theorem mix1_deriv {u : ℝ} (hu : u ≠ 0) : HasDerivAt (mix1 a) (u ^ 2 * mixG a u) u := by
  have hP := mixP_deriv a hu
  have hQ := mixQ_deriv a hu
  have hG := mixG_deriv a hu
  have := ((((hP.add hQ).div_const 2).add ((hQ.sub hP).const_mul a)).sub
    ((hasDerivAt_pow 1 u).mul hG)).div_const 2
  refine this.congr_deriv ?_
  field_simp
  ring

theorem mix2_deriv {u : ℝ} (hu : u ≠ 0) : HasDerivAt (mix2 a) (u ^ 4 * mixG a u) u := by
  have hP := mixP_deriv a hu
  have hQ := mixQ_deriv a hu
  have hG := mixG_deriv a hu
  have := ((((mix1_deriv a hu).const_mul 3).add ((hP.add hQ).const_mul (a ^ 2))).sub
    ((hasDerivAt_pow 3 u).mul hG)).div_const 2
  refine this.congr_deriv ?_
  field_simp
  ring

variable {a}

/-- Limits of `mix1` and `mix2` from limits of their parts. -/
theorem mix_lim {l : Filter ℝ} {p q : ℝ} (hp : Tendsto (mixP a) l (𝓝 p))
    (hq : Tendsto (mixQ a) l (𝓝 q)) (h1 : Tendsto (fun u => u ^ 1 * mixG a u) l (𝓝 0))
    (h3 : Tendsto (fun u => u ^ 3 * mixG a u) l (𝓝 0)) :
    Tendsto (mix1 a) l (𝓝 (((p + q) / 2 + a * (q - p) - 0) / 2)) ∧
    Tendsto (mix2 a) l
      (𝓝 ((3 * (((p + q) / 2 + a * (q - p) - 0) / 2) + a ^ 2 * (p + q) - 0) / 2)) := by
  have hm1 : Tendsto (mix1 a) l (𝓝 (((p + q) / 2 + a * (q - p) - 0) / 2)) :=
    ((((hp.add hq).div_const 2).add ((hq.sub hp).const_mul a)).sub h1).div_const 2
  exact ⟨hm1, (((hm1.const_mul 3).add ((hp.add hq).const_mul (a ^ 2))).sub h3).div_const 2⟩

/-- `(1 + ρ) exp(-ρ)` and `(1 + ρ + ρ²/3) exp(-ρ)`, with `ρ = 2 a`, are mixtures of
`exp(-(a/u)²)` over `u > 0`. -/
theorem matern_mix (ha : 0 ≤ a) :
    (IntegrableOn (fun u => u ^ 2 * mixG a u) (Set.Ioi 0) ∧
      ∫ u in Set.Ioi (0 : ℝ), u ^ 2 * mixG a u =
        √Real.pi / 4 * ((1 + 2 * a) * Real.exp (-(2 * a)))) ∧
    (IntegrableOn (fun u => u ^ 4 * mixG a u) (Set.Ioi 0) ∧
      ∫ u in Set.Ioi (0 : ℝ), u ^ 4 * mixG a u =
        3 * √Real.pi / 8 * ((1 + 2 * a + (2 * a) ^ 2 / 3) * Real.exp (-(2 * a)))) := by
  have hd1 : ∀ u ∈ Set.Ioi (0 : ℝ), HasDerivAt (mix1 a) (u ^ 2 * mixG a u) u :=
    fun u hu => mix1_deriv a (ne_of_gt hu)
  have hd2 : ∀ u ∈ Set.Ioi (0 : ℝ), HasDerivAt (mix2 a) (u ^ 4 * mixG a u) u :=
    fun u hu => mix2_deriv a (ne_of_gt hu)
  have hp : ∀ k : ℕ, ∀ u ∈ Set.Ioi (0 : ℝ), 0 ≤ u ^ k * mixG a u := fun k u hu => by
    have := mixG_pos a u
    have hu : 0 < u := hu
    positivity
  have ht := mix_lim (mixP_top a) (mixQ_top a) (pow_mixG_top a 1) (pow_mixG_top a 3)
  rcases ha.eq_or_lt with rfl | ha
  · have hz := mix_lim mixP_zero' mixQ_zero' (pow_mixG_zero 0 0) (pow_mixG_zero 0 2)
    have r1 := ioi_ftc hd1 (hp 2) hz.1 ht.1
    have r2 := ioi_ftc hd2 (hp 4) hz.2 ht.2
    refine ⟨⟨r1.1, r1.2.trans ?_⟩, ⟨r2.1, r2.2.trans ?_⟩⟩
    · simp; ring
    · simp; ring
  · have hz := mix_lim (mixP_zero ha) (mixQ_zero ha) (pow_mixG_zero a 0) (pow_mixG_zero a 2)
    have r1 := ioi_ftc hd1 (hp 2) hz.1 ht.1
    have r2 := ioi_ftc hd2 (hp 4) hz.2 ht.2
    refine ⟨⟨r1.1, r1.2.trans ?_⟩, ⟨r2.1, r2.2.trans ?_⟩⟩
    · ring
    · ring

end

end Verif.Lemmas
