import Verif.Lemmas.RoundedTpLikelihood

/-! # Sizes of the terms of the Student-t likelihood (lemmas for C162) -/

namespace Verif.Lemmas

open Verif.Spec Verif.Covariance Verif.UtilsCovariance Verif.Rounded Verif.RoundedPredict Verif.Constants Matrix

variable {n d : ℕ}

/-- The misfit is at most the squared length of the residuals over the noise. -/
theorem misfit_le_noise (base : String) (σ s : ℝ) (l : Fin d → ℝ) (X : Inputs n d) (y : Fin n → ℝ) :
    misfit (noisyGram base σ s l X) y ≤ y ⬝ᵥ y / (σ ^ 2 + 1 / 100000) := by
  have hτ : (0 : ℝ) < σ ^ 2 + 1 / 100000 := by positivity
  have h1 := (le_abs_self _).trans (cauchy y ((noisyGram base σ s l X)⁻¹ *ᵥ y))
  have h2 := length_inv_le hτ (noisyGram_posDef base σ s l X) (noisyGram_form base σ s l X) y
  refine h1.trans ((mul_le_mul_of_nonneg_left h2 (Real.sqrt_nonneg _)).trans_eq ?_)
  rw [← mul_div_assoc, Real.mul_self_sqrt (dot_self_nonneg y)]

/-- The size of the logarithm of the determinant. -/
theorem log_det_size (base : String) (σ s : ℝ) (l : Fin d → ℝ) (X : Inputs n d) {τ : ℝ} (hτ0 : 0 < τ)
    (hτ1 : τ ≤ 1) (hσ : τ ≤ σ ^ 2) (hσ1 : σ ^ 2 ≤ 1) (hs : s ^ 2 ≤ 1) (hn : (n : ℝ) ≤ 20) :
    |Real.log (noisyGram base σ s l X).det| ≤ 200 / τ := by
  have hτ : (0 : ℝ) < σ ^ 2 + 1 / 100000 := by positivity
  have hN := noisyGram_posDef base σ s l X
  have h1 : (1 : Matrix (Fin n) (Fin n) ℝ).PosDef := Matrix.PosDef.one
  have hent : ∀ i j, |noisyGram base σ s l X i j - (1 : Matrix (Fin n) (Fin n) ℝ) i j| ≤ 2 := fun i j => by
    obtain ⟨h4, h5⟩ := gram_bound base s l X X i j
    rw [noisyGram, Matrix.add_apply, Matrix.smul_apply, smul_eq_mul, Matrix.one_apply, abs_le]
    split <;> constructor <;> norm_num <;> linarith
  have hq : √(n : ℝ) ≤ 5 := Real.sqrt_le_iff.2 ⟨by norm_num, by linarith⟩
  have hnq : (n : ℝ) * √n * 2 ≤ 200 := by
    have := mul_le_mul hn hq (Real.sqrt_nonneg _) (by norm_num)
    linarith
  have hnq0 : 0 ≤ (n : ℝ) * √n * 2 := by positivity
  have hbig : 200 ≤ 200 / τ := by
    rw [le_div_iff₀ hτ0]
    linarith
  rw [abs_le]
  constructor
  · have k1 := log_det_sub_le hN h1
    have k2 := trace_inv_le (F := 1 - noisyGram base σ s l X) (η := 2) hτ (by norm_num) hN
      (noisyGram_form base σ s l X) fun i j => by
        rw [Matrix.sub_apply, abs_sub_comm]
        exact hent i j
    have k3 : (n : ℝ) * √n * 2 / (σ ^ 2 + 1 / 100000) ≤ 200 / τ :=
      div_le_div₀ (by norm_num) hnq hτ0 (by linarith)
    rw [Matrix.det_one, Real.log_one] at k1
    linarith
  · have k1 := log_det_sub_le h1 hN
    have k2 := trace_inv_le (A := 1) (F := noisyGram base σ s l X - 1) (η := 2) one_pos (by norm_num) h1
      (fun x => by rw [one_mulVec, one_mul]) hent
    rw [Matrix.det_one, Real.log_one] at k1
    rw [div_one] at k2
    linarith

/-- The size of the quotient of Gamma functions. -/
theorem log_gamma_size {ν : ℝ} (hν : 3 ≤ ν) (hν1 : ν ≤ 200) (hn : (n : ℝ) ≤ 20) :
    |Real.log (Real.Gamma ((ν + n) / 2) / Real.Gamma (ν / 2))| ≤ 3000 ∧
      0 ≤ 2 + Real.log (ν + n) ∧ 2 + Real.log (ν + n) ≤ 222 := by
  have hn0 : (0 : ℝ) ≤ n := Nat.cast_nonneg n
  have h1 := log_gamma_near (x := ν / 2) (x' := (ν + n) / 2) (y := ν + n) (by linarith) (by linarith)
    (by linarith) (by linarith)
  have h2 := Real.log_le_sub_one_of_pos (show 0 < ν + n by linarith)
  have h3 := Real.log_nonneg (show 1 ≤ ν + n by linarith)
  rw [Real.log_div (Real.Gamma_pos_of_pos (by linarith)).ne' (Real.Gamma_pos_of_pos (by linarith)).ne']
  refine ⟨h1.trans ?_, by linarith, by linarith⟩
  rw [show (ν + n) / 2 - ν / 2 = (n : ℝ) / 2 by ring, abs_of_nonneg (by positivity)]
  have := mul_le_mul (show 2 + Real.log (ν + n) ≤ 222 by linarith) (show (n : ℝ) / 2 ≤ 10 by linarith)
    (by positivity) (by norm_num)
  linarith

/-- The Gamma function is at least `1/2` from 1 on. -/
theorem half_le_gamma {x : ℝ} (hx : 1 ≤ x) : 1 / 2 ≤ Real.Gamma x := by
  have hmono : ∀ {y : ℝ}, 2 ≤ y → 1 ≤ Real.Gamma y := fun {y} hy => by
    have := Real.Gamma_strictMonoOn_Ici.monotoneOn (Set.mem_Ici.2 le_rfl) (Set.mem_Ici.2 hy) hy
    rwa [Real.Gamma_two] at this
  rcases le_total 2 x with h | h
  · linarith [hmono h]
  · have h1 := hmono (show 2 ≤ x + 1 by linarith)
    rw [Real.Gamma_add_one (by linarith)] at h1
    have h2 := Real.Gamma_pos_of_pos (show 0 < x by linarith)
    nlinarith

/-- The Gamma function rounded to the nearest double. -/
theorem gammaRelative_round {fl : ℝ → ℝ} (hf : Nearest fl) :
    GammaRelative (1 / 10 ^ 12) fun x => fl (Real.Gamma x) where
  near := fun x _ hx => by
    have h1 := half_le_gamma hx
    have h2 := fl_error hf (Real.Gamma x)
    rw [abs_of_pos (show 0 < Real.Gamma x by linarith)] at h2
    have hw : (2 : ℝ) ^ (-1075 : ℤ) ≤ 1 / 10 ^ 20 := by
      have h1 : (2 : ℝ) ^ (-1075 : ℤ) ≤ (2 : ℝ) ^ (-70 : ℤ) := zpow_le_zpow_right₀ (by norm_num) (by norm_num)
      exact h1.trans (by norm_num)
    refine h2.trans ?_
    norm_num at hw ⊢
    linarith

/-- The bound in a case with numbers. -/
theorem typical_tp_likelihood {n ν β D T₁ T₂ T₃ T₄ ε₁ ε₂ ε₃ ε₄ u ζ S P L : ℝ} (hn : n ≤ 20) (hn1 : 1 ≤ n)
    (hν : 3 ≤ ν) (hν1 : ν ≤ 200) (hβ : 0 ≤ β) (hD0 : 0 ≤ D) (hD : D ≤ 38 / 10 ^ 5) (hu : u = 1 / 2 ^ 53)
    (hζ : ζ = 1 / 2 ^ 50) (h1 : |T₁| ≤ 700) (h2 : |T₂| ≤ 20000) (h3 : |T₃| ≤ 3000) (h4 : 0 ≤ T₄)
    (h4' : T₄ ≤ 18000) (hL0 : 0 ≤ L) (hL : L ≤ 222) (hε₁ : ε₁ = ζ * |T₁| + 12 * u) (hε₂0 : 0 ≤ ε₂)
    (hε₂ : ε₂ ≤ 1 / 10 ^ 6) (hε₃ : ε₃ = ζ * |T₃| + 8 * (1 / 10 ^ 12) + 4 * u * (1 + (ν + n) * L))
    (hε₄ : ε₄ = ζ * T₄ + (4 * D / (ν - 2 + β) + 28 * u))
    (hS : S = (3 * n * ε₁ + ε₂) / 2 + ε₃ + 3 * ((ν + n) / 2) * ε₄)
    (hP : P = (n * |T₁| + |T₂|) / 2 + |T₃| + (ν + n) / 2 * T₄) :
    (S + 12 * u * (P + S)) / n ≤ 95 / 10 ^ 4 := by
  have hn0 : 0 < n := by linarith
  have hu0 : 0 ≤ u := by rw [hu]; positivity
  have hu1 : u ≤ 2 / 10 ^ 16 := by rw [hu]; norm_num
  have hζ0 : 0 ≤ ζ := by rw [hζ]; positivity
  have hζ1 : ζ ≤ 1 / 10 ^ 15 := by rw [hζ]; norm_num
  have b1 : ε₁ ≤ 1 / 10 ^ 11 := by
    have := mul_le_mul hζ1 h1 (abs_nonneg _) (by norm_num)
    rw [hε₁]
    norm_num at this hu1 ⊢
    linarith
  have b1' : 0 ≤ ε₁ := by rw [hε₁]; positivity
  have b3 : ε₃ ≤ 1 / 10 ^ 9 := by
    have k1 := mul_le_mul hζ1 h3 (abs_nonneg _) (by norm_num)
    have k2 := mul_le_mul (show ν + n ≤ 220 by linarith) hL hL0 (by norm_num)
    have k3 := mul_le_mul hu1 (show 1 + (ν + n) * L ≤ 1 + 220 * 222 by linarith)
      (add_nonneg zero_le_one (mul_nonneg (by linarith) hL0)) (by norm_num)
    rw [hε₃]
    norm_num at k1 k3 ⊢
    linarith
  have hden : 0 < ν - 2 + β := by linarith
  have b4 : (ν + n) * (4 * D / (ν - 2 + β)) ≤ 4 * D * (3 + n) := by
    rw [← mul_div_assoc, div_le_iff₀ hden]
    have k1 : ν + n ≤ (3 + n) * (ν - 2 + β) := by nlinarith
    have := mul_le_mul_of_nonneg_left k1 (show 0 ≤ 4 * D by linarith)
    linarith
  have b5 : 4 * D * (3 + n) ≤ 16 * (38 / 10 ^ 5) * n := by
    have k1 := mul_le_mul_of_nonneg_left (show 3 + n ≤ 4 * n by linarith) (show 0 ≤ 4 * D by linarith)
    have k2 := mul_le_mul_of_nonneg_right hD hn0.le
    linarith
  have b6 : (ν + n) * (ζ * T₄ + 28 * u) ≤ 1 / 10 ^ 8 := by
    have k1 := mul_le_mul hζ1 h4' h4 (by norm_num)
    have k2 := mul_le_mul (show ν + n ≤ 220 by linarith) (show ζ * T₄ + 28 * u ≤ 19000 / 10 ^ 15 by
      norm_num at k1 hu1 ⊢
      linarith) (by positivity) (by norm_num)
    norm_num at k2 ⊢
    linarith
  have b7 : (ν + n) * ε₄ ≤ 16 * (38 / 10 ^ 5) * n + 1 / 10 ^ 8 := by
    rw [hε₄]
    have e : (ν + n) * (ζ * T₄ + (4 * D / (ν - 2 + β) + 28 * u)) =
      (ν + n) * (4 * D / (ν - 2 + β)) + (ν + n) * (ζ * T₄ + 28 * u) := by ring
    rw [e]
    linarith
  have b8 : n * ε₁ ≤ 20 * (1 / 10 ^ 11) := mul_le_mul hn b1 b1' (by norm_num)
  have hS1 : S ≤ 24 * (38 / 10 ^ 5) * n + 1 / 10 ^ 6 := by
    have e : S = 3 / 2 * (n * ε₁) + ε₂ / 2 + ε₃ + 3 / 2 * ((ν + n) * ε₄) := by rw [hS]; ring
    rw [e]
    norm_num at b3 b7 b8 hε₂ ⊢
    linarith
  have hP1 : P ≤ 3 * 10 ^ 6 := by
    have k1 := mul_le_mul hn h1 (abs_nonneg _) (by norm_num)
    have k2 := mul_le_mul (show (ν + n) / 2 ≤ 110 by linarith) h4' h4 (by norm_num)
    rw [hP]
    norm_num
    linarith
  have hPS : P + S ≤ 4 * 10 ^ 6 := by
    norm_num at hS1 hP1 ⊢
    linarith
  have hPS0 : 0 ≤ P + S := by
    have hε40 : 0 ≤ ε₄ := by rw [hε₄]; positivity
    have hε30 : 0 ≤ ε₃ := by
      have : 0 ≤ (ν + n) * L := mul_nonneg (by linarith) hL0
      rw [hε₃]
      positivity
    have : 0 ≤ (ν + n) / 2 := by linarith
    rw [hP, hS]
    positivity
  have k1 := mul_le_mul hu1 hPS hPS0 (by norm_num)
  rw [div_le_iff₀ hn0]
  norm_num at hS1 k1 ⊢
  linarith

/-- The bound with the default noise and responses between 0 and 10, one of them 10. -/
theorem default_tp_likelihood {n ν β D x T₁ T₂ T₃ T₄ ε₁ ε₂ ε₃ ε₄ u ζ S P L : ℝ} (hn : n ≤ 10) (hn1 : 1 ≤ n)
    (hν : 3 ≤ ν) (hν1 : ν ≤ 200) (hx0 : 0 ≤ x) (hx : x ≤ 1024) (hβ : x ≤ 10002 / 1000 * β) (hD0 : 0 ≤ D)
    (hD : D ≤ 425 / 10 ^ 6 * x) (hu : u = 1 / 2 ^ 53) (hζ : ζ = 1 / 2 ^ 50) (h1 : |T₁| ≤ 700)
    (h2 : |T₂| ≤ 2 * 10 ^ 6) (h3 : |T₃| ≤ 3000) (h4 : 0 ≤ T₄) (h4' : T₄ ≤ 10 ^ 7) (hL0 : 0 ≤ L) (hL : L ≤ 222)
    (hε₁ : ε₁ = ζ * |T₁| + 12 * u) (hε₂0 : 0 ≤ ε₂) (hε₂ : ε₂ ≤ 1 / 10 ^ 6)
    (hε₃ : ε₃ = ζ * |T₃| + 8 * (1 / 10 ^ 12) + 4 * u * (1 + (ν + n) * L))
    (hε₄ : ε₄ = ζ * T₄ + (4 * D / (ν - 2 + β) + 28 * u))
    (hS : S = (3 * n * ε₁ + ε₂) / 2 + ε₃ + 3 * ((ν + n) / 2) * ε₄)
    (hP : P = (n * |T₁| + |T₂|) / 2 + |T₃| + (ν + n) / 2 * T₄) :
    S + 12 * u * (P + S) ≤ 269 / 100 * ((ν + 10) / (ν + 100)) := by
  have hn0 : 0 < n := by linarith
  have hβ0 : 0 ≤ β := by linarith
  have hu0 : 0 ≤ u := by rw [hu]; positivity
  have hu1 : u ≤ 2 / 10 ^ 16 := by rw [hu]; norm_num
  have hζ0 : 0 ≤ ζ := by rw [hζ]; positivity
  have hζ1 : ζ ≤ 1 / 10 ^ 15 := by rw [hζ]; norm_num
  have b1 : ε₁ ≤ 1 / 10 ^ 11 := by
    have := mul_le_mul hζ1 h1 (abs_nonneg _) (by norm_num)
    rw [hε₁]
    norm_num at this hu1 ⊢
    linarith
  have b1' : 0 ≤ ε₁ := by rw [hε₁]; positivity
  have b3 : ε₃ ≤ 1 / 10 ^ 9 := by
    have k1 := mul_le_mul hζ1 h3 (abs_nonneg _) (by norm_num)
    have k2 := mul_le_mul (show ν + n ≤ 220 by linarith) hL hL0 (by norm_num)
    have k3 := mul_le_mul hu1 (show 1 + (ν + n) * L ≤ 1 + 220 * 222 by linarith)
      (add_nonneg zero_le_one (mul_nonneg (by linarith) hL0)) (by norm_num)
    rw [hε₃]
    norm_num at k1 k3 ⊢
    linarith
  have hden : 0 < ν - 2 + β := by linarith
  obtain ⟨q, hq⟩ : ∃ q : ℝ, q = (ν + 10) / (ν + 100) := ⟨_, rfl⟩
  have hq0 : 1 / 10 ≤ q := by
    rw [hq, le_div_iff₀ (by linarith)]
    linarith
  have hq1 : q ≤ 1 := by
    rw [hq, div_le_one (by linarith)]
    linarith
  have b4 : (ν + n) * (4 * D / (ν - 2 + β)) ≤ 4 * (425 / 10 ^ 6) * 1024 * q := by
    rw [hq, ← mul_div_assoc, ← mul_div_assoc, div_le_div_iff₀ hden (by linarith)]
    have k1 : x * (ν + 100) ≤ 1024 * (ν - 2 + β) := by
      have := mul_nonneg (show 0 ≤ 1024 - x by linarith) (show 0 ≤ ν - 3 by linarith)
      linarith
    have k2 : D * (ν + 100) ≤ 425 / 10 ^ 6 * (1024 * (ν - 2 + β)) := by
      have := mul_le_mul_of_nonneg_right hD (show 0 ≤ ν + 100 by linarith)
      norm_num at this ⊢
      linarith
    have k3 := mul_le_mul (show ν + n ≤ ν + 10 by linarith) k2 (mul_nonneg hD0 (by linarith)) (by linarith)
    norm_num at k3 ⊢
    linarith
  have b6 : (ν + n) * (ζ * T₄ + 28 * u) ≤ 1 / 10 ^ 5 := by
    have k1 := mul_le_mul hζ1 h4' h4 (by norm_num)
    have k2 := mul_le_mul (show ν + n ≤ 210 by linarith) (show ζ * T₄ + 28 * u ≤ 2 / 10 ^ 8 by
      norm_num at k1 hu1 ⊢
      linarith) (by positivity) (by norm_num)
    norm_num at k2 ⊢
    linarith
  have b7 : (ν + n) * ε₄ ≤ 4 * (425 / 10 ^ 6) * 1024 * q + 1 / 10 ^ 5 := by
    rw [hε₄]
    have e : (ν + n) * (ζ * T₄ + (4 * D / (ν - 2 + β) + 28 * u)) =
      (ν + n) * (4 * D / (ν - 2 + β)) + (ν + n) * (ζ * T₄ + 28 * u) := by ring
    rw [e]
    linarith
  have b8 : n * ε₁ ≤ 10 * (1 / 10 ^ 11) := mul_le_mul hn b1 b1' (by norm_num)
  have hS1 : S ≤ 6 * (425 / 10 ^ 6) * 1024 * q + 1 / 10 ^ 4 := by
    have e : S = 3 / 2 * (n * ε₁) + ε₂ / 2 + ε₃ + 3 / 2 * ((ν + n) * ε₄) := by rw [hS]; ring
    rw [e]
    norm_num at b3 b7 b8 hε₂ ⊢
    linarith
  have hP1 : P ≤ 2 * 10 ^ 9 := by
    have k1 := mul_le_mul hn h1 (abs_nonneg _) (by norm_num)
    have k2 := mul_le_mul (show (ν + n) / 2 ≤ 105 by linarith) h4' h4 (by norm_num)
    rw [hP]
    norm_num at h2 k2 ⊢
    linarith
  have hPS : P + S ≤ 3 * 10 ^ 9 := by
    norm_num at hS1 hP1 ⊢
    linarith
  have hPS0 : 0 ≤ P + S := by
    have hε40 : 0 ≤ ε₄ := by rw [hε₄]; positivity
    have hε30 : 0 ≤ ε₃ := by
      have : 0 ≤ (ν + n) * L := mul_nonneg (by linarith) hL0
      rw [hε₃]
      positivity
    have : 0 ≤ (ν + n) / 2 := by linarith
    rw [hP, hS]
    positivity
  have k1 := mul_le_mul hu1 hPS hPS0 (by norm_num)
  rw [← hq]
  norm_num at hS1 k1 ⊢
  linarith

end Verif.Lemmas
