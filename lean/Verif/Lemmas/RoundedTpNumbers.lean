import Verif.Lemmas.RoundedTp
import Verif.Lemmas.RoundedStepNumbers
import Mathlib.Algebra.Order.Chebyshev

/-! # Numbers for a step with the Student-t process (lemmas for C161) -/

namespace Verif.Lemmas

open Verif.Spec Verif.Covariance Verif.UtilsCovariance Verif.Rounded Verif.RoundedPredict Matrix

/-- The misfit of responses is at least a multiple of their squared length. -/
theorem misfit_ge {n d : ℕ} (base : String) (σ s : ℝ) (l : Fin d → ℝ) (X : Inputs n d) (y : Fin n → ℝ) :
    y ⬝ᵥ y ≤ (n * s ^ 2 + (σ ^ 2 + 1 / 100000)) * (y ⬝ᵥ ((noisyGram base σ s l X)⁻¹ *ᵥ y)) := by
  obtain ⟨L, hL⟩ : ∃ L : ℝ, L = n * s ^ 2 + (σ ^ 2 + 1 / 100000) := ⟨_, rfl⟩
  have hL0 : 0 < L := by rw [hL]; positivity
  have hp := noisyGram_posDef base σ s l X
  obtain ⟨z, hz⟩ : ∃ z, z = (noisyGram base σ s l X)⁻¹ *ᵥ y := ⟨_, rfl⟩
  have hAz : noisyGram base σ s l X *ᵥ z = y := by rw [hz]; exact mul_inv_vec hp y
  have hg : y ⬝ᵥ (gram base s l X X *ᵥ y) ≤ n * s ^ 2 * (y ⬝ᵥ y) := by
    have h1 : y ⬝ᵥ (gram base s l X X *ᵥ y) ≤ s ^ 2 * (∑ i, |y i|) ^ 2 := by
      rw [pow_two (∑ i, |y i|), Finset.sum_mul_sum, Finset.mul_sum, dotProduct]
      refine Finset.sum_le_sum fun i _ => ?_
      rw [Matrix.mulVec, dotProduct, Finset.mul_sum, Finset.mul_sum]
      refine Finset.sum_le_sum fun j _ => ?_
      obtain ⟨b1, b2⟩ := gram_bound base s l X X i j
      calc y i * (gram base s l X X i j * y j) = gram base s l X X i j * (y i * y j) := by ring
        _ ≤ gram base s l X X i j * (|y i| * |y j|) :=
          mul_le_mul_of_nonneg_left (by rw [← abs_mul]; exact le_abs_self _) b1
        _ ≤ s ^ 2 * (|y i| * |y j|) := mul_le_mul_of_nonneg_right b2 (by positivity)
    have h2 : (∑ i, |y i|) ^ 2 ≤ n * (y ⬝ᵥ y) := by
      have := sq_sum_le_card_mul_sum_sq (s := (Finset.univ : Finset (Fin n))) (f := fun i => |y i|)
      simpa [dotProduct, sq_abs, pow_two] using this
    have := mul_le_mul_of_nonneg_left h2 (sq_nonneg s)
    linarith
  have hA : y ⬝ᵥ (noisyGram base σ s l X *ᵥ y) ≤ L * (y ⬝ᵥ y) := by
    rw [noisyGram, Matrix.add_mulVec, dotProduct_add, Matrix.smul_mulVec, Matrix.one_mulVec, dotProduct_smul,
      smul_eq_mul, hL]
    linarith
  have h0 := hp.posSemidef.dotProduct_mulVec_nonneg (z - L⁻¹ • y)
  rw [star_trivial, Matrix.mulVec_sub, Matrix.mulVec_smul, hAz, sub_dotProduct, dotProduct_sub, dotProduct_sub,
    smul_dotProduct, smul_dotProduct, dotProduct_smul, dotProduct_smul] at h0
  have hsym : z ⬝ᵥ (noisyGram base σ s l X *ᵥ y) = y ⬝ᵥ y := by
    have ht : (noisyGram base σ s l X)ᵀ = noisyGram base σ s l X := by
      have := hp.isHermitian
      rwa [Matrix.IsHermitian, Matrix.conjTranspose_eq_transpose_of_trivial] at this
    rw [Matrix.dotProduct_mulVec, ← Matrix.mulVec_transpose, ht, hAz]
  rw [hsym, dotProduct_comm z y] at h0
  simp only [smul_eq_mul] at h0
  have h3 : L⁻¹ * (L⁻¹ * (y ⬝ᵥ (noisyGram base σ s l X *ᵥ y))) ≤ L⁻¹ * (y ⬝ᵥ y) := by
    refine mul_le_mul_of_nonneg_left ?_ (by positivity)
    rw [inv_mul_le_iff₀ hL0]
    exact hA
  have h4 : L⁻¹ * (y ⬝ᵥ y) ≤ y ⬝ᵥ z := by linarith
  rw [inv_mul_le_iff₀ hL0] at h4
  rw [← hL, ← hz]
  exact h4

/-- The error of the misfit with the default noise. -/
theorem default_misfit {n d s N Q β : ℝ} (hn : n ≤ 10) (hn1 : 1 ≤ n) (hd : d ≤ 2) (hd0 : 0 ≤ d)
    (hs : s ^ 2 ≤ 1) (hN0 : 0 ≤ N) (hN : N ≤ 32) (hN2 : 99 ≤ N ^ 2) (hQ : Q ≤ 100) (hQ0 : 0 ≤ Q)
    (hβ : N ^ 2 ≤ 10002 / 1000 * β) {E B ρ γ t D u : ℝ} (hu : u = 1 / 2 ^ 53)
    (hE : E = s ^ 2 * (2 * (1 / 2 ^ 50) + (1 + (d + 1) * 2) / 2 ^ 44) + ((1 / 100) ^ 2 + 1) / 2 ^ 49)
    (hB : B = 1 / ((1 / 100) ^ 2 + 1 / 100000 - n * E) + 1 / 10 ^ 6)
    (hρ : ρ = n * E / (((1 / 100) ^ 2 + 1 / 100000) * ((1 / 100) ^ 2 + 1 / 100000 - n * E)) +
      n * (1 / 10 ^ 6))
    (hγ : γ = (4 * n + 1) / 2 ^ 53) (ht : t = 2 * n * (2 : ℝ) ^ (-1075 : ℤ))
    (hD : D = ρ * N ^ 2 + (n * B * N * Q * (12 * γ + 3 * u) + 4 * t * Q + t)) :
    0 ≤ D ∧ D ≤ 425 / 10 ^ 5 * β := by
  have ht2 := small_zpow (k := -1075) (by norm_num)
  have ht2' : (0 : ℝ) < (2 : ℝ) ^ (-1075 : ℤ) := by positivity
  have hn0 : 0 ≤ n := by linarith
  have hE0 : 0 ≤ E := by rw [hE]; positivity
  have hP : s ^ 2 * (2 * (1 / 2 ^ 50) + (1 + (d + 1) * 2) / 2 ^ 44) ≤ 41 / 10 ^ 14 := by
    refine (mul_le_mul_of_nonneg_right hs (by positivity)).trans ?_
    norm_num
    linarith
  have hE1 : E ≤ 5 / 10 ^ 13 := by
    rw [hE]
    norm_num at hP ⊢
    linarith
  have hnE0 : 0 ≤ n * E := by positivity
  have hnE : n * E ≤ 5 / 10 ^ 12 := by
    have := mul_le_mul hn hE1 hE0 (by norm_num)
    norm_num at this ⊢
    linarith
  have hgap : 10999 / 10 ^ 8 ≤ (1 / 100) ^ 2 + 1 / 100000 - n * E := by
    norm_num at hnE ⊢
    linarith
  have hgap0 : 0 < (1 / 100) ^ 2 + 1 / 100000 - n * E := lt_of_lt_of_le (by norm_num) hgap
  have hB1 : B ≤ 9093 := by
    have : 1 / ((1 / 100) ^ 2 + 1 / 100000 - n * E) ≤ 1 / (10999 / 10 ^ 8) :=
      one_div_le_one_div_of_le (by norm_num) hgap
    rw [hB]
    norm_num at this ⊢
    linarith
  have hB0 : 0 ≤ B := by rw [hB]; positivity
  have hρ1 : ρ ≤ 424 / 10 ^ 6 := by
    have h1 : ((1 / 100) ^ 2 + 1 / 100000) * (10999 / 10 ^ 8) ≤
        ((1 / 100) ^ 2 + 1 / 100000) * ((1 / 100) ^ 2 + 1 / 100000 - n * E) :=
      mul_le_mul_of_nonneg_left hgap (by norm_num)
    have h2 : n * E / (((1 / 100) ^ 2 + 1 / 100000) * ((1 / 100) ^ 2 + 1 / 100000 - n * E)) ≤
        (5 / 10 ^ 12) / (((1 / 100) ^ 2 + 1 / 100000) * (10999 / 10 ^ 8)) :=
      div_le_div₀ (by norm_num) hnE (by norm_num) h1
    rw [hρ]
    norm_num at h2 ⊢
    linarith
  have hρ0 : 0 ≤ ρ := by rw [hρ]; positivity
  have hγ0 : 0 ≤ γ := by rw [hγ]; positivity
  have hγ1 : γ ≤ 5 / 10 ^ 15 := by
    rw [hγ]
    norm_num
    linarith
  have hu0 : 0 ≤ u := by rw [hu]; positivity
  have hu1 : u ≤ 1 / 10 ^ 15 := by rw [hu]; norm_num
  have ht0 : 0 ≤ t := by rw [ht]; positivity
  have ht3 : t ≤ 1 / 10 ^ 15 := by
    rw [ht]
    have := mul_le_mul (mul_le_mul_of_nonneg_left hn (by norm_num : (0 : ℝ) ≤ 2)) ht2 ht2'.le
      (by norm_num)
    refine this.trans (by norm_num)
  refine ⟨by rw [hD]; positivity, ?_⟩
  have h1 : ρ * N ^ 2 ≤ 424 / 10 ^ 6 * N ^ 2 := mul_le_mul_of_nonneg_right hρ1 (sq_nonneg N)
  have h2 : n * B * N * Q ≤ 10 * 9093 * 32 * 100 :=
    mul_le_mul (mul_le_mul (mul_le_mul hn hB1 hB0 (by norm_num)) hN hN0 (by norm_num)) hQ hQ0 (by norm_num)
  have h3 : n * B * N * Q * (12 * γ + 3 * u) ≤ 10 * 9093 * 32 * 100 * (60 / 10 ^ 15 + 3 / 10 ^ 15) :=
    mul_le_mul h2 (by linarith) (by positivity) (by norm_num)
  have h4 : 4 * t * Q ≤ 4 * (1 / 10 ^ 15) * 100 := mul_le_mul (by linarith) hQ hQ0 (by norm_num)
  rw [hD]
  generalize n * B * N * Q * (12 * γ + 3 * u) = z1 at *
  generalize 4 * t * Q = z2 at *
  generalize ρ * N ^ 2 = z3 at *
  generalize N ^ 2 = z4 at *
  clear hD hρ hB
  norm_num at h1 h3 h4 ht3 hβ ⊢
  linarith only [h1, h3, h4, ht3, hβ, hN2]

/-- The error of the factor with the default noise. -/
theorem default_factor {n β ν c D ε u : ℝ} (hn : n ≤ 10) (hn1 : 1 ≤ n) (hβ : 0 ≤ β) (hν : 3 ≤ ν)
    (hν1 : ν ≤ 10 ^ 6) (hu : u = 1 / 2 ^ 53) (hD0 : 0 ≤ D) (hD : D ≤ 425 / 10 ^ 5 * β)
    (hc : c = (ν + β - 2) / (ν + n - 2))
    (hε : ε = 2 * (2 * D + 3 * u * (ν + β)) / (ν + n - 2) + 7 * u * c + (2 : ℝ) ^ (-1075 : ℤ)) :
    (2 : ℝ) ^ (-1075 : ℤ) ≤ c / 10 ^ 10 ∧ (2 : ℝ) ^ (-1075 : ℤ) ≤ √c / 10 ^ 10 ∧ 0 < c ∧ 0 ≤ ε ∧
      ε ≤ 171 / 10 ^ 4 * c := by
  have ht2 := small_zpow (k := -1075) (by norm_num)
  have ht2' : (0 : ℝ) < (2 : ℝ) ^ (-1075 : ℤ) := by positivity
  have hu0 : 0 ≤ u := by rw [hu]; positivity
  have hu1 : u ≤ 1 / 10 ^ 15 := by rw [hu]; norm_num
  have hq0 : 0 < ν + n - 2 := by linarith
  have hq1 : ν + n - 2 ≤ 2 * 10 ^ 6 := by
    norm_num at hν1 ⊢
    linarith
  have hp1 : 1 ≤ ν + β - 2 := by linarith
  have hc0 : 0 < c := by
    rw [hc]
    exact div_pos (by linarith) hq0
  have hc1 : 1 / (2 * 10 ^ 6) ≤ c := by
    rw [hc]
    exact div_le_div₀ (by linarith) hp1 hq0 hq1
  have hT : (2 : ℝ) ^ (-1075 : ℤ) ≤ c / 10 ^ 10 := by
    refine ht2.trans ?_
    rw [le_div_iff₀ (by norm_num)]
    refine le_trans ?_ hc1
    norm_num
  refine ⟨hT, ?_, hc0, ?_, ?_⟩
  · refine ht2.trans ?_
    rw [le_div_iff₀ (by norm_num)]
    refine Real.le_sqrt_of_sq_le (le_trans ?_ hc1)
    norm_num
  · rw [hε]
    positivity
  · have h1 : 2 * (2 * D + 3 * u * (ν + β)) / (ν + n - 2) ≤ (4 * (425 / 10 ^ 5) + 18 / 10 ^ 15) * c := by
      rw [hc, ← mul_div_assoc]
      refine div_le_div_of_nonneg_right ?_ hq0.le
      have h2 : u * (ν + β) ≤ 1 / 10 ^ 15 * (3 * (ν + β - 2)) :=
        mul_le_mul hu1 (by linarith) (by linarith) (by norm_num)
      linarith
    have h2 : 7 * u * c ≤ 7 * (1 / 10 ^ 15) * c := by nlinarith
    rw [hε]
    norm_num at h1 h2 hT ⊢
    linarith

/-- Errors of variance and deviation with the default noise. -/
theorem default_tp_point {S G c ε u w : ℝ} (hu : u = 1 / 2 ^ 53) (hS0 : 0 ≤ S) (hS : S ≤ 1 + 1 / 100000)
    (hG0 : 0 ≤ G) (hG : G ≤ 425 / 10 ^ 5) (hc : 0 < c) (hε0 : 0 ≤ ε) (hε : ε ≤ 171 / 10 ^ 4 * c)
    (hT : (2 : ℝ) ^ (-1075 : ℤ) ≤ c / 10 ^ 10) (hT' : (2 : ℝ) ^ (-1075 : ℤ) ≤ √c / 10 ^ 10)
    (hw : w = √(c * S)) :
    (1 + u) * (ε * (|S| + ((1 + u) * G + u * |S|)) + c * ((1 + u) * G + u * |S|)) + u * (c * |S|) +
      (2 : ℝ) ^ (-1075 : ℤ) ≤ 215 / 10 ^ 4 * c ∧
    w ≤ 101 / 100 * √c ∧
    (1 + u) * √(215 / 10 ^ 4 * c) + u * w + (2 : ℝ) ^ (-1075 : ℤ) ≤ 147 / 1000 * √c := by
  have hu0 : 0 ≤ u := by rw [hu]; positivity
  have hu1 : u ≤ 1 / 10 ^ 15 := by rw [hu]; norm_num
  generalize (2 : ℝ) ^ (-1075 : ℤ) = T at *
  have hs := Real.sqrt_nonneg c
  have h1 : w ≤ 101 / 100 * √c := by
    rw [hw, mul_comm, Real.sqrt_mul hS0]
    refine mul_le_mul_of_nonneg_right (Real.sqrt_le_iff.2 ⟨by norm_num, ?_⟩) hs
    norm_num at hS ⊢
    linarith
  refine ⟨?_, h1, ?_⟩
  · rw [abs_of_nonneg hS0]
    have a1 : u * S ≤ 1 / 10 ^ 15 * (1 + 1 / 100000) := mul_le_mul hu1 hS hS0 (by norm_num)
    have a2 : u * G ≤ 1 / 10 ^ 15 * (425 / 10 ^ 5) := mul_le_mul hu1 hG hG0 (by norm_num)
    have a3 : (1 + u) * G + u * S ≤ 4251 / 10 ^ 6 := by
      norm_num at a1 a2 hG ⊢
      linarith
    have a4 : 0 ≤ (1 + u) * G + u * S := by positivity
    generalize (1 + u) * G + u * S = g at *
    have a5 : ε * (S + g) ≤ 171 / 10 ^ 4 * c * (10043 / 10000) :=
      mul_le_mul hε (by norm_num at a3 hS ⊢; linarith) (by positivity) (by positivity)
    have a6 : c * g ≤ c * (4251 / 10 ^ 6) := mul_le_mul_of_nonneg_left a3 hc.le
    have a7 : u * (c * S) ≤ 1 / 10 ^ 15 * (c * (1 + 1 / 100000)) :=
      mul_le_mul hu1 (mul_le_mul_of_nonneg_left hS hc.le) (by positivity) (by norm_num)
    have a8 : 0 ≤ ε * (S + g) + c * g := by positivity
    have a9 : (1 + u) * (ε * (S + g) + c * g) ≤ (1 + 1 / 10 ^ 15) * (ε * (S + g) + c * g) :=
      mul_le_mul_of_nonneg_right (by linarith) a8
    norm_num at a5 a6 a7 a9 hT ⊢
    linarith
  · have b1 : √(215 / 10 ^ 4 * c) ≤ 1467 / 10000 * √c := by
      rw [Real.sqrt_mul (by norm_num)]
      exact mul_le_mul_of_nonneg_right (Real.sqrt_le_iff.2 ⟨by norm_num, by norm_num⟩) hs
    have b2 : (1 + u) * √(215 / 10 ^ 4 * c) ≤ (1 + 1 / 10 ^ 15) * (1467 / 10000 * √c) :=
      mul_le_mul (by linarith) b1 (Real.sqrt_nonneg _) (by norm_num)
    have hw0 : 0 ≤ w := by rw [hw]; positivity
    have b3 : u * w ≤ 1 / 10 ^ 15 * (101 / 100 * √c) := mul_le_mul hu1 h1 hw0 (by norm_num)
    norm_num at b2 b3 hT' ⊢
    linarith

end Verif.Lemmas
