import Verif.Lemmas.RoundedStep

/-! # Error bounds with numbers for a step with the default noise (lemmas for C158) -/

namespace Verif.Lemmas

open Verif.Spec

theorem small_zpow {k : ℤ} (hk : k ≤ -70) : (2 : ℝ) ^ k ≤ 1 / 10 ^ 20 := by
  have h1 : (2 : ℝ) ^ k ≤ (2 : ℝ) ^ (-70 : ℤ) := zpow_le_zpow_right₀ (by norm_num) hk
  exact h1.trans (by norm_num)

/-- The errors of predictions with the default noise. -/
theorem default_choice {n d s Q : ℝ} (hn : n ≤ 10) (hn0 : 0 ≤ n) (hd : d ≤ 2) (hd0 : 0 ≤ d)
    (hs : s ^ 2 ≤ 1) (hQ : Q ≤ 100) (hQ0 : 0 ≤ Q) {E e B κ ρ F G γ t : ℝ}
    (hE : E = s ^ 2 * (2 * (1 / 2 ^ 50) + (1 + (d + 1) * 2) / 2 ^ 44) + ((1 / 100) ^ 2 + 1) / 2 ^ 49)
    (he : e = s ^ 2 * (2 * (1 / 2 ^ 50) + (1 + (d + 1) * 2) / 2 ^ 45) + (2 : ℝ) ^ (-1070 : ℤ))
    (hB : B = 1 / ((1 / 100) ^ 2 + 1 / 100000 - n * E) + 1 / 10 ^ 6) (hκ : κ = s ^ 2 + e)
    (hρ : ρ = n * E / (((1 / 100) ^ 2 + 1 / 100000) * ((1 / 100) ^ 2 + 1 / 100000 - n * E)) +
      n * (1 / 10 ^ 6))
    (hγ : γ = (4 * n + 1) / 2 ^ 53) (ht : t = 2 * n * (2 : ℝ) ^ (-1075 : ℤ))
    (hF : F = Q * (s ^ 2 * ρ + n * B * (e + (6 * γ + 1 / 2 ^ 53) * κ) + 4 * t) + t)
    (hG : G = s ^ 4 * n * ρ + n * κ * (n * B * (2 * e + 3 * γ * κ) + 2 * t) + t +
      (s ^ 2 * (2 * (1 / 2 ^ 50) + (1 + (d + 1) * 2) / 2 ^ 44) + 1 / 2 ^ 49)) :
    n * E < (1 / 100) ^ 2 + 1 / 100000 ∧ 0 ≤ F ∧ F ≤ 425 / 10 ^ 4 ∧ G ≤ 425 / 10 ^ 5 := by
  have ht1 := small_zpow (k := -1070) (by norm_num)
  have ht2 := small_zpow (k := -1075) (by norm_num)
  have ht2' : (0 : ℝ) < (2 : ℝ) ^ (-1075 : ℤ) := by positivity
  have ht1' : (0 : ℝ) < (2 : ℝ) ^ (-1070 : ℤ) := by positivity
  have hs0 : 0 ≤ s ^ 2 := sq_nonneg s
  have hs4 : s ^ 4 ≤ 1 := by
    have : s ^ 4 = s ^ 2 * s ^ 2 := by ring
    rw [this]
    exact mul_le_one₀ hs hs0 hs
  have hs40 : 0 ≤ s ^ 4 := by positivity
  have hE0 : 0 ≤ E := by rw [hE]; positivity
  have he0 : 0 ≤ e := by rw [he]; positivity
  have hP : s ^ 2 * (2 * (1 / 2 ^ 50) + (1 + (d + 1) * 2) / 2 ^ 44) ≤ 41 / 10 ^ 14 := by
    refine (mul_le_mul_of_nonneg_right hs (by positivity)).trans ?_
    norm_num
    linarith
  have hP' : s ^ 2 * (2 * (1 / 2 ^ 50) + (1 + (d + 1) * 2) / 2 ^ 45) ≤ 21 / 10 ^ 14 := by
    refine (mul_le_mul_of_nonneg_right hs (by positivity)).trans ?_
    norm_num
    linarith
  have hE1 : E ≤ 5 / 10 ^ 13 := by
    rw [hE]
    norm_num at hP ⊢
    linarith
  have he1 : e ≤ 3 / 10 ^ 13 := by
    rw [he]
    exact (add_le_add hP' ht1).trans (by norm_num)
  have hnE0 : 0 ≤ n * E := by positivity
  have hnE : n * E ≤ 5 / 10 ^ 12 := by
    have := mul_le_mul hn hE1 hE0 (by norm_num)
    norm_num at this ⊢
    linarith
  have hlt : n * E < (1 / 100) ^ 2 + 1 / 100000 := by
    norm_num at hnE ⊢
    linarith
  have hgap : 10999 / 10 ^ 8 ≤ (1 / 100) ^ 2 + 1 / 100000 - n * E := by
    norm_num at hnE ⊢
    linarith
  have hgap0 : 0 < (1 / 100) ^ 2 + 1 / 100000 - n * E := sub_pos.2 hlt
  have hB1 : B ≤ 9093 := by
    have : 1 / ((1 / 100) ^ 2 + 1 / 100000 - n * E) ≤ 1 / (10999 / 10 ^ 8) :=
      one_div_le_one_div_of_le (by norm_num) hgap
    rw [hB]
    norm_num at this ⊢
    linarith
  have hB0 : 0 ≤ B := by rw [hB]; positivity
  have hρ1 : ρ ≤ 424 / 10 ^ 6 := by
    have h1 : ((1 / 100) ^ 2 + 1 / 100000) * (10999 / 10 ^ 8) ≤
        ((1 / 100) ^ 2 + 1 / 100000) * ((1 / 100) ^ 2 + 1 / 100000 - n * E) :=
      mul_le_mul_of_nonneg_left hgap (by norm_num)
    have h2 : n * E / (((1 / 100) ^ 2 + 1 / 100000) * ((1 / 100) ^ 2 + 1 / 100000 - n * E)) ≤
        (5 / 10 ^ 12) / (((1 / 100) ^ 2 + 1 / 100000) * (10999 / 10 ^ 8)) :=
      div_le_div₀ (by norm_num) hnE (by norm_num) h1
    rw [hρ]
    norm_num at h2 ⊢
    linarith
  have hρ0 : 0 ≤ ρ := by rw [hρ]; positivity
  have hγ0 : 0 ≤ γ := by rw [hγ]; positivity
  have hγ1 : γ ≤ 5 / 10 ^ 15 := by
    rw [hγ]
    norm_num
    linarith
  have ht0 : 0 ≤ t := by rw [ht]; positivity
  have ht3 : t ≤ 1 / 10 ^ 15 := by
    rw [ht]
    have := mul_le_mul (mul_le_mul_of_nonneg_left hn (by norm_num : (0 : ℝ) ≤ 2)) ht2 ht2'.le
      (by norm_num)
    refine this.trans (by norm_num)
  have hκ0 : 0 ≤ κ := by rw [hκ]; positivity
  have hκ1 : κ ≤ 1 + 1 / 10 ^ 11 := by
    rw [hκ]
    norm_num at he1 ⊢
    linarith
  have hnB : n * B ≤ 10 * 9093 := mul_le_mul hn hB1 hB0 (by norm_num)
  have hnB0 : 0 ≤ n * B := mul_nonneg hn0 hB0
  have hsρ : s ^ 2 * ρ ≤ 1 * (424 / 10 ^ 6) := mul_le_mul hs hρ1 hρ0 (by norm_num)
  refine ⟨hlt, by rw [hF]; positivity, ?_, ?_⟩
  · have h5 : (6 * γ + 1 / 2 ^ 53) * κ ≤ (6 * (5 / 10 ^ 15) + 1 / 2 ^ 53) * 2 :=
      mul_le_mul (by linarith) (by linarith) hκ0 (by norm_num)
    have hin : e + (6 * γ + 1 / 2 ^ 53) * κ ≤ 4 / 10 ^ 13 := by
      norm_num at h5 he1 ⊢
      linarith
    have h6 : n * B * (e + (6 * γ + 1 / 2 ^ 53) * κ) ≤ 10 * 9093 * (4 / 10 ^ 13) :=
      mul_le_mul hnB hin (by positivity) (by norm_num)
    have h7 : Q * (s ^ 2 * ρ + n * B * (e + (6 * γ + 1 / 2 ^ 53) * κ) + 4 * t) ≤
        100 * (1 * (424 / 10 ^ 6) + 10 * 9093 * (4 / 10 ^ 13) + 4 * (1 / 10 ^ 15)) :=
      mul_le_mul hQ (by linarith) (by positivity) (by norm_num)
    rw [hF]
    norm_num at h7 ht3 ⊢
    linarith
  · have h5 : 3 * γ * κ ≤ 3 * (5 / 10 ^ 15) * 2 :=
      mul_le_mul (by linarith) (by linarith) hκ0 (by norm_num)
    have hin : 2 * e + 3 * γ * κ ≤ 7 / 10 ^ 13 := by
      norm_num at h5 he1 ⊢
      linarith
    have h6 : n * B * (2 * e + 3 * γ * κ) ≤ 10 * 9093 * (7 / 10 ^ 13) :=
      mul_le_mul hnB hin (by positivity) (by norm_num)
    have h7 : n * κ * (n * B * (2 * e + 3 * γ * κ) + 2 * t) ≤
        10 * (1 + 1 / 10 ^ 11) * (10 * 9093 * (7 / 10 ^ 13) + 2 * (1 / 10 ^ 15)) :=
      mul_le_mul (mul_le_mul hn hκ1 hκ0 (by norm_num)) (by linarith) (by positivity) (by norm_num)
    have h8 : s ^ 4 * n * ρ ≤ 1 * 10 * (424 / 10 ^ 6) :=
      mul_le_mul (mul_le_mul hs4 hn hn0 (by norm_num)) hρ1 hρ0 (by norm_num)
    have h9 : s ^ 2 * (2 * (1 / 2 ^ 50) + (1 + (d + 1) * 2) / 2 ^ 44) + 1 / 2 ^ 49 ≤ 1 / 10 ^ 11 := by
      norm_num at hP ⊢
      linarith
    rw [hG]
    refine (add_le_add (add_le_add (add_le_add h8 h7) ht3) h9).trans ?_
    norm_num

/-- The error of an acquisition value with the default noise. -/
theorem default_total {F G Q s : ℝ} (hF0 : 0 ≤ F) (hF : F ≤ 425 / 10 ^ 4) (hG : G ≤ 425 / 10 ^ 5)
    (hQ : Q ≤ 100) (hQ0 : 0 ≤ Q) (hs : s ^ 2 ≤ 1) {u M W em es D Δ : ℝ}
    (hu : u = 1 / 2 ^ 53) (hM : M = s ^ 2 * Q / ((1 / 100) ^ 2 + 1 / 100000) + 0)
    (hW : W = √(s ^ 2 + 1 / 100000)) (hem : em = (1 + u) * F + u * M)
    (hes : es = (1 + u) * √((1 + u) * G + u * W ^ 2) + u * W + (2 : ℝ) ^ (-1075 : ℤ))
    (hD : D = M + W)
    (hΔ : Δ = 3 / 2 * em + es + ((1 / 2 ^ 40 + 8 / 2 ^ 53) * (D + em + es) + (2 : ℝ) ^ (-1073 : ℤ))) :
    Δ ≤ 1293 / 10 ^ 4 ∧ D ≤ 10 ^ 6 := by
  have t1 := small_zpow (k := -1073) (by norm_num)
  have t2 := small_zpow (k := -1075) (by norm_num)
  have hu1 : u ≤ 1 / 10 ^ 15 := by rw [hu]; norm_num
  have hu0 : 0 ≤ u := by rw [hu]; positivity
  have hM1 : M ≤ 909091 := by
    have h0 : s ^ 2 * Q ≤ 1 * 100 := mul_le_mul hs hQ hQ0 (by norm_num)
    have h1 : s ^ 2 * Q / ((1 / 100) ^ 2 + 1 / 100000) ≤ 1 * 100 / ((1 / 100) ^ 2 + 1 / 100000) :=
      div_le_div_of_nonneg_right h0 (by norm_num)
    rw [hM, add_zero]
    exact h1.trans (by norm_num)
  have hM0 : 0 ≤ M := by rw [hM]; positivity
  have hW1 : W ≤ 2 := by
    rw [hW]
    exact Real.sqrt_le_iff.2 ⟨by norm_num, by norm_num; linarith⟩
  have hW0 : 0 ≤ W := hW ▸ Real.sqrt_nonneg _
  have huW : u * W ≤ 1 / 10 ^ 15 * 2 := mul_le_mul hu1 hW1 hW0 (by norm_num)
  have huM : u * M ≤ 1 / 10 ^ 15 * 909091 := mul_le_mul hu1 hM1 hM0 (by norm_num)
  have huF : u * F ≤ 1 / 10 ^ 15 * (425 / 10 ^ 4) := mul_le_mul hu1 hF hF0 (by norm_num)
  have hr : √((1 + u) * G + u * W ^ 2) ≤ 652 / 10 ^ 4 := by
    refine Real.sqrt_le_iff.2 ⟨by norm_num, ?_⟩
    have h1 : (1 + u) * G ≤ (1 + 1 / 10 ^ 15) * (425 / 10 ^ 5) :=
      (mul_le_mul_of_nonneg_left hG (by linarith)).trans
        (mul_le_mul_of_nonneg_right (by linarith) (by norm_num))
    have h2 : u * W ^ 2 ≤ 1 / 10 ^ 15 * 2 ^ 2 :=
      mul_le_mul hu1 (pow_le_pow_left₀ hW0 hW1 2) (by positivity) (by norm_num)
    refine (add_le_add h1 h2).trans ?_
    norm_num
  have hem1 : em ≤ 426 / 10 ^ 4 := by
    rw [hem]
    norm_num at huM huF hF ⊢
    linarith
  have hes1 : es ≤ 653 / 10 ^ 4 := by
    have h1 := mul_le_mul (show 1 + u ≤ 1 + 1 / 10 ^ 15 by linarith) hr (Real.sqrt_nonneg _) (by norm_num)
    rw [hes]
    refine (add_le_add (add_le_add h1 huW) t2).trans ?_
    norm_num
  have hD1 : D ≤ 909093 := by
    rw [hD]
    linarith
  refine ⟨?_, hD1.trans (by norm_num)⟩
  have h1 : ((1 : ℝ) / 2 ^ 40 + 8 / 2 ^ 53) * (D + em + es) ≤ (1 / 2 ^ 40 + 8 / 2 ^ 53) * 909094 :=
    mul_le_mul_of_nonneg_left (by norm_num at hem1 hes1 ⊢; linarith) (by norm_num)
  rw [hΔ]
  refine (add_le_add (add_le_add (mul_le_mul_of_nonneg_left hem1 (by norm_num)) hes1)
    (add_le_add h1 t1)).trans ?_
  norm_num

theorem default_residual {n : ℕ} (hn : (n : ℝ) ≤ 10) {Y : Fin n → ℝ} (hY : ∀ i, |Y i| ≤ 10) :
    √n * √(∑ i, (Y i - 0) ^ 2) ≤ 100 := by
  have hn0 : (0 : ℝ) ≤ n := Nat.cast_nonneg n
  have h1 : ∑ i, (Y i - 0) ^ 2 ≤ (n : ℝ) * 100 := by
    refine (Finset.sum_le_sum fun i _ => (?_ : (Y i - 0) ^ 2 ≤ 100)).trans_eq (by simp)
    rw [sub_zero, ← sq_abs]
    have := pow_le_pow_left₀ (abs_nonneg _) (hY i) 2
    norm_num at this ⊢
    exact this
  rw [← Real.sqrt_mul hn0]
  apply Real.sqrt_le_iff.2
  refine ⟨by norm_num, ?_⟩
  have h2 := mul_le_mul hn (h1.trans (mul_le_mul_of_nonneg_right hn (by norm_num)))
    (Finset.sum_nonneg fun i _ => sq_nonneg _) (by norm_num)
  norm_num at h2 ⊢
  exact h2

/-- The mean improvement moves by at most `3 / 2` of a change of the mean. -/
theorem meanImprovement_moves {b m m' s : ℝ} (hs : 0 < s) :
    |meanImprovement b m' s - meanImprovement b m s| ≤ 3 / 2 * |m' - m| := by
  have h := ei_slope_mean (b := b) hs.le le_rfl (by linarith : 0 < s + 0) m m'
  rw [add_zero] at h
  rw [meanImprovement, meanImprovement, Acquisition.expect_improve_eq m s b hs, Acquisition.expect_improve_eq m' s b hs]
  exact h

/-- Rounding of normalised responses hardly moves a mean. -/
theorem default_shift {n : ℕ} (hn : (n : ℝ) ≤ 10) {s m m' : ℝ} (hs : s ^ 2 ≤ 1) {Y Z : Fin n → ℝ}
    (hZ : ∀ i, |Y i - Z i| ≤ 6 / 10 ^ 15)
    (h : (m - m') ^ 2 * (4 * ((1 / 100) ^ 2 + 1 / 100000)) ≤ s ^ 2 * ∑ i, (Y i - Z i) ^ 2) :
    |m - m'| ≤ 1 / 10 ^ 12 := by
  have h1 : ∑ i, (Y i - Z i) ^ 2 ≤ (n : ℝ) * (6 / 10 ^ 15) ^ 2 := by
    refine (Finset.sum_le_sum fun i _ => (?_ : (Y i - Z i) ^ 2 ≤ (6 / 10 ^ 15) ^ 2)).trans_eq (by simp)
    rw [← sq_abs]
    exact pow_le_pow_left₀ (abs_nonneg _) (hZ i) 2
  have h2 : s ^ 2 * ∑ i, (Y i - Z i) ^ 2 ≤ 1 * (10 * (6 / 10 ^ 15) ^ 2) :=
    mul_le_mul hs (h1.trans (mul_le_mul_of_nonneg_right hn (by norm_num)))
      (Finset.sum_nonneg fun i _ => sq_nonneg _) (by norm_num)
  refine abs_le_of_sq_le_sq ?_ (by norm_num)
  have h3 := h.trans h2
  norm_num at h3 ⊢
  linarith

theorem default_sum {v a a' y Δ tiny m m' : ℝ} (h1 : |v - a| ≤ Δ + 1 / 200000)
    (h2 : |v| ≤ 10 ^ 6 + 1293 / 10 ^ 4) (hΔ : Δ ≤ 1293 / 10 ^ 4)
    (h3 : |y - v * 10| ≤ 1 / 2 ^ 53 * (|v| * 10) + tiny) (ht : tiny ≤ 1 / 10 ^ 20)
    (h4 : |m - m'| ≤ 1 / 10 ^ 12) (h5 : |a - a'| ≤ 3 / 2 * |m - m'|) : |y / 10 - a'| ≤ 13 / 100 := by
  obtain ⟨a1, a2⟩ := abs_le.1 h1
  have e1 : 1 / 2 ^ 53 * (|v| * 10) + tiny ≤ 1 / 10 ^ 8 := by
    norm_num at h2 ht ⊢
    linarith
  obtain ⟨b1, b2⟩ := abs_le.1 (h3.trans e1)
  obtain ⟨c1, c2⟩ := abs_le.1 (h5.trans (mul_le_mul_of_nonneg_left h4 (by norm_num)))
  rw [abs_le]
  norm_num at *
  constructor <;> linarith

/-- The quadratic part of the likelihood with the default noise. -/
theorem default_quadratic {n E u A γ t a τ : ℝ} (hn : n ≤ 10) (hn0 : 0 ≤ n) (hτ : τ = 11 / 10 ^ 5)
    (hE0 : 0 ≤ E) (hnE : n * E ≤ 5 / 10 ^ 12) (hu0 : 0 ≤ u) (hu1 : u ≤ 1 / 10 ^ 15)
    (hγ1 : γ ≤ 5 / 10 ^ 15) (ht : t ≤ 1 / 10 ^ 15)
    (hA : A = (√n * (1 / 10 ^ 9) + u * 32 + n * E * (32 / τ)) / (τ - n * E))
    (ha : a = (1 + u) * 32 * A + u * 32 * (32 / τ) + γ * ((1 + u) * 32 * (32 / τ + A)) + t) :
    0 ≤ A ∧ a ≤ 426 / 10 ^ 3 := by
  have hq : √n ≤ 4 := Real.sqrt_le_iff.2 ⟨by norm_num, by linarith⟩
  have hnE0 : 0 ≤ n * E := mul_nonneg hn0 hE0
  have hgap : 10999 / 10 ^ 8 ≤ τ - n * E := by
    rw [hτ]
    norm_num at hnE ⊢
    linarith
  have hgap0 : 0 < τ - n * E := lt_of_lt_of_le (by norm_num) hgap
  have hτ0 : 0 < τ := by rw [hτ]; norm_num
  have h32 : 32 / τ ≤ 290910 := by rw [hτ]; norm_num
  have h320 : 0 ≤ 32 / τ := by positivity
  have hA0 : 0 ≤ A := by rw [hA]; exact div_nonneg (by positivity) hgap0.le
  have hA1 : A ≤ 133 / 10 ^ 4 := by
    have h1 : n * E * (32 / τ) ≤ 5 / 10 ^ 12 * 290910 := mul_le_mul hnE h32 h320 (by norm_num)
    have h2 : √n * (1 / 10 ^ 9) + u * 32 + n * E * (32 / τ) ≤ 1460 / 10 ^ 9 := by
      norm_num at h1 hu1 ⊢
      linarith
    rw [hA]
    exact (div_le_div₀ (by norm_num) h2 (by norm_num) hgap).trans (by norm_num)
  refine ⟨hA0, ?_⟩
  have h1 : (1 + u) * 32 * A ≤ (1 + 1 / 10 ^ 15) * 32 * (133 / 10 ^ 4) :=
    mul_le_mul (by linarith) hA1 hA0 (by norm_num)
  have h2 : u * 32 * (32 / τ) ≤ 1 / 10 ^ 15 * 32 * 290910 :=
    mul_le_mul (by linarith) h32 h320 (by norm_num)
  have h3 : (1 + u) * 32 * (32 / τ + A) ≤ (1 + 1 / 10 ^ 15) * 32 * 290911 :=
    mul_le_mul (by linarith) (by norm_num at hA1 ⊢; linarith) (by positivity) (by norm_num)
  have h4 : γ * ((1 + u) * 32 * (32 / τ + A)) ≤ 5 / 10 ^ 15 * ((1 + 1 / 10 ^ 15) * 32 * 290911) :=
    mul_le_mul hγ1 h3 (by positivity) (by norm_num)
  rw [ha]
  refine (add_le_add (add_le_add (add_le_add h1 h2) h4) ht).trans ?_
  norm_num

/-- The other part. -/
theorem default_determinant {n u κ g c b : ℝ} (hn : n ≤ 10) (hn0 : 0 ≤ n) (hu0 : 0 ≤ u)
    (hu1 : u ≤ 1 / 10 ^ 15) (hκ0 : 0 ≤ κ) (hκ1 : κ ≤ 2 / 10 ^ 12) (hgap : 10999 / 10 ^ 8 ≤ g)
    (hroot : 1 / 100 ≤ c)
    (hb : b = n * (1 / 2 ^ 50 * 5 + u + 101 / 10 ^ 9 / c) +
      2 * n * u * (n * ((1 + 1 / 2 ^ 50) * 5)) + n * √n * κ / g / 2) : b ≤ 2 / 10 ^ 4 := by
  have hq : √n ≤ 4 := Real.sqrt_le_iff.2 ⟨by norm_num, by linarith⟩
  have h1 : 101 / 10 ^ 9 / c ≤ 101 / 10 ^ 9 / (1 / 100) :=
    div_le_div_of_nonneg_left (by norm_num) (by norm_num) hroot
  have h10 : 0 ≤ 101 / 10 ^ 9 / c := div_nonneg (by norm_num) (by linarith)
  have h2 : n * √n * κ / g ≤ 10 * 4 * (2 / 10 ^ 12) / (10999 / 10 ^ 8) := by
    refine div_le_div₀ (by positivity) ?_ (by norm_num) hgap
    exact mul_le_mul (mul_le_mul hn hq (Real.sqrt_nonneg _) (by norm_num)) hκ1 hκ0 (by norm_num)
  have h4 : 2 * n * u * (n * ((1 + 1 / 2 ^ 50) * 5)) ≤
      2 * 10 * (1 / 10 ^ 15) * (10 * ((1 + 1 / 2 ^ 50) * 5)) :=
    mul_le_mul (mul_le_mul (by linarith) hu1 hu0 (by norm_num))
      (mul_le_mul_of_nonneg_right hn (by norm_num)) (by positivity) (by norm_num)
  have h5 : n * (1 / 2 ^ 50 * 5 + u + 101 / 10 ^ 9 / c) ≤
      10 * (1 / 2 ^ 50 * 5 + 1 / 10 ^ 15 + 101 / 10 ^ 9 / (1 / 100)) :=
    mul_le_mul hn (by linarith) (by positivity) (by norm_num)
  rw [hb]
  norm_num at h2 h4 h5 ⊢
  linarith

theorem exp_five : (100 : ℝ) ≤ Real.exp 5 := by
  have h1 : (2.7 : ℝ) ≤ Real.exp 1 := by
    have := Real.exp_one_gt_d9
    norm_num at this ⊢
    linarith
  have h2 := pow_le_pow_left₀ (by norm_num) h1 5
  rw [← Real.exp_nat_mul] at h2
  norm_num at h2 ⊢
  linarith

end Verif.Lemmas
