import Verif.Lemmas.Objective
import Mathlib.Algebra.Order.BigOperators.Ring.Finset

/-! How far predictions move with the responses and with errors in the matrices (for C101, C102). -/

namespace Verif.Lemmas

open Verif.Spec Verif.Covariance
open Matrix

variable {n m d : ℕ}

theorem gram_bound (base : String) (s : ℝ) (l : Fin d → ℝ) (X : Inputs n d) (Xs : Inputs m d)
    (i : Fin n) (j : Fin m) : 0 ≤ gram base s l X Xs i j ∧ gram base s l X Xs i j ≤ s ^ 2 :=
  itemKernel_bound (sq_nonneg s) fun _ _ => kernel_le ..

theorem mul_inv_vec {A : Matrix (Fin n) (Fin n) ℝ} (hA : A.PosDef) (y : Fin n → ℝ) :
    A *ᵥ (A⁻¹ *ᵥ y) = y := by
  rw [Matrix.mulVec_mulVec, Matrix.mul_nonsing_inv _ hA.det_pos.ne'.isUnit, Matrix.one_mulVec]

theorem postMean_apply (base : String) (σ s : ℝ) (l : Fin d → ℝ) (X : Inputs n d) (Xs : Inputs m d)
    (y : Fin n → ℝ) (j : Fin m) : postMean base σ s l X Xs y j =
      ((noisyGram base σ s l X)⁻¹ *ᵥ y) ⬝ᵥ (gram base s l X Xs *ᵥ Pi.single j 1) := by
  rw [postMean, ← Matrix.mulVec_mulVec, Matrix.mulVec_transpose, Matrix.mulVec_single_one]
  rfl

/-- The posterior mean is a contraction up to `s / (2 √τ)`. -/
theorem postMean_le (base : String) (σ s : ℝ) (l : Fin d → ℝ) (X : Inputs n d) (Xs : Inputs m d)
    (y : Fin n → ℝ) (j : Fin m) :
    postMean base σ s l X Xs y j ^ 2 * (4 * (σ ^ 2 + 1 / 100000)) ≤ s ^ 2 * (y ⬝ᵥ y) := by
  set τ : ℝ := σ ^ 2 + 1 / 100000 with hτ
  have hτ0 : 0 < τ := by positivity
  set v := (noisyGram base σ s l X)⁻¹ *ᵥ y with hv
  have hN : noisyGram base σ s l X *ᵥ v = y := mul_inv_vec (noisyGram_posDef base σ s l X) y
  rw [postMean_apply, ← hv]
  set p := v ⬝ᵥ (gram base s l X Xs *ᵥ Pi.single j 1) with hp
  set q := v ⬝ᵥ (gram base s l X X *ᵥ v) with hq
  have h1 : ∀ t : ℝ, 0 ≤ t ^ 2 * s ^ 2 - 2 * t * p + q := by
    intro t
    have := joint_nonneg base s l X Xs (t • Pi.single j 1) v
    rw [Matrix.mulVec_smul, Matrix.mulVec_smul, smul_dotProduct, dotProduct_smul, dotProduct_smul,
      single_quad, ← hp, ← hq] at this
    simp only [smul_eq_mul] at this
    have hb := mul_le_mul_of_nonneg_left (gram_bound base s l Xs Xs j j).2 (sq_nonneg t)
    nlinarith
  have h2 : p ^ 2 ≤ s ^ 2 * q := by
    have hq0 : 0 ≤ q := by simpa using h1 0
    rcases eq_or_lt_of_le (sq_nonneg s) with h0 | h0
    · rw [← h0] at h1 ⊢
      by_contra hc
      push Not at hc
      have hp0 : p ≠ 0 := by
        rintro h
        rw [h] at hc
        norm_num at hc
      have := h1 ((q + 1) / (2 * p))
      have e : 2 * ((q + 1) / (2 * p)) * p = q + 1 := by field_simp
      rw [e] at this
      linarith
    · have := h1 (p / s ^ 2)
      have e : (p / s ^ 2) ^ 2 * s ^ 2 - 2 * (p / s ^ 2) * p + q = q - p ^ 2 / s ^ 2 := by
        field_simp
        ring
      rw [e, sub_nonneg, div_le_iff₀ h0] at this
      linarith
  have h3 : y ⬝ᵥ v = q + τ * (v ⬝ᵥ v) := by
    rw [dotProduct_comm, ← hN, noisyGram, Matrix.add_mulVec, dotProduct_add, Matrix.smul_mulVec,
      Matrix.one_mulVec, dotProduct_smul, smul_eq_mul]
  have h4 := dot_self_nonneg (y - (2 * τ) • v)
  simp only [sub_dotProduct, dotProduct_sub, smul_dotProduct, dotProduct_smul, smul_eq_mul,
    dotProduct_comm v y] at h4
  rw [h3] at h4
  have h5 : 4 * τ * q ≤ y ⬝ᵥ y := by nlinarith
  nlinarith [mul_le_mul_of_nonneg_left h5 (sq_nonneg s), mul_le_mul_of_nonneg_right h2 hτ0.le]

theorem postMean_sub (base : String) (σ s : ℝ) (l : Fin d → ℝ) (X : Inputs n d) (Xs : Inputs m d)
    (y z : Fin n → ℝ) (j : Fin m) : postMean base σ s l X Xs y j - postMean base σ s l X Xs z j =
      postMean base σ s l X Xs (y - z) j := by
  rw [postMean, postMean, postMean, Matrix.mulVec_sub]
  rfl

/-! ### Lengths -/

theorem cauchy (a b : Fin n → ℝ) : |a ⬝ᵥ b| ≤ √(a ⬝ᵥ a) * √(b ⬝ᵥ b) := by
  rw [← Real.sqrt_mul (dot_self_nonneg a)]
  apply Real.abs_le_sqrt
  have := Finset.sum_mul_sq_le_sq_mul_sq Finset.univ a b
  simpa [dotProduct, pow_two] using this

theorem small_mulVec {E : Matrix (Fin n) (Fin m) ℝ} {η : ℝ} (hη : ∀ i j, |E i j| ≤ η)
    (x : Fin m → ℝ) :
    √((E *ᵥ x) ⬝ᵥ (E *ᵥ x)) ≤ √(n * m) * η * √(x ⬝ᵥ x) := by
  rcases Nat.eq_zero_or_pos n with rfl | hn
  · simp
  rcases Nat.eq_zero_or_pos m with rfl | hm
  · simp [dotProduct, mulVec]
  have h0 : 0 ≤ η := (abs_nonneg _).trans (hη ⟨0, hn⟩ ⟨0, hm⟩)
  apply Real.sqrt_le_iff.2
  refine ⟨by positivity, ?_⟩
  rw [mul_pow, mul_pow, Real.sq_sqrt (by positivity), Real.sq_sqrt (dot_self_nonneg x)]
  have h1 : ∀ i, (E *ᵥ x) i * (E *ᵥ x) i ≤ m * η ^ 2 * (x ⬝ᵥ x) := by
    intro i
    have := Finset.sum_mul_sq_le_sq_mul_sq Finset.univ (E i) x
    have h2 : ∑ j, E i j ^ 2 ≤ m * η ^ 2 := by
      calc ∑ j, E i j ^ 2 ≤ ∑ _j : Fin m, η ^ 2 :=
            Finset.sum_le_sum fun j _ => sq_le_sq' (abs_le.1 (hη i j)).1 (abs_le.1 (hη i j)).2
        _ = m * η ^ 2 := by simp
    have e : ∑ j, x j ^ 2 = x ⬝ᵥ x := by simp [dotProduct, pow_two]
    rw [e] at this
    have h3 := mul_le_mul_of_nonneg_right h2 (dot_self_nonneg x)
    rw [← pow_two]
    exact this.trans h3
  calc (E *ᵥ x) ⬝ᵥ (E *ᵥ x) ≤ ∑ _i : Fin n, m * η ^ 2 * (x ⬝ᵥ x) :=
        Finset.sum_le_sum fun i _ => h1 i
    _ = n * m * η ^ 2 * (x ⬝ᵥ x) := by simp; ring

theorem small_square {E : Matrix (Fin n) (Fin n) ℝ} {η : ℝ} (hη : ∀ i j, |E i j| ≤ η)
    (x : Fin n → ℝ) : √((E *ᵥ x) ⬝ᵥ (E *ᵥ x)) ≤ n * η * √(x ⬝ᵥ x) := by
  have := small_mulVec hη x
  rwa [Real.sqrt_mul_self (Nat.cast_nonneg n)] at this

theorem column_length (base : String) (s : ℝ) (l : Fin d → ℝ) (X : Inputs n d) (Xs : Inputs m d)
    (j : Fin m) : √((fun i => gram base s l X Xs i j) ⬝ᵥ (fun i => gram base s l X Xs i j)) ≤
      s ^ 2 * √n := by
  apply Real.sqrt_le_iff.2
  refine ⟨by positivity, ?_⟩
  rw [mul_pow, Real.sq_sqrt (by positivity)]
  calc (fun i => gram base s l X Xs i j) ⬝ᵥ (fun i => gram base s l X Xs i j) ≤
        ∑ _i : Fin n, (s ^ 2) ^ 2 := Finset.sum_le_sum fun i _ => by
          obtain ⟨a, b⟩ := gram_bound base s l X Xs i j
          simp only
          nlinarith
    _ = (s ^ 2) ^ 2 * n := by simp; ring

/-- A matrix whose form is at least `τ` times the square does not shorten below `τ`. -/
theorem length_le {A : Matrix (Fin n) (Fin n) ℝ} {τ : ℝ}
    (hA : ∀ x, τ * (x ⬝ᵥ x) ≤ x ⬝ᵥ (A *ᵥ x)) (x : Fin n → ℝ) :
    τ * √(x ⬝ᵥ x) ≤ √((A *ᵥ x) ⬝ᵥ (A *ᵥ x)) := by
  have h1 := (hA x).trans ((le_abs_self _).trans (cauchy x (A *ᵥ x)))
  rcases eq_or_lt_of_le (Real.sqrt_nonneg (x ⬝ᵥ x)) with h0 | h0
  · rw [← h0, mul_zero]
    exact Real.sqrt_nonneg _
  · have h2 : x ⬝ᵥ x = √(x ⬝ᵥ x) * √(x ⬝ᵥ x) := (Real.mul_self_sqrt (dot_self_nonneg x)).symm
    have h3 : √(x ⬝ᵥ x) * (τ * √(x ⬝ᵥ x)) ≤ √(x ⬝ᵥ x) * √((A *ᵥ x) ⬝ᵥ (A *ᵥ x)) := by
      rw [h2] at h1
      rw [Real.sqrt_mul_self h0.le] at h1
      linarith
    exact le_of_mul_le_mul_left h3 h0

theorem noisyGram_form (base : String) (σ s : ℝ) (l : Fin d → ℝ) (X : Inputs n d)
    (x : Fin n → ℝ) :
    (σ ^ 2 + 1 / 100000) * (x ⬝ᵥ x) ≤ x ⬝ᵥ (noisyGram base σ s l X *ᵥ x) := by
  have := (gram_posSemidef base s l X).dotProduct_mulVec_nonneg x
  simp only [star_trivial] at this
  rw [noisyGram, Matrix.add_mulVec, dotProduct_add, Matrix.smul_mulVec,
      Matrix.one_mulVec, dotProduct_smul, smul_eq_mul]
  linarith

theorem near_form {base : String} {σ s : ℝ} {l : Fin d → ℝ} {X : Inputs n d}
    {K : Matrix (Fin n) (Fin n) ℝ} {η : ℝ} (hη : ∀ i j, |K i j - noisyGram base σ s l X i j| ≤ η)
    (x : Fin n → ℝ) :
    (σ ^ 2 + 1 / 100000 - n * η) * (x ⬝ᵥ x) ≤ x ⬝ᵥ (K *ᵥ x) := by
  have h1 := noisyGram_form base σ s l X x
  have h2 := small_square (E := K - noisyGram base σ s l X) hη x
  have h3 := cauchy x ((K - noisyGram base σ s l X) *ᵥ x)
  have e : x ⬝ᵥ (K *ᵥ x) = x ⬝ᵥ (noisyGram base σ s l X *ᵥ x) +
      x ⬝ᵥ ((K - noisyGram base σ s l X) *ᵥ x) := by
    rw [← dotProduct_add, ← Matrix.add_mulVec, add_sub_cancel]
  have h4 := mul_le_mul_of_nonneg_left h2 (Real.sqrt_nonneg (x ⬝ᵥ x))
  have h5 := Real.mul_self_sqrt (dot_self_nonneg x)
  have h6 : √(x ⬝ᵥ x) * (n * η * √(x ⬝ᵥ x)) = n * η * (x ⬝ᵥ x) := by
    rw [show √(x ⬝ᵥ x) * (n * η * √(x ⬝ᵥ x)) = n * η * (√(x ⬝ᵥ x) * √(x ⬝ᵥ x)) by ring, h5]
  rw [e]
  have h7 := (abs_le.1 h3).1
  linarith

theorem near_posDef {base : String} {σ s : ℝ} {l : Fin d → ℝ} {X : Inputs n d}
    {K : Matrix (Fin n) (Fin n) ℝ} {η : ℝ} (hs : ∀ i j, K i j = K j i)
    (hη : ∀ i j, |K i j - noisyGram base σ s l X i j| ≤ η) (hn : n * η < σ ^ 2 + 1 / 100000) :
    K.PosDef := by
  refine Matrix.PosDef.of_dotProduct_mulVec_pos (by ext i j; simpa using hs j i) fun x hx => ?_
  have h1 := near_form hη x
  have h2 : 0 < x ⬝ᵥ x := by
    refine lt_of_le_of_ne (dot_self_nonneg x) fun h => hx ?_
    exact dotProduct_self_eq_zero.1 h.symm
  simp only [star_trivial]
  exact (mul_pos (sub_pos.2 hn) h2).trans_le h1

/-- Solving with a nearby matrix. -/
theorem near_solve {base : String} {σ s : ℝ} {l : Fin d → ℝ} {X : Inputs n d}
    {K : Matrix (Fin n) (Fin n) ℝ} {η : ℝ} (hs : ∀ i j, K i j = K j i)
    (hη : ∀ i j, |K i j - noisyGram base σ s l X i j| ≤ η) (hn : n * η < σ ^ 2 + 1 / 100000)
    (y : Fin n → ℝ) :
    √((K⁻¹ *ᵥ y - (noisyGram base σ s l X)⁻¹ *ᵥ y) ⬝ᵥ (K⁻¹ *ᵥ y - (noisyGram base σ s l X)⁻¹ *ᵥ y)) ≤
      n * η / ((σ ^ 2 + 1 / 100000) * (σ ^ 2 + 1 / 100000 - n * η)) * √(y ⬝ᵥ y) := by
  set τ : ℝ := σ ^ 2 + 1 / 100000 with hτ
  have hτ0 : 0 < τ := by positivity
  set N := noisyGram base σ s l X with hNdef
  set u := K⁻¹ *ᵥ y with hu
  set v := N⁻¹ *ᵥ y with hv
  have hK : K *ᵥ u = y := mul_inv_vec (near_posDef hs hη hn) y
  have hN : N *ᵥ v = y := mul_inv_vec (noisyGram_posDef base σ s l X) y
  have h1 : N *ᵥ (u - v) = -((K - N) *ᵥ u) := by
    rw [Matrix.mulVec_sub, Matrix.sub_mulVec, hK, hN]
    abel
  have h2 := length_le (noisyGram_form base σ s l X) (u - v)
  rw [← hNdef, h1, neg_dotProduct, dotProduct_neg, neg_neg, ← hτ] at h2
  have h3 := small_square (E := K - N) hη u
  have h4 := length_le (near_form hη) u
  rw [hK, ← hτ] at h4
  have hη0 : 0 ≤ (n : ℝ) * η := by
    rcases Nat.eq_zero_or_pos n with rfl | hn
    · simp
    · have := (abs_nonneg _).trans (hη ⟨0, hn⟩ ⟨0, hn⟩)
      positivity
  have hp : 0 < τ - n * η := sub_pos.2 hn
  have h5 : √(u ⬝ᵥ u) ≤ √(y ⬝ᵥ y) / (τ - n * η) := by
    rw [le_div_iff₀ hp]
    linarith
  have h6 := mul_le_mul_of_nonneg_left h5 hη0
  have e : n * η / (τ * (τ - n * η)) * √(y ⬝ᵥ y) = (n * η * (√(y ⬝ᵥ y) / (τ - n * η))) / τ := by
    field_simp
  rw [e, le_div_iff₀ hτ0]
  linarith

/-- The combined effect of a nearby matrix and of an inexact inverse of it. -/
theorem near_inverse {base : String} {σ s : ℝ} {l : Fin d → ℝ} {X : Inputs n d}
    {K V : Matrix (Fin n) (Fin n) ℝ} {η θ : ℝ} (hs : ∀ i j, K i j = K j i)
    (hη : ∀ i j, |K i j - noisyGram base σ s l X i j| ≤ η) (hn : n * η < σ ^ 2 + 1 / 100000)
    (hθ : ∀ i j, |V i j - K⁻¹ i j| ≤ θ) (Xs : Inputs m d) (y : Fin n → ℝ) (j : Fin m) :
    |(((gram base s l X Xs)ᵀ * V) *ᵥ y) j - postMean base σ s l X Xs y j| ≤
      s ^ 2 * √n * (n * η / ((σ ^ 2 + 1 / 100000) * (σ ^ 2 + 1 / 100000 - n * η)) + n * θ) *
        √(y ⬝ᵥ y) := by
  set k : Fin n → ℝ := fun i => gram base s l X Xs i j with hk
  have e : (((gram base s l X Xs)ᵀ * V) *ᵥ y) j - postMean base σ s l X Xs y j =
      k ⬝ᵥ ((V - K⁻¹) *ᵥ y) + k ⬝ᵥ (K⁻¹ *ᵥ y - (noisyGram base σ s l X)⁻¹ *ᵥ y) := by
    rw [← dotProduct_add, Matrix.sub_mulVec, sub_add_sub_cancel, dotProduct_sub, postMean,
      ← Matrix.mulVec_mulVec, ← Matrix.mulVec_mulVec]
    rfl
  have h1 := (cauchy k ((V - K⁻¹) *ᵥ y)).trans (mul_le_mul (column_length base s l X Xs j)
    (small_square (E := V - K⁻¹) hθ y) (Real.sqrt_nonneg _) (by positivity))
  have h2 := (cauchy k (K⁻¹ *ᵥ y - (noisyGram base σ s l X)⁻¹ *ᵥ y)).trans
    (mul_le_mul (column_length base s l X Xs j)
    (near_solve hs hη hn y) (Real.sqrt_nonneg _) (by positivity))
  rw [e]
  refine (abs_add_le _ _).trans ((add_le_add h1 h2).trans_eq ?_)
  ring

theorem abs_sqrt_sub_le {a b D : ℝ} (ha : 0 ≤ a) (hb : |b - a| ≤ D) :
    |√(max b 0) - √a| ≤ √D := by
  refine le_of_forall_gt_imp_ge_of_dense fun ε hε => ?_
  have hε0 : 0 < ε := (Real.sqrt_nonneg _).trans_lt hε
  refine (sqrt_near ha hε0 ?_).le
  refine hb.trans_lt ?_
  exact (Real.sqrt_lt' hε0).1 hε

end Verif.Lemmas
