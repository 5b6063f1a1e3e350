import Verif.Lemmas.Kernel
import Verif.Model.Gp

/-! Gaussian process prediction in closed form. -/

namespace Verif.Lemmas

open Verif.Spec Verif.Covariance Verif.UtilsCovariance Verif.Constants Verif.Gp Matrix

/-- The posterior covariance in closed form. -/
noncomputable def postCov {n m d : ℕ} (base : String) (σ s : ℝ) (l : Fin d → ℝ) (X : Inputs n d)
    (Xs : Inputs m d) : Matrix (Fin m) (Fin m) ℝ :=
  gram base s l Xs Xs + (1 / 100000 : ℝ) • (1 : Matrix (Fin m) (Fin m) ℝ) -
    (gram base s l X Xs)ᵀ * (noisyGram base σ s l X)⁻¹ * gram base s l X Xs

/-- The posterior mean of centred responses in closed form. -/
noncomputable def postMean {n m d : ℕ} (base : String) (σ s : ℝ) (l : Fin d → ℝ) (X : Inputs n d)
    (Xs : Inputs m d) (y : Fin n → ℝ) : Fin m → ℝ :=
  ((gram base s l X Xs)ᵀ * (noisyGram base σ s l X)⁻¹) *ᵥ y

theorem validateCommonArgs_suits {n m d : ℕ} {name base : String} {X : Inputs n d}
    {Xs : Inputs m d} (hX : Suits name base X) (hXs : Suits name base Xs) :
    validateCommonArgs X Xs = .ok () := by
  obtain ⟨hb, ⟨rfl, x, y, rfl, rfl⟩ | ⟨rfl, p, x, q, y, hp, hq, rfl, rfl⟩⟩ := suits_cases hX hXs <;>
    rfl

theorem predictWithCov_ok {n m d : ℕ} {name base : String} {X : Inputs n d} {Xs : Inputs m d}
    (hX : Suits name base X) (hXs : Suits name base Xs) {h : HypDict} {σ s : ℝ} {l : Fin d → ℝ}
    (hd : Describes h σ s l) (Y : Fin n → ℝ) (K Kinv : Matrix (Fin n) (Fin n) ℝ)
    {prior : PriorMu d} {μ : Fin n → ℝ} {μs : Fin m → ℝ} (hμ : getPriorMu prior X = .ok μ)
    (hμs : getPriorMu prior Xs = .ok μs) :
    predictWithCov X Y Xs K Kinv h name prior =
      let k := gram base s l X Xs
      let S := gram base s l Xs Xs + (1 / 100000 : ℝ) • (1 : Matrix (Fin m) (Fin m) ℝ) -
        kᵀ * Kinv * k
      .ok ((kᵀ * Kinv) *ᵥ (Y - μ) + μs, fun i => √(max (S i i) 0), S) := by
  have hsym : (Matrix.of fun i j => ((gram base s l Xs Xs + JITTER_COV •
      (1 : Matrix (Fin m) (Fin m) ℝ)) i j + (gram base s l Xs Xs + JITTER_COV •
      (1 : Matrix (Fin m) (Fin m) ℝ)) j i) / 2) = gram base s l Xs Xs +
      (1 / 100000 : ℝ) • (1 : Matrix (Fin m) (Fin m) ℝ) := by
    ext i j
    have hj : JITTER_COV = 1 / 100000 := by norm_num [JITTER_COV]
    have hs := gram_symm base s l Xs Xs j i
    simp only [Matrix.of_apply, Matrix.add_apply, Matrix.smul_apply, hs, Matrix.one_apply, hj,
      eq_comm (a := j)]
    ring
  simp only [predictWithCov, validateCommonArgs_suits hX hXs, checkStrCov_suits2 hX hXs, hμ, hμs,
    covMain_diff hX hXs hd, covMain_same hXs hd, bind, Except.bind, pure, Except.pure, hsym]
  rfl

theorem predictWithHyps_ok {n m d : ℕ} {name base : String} {X : Inputs n d} {Xs : Inputs m d}
    (hX : Suits name base X) (hXs : Suits name base Xs) {h : HypDict} {σ s : ℝ} {l : Fin d → ℝ}
    (hd : Describes h σ s l) (Y : Fin n → ℝ)
    {prior : PriorMu d} {μ : Fin n → ℝ} {μs : Fin m → ℝ} (hμ : getPriorMu prior X = .ok μ)
    (hμs : getPriorMu prior Xs = .ok μs) :
    predictWithHyps X Y Xs h name prior = .ok (postMean base σ s l X Xs (Y - μ) + μs,
      fun i => √(max (postCov base σ s l X Xs i i) 0), postCov base σ s l X Xs) := by
  simp only [predictWithHyps, validateCommonArgs_suits hX hXs, checkStrCov_suits2 hX hXs,
    getKernelInverse_ok hX hd, bind, Except.bind,
    predictWithCov_ok hX hXs hd Y _ _ hμ hμs, postMean, postCov]

/-- The variance of a combination of test values minus a combination of noisy observations. -/
noncomputable def errForm {n m d : ℕ} (base : String) (σ s : ℝ) (l : Fin d → ℝ) (X : Inputs n d)
    (Xs : Inputs m d) (c : Fin m → ℝ) (w : Fin n → ℝ) : ℝ :=
  c ⬝ᵥ ((gram base s l Xs Xs + (1 / 100000 : ℝ) • (1 : Matrix (Fin m) (Fin m) ℝ)) *ᵥ c) -
    2 * (w ⬝ᵥ (gram base s l X Xs *ᵥ c)) + w ⬝ᵥ (noisyGram base σ s l X *ᵥ w)

theorem joint_nonneg {n m d : ℕ} (base : String) (s : ℝ) (l : Fin d → ℝ) (X : Inputs n d)
    (Xs : Inputs m d) (c : Fin m → ℝ) (w : Fin n → ℝ) :
    0 ≤ c ⬝ᵥ (gram base s l Xs Xs *ᵥ c) - 2 * (w ⬝ᵥ (gram base s l X Xs *ᵥ c)) +
      w ⬝ᵥ (gram base s l X X *ᵥ w) := by
  have := setKernel_quad base s l (fun a : Fin n ⊕ Fin m => (Sum.elim (item X) (item Xs) a).1)
    (fun a => (Sum.elim (item X) (item Xs) a).2) (Sum.elim (fun i => -w i) c)
  simp only [Fintype.sum_sum_type, Sum.elim_inl, Sum.elim_inr, Finset.sum_add_distrib] at this
  have e1 : ∀ x y : Item d, setKernel base s l x.2 y.2 = itemKernel base s l x y := fun _ _ => rfl
  simp only [e1] at this
  have e2 : ∑ i, ∑ j, c i * itemKernel base s l (item Xs i) (item X j) * -w j =
      ∑ i, ∑ j, -w i * itemKernel base s l (item X i) (item Xs j) * c j := by
    rw [Finset.sum_comm]
    refine Finset.sum_congr rfl fun i _ => Finset.sum_congr rfl fun j _ => ?_
    have := gram_symm base s l Xs X j i
    simp only [gram, Matrix.of_apply] at this
    rw [this]; ring
  rw [e2] at this
  simp only [dotProduct, mulVec, gram, Matrix.of_apply, Finset.mul_sum]
  simp only [neg_mul, Finset.sum_neg_distrib, mul_neg, neg_neg] at this
  have e3 : ∀ (a b : ℝ), a * b = a * b := fun _ _ => rfl
  simp only [mul_assoc] at this ⊢
  simp only [← Finset.mul_sum] at this ⊢
  linarith

theorem dot_self_nonneg {n : ℕ} (w : Fin n → ℝ) : 0 ≤ w ⬝ᵥ w :=
  Finset.sum_nonneg fun _ _ => mul_self_nonneg _

theorem errForm_ge {n m d : ℕ} (base : String) (σ s : ℝ) (l : Fin d → ℝ) (X : Inputs n d)
    (Xs : Inputs m d) (c : Fin m → ℝ) (w : Fin n → ℝ) :
    (1 / 100000) * (c ⬝ᵥ c) + (σ ^ 2 + 1 / 100000) * (w ⬝ᵥ w) ≤ errForm base σ s l X Xs c w := by
  have := joint_nonneg base s l X Xs c w
  simp only [errForm, noisyGram, Matrix.add_mulVec, dotProduct_add, Matrix.smul_mulVec,
    Matrix.one_mulVec, dotProduct_smul, smul_eq_mul]
  linarith

theorem noisyGram_transpose {n d : ℕ} (base : String) (σ s : ℝ) (l : Fin d → ℝ)
    (X : Inputs n d) : (noisyGram base σ s l X)ᵀ = noisyGram base σ s l X := by
  ext i j
  exact noisyGram_symm base σ s l X j i

/-- Completing the square: the error form exceeds the posterior form by a square. -/
theorem errForm_eq {n m d : ℕ} (base : String) (σ s : ℝ) (l : Fin d → ℝ) (X : Inputs n d)
    (Xs : Inputs m d) (c : Fin m → ℝ) (w : Fin n → ℝ) :
    errForm base σ s l X Xs c w = c ⬝ᵥ (postCov base σ s l X Xs *ᵥ c) +
      (w - (noisyGram base σ s l X)⁻¹ *ᵥ (gram base s l X Xs *ᵥ c)) ⬝ᵥ
        (noisyGram base σ s l X *ᵥ (w - (noisyGram base σ s l X)⁻¹ *ᵥ (gram base s l X Xs *ᵥ c))) := by
  have hp := noisyGram_posDef base σ s l X
  have hu : IsUnit (noisyGram base σ s l X).det := hp.det_pos.ne'.isUnit
  have ht := noisyGram_transpose base σ s l X
  set K := noisyGram base σ s l X with hK
  set k := gram base s l X Xs with hk
  set v := k *ᵥ c with hv
  have h1 : K *ᵥ (K⁻¹ *ᵥ v) = v := by
    rw [Matrix.mulVec_mulVec, Matrix.mul_nonsing_inv _ hu, Matrix.one_mulVec]
  have h2 : (K⁻¹ *ᵥ v) ⬝ᵥ (K *ᵥ w) = v ⬝ᵥ w := by
    rw [Matrix.dotProduct_mulVec, ← Matrix.mulVec_transpose, ht, h1]
  have h3 : c ⬝ᵥ ((kᵀ * K⁻¹ * k) *ᵥ c) = (K⁻¹ *ᵥ v) ⬝ᵥ v := by
    rw [← Matrix.mulVec_mulVec, ← Matrix.mulVec_mulVec, ← hv, Matrix.dotProduct_mulVec,
      Matrix.vecMul_transpose, dotProduct_comm]
  rw [errForm, postCov, Matrix.sub_mulVec, dotProduct_sub, ← hK, ← hk, h3, Matrix.mulVec_sub, h1,
    sub_dotProduct, dotProduct_sub, dotProduct_sub, h2, dotProduct_comm v w]
  ring

theorem quad_eq_dot {n : ℕ} (A : Matrix (Fin n) (Fin n) ℝ) (c : Fin n → ℝ) :
    ∑ i, ∑ j, c i * A i j * c j = c ⬝ᵥ (A *ᵥ c) := by
  simp [dotProduct, mulVec, Finset.mul_sum, mul_assoc]

/-- The posterior form is at least the jitter. -/
theorem postCov_ge {n m d : ℕ} (base : String) (σ s : ℝ) (l : Fin d → ℝ) (X : Inputs n d)
    (Xs : Inputs m d) (c : Fin m → ℝ) :
    (1 / 100000) * (c ⬝ᵥ c) ≤ c ⬝ᵥ (postCov base σ s l X Xs *ᵥ c) := by
  have h1 := errForm_eq base σ s l X Xs c ((noisyGram base σ s l X)⁻¹ *ᵥ (gram base s l X Xs *ᵥ c))
  have h2 := errForm_ge base σ s l X Xs c
    ((noisyGram base σ s l X)⁻¹ *ᵥ (gram base s l X Xs *ᵥ c))
  rw [sub_self, zero_dotProduct, add_zero] at h1
  rw [← h1]
  have h3 := mul_nonneg (by positivity : (0 : ℝ) ≤ σ ^ 2 + 1 / 100000)
    (dot_self_nonneg ((noisyGram base σ s l X)⁻¹ *ᵥ (gram base s l X Xs *ᵥ c)))
  linarith

/-- The posterior form is below every error form. -/
theorem postCov_le {n m d : ℕ} (base : String) (σ s : ℝ) (l : Fin d → ℝ) (X : Inputs n d)
    (Xs : Inputs m d) (c : Fin m → ℝ) (w : Fin n → ℝ) :
    c ⬝ᵥ (postCov base σ s l X Xs *ᵥ c) ≤ errForm base σ s l X Xs c w := by
  rw [errForm_eq]
  have := (noisyGram_posDef base σ s l X).posSemidef.dotProduct_mulVec_nonneg
    (w - (noisyGram base σ s l X)⁻¹ *ᵥ (gram base s l X Xs *ᵥ c))
  simp only [star_trivial] at this
  linarith

theorem postCov_symm {n m d : ℕ} (base : String) (σ s : ℝ) (l : Fin d → ℝ) (X : Inputs n d)
    (Xs : Inputs m d) (i j : Fin m) :
    postCov base σ s l X Xs i j = postCov base σ s l X Xs j i := by
  have hi : ((noisyGram base σ s l X)⁻¹)ᵀ = (noisyGram base σ s l X)⁻¹ := by
    rw [Matrix.transpose_nonsing_inv, noisyGram_transpose]
  have hg : (gram base s l Xs Xs)ᵀ = gram base s l Xs Xs := by
    ext i j; exact gram_symm base s l Xs Xs j i
  have : (postCov base σ s l X Xs)ᵀ = postCov base σ s l X Xs := by
    simp only [postCov, Matrix.transpose_sub, Matrix.transpose_add, Matrix.transpose_smul,
      Matrix.transpose_one, Matrix.transpose_mul, Matrix.transpose_transpose, hi, hg,
      Matrix.mul_assoc]
  exact congrFun (congrFun this j) i

theorem single_quad {m : ℕ} (A : Matrix (Fin m) (Fin m) ℝ) (i : Fin m) :
    (Pi.single i 1 : Fin m → ℝ) ⬝ᵥ (A *ᵥ Pi.single i 1) = A i i := by
  simp

/-- The posterior variance is at least the jitter. -/
theorem postCov_diag_ge {n m d : ℕ} (base : String) (σ s : ℝ) (l : Fin d → ℝ) (X : Inputs n d)
    (Xs : Inputs m d) (i : Fin m) : 1 / 100000 ≤ postCov base σ s l X Xs i i := by
  have := postCov_ge base σ s l X Xs (Pi.single i 1)
  simpa using this

end Verif.Lemmas
