import Verif.Lemmas.Student
import Verif.Lemmas.Gp
import Verif.Lemmas.Tp
import Verif.Props.GpPosterior
import Mathlib.Logic.Equiv.Fin.Basic
import Mathlib.Data.Fin.Tuple.Basic
import Mathlib.Probability.Distributions.Gaussian.Real

/-! The densities of the responses in two batches: the density of the first times the predictive
density of the second. -/

namespace Verif.Lemmas

open Verif.Spec Verif.Covariance
open Matrix hiding gram

section General

variable {ι κ : Type*} [Fintype ι] [DecidableEq ι] [Fintype κ] [DecidableEq κ]

theorem mvnDensity_pos (m : ι → ℝ) {K : Matrix ι ι ℝ} (hK : K.PosDef) (y : ι → ℝ) :
    0 < mvnDensity m K y :=
  div_pos (Real.exp_pos _) (Real.sqrt_pos.mpr (mul_pos (by positivity) hK.det_pos))

/-- The normal density of a block factorises. -/
theorem mvnDensity_block {K : Matrix ι ι ℝ} {k : Matrix ι κ ℝ} {C S : Matrix κ κ ℝ}
    (hK : K.PosDef) (hS : S = C - kᵀ * K⁻¹ * k) (hSp : S.PosDef) (m y : ι → ℝ) (ms f : κ → ℝ) :
    mvnDensity (Sum.elim m ms) (fromBlocks K k kᵀ C) (Sum.elim y f) =
      mvnDensity m K y * mvnDensity (ms + (kᵀ * K⁻¹) *ᵥ (y - m)) S f := by
  letI : Invertible K := K.invertibleOfIsUnitDet hK.det_pos.ne'.isUnit
  have hKt : Kᵀ = K := by
    have := hK.isHermitian
    rwa [IsHermitian, conjTranspose_eq_transpose_of_trivial] at this
  have hdet : (fromBlocks K k kᵀ C).det = K.det * S.det := by
    rw [det_fromBlocks₁₁, invOf_eq_nonsing_inv, hS]
  have hel : Sum.elim y f - Sum.elim m ms = Sum.elim (y - m) (f - ms) := by
    ext (i | j) <;> rfl
  unfold mvnDensity
  rw [hel, block_quad hK.det_pos.ne' hKt hS hSp.det_pos.ne', hdet,
    show f - (ms + (kᵀ * K⁻¹) *ᵥ (y - m)) = f - ms - (kᵀ * K⁻¹) *ᵥ (y - m) by abel,
    Fintype.card_sum, mul_add, Real.exp_add, pow_add,
    show (2 * Real.pi) ^ Fintype.card ι * (2 * Real.pi) ^ Fintype.card κ * (K.det * S.det) =
      ((2 * Real.pi) ^ Fintype.card ι * K.det) * ((2 * Real.pi) ^ Fintype.card κ * S.det) by ring,
    Real.sqrt_mul (mul_nonneg (by positivity) hK.det_pos.le), div_mul_div_comm]

theorem form_reindex (e : ι ≃ κ) (K : Matrix κ κ ℝ) (y : κ → ℝ) :
    (y ∘ e) ⬝ᵥ ((K.submatrix e e)⁻¹ *ᵥ (y ∘ e)) = y ⬝ᵥ (K⁻¹ *ᵥ y) := by
  rw [inv_submatrix_equiv, submatrix_mulVec_equiv]
  rw [show (y ∘ e) ∘ e.symm = y by ext; simp]
  exact comp_equiv_dotProduct_comp_equiv y _ e

theorem mvnDensity_reindex (e : ι ≃ κ) (m : κ → ℝ) (K : Matrix κ κ ℝ) (y : κ → ℝ) :
    mvnDensity (m ∘ e) (K.submatrix e e) (y ∘ e) = mvnDensity m K y := by
  unfold mvnDensity
  rw [show y ∘ e - m ∘ e = (y - m) ∘ e from rfl, form_reindex, det_submatrix_equiv_self,
    Fintype.card_congr e]

theorem mvtDensity_reindex (e : ι ≃ κ) (ν : ℝ) (m : κ → ℝ) (K : Matrix κ κ ℝ) (y : κ → ℝ) :
    mvtDensity ν (m ∘ e) (K.submatrix e e) (y ∘ e) = mvtDensity ν m K y := by
  unfold mvtDensity
  rw [show y ∘ e - m ∘ e = (y - m) ∘ e from rfl, form_reindex, det_submatrix_equiv_self,
    Fintype.card_congr e]

end General

theorem append_comp_sum {n k : ℕ} (a : Fin n → ℝ) (b : Fin k → ℝ) :
    Fin.append a b ∘ finSumFinEquiv = Sum.elim a b := by
  ext (i | j) <;> simp

/-- The covariance matrix of the observations of two batches. -/
theorem noisyGram_blocks {n k d : ℕ} {base : String} {σ s : ℝ} {l : Fin d → ℝ}
    {X : Inputs (n + k) d} {X₁ : Inputs n d} {X₂ : Inputs k d}
    (h1 : ∀ i, item X (Fin.castAdd k i) = item X₁ i)
    (h2 : ∀ j, item X (Fin.natAdd n j) = item X₂ j) :
    (noisyGram base σ s l X).submatrix finSumFinEquiv finSumFinEquiv =
      fromBlocks (noisyGram base σ s l X₁) (gram base s l X₁ X₂) (gram base s l X₁ X₂)ᵀ
        (noisyGram base σ s l X₂) := by
  ext (i | i) (j | j)
  · simp [noisyGram, gram, h1, Matrix.one_apply]
  · have : Fin.castAdd k i ≠ Fin.natAdd n j := by
      intro h
      have := congrArg Fin.val h
      simp only [Fin.val_castAdd, Fin.val_natAdd] at this
      omega
    simp [noisyGram, gram, h1, h2, Matrix.one_apply, this]
  · have : Fin.natAdd n i ≠ Fin.castAdd k j := by
      intro h
      have := congrArg Fin.val h
      simp only [Fin.val_castAdd, Fin.val_natAdd] at this
      omega
    have hs := gram_symm base s l X₂ X₁ i j
    simp only [gram, Matrix.of_apply] at hs
    simp [noisyGram, gram, h1, h2, Matrix.one_apply, this, hs]
  · simp [noisyGram, gram, h2, Matrix.one_apply]

/-- The predictive covariance of new observations: that of the function with the noise. -/
theorem postCov_noise {n k d : ℕ} (base : String) (σ s : ℝ) (l : Fin d → ℝ) (X₁ : Inputs n d)
    (X₂ : Inputs k d) :
    postCov base σ s l X₁ X₂ + σ ^ 2 • (1 : Matrix (Fin k) (Fin k) ℝ) =
      noisyGram base σ s l X₂ -
        (gram base s l X₁ X₂)ᵀ * (noisyGram base σ s l X₁)⁻¹ * gram base s l X₁ X₂ := by
  rw [postCov, show noisyGram base σ s l X₂ = gram base s l X₂ X₂ +
    (σ ^ 2 + 1 / 100000) • (1 : Matrix (Fin k) (Fin k) ℝ) from rfl, add_smul]
  abel

theorem postCov_noise_posDef {n k d : ℕ} (base : String) (σ s : ℝ) (l : Fin d → ℝ)
    (X₁ : Inputs n d) (X₂ : Inputs k d) :
    (postCov base σ s l X₁ X₂ + σ ^ 2 • (1 : Matrix (Fin k) (Fin k) ℝ)).PosDef :=
  (Props.postCov_posDef base σ s l X₁ X₂).add_posSemidef (Matrix.PosSemidef.one.smul (sq_nonneg σ))

theorem mvn_batches {n k d : ℕ} {base : String} {σ s : ℝ} {l : Fin d → ℝ}
    {X : Inputs (n + k) d} {X₁ : Inputs n d} {X₂ : Inputs k d}
    (h1 : ∀ i, item X (Fin.castAdd k i) = item X₁ i)
    (h2 : ∀ j, item X (Fin.natAdd n j) = item X₂ j) (μ₁ Y₁ : Fin n → ℝ) (μ₂ Y₂ : Fin k → ℝ) :
    mvnDensity (Fin.append μ₁ μ₂) (noisyGram base σ s l X) (Fin.append Y₁ Y₂) =
      mvnDensity μ₁ (noisyGram base σ s l X₁) Y₁ *
        mvnDensity (postMean base σ s l X₁ X₂ (Y₁ - μ₁) + μ₂)
          (postCov base σ s l X₁ X₂ + σ ^ 2 • (1 : Matrix (Fin k) (Fin k) ℝ)) Y₂ := by
  rw [← mvnDensity_reindex finSumFinEquiv, append_comp_sum, append_comp_sum,
    noisyGram_blocks h1 h2, mvnDensity_block (noisyGram_posDef base σ s l X₁)
      (postCov_noise base σ s l X₁ X₂) (postCov_noise_posDef base σ s l X₁ X₂), postMean,
    add_comm μ₂]

theorem mvt_batches {n k d : ℕ} {base : String} {σ s : ℝ} {l : Fin d → ℝ}
    {X : Inputs (n + k) d} {X₁ : Inputs n d} {X₂ : Inputs k d}
    (h1 : ∀ i, item X (Fin.castAdd k i) = item X₁ i)
    (h2 : ∀ j, item X (Fin.natAdd n j) = item X₂ j) {ν : ℝ} (hν : 2 < ν)
    (μ₁ Y₁ : Fin n → ℝ) (μ₂ Y₂ : Fin k → ℝ) :
    mvtDensity ν (Fin.append μ₁ μ₂) (noisyGram base σ s l X) (Fin.append Y₁ Y₂) =
      mvtDensity ν μ₁ (noisyGram base σ s l X₁) Y₁ *
        mvtDensity (ν + n) (postMean base σ s l X₁ X₂ (Y₁ - μ₁) + μ₂)
          (((ν + misfit (noisyGram base σ s l X₁) (Y₁ - μ₁) - 2) / (ν + n - 2)) •
            (postCov base σ s l X₁ X₂ + σ ^ 2 • (1 : Matrix (Fin k) (Fin k) ℝ))) Y₂ := by
  have hJ : (fromBlocks (noisyGram base σ s l X₁) (gram base s l X₁ X₂) (gram base s l X₁ X₂)ᵀ
      (noisyGram base σ s l X₂)).PosDef := by
    rw [← noisyGram_blocks h1 h2]
    exact (noisyGram_posDef base σ s l X).submatrix finSumFinEquiv.injective
  rw [← mvtDensity_reindex finSumFinEquiv, append_comp_sum, append_comp_sum,
    noisyGram_blocks h1 h2, mvtDensity_block (noisyGram_posDef base σ s l X₁)
      (postCov_noise base σ s l X₁ X₂) (postCov_noise_posDef base σ s l X₁ X₂) hJ hν, postMean,
    add_comm μ₂, Fintype.card_fin, misfit]

theorem mvnDensity_one {m v y : ℝ} (hv : 0 < v) (K : Matrix (Fin 1) (Fin 1) ℝ) (hK : K 0 0 = v)
    (μ Y : Fin 1 → ℝ) (hμ : μ 0 = m) (hY : Y 0 = y) :
    mvnDensity μ K Y = ProbabilityTheory.gaussianPDFReal m v.toNNReal y := by
  have hd : K.det = v := by rw [det_fin_one, hK]
  have hi : K⁻¹ 0 0 = v⁻¹ := by
    have := mul_nonsing_inv K (by rw [hd]; exact hv.ne'.isUnit)
    have h0 := congrFun (congrFun this 0) 0
    rw [mul_apply, Fin.sum_univ_one, hK, one_apply_eq] at h0
    exact eq_inv_of_mul_eq_one_right h0
  rw [mvnDensity, hd, ProbabilityTheory.gaussianPDFReal, Real.coe_toNNReal _ hv.le]
  simp only [dotProduct, mulVec, Fin.sum_univ_one, hi, Pi.sub_apply, hμ, hY, Fintype.card_fin,
    pow_one]
  rw [div_eq_inv_mul]
  congr 2
  field_simp

end Verif.Lemmas
