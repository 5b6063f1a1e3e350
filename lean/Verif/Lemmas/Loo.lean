import Verif.Lemmas.Gp
import Verif.Spec.Gp
import Mathlib.Algebra.BigOperators.Fin

/-! Leave-one-out predictions through one inverse. -/

namespace Verif.Lemmas

open Verif.Spec Verif.Covariance Verif.UtilsCovariance Verif.Constants Verif.Gp
open Matrix hiding gram

/-- If the `i`-th row and column are removed, the Schur complement is the reciprocal of the
`i`-th diagonal entry of the inverse, and the `i`-th row of the inverse is known. -/
theorem inv_row {n : ℕ} {K : Matrix (Fin (n + 1)) (Fin (n + 1)) ℝ} (hK : Kᵀ = K)
    (hdet : K.det ≠ 0) (i : Fin (n + 1))
    (hsub : (K.submatrix i.succAbove i.succAbove).det ≠ 0) (Y : Fin (n + 1) → ℝ) {c : ℝ}
    (hc : c = K i i - (fun j => K (i.succAbove j) i) ⬝ᵥ
      ((K.submatrix i.succAbove i.succAbove)⁻¹ *ᵥ fun j => K (i.succAbove j) i)) :
    K⁻¹ i i * c = 1 ∧
      (K⁻¹ *ᵥ Y) i * c = Y i - (fun j => K (i.succAbove j) i) ⬝ᵥ
        ((K.submatrix i.succAbove i.succAbove)⁻¹ *ᵥ fun j => Y (i.succAbove j)) := by
  set K' := K.submatrix i.succAbove i.succAbove with hK'
  set k : Fin n → ℝ := fun j => K (i.succAbove j) i with hk
  set w := K'⁻¹ *ᵥ k with hw
  have hsym : ∀ a b, K a b = K b a := fun a b => by
    conv_lhs => rw [← hK]
    rfl
  have hK't : (K'⁻¹)ᵀ = K'⁻¹ := by
    rw [Matrix.transpose_nonsing_inv]
    congr 1
    ext a b
    exact hsym _ _
  let a : Fin (n + 1) → ℝ := i.insertNth 1 fun j => -w j
  have hai : a i = 1 := by simp [a]
  have haj : ∀ j, a (i.succAbove j) = -w j := fun j => by simp [a]
  have hKw : K' *ᵥ w = k := by
    rw [hw, Matrix.mulVec_mulVec, Matrix.mul_nonsing_inv _ hsub.isUnit, Matrix.one_mulVec]
  have hKa : K *ᵥ a = c • Pi.single i 1 := by
    ext r
    rw [Matrix.mulVec, dotProduct, Fin.sum_univ_succAbove _ i, hai]
    simp only [haj]
    refine Fin.succAboveCases i ?_ (fun j => ?_) r
    · rw [hc]
      simp only [Pi.smul_apply, Pi.single_eq_same, smul_eq_mul, mul_one, mul_neg,
        Finset.sum_neg_distrib, dotProduct, sub_eq_add_neg]
      congr 2
      exact Finset.sum_congr rfl fun j _ => by rw [hsym i (i.succAbove j)]
    · have := congrFun hKw j
      simp only [Matrix.mulVec, dotProduct, hK', Matrix.submatrix_apply] at this
      simp only [Pi.smul_apply, smul_eq_mul, mul_neg, Finset.sum_neg_distrib, mul_one]
      rw [this, Pi.single_eq_of_ne (Fin.succAbove_ne i j)]
      simp [hk]
  have hKinv : (K⁻¹)ᵀ = K⁻¹ := by rw [Matrix.transpose_nonsing_inv, hK]
  have ha : a = c • (K⁻¹ *ᵥ Pi.single i 1) := by
    rw [← Matrix.mulVec_smul, ← hKa, Matrix.mulVec_mulVec, Matrix.nonsing_inv_mul _ hdet.isUnit,
      Matrix.one_mulVec]
  constructor
  · have := congrFun ha i
    rw [hai] at this
    simp only [Pi.smul_apply, smul_eq_mul, Matrix.mulVec_single_one, Matrix.col_apply] at this
    linarith
  · have h1 : (K⁻¹ *ᵥ Y) i * c = a ⬝ᵥ Y := by
      rw [ha, smul_dotProduct, smul_eq_mul, mul_comm]
      congr 1
      have hs : ∀ j, K⁻¹ i j = K⁻¹ j i := fun j => congrFun (congrFun hKinv j) i
      rw [Matrix.mulVec_single_one, Matrix.mulVec, dotProduct, dotProduct]
      exact Finset.sum_congr rfl fun j _ => by rw [hs j, Matrix.col_apply]
    rw [h1, dotProduct, Fin.sum_univ_succAbove _ i, hai]
    simp only [haj, one_mul, neg_mul, Finset.sum_neg_distrib, ← sub_eq_add_neg]
    congr 1
    have : (∑ j, w j * Y (i.succAbove j)) = w ⬝ᵥ fun j => Y (i.succAbove j) := rfl
    rw [this, hw, Matrix.dotProduct_mulVec, ← Matrix.mulVec_transpose, hK't]

theorem selectRows_item {n k d : ℕ} (X : Inputs n d) (e : Fin k → Fin n) (i : Fin k) :
    item (selectRows X e) i = item X (e i) := by
  cases X <;> rfl

theorem selectRows_suits {n k d : ℕ} {name base : String} {X : Inputs n d}
    (hX : Suits name base X) (e : Fin k → Fin n) : Suits name base (selectRows X e) := by
  obtain ⟨hb, ⟨rfl, x, rfl⟩ | ⟨rfl, p, x, hp, rfl⟩⟩ := hX
  · exact ⟨hb, .inl ⟨rfl, _, rfl⟩⟩
  · exact ⟨hb, .inr ⟨rfl, p, _, hp, rfl⟩⟩

theorem noisyGram_select {n k d : ℕ} (base : String) (σ s : ℝ) (l : Fin d → ℝ) (X : Inputs n d)
    {e : Fin k → Fin n} (he : Function.Injective e) :
    noisyGram base σ s l (selectRows X e) = (noisyGram base σ s l X).submatrix e e := by
  ext i j
  simp only [noisyGram, gram, Matrix.add_apply, Matrix.of_apply, selectRows_item, Matrix.smul_apply,
    Matrix.submatrix_apply, Matrix.one_apply, he.eq_iff]

/-- The leave-one-out mean and variance through one inverse. -/
theorem loo_row {n d : ℕ} (base : String) (σ s : ℝ) (l : Fin d → ℝ) (X : Inputs (n + 1) d)
    (Y : Fin (n + 1) → ℝ) (i : Fin (n + 1)) :
    let P := (noisyGram base σ s l X)⁻¹
    let X' := selectRows X i.succAbove
    let x := selectRows X fun _ : Fin 1 => i
    P i i * (postCov base σ s l X' x 0 0 + σ ^ 2) = 1 ∧
      (P *ᵥ Y) i * (postCov base σ s l X' x 0 0 + σ ^ 2) =
        Y i - postMean base σ s l X' x (fun j => Y (i.succAbove j)) 0 := by
  intro P X' x
  have hsel : noisyGram base σ s l X' =
      (noisyGram base σ s l X).submatrix i.succAbove i.succAbove :=
    noisyGram_select base σ s l X Fin.succAbove_right_injective
  have hcol : (fun j => gram base s l X' x j 0) =
      fun j => noisyGram base σ s l X (i.succAbove j) i := by
    funext j
    simp [gram, noisyGram, X', x, selectRows_item, Matrix.one_apply, Fin.succAbove_ne]
  have hc : postCov base σ s l X' x 0 0 + σ ^ 2 = noisyGram base σ s l X i i -
      (fun j => noisyGram base σ s l X (i.succAbove j) i) ⬝ᵥ
      (((noisyGram base σ s l X).submatrix i.succAbove i.succAbove)⁻¹ *ᵥ
        fun j => noisyGram base σ s l X (i.succAbove j) i) := by
    rw [← hcol, ← hsel]
    have h1 : ((gram base s l X' x)ᵀ * (noisyGram base σ s l X')⁻¹ * gram base s l X' x) 0 0 =
        (fun j => gram base s l X' x j 0) ⬝ᵥ
          ((noisyGram base σ s l X')⁻¹ *ᵥ fun j => gram base s l X' x j 0) := by
      rw [Matrix.dotProduct_mulVec]
      rfl
    rw [postCov, Matrix.sub_apply, h1]
    simp only [noisyGram, Matrix.add_apply, Matrix.smul_apply, Matrix.one_apply_eq, smul_eq_mul,
      mul_one, gram, Matrix.of_apply, x, selectRows_item]
    ring
  have hsub : ((noisyGram base σ s l X).submatrix i.succAbove i.succAbove).det ≠ 0 := by
    rw [← hsel]; exact (noisyGram_posDef base σ s l X').det_pos.ne'
  obtain ⟨h1, h2⟩ := inv_row (noisyGram_transpose base σ s l X)
    (noisyGram_posDef base σ s l X).det_pos.ne' i hsub Y hc
  refine ⟨h1, h2.trans ?_⟩
  rw [← hcol, ← hsel, Matrix.dotProduct_mulVec]
  rfl

end Verif.Lemmas
