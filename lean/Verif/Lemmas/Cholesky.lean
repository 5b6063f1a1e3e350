import Mathlib.LinearAlgebra.Matrix.Block
import Verif.Lemmas.PsdKernels
import Verif.Model.Covariance

/-! Existence and uniqueness of the Cholesky factor. -/

namespace Verif.Lemmas

open Verif.Spec Verif.Covariance

theorem isCholesky_entry {n : ℕ} {A L : Matrix (Fin n) (Fin n) ℝ} (h : IsCholesky A L)
    (i j : Fin n) : ∑ k, L i k * L j k = A i j := by
  rw [← h.2.2, Matrix.mul_apply]; rfl

theorem isCholesky_symm {n : ℕ} {A L : Matrix (Fin n) (Fin n) ℝ} (h : IsCholesky A L)
    (i j : Fin n) : A i j = A j i := by
  rw [← isCholesky_entry h, ← isCholesky_entry h]
  exact Finset.sum_congr rfl fun k _ => mul_comm _ _

/-- A symmetric positive definite matrix has a Cholesky factor. -/
theorem exists_cholesky : ∀ {n : ℕ} (A : Matrix (Fin n) (Fin n) ℝ), (∀ i j, A i j = A j i) →
    QuadPos A → ∃ L, IsCholesky A L
  | 0, A, _, _ => ⟨0, fun i => i.elim0, fun i => i.elim0, by ext i; exact i.elim0⟩
  | n + 1, A, hs, hA => by
    have ha : 0 < A 0 0 := by
      have := hA (Pi.single 0 1) (by
        intro h
        have := congrFun h 0
        simp at this)
      simpa [Fin.sum_univ_succ, Pi.single_apply, Fin.succ_ne_zero] using this
    let C : Matrix (Fin n) (Fin n) ℝ := fun i j =>
      A i.succ j.succ - A i.succ 0 * A j.succ 0 / A 0 0
    have hC : ∀ i j, C i j = C j i := by
      intro i j
      simp only [C]
      rw [hs i.succ j.succ, mul_comm]
    have hCp : QuadPos C := by
      intro c hc
      set β := ∑ i, A i.succ 0 * c i with hβ
      have := hA (Fin.cons (-β / A 0 0) c : Fin (n + 1) → ℝ) (by
        intro h
        apply hc
        ext i
        have := congrFun h i.succ
        simpa using this)
      refine this.trans_eq ?_
      simp only [Fin.sum_univ_succ, Fin.cons_zero, Fin.cons_succ]
      have e1 : ∑ j, -β / A 0 0 * A 0 (Fin.succ j) * c j = -β / A 0 0 * β := by
        rw [hβ, Finset.mul_sum]
        refine Finset.sum_congr rfl fun j _ => ?_
        rw [hs 0 j.succ]; ring
      have e2 : ∑ i, (c i * A (Fin.succ i) 0 * (-β / A 0 0) +
          ∑ j, c i * A (Fin.succ i) (Fin.succ j) * c j) =
          -β / A 0 0 * β + ∑ i, ∑ j, c i * A (Fin.succ i) (Fin.succ j) * c j := by
        rw [Finset.sum_add_distrib]
        congr 1
        conv_rhs => rw [hβ, Finset.mul_sum]
        exact Finset.sum_congr rfl fun j _ => by ring
      have e3 : ∑ i, ∑ j, c i * C i j * c j =
          ∑ i, ∑ j, c i * A (Fin.succ i) (Fin.succ j) * c j - β * β / A 0 0 := by
        have : β * β / A 0 0 = ∑ i, ∑ j, c i * (A (Fin.succ i) 0 * A (Fin.succ j) 0 / A 0 0) * c j := by
          rw [hβ, Finset.sum_mul_sum, Finset.sum_div]
          refine Finset.sum_congr rfl fun i _ => ?_
          rw [Finset.sum_div]
          exact Finset.sum_congr rfl fun j _ => by ring
        rw [this, ← Finset.sum_sub_distrib]
        refine Finset.sum_congr rfl fun i _ => ?_
        rw [← Finset.sum_sub_distrib]
        refine Finset.sum_congr rfl fun j _ => ?_
        simp only [C]; ring
      rw [e1, e2, e3]
      field_simp
      ring
    obtain ⟨L', hl, hd, hL⟩ := exists_cholesky C hC hCp
    have hsq : √(A 0 0) * √(A 0 0) = A 0 0 := Real.mul_self_sqrt ha.le
    have hpos : 0 < √(A 0 0) := Real.sqrt_pos.mpr ha
    let L : Matrix (Fin (n + 1)) (Fin (n + 1)) ℝ := fun i j =>
      Fin.cases (Fin.cases (√(A 0 0)) (fun _ => 0) j)
        (fun i' => Fin.cases (A i'.succ 0 / √(A 0 0)) (fun j' => L' i' j') j) i
    have L00 : L 0 0 = √(A 0 0) := rfl
    have L0s : ∀ j : Fin n, L 0 j.succ = 0 := fun j => rfl
    have Ls0 : ∀ i : Fin n, L i.succ 0 = A i.succ 0 / √(A 0 0) := fun i => rfl
    have Lss : ∀ i j : Fin n, L i.succ j.succ = L' i j := fun i j => rfl
    refine ⟨L, ?_, ?_, ?_⟩
    · intro i j
      refine Fin.cases ?_ (fun j' => ?_) j
      · intro h; exact absurd h (Fin.not_lt_zero i)
      · refine Fin.cases ?_ (fun i' => ?_) i
        · intro _; exact L0s j'
        · intro h; rw [Lss]; exact hl _ _ (Fin.succ_lt_succ_iff.mp h)
    · intro i
      refine Fin.cases ?_ (fun i' => ?_) i
      · rw [L00]; exact hpos
      · rw [Lss]; exact hd i'
    · have hL' : ∀ i j, ∑ k, L' i k * L' j k = C i j := by
        intro i j; rw [← hL, Matrix.mul_apply]; rfl
      ext i j
      rw [Matrix.mul_apply]
      simp only [Matrix.transpose_apply]
      rw [Fin.sum_univ_succ]
      refine Fin.cases ?_ (fun i' => ?_) i
      · refine Fin.cases ?_ (fun j' => ?_) j
        · simp [L00, L0s, hsq]
        · simp only [L00, L0s, Ls0, zero_mul, Finset.sum_const_zero, add_zero]
          rw [hs 0 j'.succ]; field_simp
      · refine Fin.cases ?_ (fun j' => ?_) j
        · simp only [L00, L0s, Ls0, mul_zero, Finset.sum_const_zero, add_zero]
          field_simp
        · simp only [Ls0, Lss, hL', C]
          have : A i'.succ 0 / √(A 0 0) * (A j'.succ 0 / √(A 0 0)) =
              A i'.succ 0 * A j'.succ 0 / A 0 0 := by
            rw [div_mul_div_comm, hsq]
          rw [this]; ring

/-- The Cholesky factor is unique. -/
theorem cholesky_unique : ∀ {n : ℕ} {A L M : Matrix (Fin n) (Fin n) ℝ}, IsCholesky A L →
    IsCholesky A M → L = M
  | 0, _, _, _, _, _ => by ext i; exact i.elim0
  | n + 1, A, L, M, hL, hM => by
    have key : ∀ {N : Matrix (Fin (n + 1)) (Fin (n + 1)) ℝ}, IsCholesky A N →
        (∀ j : Fin n, N 0 j.succ = 0) ∧ N 0 0 = √(A 0 0) ∧
        (∀ i : Fin n, N i.succ 0 = A i.succ 0 / √(A 0 0)) ∧
        IsCholesky (Matrix.of fun i j : Fin n =>
          A i.succ j.succ - A i.succ 0 * A j.succ 0 / A 0 0)
          (Matrix.of fun i j => N i.succ j.succ) := by
      intro N hN
      have h0 : ∀ j : Fin n, N 0 j.succ = 0 := fun j => hN.1 _ _ (Fin.succ_pos j)
      have h00 : N 0 0 * N 0 0 = A 0 0 := by
        have := isCholesky_entry hN 0 0
        rw [Fin.sum_univ_succ] at this
        simpa [h0] using this
      have hp := hN.2.1 0
      have h1 : N 0 0 = √(A 0 0) := by rw [← h00, Real.sqrt_mul_self hp.le]
      have hs0 : ∀ i : Fin n, N i.succ 0 * N 0 0 = A i.succ 0 := by
        intro i
        have := isCholesky_entry hN i.succ 0
        rw [Fin.sum_univ_succ] at this
        simpa [h0] using this
      have hs1 : ∀ i : Fin n, N i.succ 0 = A i.succ 0 / √(A 0 0) := by
        intro i
        rw [← hs0, ← h1]; field_simp
      refine ⟨h0, h1, hs1, fun i j h => hN.1 _ _ (Fin.succ_lt_succ_iff.mpr h),
        fun i => hN.2.1 i.succ, ?_⟩
      ext i j
      rw [Matrix.mul_apply]
      simp only [Matrix.transpose_apply, Matrix.of_apply]
      have := isCholesky_entry hN i.succ j.succ
      rw [Fin.sum_univ_succ] at this
      rw [← this, ← hs0 i, ← hs0 j, ← h00]
      field_simp
      ring
    obtain ⟨a1, b1, c1, d1⟩ := key hL
    obtain ⟨a2, b2, c2, d2⟩ := key hM
    have ih := cholesky_unique d1 d2
    ext i j
    refine Fin.cases ?_ (fun i' => ?_) i
    · refine Fin.cases ?_ (fun j' => ?_) j
      · rw [b1, b2]
      · rw [a1, a2]
    · refine Fin.cases ?_ (fun j' => ?_) j
      · rw [c1, c2]
      · exact congrFun (congrFun ih i') j'

/-- A matrix with a Cholesky factor is positive definite. -/
theorem cholesky_quadPos {n : ℕ} {A L : Matrix (Fin n) (Fin n) ℝ} (h : IsCholesky A L) :
    QuadPos A := by
  have hdet : L.det ≠ 0 := by
    rw [Matrix.det_of_lowerTriangular L (fun i j hij => h.1 i j hij)]
    exact (Finset.prod_pos fun i _ => h.2.1 i).ne'
  have hA : A.PosDef := by
    rw [← h.2.2]
    have := Matrix.PosDef.mul_conjTranspose_self L (by
      intro x y hxy
      have hu : IsUnit L.det := isUnit_iff_ne_zero.mpr hdet
      have : (x - y) = 0 := by
        have hz : Matrix.vecMul (x - y) L = 0 := by
          rw [Matrix.sub_vecMul]; exact sub_eq_zero.mpr hxy
        exact Matrix.eq_zero_of_vecMul_eq_zero hdet hz
      exact sub_eq_zero.mp this)
    simpa using this
  exact quadPos_of_posDef hA

theorem cholesky_det {n : ℕ} {A L : Matrix (Fin n) (Fin n) ℝ} (h : IsCholesky A L) :
    A.det = (∏ i, L i i) ^ 2 := by
  rw [← h.2.2, Matrix.det_mul, Matrix.det_transpose,
    Matrix.det_of_lowerTriangular L (fun i j hij => h.1 i j hij), sq]

end Verif.Lemmas
