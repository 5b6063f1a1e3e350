import Verif.Lemmas.Gp
import Verif.Lemmas.MatrixCalculus
import Verif.Spec.Densities
import Mathlib.LinearAlgebra.Matrix.Block

/-! The two paths of the marginal likelihood in closed form. -/

namespace Verif.Lemmas

open Verif.Spec Verif.Covariance Verif.UtilsCovariance Verif.Constants Verif.Gp
open Matrix

/-- The exact negative log likelihood per response. -/
noncomputable def nllExact {n : ℕ} (K : Matrix (Fin n) (Fin n) ℝ) (y : Fin n → ℝ) : ℝ :=
  (1 / 2 * (y ⬝ᵥ (K⁻¹ *ᵥ y)) + 1 / 2 * Real.log K.det + n / 2 * Real.log (2 * Real.pi)) / n

theorem nllExact_eq {n : ℕ} {K : Matrix (Fin n) (Fin n) ℝ} (hK : K.PosDef) (m y : Fin n → ℝ) :
    nllExact K (y - m) = -Real.log (mvnDensity m K y) / n := by
  have hd := hK.det_pos
  have h2 : (0 : ℝ) < (2 * Real.pi) ^ n := by positivity
  rw [mvnDensity, Fintype.card_fin, Real.log_div (Real.exp_pos _).ne' (Real.sqrt_pos.mpr (mul_pos h2 hd)).ne',
    Real.log_exp, Real.log_sqrt (mul_pos h2 hd).le, Real.log_mul h2.ne' hd.ne', Real.log_pow,
    nllExact]
  congr 1
  ring

theorem negLogMl_inverse_ok {n d : ℕ} {name base : String} {X : Inputs n d}
    (hX : Suits name base X) {v : List Flt} {ard fix : Bool} {h : HypDict}
    (hr : restoreHyps name v true ard fix = .ok h) {σ s : ℝ} {l : Fin d → ℝ}
    (hd : Describes h σ s l) (hn : n ≠ 0) (Y μ : Fin n → ℝ) (ug : Bool) :
    negLogMl X Y v name μ ard fix false ug =
      .ok (nllExact (noisyGram base σ s l X) (Y - μ), none) := by
  have hp := noisyGram_posDef base σ s l X
  have hdet := hp.det_pos
  have hsign : ¬ Real.sign (noisyGram base σ s l X).det ≤ 0 := by
    rw [Real.sign_of_pos hdet]; norm_num
  have hY : (fun i => Y i - μ i) = Y - μ := rfl
  simp only [negLogMl, checkStrCov_suits hX, hr, getKernelInverse_ok hX hd, slogdet, hsign, hn, hY,
    abs_of_pos hdet, bind, Except.bind, pure, Except.pure, if_false, Option.map_none,
    Bool.false_eq_true, if_false]
  congr 2
  rw [nllExact, ← Matrix.dotProduct_mulVec]
  ring

theorem cholesky_log_det {n : ℕ} {A L : Matrix (Fin n) (Fin n) ℝ} (h : IsCholesky A L) :
    Real.log A.det = 2 * ∑ i, Real.log (L i i) := by
  rw [cholesky_det h, Real.log_pow, Real.log_prod fun i _ => (h.2.1 i).ne']
  norm_num

/-- The squares on the diagonal of the factor are at least any lower bound of the quadratic
form. -/
theorem cholesky_diag_ge {n : ℕ} {A L : Matrix (Fin n) (Fin n) ℝ} (h : IsCholesky A L) {c : ℝ}
    (hc : 0 ≤ c) (hA : ∀ v : Fin n → ℝ, c * (v ⬝ᵥ v) ≤ v ⬝ᵥ (A *ᵥ v)) (i : Fin n) :
    c ≤ L i i ^ 2 := by
  obtain ⟨h1, h2, h3⟩ := h
  have hL : L.det = ∏ i, L i i := Matrix.det_of_lowerTriangular L fun i j hij => h1 i j hij
  have hL0 : L.det ≠ 0 := by rw [hL]; exact Finset.prod_ne_zero_iff.mpr fun i _ => (h2 i).ne'
  have hu : IsUnit L.det := hL0.isUnit
  have hLT : L.BlockTriangular OrderDual.toDual := fun i j hij => h1 i j hij
  haveI : Invertible L := Matrix.invertibleOfIsUnitDet L hu
  have hMT : (L⁻¹).BlockTriangular OrderDual.toDual :=
    Matrix.blockTriangular_inv_of_blockTriangular hLT
  have hM : ∀ a b, a < b → L⁻¹ a b = 0 := fun a b hab => hMT hab
  have hii : L i i * L⁻¹ i i = 1 := by
    have := congrFun (congrFun (Matrix.mul_nonsing_inv L hu) i) i
    rw [Matrix.one_apply_eq, Matrix.mul_apply] at this
    rw [← this]
    symm
    refine Finset.sum_eq_single i (fun b _ hb => ?_) (fun hi => absurd (Finset.mem_univ i) hi)
    rcases lt_or_gt_of_ne hb with hlt | hgt
    · rw [hM b i hlt, mul_zero]
    · rw [h1 i b hgt, zero_mul]
  let v : Fin n → ℝ := fun j => L i i * L⁻¹ i j
  have hvi : v i = 1 := hii
  have hv : Lᵀ *ᵥ v = Pi.single i (L i i) := by
    ext k
    have := congrFun (congrFun (Matrix.nonsing_inv_mul L hu) i) k
    rw [Matrix.mul_apply] at this
    have e : (Lᵀ *ᵥ v) k = L i i * ∑ j, L⁻¹ i j * L j k := by
      simp only [mulVec, dotProduct, Matrix.transpose_apply, v, Finset.mul_sum]
      exact Finset.sum_congr rfl fun j _ => by ring
    rw [e, this, Matrix.one_apply, Pi.single_apply]
    by_cases hk : i = k
    · simp [hk]
    · simp [hk, Ne.symm hk]
  have hq : v ⬝ᵥ (A *ᵥ v) = L i i ^ 2 := by
    rw [← h3, ← Matrix.mulVec_mulVec, Matrix.dotProduct_mulVec, ← Matrix.mulVec_transpose, hv]
    simp [sq]
  have hvv : 1 ≤ v ⬝ᵥ v := by
    calc (1 : ℝ) = v i * v i := by rw [hvi]; ring
      _ ≤ ∑ j, v j * v j := Finset.single_le_sum (f := fun j => v j * v j)
        (fun j _ => mul_self_nonneg _) (Finset.mem_univ i)
  calc c = c * 1 := (mul_one c).symm
    _ ≤ c * (v ⬝ᵥ v) := mul_le_mul_of_nonneg_left hvv hc
    _ ≤ _ := hA v
    _ = _ := hq

theorem noisyGram_ge {n d : ℕ} (base : String) (σ s : ℝ) (l : Fin d → ℝ) (X : Inputs n d)
    (v : Fin n → ℝ) :
    (σ ^ 2 + 1 / 100000) * (v ⬝ᵥ v) ≤ v ⬝ᵥ (noisyGram base σ s l X *ᵥ v) := by
  have := (gram_posSemidef base s l X).dotProduct_mulVec_nonneg v
  simp only [star_trivial] at this
  simp only [noisyGram, Matrix.add_mulVec, dotProduct_add, Matrix.smul_mulVec,
    Matrix.one_mulVec, dotProduct_smul, smul_eq_mul]
  linarith

theorem choSolve_eq {n : ℕ} {A L : Matrix (Fin n) (Fin n) ℝ} (h : IsCholesky A L)
    (b : Fin n → ℝ) : choSolve L b = A⁻¹ *ᵥ b := by
  rw [choSolve, h.2.2]

/-- The value on the Cholesky path: the exact value minus the effect of the offset inside the
logarithms. -/
noncomputable def nllChol {n : ℕ} (K L : Matrix (Fin n) (Fin n) ℝ) (y : Fin n → ℝ) : ℝ :=
  nllExact K y + (∑ i, (Real.log (L i i + 1 / 10000000) - Real.log (L i i))) / n

theorem nllChol_value {n : ℕ} {K L : Matrix (Fin n) (Fin n) ℝ} (h : IsCholesky K L)
    (y : Fin n → ℝ) : -1 * ((-(1 / 2) * (y ⬝ᵥ (choSolve L y)) +
      -1 * ∑ i, Real.log (L i i + JITTER_LOG) + -(n : ℝ) / 2 * Real.log (2 * Real.pi)) / n) =
    nllChol K L y := by
  have hj : JITTER_LOG = 1 / 10000000 := by norm_num [JITTER_LOG]
  rw [choSolve_eq h, nllChol, nllExact, cholesky_log_det h, Finset.sum_sub_distrib, hj]
  ring

theorem negLogMl_chol_ok {n d : ℕ} {name base : String} {X : Inputs n d}
    (hX : Suits name base X) {v : List Flt} {ard fix : Bool} {h : HypDict}
    (hr : restoreHyps name v true ard fix = .ok h) {σ s : ℝ} {l : Fin d → ℝ}
    (hd : Describes h σ s l) (hn : n ≠ 0) (Y μ : Fin n → ℝ) :
    ∃ L, IsCholesky (noisyGram base σ s l X) L ∧ negLogMl X Y v name μ ard fix true false =
      .ok (nllChol (noisyGram base σ s l X) L (Y - μ), none) := by
  obtain ⟨L, hL, hk⟩ := getKernelCholesky_ok hX hd fix
  refine ⟨L, hL, ?_⟩
  have hY : (fun i => Y i - μ i) = Y - μ := rfl
  simp only [negLogMl, checkStrCov_suits hX, hr, hk, hn, hY, bind, Except.bind, pure, Except.pure,
    if_true, if_false, Option.map_none, Bool.false_eq_true]
  rw [nllChol_value hL]

theorem negLogMl_chol_grad_ok {n d : ℕ} {name : String} (hb : name ∈ baseNames)
    (X : Fin n → Point d) {v : List Flt} {ard fix : Bool} {h : HypDict}
    (hr : restoreHyps name v true ard fix = .ok h) {σ s : ℝ} {l : Fin d → ℝ}
    (hd : Describes h σ s l) (hn : n ≠ 0) (Y μ : Fin n → ℝ)
    {G : List (Matrix (Fin n) (Fin n) ℝ)}
    (hG : gradCovMain name (.vec X) (.vec X) h fix = .ok G) :
    ∃ L, IsCholesky (noisyGram name σ s l (.vec X)) L ∧
      negLogMl (.vec X) Y v name μ ard fix true true =
        let K := noisyGram name σ s l (.vec X)
        .ok (nllChol K L (Y - μ), some (G.map fun A =>
          (-(1 / 2) * ((Y - μ) ⬝ᵥ ((K⁻¹ * A * K⁻¹) *ᵥ (Y - μ))) + 1 / 2 * trace (K⁻¹ * A)) / n)) := by
  have hX : Suits name name (Inputs.vec X) := ⟨hb, .inl ⟨rfl, X, rfl⟩⟩
  obtain ⟨L, hL, hc⟩ := spCholesky_posDef (noisyGram_posDef name σ s l (.vec X))
  refine ⟨L, hc, ?_⟩
  have hk : getKernelCholesky (.vec X) h name fix true =
      .ok (noisyGram name σ s l (.vec X), L, some G) := by
    simp [getKernelCholesky, checkStrCov_suits hX, noisyCov_ok hX hd, choleskyLoop, jitters, hL,
      hG, bind, Except.bind, pure, Except.pure]
  have hY : (fun i => Y i - μ i) = Y - μ := rfl
  simp only [negLogMl, checkStrCov_suits hX, hr, hk, hn, hY, bind, Except.bind, pure, Except.pure,
    if_true, if_false, Option.map_some]
  rw [nllChol_value hc]
  congr 3
  rw [List.map_map]
  refine List.map_congr_left fun A _ => ?_
  simp only [Function.comp_apply]
  set K := noisyGram name σ s l (.vec X) with hK
  set y := Y - μ
  have hKt : (K⁻¹)ᵀ = K⁻¹ := by rw [Matrix.transpose_nonsing_inv, hK, noisyGram_transpose]
  have e1 : ∀ i j, choSolve L (fun k => npEye n n k j) i = K⁻¹ i j := by
    intro i j
    rw [choSolve_eq hc]
    simp only [mulVec, dotProduct, npEye]
    rw [Finset.sum_eq_single j]
    · simp
    · intro b _ hb
      have : ¬ b.val = j.val := fun h => hb (Fin.ext h)
      simp [this]
    · simp
  have e2 : y ⬝ᵥ ((K⁻¹ * A * K⁻¹) *ᵥ y) =
      ∑ i, ∑ j, choSolve L y i * choSolve L y j * A i j := by
    rw [choSolve_eq hc, ← Matrix.mulVec_mulVec, ← Matrix.mulVec_mulVec, Matrix.dotProduct_mulVec,
      ← Matrix.mulVec_transpose, hKt]
    generalize K⁻¹ *ᵥ y = a
    simp only [dotProduct, mulVec, Finset.mul_sum]
    exact Finset.sum_congr rfl fun i _ => Finset.sum_congr rfl fun j _ => by ring
  have e3 : trace (K⁻¹ * A) = ∑ i, ∑ j, K⁻¹ i j * A i j := by
    simp only [Matrix.trace, Matrix.diag, Matrix.mul_apply]
    rw [Finset.sum_comm]
    refine Finset.sum_congr rfl fun i _ => Finset.sum_congr rfl fun j _ => ?_
    rw [← hKt, Matrix.transpose_apply, hKt]
  simp only [Matrix.of_apply, e1, sub_mul, Finset.sum_sub_distrib]
  rw [e2, e3]
  ring

end Verif.Lemmas
