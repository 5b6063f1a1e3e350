import Verif.Lemmas.Chain
import Mathlib.Analysis.Convex.SpecificFunctions.Basic
import Mathlib.Analysis.MeanInequalities
import Mathlib.Analysis.Matrix.Spectrum
import Mathlib.Analysis.Matrix.Order
import Mathlib.LinearAlgebra.Matrix.SchurComplement

/-! # Information gain and sums of deviations (lemmas for C114) -/

namespace Verif.Lemmas

open Verif.Spec Verif.Covariance Verif.UtilsCovariance
open Matrix hiding gram

/-- The determinant with one more observation. -/
theorem det_noisyGram_succ {n d : ℕ} {base : String} {σ s : ℝ} {l : Fin d → ℝ}
    {X : Inputs (n + 1) d} {X₁ : Inputs n d} {X₂ : Inputs 1 d}
    (h1 : ∀ i, item X (Fin.castAdd 1 i) = item X₁ i)
    (h2 : ∀ j, item X (Fin.natAdd n j) = item X₂ j) :
    (noisyGram base σ s l X).det =
      (noisyGram base σ s l X₁).det * (postCov base σ s l X₁ X₂ 0 0 + σ ^ 2) := by
  letI : Invertible (noisyGram base σ s l X₁) :=
    (noisyGram base σ s l X₁).invertibleOfIsUnitDet (noisyGram_posDef base σ s l X₁).det_pos.ne'.isUnit
  rw [← det_submatrix_equiv_self finSumFinEquiv, noisyGram_blocks h1 h2, det_fromBlocks₁₁,
    invOf_eq_nonsing_inv, ← postCov_noise, det_fin_one]
  simp

theorem det_noisyGram_scale {n d : ℕ} (base : String) (σ s : ℝ) (l : Fin d → ℝ) (X : Inputs n d) :
    (noisyGram base σ s l X).det = (σ ^ 2 + 1 / 100000) ^ n *
      (1 + (σ ^ 2 + 1 / 100000)⁻¹ • gram base s l X X).det := by
  have h : (σ ^ 2 + 1 / 100000 : ℝ) ≠ 0 := by positivity
  have e : noisyGram base σ s l X =
      (σ ^ 2 + 1 / 100000 : ℝ) • (1 + (σ ^ 2 + 1 / 100000 : ℝ)⁻¹ • gram base s l X X) := by
    rw [noisyGram, smul_add, smul_smul, mul_inv_cancel₀ h, one_smul, add_comm]
  rw [e, det_smul, Fintype.card_fin]

/-- Concavity of the logarithm: small gains are measured at least in proportion. -/
theorem le_log_gain {w S τ : ℝ} (hτ : 0 < τ) (hw : 0 ≤ w) (hwS : w ≤ S) :
    w ≤ S / Real.log (1 + S / τ) * Real.log (1 + w / τ) := by
  rcases (hw.trans hwS).eq_or_lt with h0 | hS
  · have : w = 0 := le_antisymm (h0 ▸ hwS) hw
    rw [this]
    simp
  have hL : 0 < Real.log (1 + S / τ) := Real.log_pos (by have := div_pos hS hτ; linarith)
  have hm : 1 + S / τ ∈ Set.Ioi (0 : ℝ) := by
    have := div_pos hS hτ
    simp only [Set.mem_Ioi]
    linarith
  have h1 : (1 : ℝ) ∈ Set.Ioi (0 : ℝ) := by simp
  have ha : 0 ≤ w / S := div_nonneg hw hS.le
  have hb : 0 ≤ 1 - w / S := by
    rw [sub_nonneg, div_le_one hS]
    exact hwS
  have hc := strictConcaveOn_log_Ioi.concaveOn.2 hm h1 ha hb (by ring)
  simp only [smul_eq_mul, Real.log_one, mul_zero, add_zero, mul_one] at hc
  have e : w / S * (1 + S / τ) + (1 - w / S) = 1 + w / τ := by
    field_simp
    ring
  rw [e] at hc
  rw [div_mul_eq_mul_div, le_div_iff₀ hL]
  calc w * Real.log (1 + S / τ) = S * (w / S * Real.log (1 + S / τ)) := by field_simp
    _ ≤ S * Real.log (1 + w / τ) := mul_le_mul_of_nonneg_left hc hS.le

/-- The determinant of a positive semidefinite matrix is at most the power of its average diagonal
entry. -/
theorem det_le_trace {N : ℕ} (hN : 0 < N) {M : Matrix (Fin N) (Fin N) ℝ} (hM : M.PosSemidef) :
    M.det ≤ (M.trace / N) ^ N := by
  have hn : (0 : ℝ) < N := by exact_mod_cast hN
  have h0 := hM.eigenvalues_nonneg
  have h := Real.geom_mean_le_arith_mean Finset.univ (fun _ : Fin N => (1 : ℝ))
    (fun i => hM.isHermitian.eigenvalues i) (by simp) (by simp [hN]) (fun i _ => h0 i)
  simp only [Real.rpow_one, Finset.sum_const, Finset.card_univ, Fintype.card_fin, nsmul_eq_mul,
    mul_one, one_mul] at h
  have hp : 0 ≤ ∏ i, hM.isHermitian.eigenvalues i := Finset.prod_nonneg fun i _ => h0 i
  have hd : M.det = ∏ i, hM.isHermitian.eigenvalues i := by
    simpa using hM.isHermitian.det_eq_prod_eigenvalues
  have ht : M.trace = ∑ i, hM.isHermitian.eigenvalues i := by
    simpa using hM.isHermitian.trace_eq_sum_eigenvalues
  rw [hd, ht]
  have := pow_le_pow_left₀ (Real.rpow_nonneg hp _) h N
  rwa [← Real.rpow_natCast (_ ^ _), ← Real.rpow_mul hp, inv_mul_cancel₀ hn.ne', Real.rpow_one] at this

open scoped MatrixOrder in
/-- Rows that come from `N` points carry a bounded amount of information, however many there are. -/
theorem det_repeated_le {N T : ℕ} (hN : 0 < N) {K : Matrix (Fin N) (Fin N) ℝ} (hK : K.PosSemidef)
    {S τ : ℝ} (hτ : 0 < τ) (hS : ∀ i, K i i ≤ S) (p : Fin T → Fin N) :
    (1 + τ⁻¹ • K.submatrix p p).det ≤ (1 + T * S / (N * τ)) ^ N := by
  have hn : (0 : ℝ) < N := by exact_mod_cast hN
  obtain ⟨B, rfl⟩ := CStarAlgebra.nonneg_iff_eq_star_mul_self.mp hK.nonneg
  have e : (star B * B).submatrix p p = (B.submatrix id p)ᴴ * B.submatrix id p := by
    ext i j
    simp [Matrix.mul_apply, star_eq_conjTranspose]
  have e2 : (1 + τ⁻¹ • ((B.submatrix id p)ᴴ * B.submatrix id p)).det =
      (1 + τ⁻¹ • (B.submatrix id p * (B.submatrix id p)ᴴ)).det := by
    rw [← Matrix.smul_mul, det_one_add_mul_comm, Matrix.mul_smul]
  have hp : (1 + τ⁻¹ • (B.submatrix id p * (B.submatrix id p)ᴴ)).PosSemidef :=
    PosSemidef.one.add ((posSemidef_self_mul_conjTranspose _).smul (inv_nonneg.2 hτ.le))
  rw [e, e2]
  refine (det_le_trace hN hp).trans (pow_le_pow_left₀ (div_nonneg hp.trace_nonneg hn.le) ?_ N)
  rw [trace_add, trace_one, Fintype.card_fin, trace_smul, trace_mul_comm, ← e, smul_eq_mul]
  have ht : ((star B * B).submatrix p p).trace ≤ T * S := by
    rw [trace]
    refine (Finset.sum_le_sum fun i _ => hS (p i)).trans ?_
    simp
  rw [add_div, div_self hn.ne']
  have h3 : τ⁻¹ * ((star B * B).submatrix p p).trace / N ≤ τ⁻¹ * (T * S) / N :=
    div_le_div_of_nonneg_right (mul_le_mul_of_nonneg_left ht (inv_nonneg.2 hτ.le)) hn.le
  have h4 : τ⁻¹ * (T * S) / N = T * S / (N * τ) := by field_simp
  linarith

end Verif.Lemmas
