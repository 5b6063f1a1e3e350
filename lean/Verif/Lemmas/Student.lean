import Verif.Spec.Densities
import Mathlib.LinearAlgebra.Matrix.SchurComplement
import Mathlib.Analysis.Matrix.PosDef
import Mathlib.Data.Real.StarOrdered
import Mathlib.Analysis.SpecialFunctions.Pow.Real
import Mathlib.Analysis.SpecialFunctions.Log.Basic

/-! The multivariate Student-t density of a block factorises. -/

namespace Verif.Lemmas

open Matrix Verif.Spec

section Block

variable {ι κ : Type*} [Fintype ι] [DecidableEq ι] [Fintype κ] [DecidableEq κ]

/-- The Mahalanobis form of a block matrix. -/
theorem block_quad {K : Matrix ι ι ℝ} {k : Matrix ι κ ℝ} {C S : Matrix κ κ ℝ}
    (hK : K.det ≠ 0) (hKt : Kᵀ = K) (hS : S = C - kᵀ * K⁻¹ * k) (hSd : S.det ≠ 0)
    (u : ι → ℝ) (v : κ → ℝ) :
    (Sum.elim u v) ⬝ᵥ ((fromBlocks K k kᵀ C)⁻¹ *ᵥ (Sum.elim u v)) =
      u ⬝ᵥ (K⁻¹ *ᵥ u) + (v - (kᵀ * K⁻¹) *ᵥ u) ⬝ᵥ (S⁻¹ *ᵥ (v - (kᵀ * K⁻¹) *ᵥ u)) := by
  letI : Invertible K := K.invertibleOfIsUnitDet hK.isUnit
  have hdet : (fromBlocks K k kᵀ C).det = K.det * S.det := by
    rw [det_fromBlocks₁₁, invOf_eq_nonsing_inv, hS]
  have hJ : (fromBlocks K k kᵀ C).det ≠ 0 := by rw [hdet]; exact mul_ne_zero hK hSd
  have hKi : (K⁻¹)ᵀ = K⁻¹ := by rw [transpose_nonsing_inv, hKt]
  set e := v - (kᵀ * K⁻¹) *ᵥ u with he
  set b := S⁻¹ *ᵥ e with hb
  set a := K⁻¹ *ᵥ (u - k *ᵥ b) with ha
  have hSb : S *ᵥ b = e := by
    rw [hb, mulVec_mulVec, mul_nonsing_inv _ hSd.isUnit, one_mulVec]
  have hKa : K *ᵥ a = u - k *ᵥ b := by
    rw [ha, mulVec_mulVec, mul_nonsing_inv _ hK.isUnit, one_mulVec]
  have hw : fromBlocks K k kᵀ C *ᵥ Sum.elim a b = Sum.elim u v := by
    rw [fromBlocks_mulVec]
    simp only [Function.comp_def, Sum.elim_inl, Sum.elim_inr]
    congr 1
    · rw [hKa, sub_add_cancel]
    · have h1 : S *ᵥ b = C *ᵥ b - (kᵀ * K⁻¹ * k) *ᵥ b := by rw [hS, sub_mulVec]
      have h2 : kᵀ *ᵥ a = (kᵀ * K⁻¹) *ᵥ u - (kᵀ * K⁻¹ * k) *ᵥ b := by
        rw [ha, mulVec_sub, mulVec_sub, mulVec_mulVec, mulVec_mulVec, mulVec_mulVec,
          Matrix.mul_assoc]
      rw [h2]
      rw [hSb, he] at h1
      rw [sub_add_eq_add_sub, add_sub_assoc, ← h1, add_sub_cancel]
  have hinv : (fromBlocks K k kᵀ C)⁻¹ *ᵥ Sum.elim u v = Sum.elim a b := by
    rw [← hw, mulVec_mulVec, nonsing_inv_mul _ hJ.isUnit, one_mulVec]
  rw [hinv, sumElim_dotProduct_sumElim, ha, mulVec_sub, dotProduct_sub]
  have h3 : u ⬝ᵥ (K⁻¹ *ᵥ (k *ᵥ b)) = ((kᵀ * K⁻¹) *ᵥ u) ⬝ᵥ b := by
    rw [← mulVec_mulVec, mulVec_transpose, ← dotProduct_mulVec, dotProduct_mulVec u,
      ← mulVec_transpose, hKi]
  have h4 : v ⬝ᵥ b = e ⬝ᵥ b + ((kᵀ * K⁻¹) *ᵥ u) ⬝ᵥ b := by
    rw [he, sub_dotProduct, sub_add_cancel]
  rw [h3, h4]
  ring

theorem mvtDensity_pos {ν : ℝ} (hν : 2 < ν) (m : ι → ℝ) {K : Matrix ι ι ℝ} (hK : K.PosDef)
    (y : ι → ℝ) : 0 < mvtDensity ν m K y := by
  have hq : 0 ≤ (y - m) ⬝ᵥ (K⁻¹ *ᵥ (y - m)) := by
    have := hK.inv.posSemidef.dotProduct_mulVec_nonneg (y - m)
    simpa using this
  have hd := hK.det_pos
  have hpi := Real.pi_pos
  have h1 : 0 < ν - 2 := by linarith
  have h2 : 0 < Real.Gamma (ν / 2) := Real.Gamma_pos_of_pos (by linarith)
  have h3 : 0 < Real.Gamma ((ν + Fintype.card ι) / 2) := Real.Gamma_pos_of_pos (by positivity)
  rw [mvtDensity]
  positivity

theorem log_mvtDensity {ν : ℝ} (hν : 2 < ν) (m : ι → ℝ) {K : Matrix ι ι ℝ} (hK : K.PosDef)
    (y : ι → ℝ) : Real.log (mvtDensity ν m K y) =
      Real.log (Real.Gamma ((ν + Fintype.card ι) / 2)) - Real.log (Real.Gamma (ν / 2)) -
      1 / 2 * (Fintype.card ι * Real.log ((ν - 2) * Real.pi) + Real.log K.det) -
      (ν + Fintype.card ι) / 2 * Real.log (1 + ((y - m) ⬝ᵥ (K⁻¹ *ᵥ (y - m))) / (ν - 2)) := by
  have hq : 0 ≤ (y - m) ⬝ᵥ (K⁻¹ *ᵥ (y - m)) := by
    have := hK.inv.posSemidef.dotProduct_mulVec_nonneg (y - m)
    simpa using this
  have hd := hK.det_pos
  have hpi := Real.pi_pos
  have h1 : 0 < ν - 2 := by linarith
  have h2 : 0 < Real.Gamma (ν / 2) := Real.Gamma_pos_of_pos (by linarith)
  have h3 : 0 < Real.Gamma ((ν + Fintype.card ι) / 2) := Real.Gamma_pos_of_pos (by positivity)
  have h4 : 0 < ((ν - 2) * Real.pi) ^ Fintype.card ι := by positivity
  have h5 : 0 < 1 + (y - m) ⬝ᵥ (K⁻¹ *ᵥ (y - m)) / (ν - 2) := by positivity
  rw [mvtDensity, Real.log_mul (by positivity) (by positivity), Real.log_div h3.ne' (by positivity),
    Real.log_mul h2.ne' (by positivity), Real.log_sqrt (by positivity), Real.log_mul h4.ne' hd.ne',
    Real.log_pow, Real.log_rpow h5]
  ring

/-- The density of a block is the density of its first part times that of the second part with
more degrees of freedom, shifted mean and scaled Schur complement. -/
theorem mvtDensity_block {K : Matrix ι ι ℝ} {k : Matrix ι κ ℝ} {C S : Matrix κ κ ℝ}
    (hK : K.PosDef) (hS : S = C - kᵀ * K⁻¹ * k) (hSp : S.PosDef)
    (hJ : (fromBlocks K k kᵀ C).PosDef) {ν : ℝ} (hν : 2 < ν) (m y : ι → ℝ) (ms f : κ → ℝ) :
    mvtDensity ν (Sum.elim m ms) (fromBlocks K k kᵀ C) (Sum.elim y f) =
      mvtDensity ν m K y * mvtDensity (ν + Fintype.card ι) (ms + (kᵀ * K⁻¹) *ᵥ (y - m))
        (((ν + (y - m) ⬝ᵥ (K⁻¹ *ᵥ (y - m)) - 2) / (ν + Fintype.card ι - 2)) • S) f := by
  letI : Invertible K := K.invertibleOfIsUnitDet hK.det_pos.ne'.isUnit
  have hKt : Kᵀ = K := by
    have := hK.isHermitian
    rwa [IsHermitian, conjTranspose_eq_transpose_of_trivial] at this
  have hβ0 : 0 ≤ (y - m) ⬝ᵥ (K⁻¹ *ᵥ (y - m)) := by
    have := hK.inv.posSemidef.dotProduct_mulVec_nonneg (y - m)
    rwa [star_trivial] at this
  generalize hβ : (y - m) ⬝ᵥ (K⁻¹ *ᵥ (y - m)) = β at hβ0 ⊢
  have hcard : (0 : ℝ) ≤ Fintype.card ι := Nat.cast_nonneg _
  have hA : 0 < ν - 2 := by linarith
  have hB : 0 < ν + β - 2 := by linarith
  have hN : 0 < ν + Fintype.card ι - 2 := by linarith
  have hc : 0 < (ν + β - 2) / (ν + Fintype.card ι - 2) := div_pos hB hN
  set c := (ν + β - 2) / (ν + Fintype.card ι - 2) with hcdef
  have hcS : (c • S).PosDef := hSp.smul hc
  have hdet : (fromBlocks K k kᵀ C).det = K.det * S.det := by
    rw [det_fromBlocks₁₁, invOf_eq_nonsing_inv, hS]
  have hν' : 2 < ν + Fintype.card ι := by linarith
  have hel : Sum.elim y f - Sum.elim m ms = Sum.elim (y - m) (f - ms) := by
    ext (i | j) <;> rfl
  refine Real.log_injOn_pos (mvtDensity_pos hν _ hJ _)
    (mul_pos (mvtDensity_pos hν _ hK _) (mvtDensity_pos hν' _ hcS _)) ?_
  rw [Real.log_mul (mvtDensity_pos hν _ hK _).ne' (mvtDensity_pos hν' _ hcS _).ne',
    log_mvtDensity hν _ hJ, log_mvtDensity hν _ hK, log_mvtDensity hν' _ hcS, hel,
    block_quad hK.det_pos.ne' hKt hS hSp.det_pos.ne', hdet, hβ, det_smul,
    show f - (ms + (kᵀ * K⁻¹) *ᵥ (y - m)) = f - ms - (kᵀ * K⁻¹) *ᵥ (y - m) by abel]
  set e := f - ms - (kᵀ * K⁻¹) *ᵥ (y - m)
  have hinv : (c • S)⁻¹ = c⁻¹ • S⁻¹ := by
    refine inv_eq_right_inv ?_
    rw [smul_mul_smul_comm, mul_inv_cancel₀ hc.ne', mul_nonsing_inv _ hSp.det_pos.ne'.isUnit,
      one_smul]
  rw [hinv, smul_mulVec, dotProduct_smul, smul_eq_mul]
  have hq0 : 0 ≤ e ⬝ᵥ (S⁻¹ *ᵥ e) := by
    have := hSp.inv.posSemidef.dotProduct_mulVec_nonneg e
    rwa [star_trivial] at this
  generalize e ⬝ᵥ (S⁻¹ *ᵥ e) = q at hq0 ⊢
  have hpi := Real.pi_pos
  have hD : 0 < ν + β - 2 + q := by linarith
  rw [show 1 + (β + q) / (ν - 2) = (ν + β - 2 + q) / (ν - 2) by field_simp; ring,
    show 1 + β / (ν - 2) = (ν + β - 2) / (ν - 2) by field_simp; ring,
    show 1 + c⁻¹ * q / (ν + Fintype.card ι - 2) = (ν + β - 2 + q) / (ν + β - 2) by
      rw [hcdef]; field_simp,
    Real.log_div hD.ne' hA.ne', Real.log_div hB.ne' hA.ne', Real.log_div hD.ne' hB.ne',
    Real.log_mul hA.ne' hpi.ne', Real.log_mul hN.ne' hpi.ne', Real.log_mul hK.det_pos.ne' hSp.det_pos.ne',
    Real.log_mul (by positivity) hSp.det_pos.ne', Real.log_pow, hcdef, Real.log_div hB.ne' hN.ne',
    Fintype.card_sum]
  push_cast
  rw [add_assoc ν]
  ring

end Block

end Verif.Lemmas
