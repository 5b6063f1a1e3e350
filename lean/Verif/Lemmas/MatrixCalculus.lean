import Mathlib.Analysis.Calculus.Deriv.Mul
import Mathlib.Analysis.Calculus.Deriv.Inv
import Mathlib.Analysis.Calculus.Deriv.Add
import Mathlib.Analysis.SpecialFunctions.Log.Deriv
import Mathlib.LinearAlgebra.Matrix.Adjugate
import Mathlib.LinearAlgebra.Matrix.NonsingularInverse
import Mathlib.LinearAlgebra.Matrix.Trace
import Mathlib.LinearAlgebra.Matrix.PosDef

/-! Derivatives of determinant, log determinant, inverse and quadratic form along a curve of
matrices. -/

namespace Verif.Lemmas

open Matrix

variable {n : ℕ} {M : ℝ → Matrix (Fin n) (Fin n) ℝ} {M' : Matrix (Fin n) (Fin n) ℝ} {x : ℝ}

/-- Jacobi's formula. -/
theorem hasDerivAt_det (h : ∀ i j, HasDerivAt (fun t => M t i j) (M' i j) x) :
    HasDerivAt (fun t => (M t).det) (trace ((M x).adjugate * M')) x := by
  have h1 : HasDerivAt (fun t => (M t).det)
      (∑ π : Equiv.Perm (Fin n), ((Equiv.Perm.sign π : ℤ) : ℝ) *
        ∑ i, (∏ j ∈ Finset.univ.erase i, M x (π j) j) * M' (π i) i) x := by
    simp only [Matrix.det_apply']
    refine HasDerivAt.fun_sum fun π _ => HasDerivAt.const_mul _ ?_
    have := HasDerivAt.fun_finset_prod (u := Finset.univ) (f := fun i t => M t (π i) i)
      (f' := fun i => M' (π i) i) (x := x) fun i _ => h (π i) i
    simpa only [smul_eq_mul] using this
  refine h1.congr_deriv ?_
  have h2 : trace ((M x).adjugate * M') = ∑ i, ((M x).updateCol i (fun k => M' k i)).det := by
    simp only [Matrix.trace, Matrix.diag]
    refine Finset.sum_congr rfl fun i _ => ?_
    rw [← Matrix.cramer_apply, Matrix.cramer_eq_adjugate_mulVec]
    rfl
  rw [h2]
  simp only [Matrix.det_apply', Finset.mul_sum]
  rw [Finset.sum_comm]
  refine Finset.sum_congr rfl fun i _ => Finset.sum_congr rfl fun π _ => ?_
  congr 1
  rw [← Finset.mul_prod_erase Finset.univ _ (Finset.mem_univ i), mul_comm]
  congr 1
  · simp
  · refine Finset.prod_congr rfl fun j hj => ?_
    rw [Matrix.updateCol_ne (Finset.ne_of_mem_erase hj)]

theorem hasDerivAt_log_det (hd : 0 < (M x).det)
    (h : ∀ i j, HasDerivAt (fun t => M t i j) (M' i j) x) :
    HasDerivAt (fun t => Real.log (M t).det) (trace ((M x)⁻¹ * M')) x := by
  refine ((hasDerivAt_det h).log hd.ne').congr_deriv ?_
  rw [Matrix.inv_def, Ring.inverse_eq_inv', Matrix.smul_mul, Matrix.trace_smul, smul_eq_mul]
  field_simp

theorem exists_hasDerivAt_inv (hd : (M x).det ≠ 0)
    (h : ∀ i j, HasDerivAt (fun t => M t i j) (M' i j) x) :
    ∃ N' : Matrix (Fin n) (Fin n) ℝ, ∀ i j, HasDerivAt (fun t => (M t)⁻¹ i j) (N' i j) x := by
  have ha : ∀ i j, ∃ a, HasDerivAt (fun t => (M t).adjugate i j) a x := by
    intro i j
    simp only [Matrix.adjugate_apply]
    refine ⟨_, hasDerivAt_det (M' := Matrix.of fun a b => if a = j then 0 else M' a b)
      fun a b => ?_⟩
    by_cases hb : a = j
    · subst hb
      simp only [Matrix.updateRow_self, Matrix.of_apply, if_true]
      exact hasDerivAt_const _ _
    · simp only [Matrix.updateRow_ne hb, Matrix.of_apply, hb, if_false]
      exact h a b
  choose A hA using ha
  have hD := hasDerivAt_det h
  have hex : ∀ i j, ∃ b, HasDerivAt (fun t => (M t)⁻¹ i j) b x := by
    intro i j
    have e : (fun t => (M t)⁻¹ i j) = fun t => ((M t).det)⁻¹ * (M t).adjugate i j := by
      funext t
      rw [Matrix.inv_def, Ring.inverse_eq_inv']
      rfl
    rw [e]
    exact ⟨_, (hD.inv hd).mul (hA i j)⟩
  choose N hN using hex
  exact ⟨Matrix.of N, hN⟩

/-- The derivative of the inverse. -/
theorem hasDerivAt_inv (hd : (M x).det ≠ 0)
    (h : ∀ i j, HasDerivAt (fun t => M t i j) (M' i j) x) (i j : Fin n) :
    HasDerivAt (fun t => (M t)⁻¹ i j) (-((M x)⁻¹ * M' * (M x)⁻¹) i j) x := by
  obtain ⟨N', hN⟩ := exists_hasDerivAt_inv hd h
  have hu : IsUnit (M x).det := hd.isUnit
  have hprod : ∀ i j, HasDerivAt (fun t => ((M t)⁻¹ * M t) i j)
      ((N' * M x + (M x)⁻¹ * M') i j) x := by
    intro i j
    simp only [Matrix.mul_apply, Matrix.add_apply]
    rw [← Finset.sum_add_distrib]
    exact HasDerivAt.fun_sum fun k _ => (hN i k).mul (h k j)
  have hev : ∀ᶠ t in nhds x, (M t).det ≠ 0 :=
    (hasDerivAt_det h).continuousAt.eventually_ne hd
  have hz : N' * M x + (M x)⁻¹ * M' = 0 := by
    ext i j
    have hc : HasDerivAt (fun t => ((M t)⁻¹ * M t) i j) 0 x := by
      refine (hasDerivAt_const x ((1 : Matrix (Fin n) (Fin n) ℝ) i j)).congr_of_eventuallyEq ?_
      filter_upwards [hev] with t ht
      rw [Matrix.nonsing_inv_mul _ ht.isUnit]
    exact (hprod i j).unique hc
  have hN' : N' = -((M x)⁻¹ * M' * (M x)⁻¹) := by
    have : N' * M x = -((M x)⁻¹ * M') := eq_neg_of_add_eq_zero_left hz
    calc N' = N' * M x * (M x)⁻¹ := by
          rw [Matrix.mul_assoc, Matrix.mul_nonsing_inv _ hu, Matrix.mul_one]
      _ = _ := by rw [this, Matrix.neg_mul]
  have := hN i j
  rw [hN'] at this
  exact this

/-- The derivative of the Mahalanobis form. -/
theorem hasDerivAt_quad_inv (hd : (M x).det ≠ 0)
    (h : ∀ i j, HasDerivAt (fun t => M t i j) (M' i j) x) (y : Fin n → ℝ) :
    HasDerivAt (fun t => y ⬝ᵥ ((M t)⁻¹ *ᵥ y)) (-(y ⬝ᵥ (((M x)⁻¹ * M' * (M x)⁻¹) *ᵥ y))) x := by
  simp only [dotProduct, mulVec]
  rw [← Finset.sum_neg_distrib]
  refine HasDerivAt.fun_sum fun i _ => ?_
  rw [← mul_neg, ← Finset.sum_neg_distrib]
  refine HasDerivAt.const_mul _ (HasDerivAt.fun_sum fun j _ => ?_)
  rw [← neg_mul]
  exact (hasDerivAt_inv hd h i j).mul_const _

end Verif.Lemmas
