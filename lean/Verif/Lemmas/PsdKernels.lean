import Mathlib.Analysis.Matrix.Order
import Mathlib.Analysis.SpecialFunctions.Gaussian.GaussianIntegral
import Mathlib.MeasureTheory.Integral.IntegralEqImproper
import Mathlib.Analysis.Normed.Algebra.Exponential
import Verif.Spec.Kernels
import Verif.Lemmas.MaternMix

/-! Positive semi-definiteness of the Gaussian and Matern profiles. -/

namespace Verif.Lemmas

open Verif.Spec MeasureTheory Filter Topology

theorem quadNonneg_iff {n : ℕ} {A : Matrix (Fin n) (Fin n) ℝ} (h : A.PosSemidef) :
    QuadNonneg A := by
  intro c
  have := h.dotProduct_mulVec_nonneg c
  simpa [dotProduct, Matrix.mulVec, Finset.mul_sum, mul_assoc] using this

theorem posSemidef_of_quad {n : ℕ} {A : Matrix (Fin n) (Fin n) ℝ} (hs : ∀ i j, A i j = A j i)
    (h : QuadNonneg A) : A.PosSemidef := by
  refine Matrix.PosSemidef.of_dotProduct_mulVec_nonneg ?_ ?_
  · ext i j; simp [hs j i]
  · intro c
    have := h c
    simpa [dotProduct, Matrix.mulVec, Finset.mul_sum, mul_assoc] using this

theorem posDef_of_quad {n : ℕ} {A : Matrix (Fin n) (Fin n) ℝ} (hs : ∀ i j, A i j = A j i)
    (h : QuadPos A) : A.PosDef := by
  refine Matrix.PosDef.of_dotProduct_mulVec_pos ?_ ?_
  · ext i j; simp [hs j i]
  · intro c hc
    have := h c hc
    simpa [dotProduct, Matrix.mulVec, Finset.mul_sum, mul_assoc] using this

theorem quadPos_of_posDef {n : ℕ} {A : Matrix (Fin n) (Fin n) ℝ} (h : A.PosDef) :
    QuadPos A := by
  intro c hc
  have := h.dotProduct_mulVec_pos hc
  simpa [dotProduct, Matrix.mulVec, Finset.mul_sum, mul_assoc] using this

theorem gram_psd {n d : ℕ} (x : Fin n → Point d) :
    (Matrix.of fun i j => ∑ k, x i k * x j k : Matrix (Fin n) (Fin n) ℝ).PosSemidef := by
  have := Matrix.posSemidef_self_mul_conjTranspose (Matrix.of x)
  have e : (Matrix.of fun i j => ∑ k, x i k * x j k : Matrix (Fin n) (Fin n) ℝ) =
      Matrix.of x * (Matrix.of x).conjTranspose := by
    ext i j; simp [Matrix.mul_apply]
  rw [e]; exact this

theorem pow_psd {n : ℕ} {A : Matrix (Fin n) (Fin n) ℝ} (h : A.PosSemidef) (k : ℕ) :
    (Matrix.of fun i j => A i j ^ k : Matrix (Fin n) (Fin n) ℝ).PosSemidef := by
  induction k with
  | zero =>
    have := Matrix.posSemidef_vecMulVec_self_star (fun _ : Fin n => (1 : ℝ))
    have e : (Matrix.of fun i j => A i j ^ 0 : Matrix (Fin n) (Fin n) ℝ) =
        Matrix.vecMulVec (fun _ => (1 : ℝ)) (star fun _ => (1 : ℝ)) := by
      ext i j; simp [Matrix.vecMulVec]
    rw [e]; exact this
  | succ k ih =>
    have e : (Matrix.of fun i j => A i j ^ (k + 1) : Matrix (Fin n) (Fin n) ℝ) =
        (Matrix.of fun i j => A i j ^ k : Matrix (Fin n) (Fin n) ℝ).hadamard A := by
      ext i j; simp [Matrix.hadamard, pow_succ]
    rw [e]; exact ih.hadamard h

theorem exp_quad {n : ℕ} {A : Matrix (Fin n) (Fin n) ℝ} (h : A.PosSemidef) :
    QuadNonneg fun i j => Real.exp (A i j) := by
  intro c
  have hs : ∀ i j, HasSum (fun k : ℕ => c i * (A i j ^ k / k.factorial) * c j)
      (c i * Real.exp (A i j) * c j) := by
    intro i j
    have := NormedSpace.expSeries_div_hasSum_exp (𝔸 := ℝ) (A i j)
    rw [← Real.exp_eq_exp_ℝ] at this
    exact (this.mul_left _).mul_right _
  have h2 : HasSum (fun k : ℕ => ∑ i, ∑ j, c i * (A i j ^ k / k.factorial) * c j)
      (∑ i, ∑ j, c i * Real.exp (A i j) * c j) :=
    hasSum_sum fun i _ => hasSum_sum fun j _ => hs i j
  refine h2.nonneg fun k => ?_
  have := quadNonneg_iff (pow_psd h k) c
  have e : ∑ i, ∑ j, c i * (A i j ^ k / k.factorial) * c j =
      (∑ i, ∑ j, c i * A i j ^ k * c j) / k.factorial := by
    simp only [Finset.sum_div]
    refine Finset.sum_congr rfl fun i _ => Finset.sum_congr rfl fun j _ => by ring
  rw [e]
  exact div_nonneg this (by positivity)

/-- The Gaussian kernel is positive semi-definite. -/
theorem gauss_quad {n d : ℕ} (x : Fin n → Point d) {t : ℝ} (ht : 0 ≤ t) :
    QuadNonneg fun i j => Real.exp (-(t * ∑ k, (x i k - x j k) ^ 2)) := by
  intro c
  have hp : ((2 * t) • (Matrix.of fun i j => ∑ k, x i k * x j k :
      Matrix (Fin n) (Fin n) ℝ)).PosSemidef := (gram_psd x).smul (by positivity)
  have := exp_quad hp (fun i => c i * Real.exp (-(t * ∑ k, x i k ^ 2)))
  refine this.trans_eq ?_
  refine Finset.sum_congr rfl fun i _ => Finset.sum_congr rfl fun j _ => ?_
  have e : Real.exp (-(t * ∑ k, (x i k - x j k) ^ 2)) =
      Real.exp (-(t * ∑ k, x i k ^ 2)) * Real.exp (2 * t * ∑ k, x i k * x j k) *
        Real.exp (-(t * ∑ k, x j k ^ 2)) := by
    rw [← Real.exp_add, ← Real.exp_add]
    congr 1
    have : ∑ k, (x i k - x j k) ^ 2 =
        ∑ k, x i k ^ 2 - 2 * ∑ k, x i k * x j k + ∑ k, x j k ^ 2 := by
      rw [Finset.mul_sum, ← Finset.sum_sub_distrib, ← Finset.sum_add_distrib]
      exact Finset.sum_congr rfl fun k _ => by ring
    rw [this]; ring
  simp only [Matrix.smul_apply, Matrix.of_apply, smul_eq_mul]
  rw [e]
  ring

theorem scaledDistance_nonneg {d : ℕ} (l : Fin d → ℝ) (x y : Point d) :
    0 ≤ scaledDistance l x y := Real.sqrt_nonneg _

theorem scaledDistance_sq {d : ℕ} (l : Fin d → ℝ) (x y : Point d) :
    scaledDistance l x y ^ 2 = ∑ k, (x k / l k - y k / l k) ^ 2 := by
  unfold scaledDistance
  rw [Real.sq_sqrt (Finset.sum_nonneg fun k _ => sq_nonneg _)]
  exact Finset.sum_congr rfl fun k _ => by rw [sub_div]

theorem gauss_scaled_quad {n d : ℕ} (l : Fin d → ℝ) (x : Fin n → Point d) {t : ℝ} (ht : 0 ≤ t) :
    QuadNonneg fun i j => Real.exp (-(t * scaledDistance l (x i) (x j) ^ 2)) := by
  intro c
  have := gauss_quad (fun i k => x i k / l k) ht c
  simpa only [scaledDistance_sq] using this

/-- A mixture of Gaussians is positive semi-definite. -/
theorem mixture_quad {n d : ℕ} (l : Fin d → ℝ) (x : Fin n → Point d) (φ : ℝ → ℝ) (C : ℝ)
    (hC : 0 ≤ C) (w t : ℝ → ℝ) (hw : ∀ u ∈ Set.Ioi (0 : ℝ), 0 ≤ w u)
    (ht : ∀ u ∈ Set.Ioi (0 : ℝ), 0 ≤ t u)
    (hi : ∀ r, 0 ≤ r → IntegrableOn (fun u => w u * Real.exp (-(t u * r ^ 2))) (Set.Ioi 0))
    (hφ : ∀ r, 0 ≤ r → φ r = C * ∫ u in Set.Ioi (0 : ℝ), w u * Real.exp (-(t u * r ^ 2))) :
    QuadNonneg fun i j => φ (scaledDistance l (x i) (x j)) := by
  intro c
  set r : Fin n → Fin n → ℝ := fun i j => scaledDistance l (x i) (x j) with hr
  have hr0 : ∀ i j, 0 ≤ r i j := fun i j => scaledDistance_nonneg _ _ _
  have e : ∑ i, ∑ j, c i * φ (r i j) * c j =
      C * ∫ u in Set.Ioi (0 : ℝ), ∑ i, ∑ j,
        c i * (w u * Real.exp (-(t u * r i j ^ 2))) * c j := by
    rw [integral_finset_sum _ fun i _ => integrable_finset_sum _ fun j _ =>
      ((hi _ (hr0 i j)).const_mul (c i)).mul_const (c j), Finset.mul_sum]
    refine Finset.sum_congr rfl fun i _ => ?_
    rw [integral_finset_sum _ fun j _ => ((hi _ (hr0 i j)).const_mul (c i)).mul_const (c j),
      Finset.mul_sum]
    refine Finset.sum_congr rfl fun j _ => ?_
    rw [integral_mul_const, integral_const_mul, hφ _ (hr0 i j)]
    ring
  change 0 ≤ ∑ i, ∑ j, c i * φ (r i j) * c j
  rw [e]
  refine mul_nonneg hC (setIntegral_nonneg measurableSet_Ioi fun u hu => ?_)
  have := gauss_scaled_quad l x (ht u hu) c
  have e2 : ∑ i, ∑ j, c i * (w u * Real.exp (-(t u * r i j ^ 2))) * c j =
      w u * ∑ i, ∑ j, c i * Real.exp (-(t u * r i j ^ 2)) * c j := by
    simp only [Finset.mul_sum]
    exact Finset.sum_congr rfl fun i _ => Finset.sum_congr rfl fun j _ => by ring
  rw [e2]
  exact mul_nonneg (hw u hu) this

theorem se_quad {n d : ℕ} (l : Fin d → ℝ) (x : Fin n → Point d) :
    QuadNonneg fun i j => seProfile (scaledDistance l (x i) (x j)) := by
  have := gauss_scaled_quad l x (t := 1 / 2) (by norm_num)
  have e : (fun i j => seProfile (scaledDistance l (x i) (x j))) =
      fun i j => Real.exp (-(1 / 2 * scaledDistance l (x i) (x j) ^ 2)) := by
    ext i j; simp only [seProfile]; congr 1; ring
  rw [e]; exact this

theorem mixG_gauss (u r s : ℝ) (hs : 0 ≤ s) :
    mixG (√s * r / 2) u = Real.exp (-u ^ 2) * Real.exp (-(s / (4 * u ^ 2) * r ^ 2)) := by
  unfold mixG
  congr 2
  have : √s ^ 2 = s := Real.sq_sqrt hs
  rw [div_pow, div_pow, mul_pow, this]
  rcases eq_or_ne u 0 with rfl | hu
  · simp
  · field_simp; norm_num

theorem m32_quad {n d : ℕ} (l : Fin d → ℝ) (x : Fin n → Point d) :
    QuadNonneg fun i j => m32Profile (scaledDistance l (x i) (x j)) := by
  have hpi : 0 < √Real.pi := Real.sqrt_pos.mpr Real.pi_pos
  refine mixture_quad l x m32Profile (4 / √Real.pi) (by positivity)
    (fun u => u ^ 2 * Real.exp (-u ^ 2)) (fun u => 3 / (4 * u ^ 2))
    (fun u _ => by positivity) (fun u _ => by positivity) ?_ ?_
  · intro r hr
    have := (matern_mix (a := √3 * r / 2) (by positivity)).1.1
    simpa only [mixG_gauss _ _ _ (show (0 : ℝ) ≤ 3 by norm_num), ← mul_assoc] using this
  · intro r hr
    have := (matern_mix (a := √3 * r / 2) (by positivity)).1.2
    simp only [mixG_gauss _ _ _ (show (0 : ℝ) ≤ 3 by norm_num), ← mul_assoc] at this
    rw [this]
    unfold m32Profile
    have e : 2 * (√3 * r / 2) = √3 * r := by ring
    rw [e]
    field_simp

theorem m52_quad {n d : ℕ} (l : Fin d → ℝ) (x : Fin n → Point d) :
    QuadNonneg fun i j => m52Profile (scaledDistance l (x i) (x j)) := by
  have hpi : 0 < √Real.pi := Real.sqrt_pos.mpr Real.pi_pos
  refine mixture_quad l x m52Profile (8 / (3 * √Real.pi)) (by positivity)
    (fun u => u ^ 4 * Real.exp (-u ^ 2)) (fun u => 5 / (4 * u ^ 2))
    (fun u _ => by positivity) (fun u _ => by positivity) ?_ ?_
  · intro r hr
    have := (matern_mix (a := √5 * r / 2) (by positivity)).2.1
    simpa only [mixG_gauss _ _ _ (show (0 : ℝ) ≤ 5 by norm_num), ← mul_assoc] using this
  · intro r hr
    have := (matern_mix (a := √5 * r / 2) (by positivity)).2.2
    simp only [mixG_gauss _ _ _ (show (0 : ℝ) ≤ 5 by norm_num), ← mul_assoc] at this
    rw [this]
    unfold m52Profile
    have e5 : √5 ^ 2 = 5 := Real.sq_sqrt (by norm_num)
    have e : 2 * (√5 * r / 2) = √5 * r := by ring
    rw [e, mul_pow, e5]
    field_simp

/-- Every profile gives a positive semi-definite matrix. -/
theorem profile_quad {n d : ℕ} (name : String) (l : Fin d → ℝ) (x : Fin n → Point d) :
    QuadNonneg fun i j => profile name (scaledDistance l (x i) (x j)) := by
  unfold profile
  split_ifs
  · exact m32_quad l x
  · exact m52_quad l x
  · exact se_quad l x

theorem kernel_quad {n d : ℕ} (name : String) (s : ℝ) (l : Fin d → ℝ) (x : Fin n → Point d) :
    QuadNonneg fun i j => kernel name s l (x i) (x j) := by
  intro c
  have := profile_quad name l x (fun i => s * c i)
  refine this.trans_eq (Finset.sum_congr rfl fun i _ => Finset.sum_congr rfl fun j _ => ?_)
  simp only [kernel]; ring

end Verif.Lemmas
