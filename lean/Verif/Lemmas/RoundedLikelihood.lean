import Verif.Model.RoundedLikelihood
import Verif.Spec.RoundedLikelihood
import Verif.Lemmas.RoundedPredict
import Verif.Lemmas.RoundedAcquisition
import Verif.Lemmas.Likelihood
import Verif.Lemmas.Regret
import Verif.Lemmas.RoundedMeans
import Mathlib.Analysis.Complex.ExponentialBounds

/-! Helpers for C156. -/

namespace Verif.Lemmas

open Verif.Spec Verif.Rounded Verif.Covariance Verif.UtilsCovariance Matrix

variable {fl ex lg : ℝ → ℝ} {n d : ℕ}

/-! ### Determinants of nearby matrices -/

/-- The logarithm of the determinant is concave. -/
theorem log_det_sub_le {A B : Matrix (Fin n) (Fin n) ℝ} (hA : A.PosDef) (hB : B.PosDef) :
    Real.log B.det - Real.log A.det ≤ (A⁻¹ * (B - A)).trace := by
  rcases Nat.eq_zero_or_pos n with rfl | hn
  · simp
  have hn' : (0 : ℝ) < n := by exact_mod_cast hn
  have hs : ∀ i j, A i j = A j i := fun i j => by
    have := congrFun (congrFun hA.isHermitian j) i
    simpa using this
  obtain ⟨L, hL⟩ := exists_cholesky A hs fun x hx => by
    have := hA.dotProduct_mulVec_pos hx
    simpa [dotProduct, mulVec, Finset.mul_sum, mul_assoc] using this
  have hdet : L.det ≠ 0 := by
    rw [Matrix.det_of_lowerTriangular L (fun i j hij => hL.1 i j hij)]
    exact (Finset.prod_pos fun i _ => hL.2.1 i).ne'
  have hu : IsUnit L.det := hdet.isUnit
  have hM : (L⁻¹ * B * (L⁻¹)ᴴ).PosSemidef := hB.posSemidef.mul_mul_conjTranspose_same _
  have hMe : (L⁻¹)ᴴ = (Lᵀ)⁻¹ := by
    rw [conjTranspose_eq_transpose_of_trivial, transpose_nonsing_inv]
  have hd : (L⁻¹ * B * (L⁻¹)ᴴ).det = B.det / A.det := by
    rw [hMe, det_mul, det_mul, det_nonsing_inv, det_nonsing_inv, Ring.inverse_eq_inv', ← hL.2.2,
      det_mul, det_transpose]
    field_simp
  have hinv : A⁻¹ = (Lᵀ)⁻¹ * L⁻¹ := by rw [← hL.2.2, Matrix.mul_inv_rev]
  have ht : (L⁻¹ * B * (L⁻¹)ᴴ).trace = (A⁻¹ * B).trace := by
    rw [hMe, trace_mul_comm, hinv, Matrix.mul_assoc]
  have h1 := det_le_trace hn hM
  rw [hd, ht] at h1
  have hq : 0 < B.det / A.det := div_pos hB.det_pos hA.det_pos
  have ht0 : 0 < (A⁻¹ * B).trace / n := by
    have h0 : 0 ≤ (A⁻¹ * B).trace / n := div_nonneg (ht ▸ hM.trace_nonneg) hn'.le
    rcases h0.eq_or_lt with h0 | h0
    · rw [← h0, zero_pow hn.ne'] at h1
      linarith
    · exact h0
  have h2 := Real.log_le_log hq h1
  rw [Real.log_div hB.det_pos.ne' hA.det_pos.ne', Real.log_pow] at h2
  have h3 := Real.log_le_sub_one_of_pos ht0
  have h4 : (n : ℝ) * Real.log ((A⁻¹ * B).trace / n) ≤ (A⁻¹ * B).trace - n := by
    have := mul_le_mul_of_nonneg_left h3 hn'.le
    rwa [mul_sub, mul_one, mul_div_cancel₀ _ hn'.ne'] at this
  have h5 : (A⁻¹ * (B - A)).trace = (A⁻¹ * B).trace - n := by
    rw [Matrix.mul_sub, Matrix.nonsing_inv_mul _ hA.det_pos.ne'.isUnit, trace_sub, trace_one,
      Fintype.card_fin]
  linarith

theorem length_inv_le {A : Matrix (Fin n) (Fin n) ℝ} {τ : ℝ} (hτ : 0 < τ) (hA : A.PosDef)
    (hq : ∀ x, τ * (x ⬝ᵥ x) ≤ x ⬝ᵥ (A *ᵥ x)) (x : Fin n → ℝ) :
    √((A⁻¹ *ᵥ x) ⬝ᵥ (A⁻¹ *ᵥ x)) ≤ √(x ⬝ᵥ x) / τ := by
  have h := length_le hq (A⁻¹ *ᵥ x)
  rw [mulVec_mulVec, Matrix.mul_nonsing_inv _ hA.det_pos.ne'.isUnit, one_mulVec] at h
  rw [le_div_iff₀ hτ]
  linarith

theorem entry_le_length (x : Fin n → ℝ) (i : Fin n) : |x i| ≤ √(x ⬝ᵥ x) := by
  apply Real.abs_le_sqrt
  rw [dotProduct]
  have := Finset.single_le_sum (f := fun i => x i * x i) (fun j _ => mul_self_nonneg (x j))
    (Finset.mem_univ i)
  simpa [sq] using this

theorem length_le_entries {x : Fin n → ℝ} {η : ℝ} (hη : 0 ≤ η) (hx : ∀ i, |x i| ≤ η) :
    √(x ⬝ᵥ x) ≤ √n * η := by
  apply Real.sqrt_le_iff.2
  refine ⟨by positivity, ?_⟩
  rw [mul_pow, Real.sq_sqrt (Nat.cast_nonneg n), dotProduct]
  refine (Finset.sum_le_sum fun i _ => (?_ : x i * x i ≤ η ^ 2)).trans_eq (by simp)
  rw [← sq, ← sq_abs]
  exact pow_le_pow_left₀ (abs_nonneg _) (hx i) 2

theorem trace_inv_le {A F : Matrix (Fin n) (Fin n) ℝ} {τ η : ℝ} (hτ : 0 < τ) (hη : 0 ≤ η)
    (hA : A.PosDef) (hq : ∀ x, τ * (x ⬝ᵥ x) ≤ x ⬝ᵥ (A *ᵥ x)) (hF : ∀ i j, |F i j| ≤ η) :
    (A⁻¹ * F).trace ≤ n * √n * η / τ := by
  rw [trace]
  have h : ∀ j, (A⁻¹ * F).diag j ≤ √n * η / τ := fun j => by
    have e : (A⁻¹ * F).diag j = (A⁻¹ *ᵥ fun i => F i j) j := rfl
    rw [e]
    refine (le_abs_self _).trans ((entry_le_length _ j).trans ((length_inv_le hτ hA hq _).trans ?_))
    gcongr
    exact length_le_entries hη fun i => hF i j
  refine (Finset.sum_le_sum fun j _ => h j).trans_eq ?_
  rw [Finset.sum_const, Finset.card_univ, Fintype.card_fin, nsmul_eq_mul]
  ring

/-- Determinants of matrices near the noisy Gram matrix. -/
theorem log_det_near {base : String} {σ s : ℝ} {l : Fin d → ℝ} {X : Inputs n d}
    {G : Matrix (Fin n) (Fin n) ℝ} {κ : ℝ} (hκ : 0 ≤ κ) (hs : ∀ i j, G i j = G j i)
    (hG : ∀ i j, |G i j - noisyGram base σ s l X i j| ≤ κ) (hn : n * κ < σ ^ 2 + 1 / 100000) :
    |Real.log G.det - Real.log (noisyGram base σ s l X).det| ≤
      n * √n * κ / (σ ^ 2 + 1 / 100000 - n * κ) := by
  have hτ : (0 : ℝ) < σ ^ 2 + 1 / 100000 := by positivity
  have hgap : 0 < σ ^ 2 + 1 / 100000 - n * κ := sub_pos.2 hn
  have hN := noisyGram_posDef base σ s l X
  have hP := near_posDef hs hG hn
  rw [abs_le]
  constructor
  · have h1 := log_det_sub_le hP hN
    have h2 := trace_inv_le (F := noisyGram base σ s l X - G) hgap hκ hP (near_form hG) fun i j => by
      rw [Matrix.sub_apply, abs_sub_comm]
      exact hG i j
    linarith
  · have h1 := log_det_sub_le hN hP
    have h2 := trace_inv_le (F := G - noisyGram base σ s l X) hτ hκ hN
      (noisyGram_form base σ s l X) hG
    refine h1.trans (h2.trans ?_)
    apply div_le_div_of_nonneg_left (by positivity) hgap
    have : 0 ≤ (n : ℝ) * κ := by positivity
    linarith

/-! ### The quadratic form -/

/-- Solving with a nearby matrix, up to a residual, for a nearby right-hand side. -/
theorem near_residual {base : String} {σ s : ℝ} {l : Fin d → ℝ} {X : Inputs n d}
    {K : Matrix (Fin n) (Fin n) ℝ} {η ε ω ρ : ℝ}
    (hη : ∀ i j, |K i j - noisyGram base σ s l X i j| ≤ η) (hn : n * η < σ ^ 2 + 1 / 100000)
    (hε : 0 ≤ ε) (hη0 : 0 ≤ η) {r r' a : Fin n → ℝ} (ha : ∀ i, |(K *ᵥ a) i - r' i| ≤ ε)
    (hr : √((r' - r) ⬝ᵥ (r' - r)) ≤ ω) (hρ : √(r ⬝ᵥ r) ≤ ρ) :
    √((a - (noisyGram base σ s l X)⁻¹ *ᵥ r) ⬝ᵥ (a - (noisyGram base σ s l X)⁻¹ *ᵥ r)) ≤
      (√n * ε + ω + n * η * (ρ / (σ ^ 2 + 1 / 100000))) / (σ ^ 2 + 1 / 100000 - n * η) := by
  set N := noisyGram base σ s l X with hN
  have hτ : (0 : ℝ) < σ ^ 2 + 1 / 100000 := by positivity
  have hgap : 0 < σ ^ 2 + 1 / 100000 - n * η := sub_pos.2 hn
  have hNp := noisyGram_posDef base σ s l X
  have e : K *ᵥ (a - N⁻¹ *ᵥ r) = (K *ᵥ a - r') + (r' - r) + (N - K) *ᵥ (N⁻¹ *ᵥ r) := by
    have e1 : N *ᵥ (N⁻¹ *ᵥ r) = r := by
      rw [mulVec_mulVec, Matrix.mul_nonsing_inv _ hNp.det_pos.ne'.isUnit, one_mulVec]
    rw [mulVec_sub, sub_mulVec, e1]
    abel
  have h1 := length_le (near_form hη) (a - N⁻¹ *ᵥ r)
  rw [e] at h1
  rw [le_div_iff₀ hgap, mul_comm]
  refine h1.trans ?_
  have tri : ∀ x y : Fin n → ℝ, √((x + y) ⬝ᵥ (x + y)) ≤ √(x ⬝ᵥ x) + √(y ⬝ᵥ y) := fun x y => by
    apply Real.sqrt_le_iff.2
    refine ⟨by positivity, ?_⟩
    have h2 := le_abs_self (x ⬝ᵥ y) |>.trans (cauchy x y)
    have h3 := Real.sq_sqrt (dot_self_nonneg x)
    have h4 := Real.sq_sqrt (dot_self_nonneg y)
    have h5 : (x + y) ⬝ᵥ (x + y) = x ⬝ᵥ x + 2 * (x ⬝ᵥ y) + y ⬝ᵥ y := by
      rw [add_dotProduct, dotProduct_add, dotProduct_add, dotProduct_comm y x]
      ring
    nlinarith
  refine (tri _ _).trans (add_le_add ((tri _ _).trans (add_le_add ?_ hr)) ?_)
  · exact length_le_entries hε ha
  · refine (small_square (η := η) (fun i j => ?_) _).trans ?_
    · rw [Matrix.sub_apply, abs_sub_comm]
      exact hη i j
    · refine mul_le_mul_of_nonneg_left ?_ (by positivity)
      refine (length_inv_le hτ hNp (noisyGram_form base σ s l X) r).trans ?_
      gcongr

/-- The length of a vector that is small beside another one. -/
theorem length_scale {x y : Fin n → ℝ} {u : ℝ} (hu : 0 ≤ u) (h : ∀ i, |x i| ≤ u * |y i|) :
    √(x ⬝ᵥ x) ≤ u * √(y ⬝ᵥ y) := by
  apply Real.sqrt_le_iff.2
  refine ⟨by positivity, ?_⟩
  rw [mul_pow, Real.sq_sqrt (dot_self_nonneg y), dotProduct, dotProduct, Finset.mul_sum]
  refine Finset.sum_le_sum fun i _ => ?_
  have := pow_le_pow_left₀ (abs_nonneg _) (h i) 2
  rw [mul_pow, sq_abs, sq_abs] at this
  rwa [← sq, ← sq]

theorem length_triangle (x y : Fin n → ℝ) : √((x + y) ⬝ᵥ (x + y)) ≤ √(x ⬝ᵥ x) + √(y ⬝ᵥ y) := by
  apply Real.sqrt_le_iff.2
  refine ⟨by positivity, ?_⟩
  have h2 := le_abs_self (x ⬝ᵥ y) |>.trans (cauchy x y)
  have h3 := Real.sq_sqrt (dot_self_nonneg x)
  have h4 := Real.sq_sqrt (dot_self_nonneg y)
  have h5 : (x + y) ⬝ᵥ (x + y) = x ⬝ᵥ x + 2 * (x ⬝ᵥ y) + y ⬝ᵥ y := by
    rw [add_dotProduct, dotProduct_add, dotProduct_add, dotProduct_comm y x]
    ring
  nlinarith

/-- The computed quadratic form. -/
theorem quadratic_error (hf : Nearest fl) {mm : RoundedPredict.MatMul} {γ t : ℝ} (hγ : 0 ≤ γ)
    (hmm : MultipliesWithin n γ t mm) {base : String} {σ s : ℝ} {l : Fin d → ℝ} {X : Inputs n d}
    {K : Matrix (Fin n) (Fin n) ℝ} {η ε ρ u A : ℝ}
    (hη : ∀ i j, |K i j - noisyGram base σ s l X i j| ≤ η) (hn : n * η < σ ^ 2 + 1 / 100000)
    (hε : 0 ≤ ε) (hη0 : 0 ≤ η) {Y μ a : Fin n → ℝ} (hY : ∀ i, Y i ∈ Double) (hμ : ∀ i, μ i ∈ Double)
    (ha : SolvesWithin ε K (fun i => fl (Y i - μ i)) a) (hρ : √((Y - μ) ⬝ᵥ (Y - μ)) ≤ ρ)
    (hu : u = 1 / 2 ^ 53)
    (hA : A = (√n * ε + u * ρ + n * η * (ρ / (σ ^ 2 + 1 / 100000))) / (σ ^ 2 + 1 / 100000 - n * η)) :
    mm (fun _ k => fl (Y k - μ k) : Matrix (Fin 1) (Fin n) ℝ)
        (fun k _ => a k : Matrix (Fin n) (Fin 1) ℝ) 0 0 ∈ Double ∧
      |mm (fun _ k => fl (Y k - μ k) : Matrix (Fin 1) (Fin n) ℝ)
        (fun k _ => a k : Matrix (Fin n) (Fin 1) ℝ) 0 0 -
          (Y - μ) ⬝ᵥ ((noisyGram base σ s l X)⁻¹ *ᵥ (Y - μ))| ≤
        (1 + u) * ρ * A + u * ρ * (ρ / (σ ^ 2 + 1 / 100000)) +
          γ * ((1 + u) * ρ * (ρ / (σ ^ 2 + 1 / 100000) + A)) + t ∧
      |(Y - μ) ⬝ᵥ ((noisyGram base σ s l X)⁻¹ *ᵥ (Y - μ))| ≤ ρ * (ρ / (σ ^ 2 + 1 / 100000)) := by
  have hτ : (0 : ℝ) < σ ^ 2 + 1 / 100000 := by positivity
  have hgap : 0 < σ ^ 2 + 1 / 100000 - n * η := sub_pos.2 hn
  have hNp := noisyGram_posDef base σ s l X
  set N := noisyGram base σ s l X with hN
  have hu0 : 0 ≤ u := by rw [hu]; positivity
  have hρ0 : 0 ≤ ρ := (Real.sqrt_nonneg _).trans hρ
  set r : Fin n → ℝ := Y - μ with hr
  set r' : Fin n → ℝ := fun i => fl (Y i - μ i) with hr'
  have hrr : √((r' - r) ⬝ᵥ (r' - r)) ≤ u * ρ := by
    refine (length_scale (y := r) hu0 fun i => ?_).trans (mul_le_mul_of_nonneg_left hρ hu0)
    rw [hu]
    exact fl_sub_rel hf (hY i) (hμ i)
  have hr'l : √(r' ⬝ᵥ r') ≤ (1 + u) * ρ := by
    have := length_triangle (r' - r) r
    rw [sub_add_cancel] at this
    linarith
  have hstar : √((N⁻¹ *ᵥ r) ⬝ᵥ (N⁻¹ *ᵥ r)) ≤ ρ / (σ ^ 2 + 1 / 100000) := by
    refine (length_inv_le hτ hNp (noisyGram_form base σ s l X) r).trans ?_
    gcongr
  have hdiff : √((a - N⁻¹ *ᵥ r) ⬝ᵥ (a - N⁻¹ *ᵥ r)) ≤ A := by
    rw [hA]
    exact near_residual hη hn hε hη0 ha.near hrr hρ
  have hal : √(a ⬝ᵥ a) ≤ ρ / (σ ^ 2 + 1 / 100000) + A := by
    have := length_triangle (N⁻¹ *ᵥ r) (a - N⁻¹ *ᵥ r)
    rw [add_sub_cancel] at this
    linarith
  have hA0 : 0 ≤ A := (Real.sqrt_nonneg _).trans hdiff
  obtain ⟨hm, he⟩ := hmm 1 1 (fun _ k => r' k) (fun k _ => a k) (fun _ k => hf.mem _)
    (fun k _ => ha.mem k) 0 0
  refine ⟨hm, ?_, ?_⟩
  · have h1 : ∑ k, |r' k| * |a k| ≤ (1 + u) * ρ * (ρ / (σ ^ 2 + 1 / 100000) + A) := by
      have h2 := le_abs_self _ |>.trans (cauchy (fun k => |r' k|) (fun k => |a k|))
      have e : ∀ x : Fin n → ℝ, (fun k => |x k|) ⬝ᵥ (fun k => |x k|) = x ⬝ᵥ x := fun x => by
        simp [dotProduct]
      rw [e, e] at h2
      exact h2.trans (mul_le_mul hr'l hal (Real.sqrt_nonneg _) (by positivity))
    have h3 : |r' ⬝ᵥ a - r ⬝ᵥ (N⁻¹ *ᵥ r)| ≤
        (1 + u) * ρ * A + u * ρ * (ρ / (σ ^ 2 + 1 / 100000)) := by
      have e : r' ⬝ᵥ a - r ⬝ᵥ (N⁻¹ *ᵥ r) = r' ⬝ᵥ (a - N⁻¹ *ᵥ r) + (r' - r) ⬝ᵥ (N⁻¹ *ᵥ r) := by
        rw [dotProduct_sub r' a, sub_dotProduct r' r]
        ring
      rw [e]
      refine (abs_add_le _ _).trans (add_le_add ((cauchy _ _).trans ?_) ((cauchy _ _).trans ?_))
      · exact mul_le_mul hr'l hdiff (Real.sqrt_nonneg _) (by positivity)
      · exact mul_le_mul hrr hstar (Real.sqrt_nonneg _) (by positivity)
    have h4 := mul_le_mul_of_nonneg_left h1 hγ
    have h5 := abs_sub_le (mm (fun _ k => r' k : Matrix (Fin 1) (Fin n) ℝ)
      (fun k _ => a k : Matrix (Fin n) (Fin 1) ℝ) 0 0) (r' ⬝ᵥ a) (r ⬝ᵥ (N⁻¹ *ᵥ r))
    have h6 : |mm (fun _ k => r' k : Matrix (Fin 1) (Fin n) ℝ)
      (fun k _ => a k : Matrix (Fin n) (Fin 1) ℝ) 0 0 - r' ⬝ᵥ a| ≤ γ * ∑ k, |r' k| * |a k| + t := he
    linarith
  · exact (cauchy _ _).trans (mul_le_mul hρ hstar (Real.sqrt_nonneg _) hρ0)

/-! ### The logarithms -/

theorem jitter_log_le (hf : Nearest fl) :
    0 ≤ fl Constants.JITTER_LOG ∧ (1 + 1 / 2 ^ 53) * fl Constants.JITTER_LOG ≤ 101 / 10 ^ 9 := by
  have h0 : (0 : ℝ) ≤ Constants.JITTER_LOG := by norm_num [Constants.JITTER_LOG]
  refine ⟨fl_nonneg hf h0, ?_⟩
  have h1 := (abs_le.1 (fl_error hf Constants.JITTER_LOG)).2
  have h2 := tiny_lt
  rw [abs_of_nonneg h0] at h1
  generalize (2 : ℝ) ^ (-1075 : ℤ) = T at *
  norm_num [Constants.JITTER_LOG] at h1 h2 ⊢
  linarith

/-- One summand of the logarithm of the determinant. -/
theorem log_entry_error (hf : Nearest fl) {ζ : ℝ} (hlg : LogRelative ζ lg) (hζ : 0 ≤ ζ) {x c H Λ : ℝ}
    (hx : x ∈ Double) (hc : 0 < c) (hxc : c ≤ x) (hxH : x ≤ H) (h1 : Real.exp (-Λ) ≤ c)
    (h2 : 2 * (H + 1 / 10 ^ 6) ≤ Real.exp Λ) :
    |lg (fl (x + fl Constants.JITTER_LOG))| ≤ (1 + ζ) * Λ ∧
      |lg (fl (x + fl Constants.JITTER_LOG)) - Real.log x| ≤
        ζ * Λ + 1 / 2 ^ 53 + 101 / 10 ^ 9 / c := by
  obtain ⟨hJ0, hJ⟩ := jitter_log_le hf
  have hx0 : 0 < x := hc.trans_le hxc
  set J := fl Constants.JITTER_LOG with hJe
  set z := fl (x + J) with hz
  have hzx : x ≤ z := le_fl_of_le hf hx (by linarith)
  have hz0 : 0 < z := hx0.trans_le hzx
  have hzu : z ≤ (1 + 1 / 2 ^ 53) * (x + J) := by
    have := (abs_le.1 (fl_add_rel hf hx (hf.mem Constants.JITTER_LOG))).2
    rw [abs_of_nonneg (show 0 ≤ x + fl Constants.JITTER_LOG by linarith)] at this
    linarith
  have hzl : |Real.log z| ≤ Λ := by
    rw [abs_le]
    constructor
    · rw [← Real.log_exp (-Λ)]
      exact Real.log_le_log (Real.exp_pos _) (h1.trans (hxc.trans hzx))
    · rw [← Real.log_exp Λ]
      apply Real.log_le_log hz0
      norm_num at hzu hJ h2 ⊢
      linarith
  have hgz := hlg.near z (hf.mem _) hz0
  have hgz' : |lg z - Real.log z| ≤ ζ * Λ := hgz.trans (mul_le_mul_of_nonneg_left hzl hζ)
  have hdl : 0 ≤ Real.log z - Real.log x := sub_nonneg.2 (Real.log_le_log hx0 hzx)
  have hdu : Real.log z - Real.log x ≤ 1 / 2 ^ 53 + 101 / 10 ^ 9 / c := by
    rw [← Real.log_div hz0.ne' hx0.ne']
    have h3 := Real.log_le_sub_one_of_pos (div_pos hz0 hx0)
    have h4 : z / x ≤ 1 + 1 / 2 ^ 53 + 101 / 10 ^ 9 / x := by
      rw [div_le_iff₀ hx0, add_mul, div_mul_cancel₀ _ hx0.ne']
      linarith
    have h5 : 101 / 10 ^ 9 / x ≤ 101 / 10 ^ 9 / c :=
      div_le_div_of_nonneg_left (by norm_num) hc hxc
    linarith
  constructor
  · have := abs_add_le (lg z - Real.log z) (Real.log z)
    rw [sub_add_cancel] at this
    linarith
  · have := abs_sub_le (lg z) (Real.log z) (Real.log x)
    rw [abs_of_nonneg hdl] at this
    linarith

/-- The computed half of the logarithm of the determinant. -/
theorem log_sum_error (hf : Nearest fl) {ζ : ℝ} (hlg : LogRelative ζ lg) (hζ : 0 ≤ ζ) {o : SumOrder}
    (ho : o.Covers n) (hn : (n : ℝ) ≤ 2 ^ 20) {x : Fin n → ℝ} {c H Λ : ℝ}
    (hx : ∀ i, x i ∈ Double) (hc : 0 < c) (hxc : ∀ i, c ≤ x i) (hxH : ∀ i, x i ≤ H)
    (h1 : Real.exp (-Λ) ≤ c) (h2 : 2 * (H + 1 / 10 ^ 6) ≤ Real.exp Λ) :
    RoundedKernels.sumList fl (List.ofFn fun i => lg (fl (x i + fl Constants.JITTER_LOG))) o ∈ Double ∧
      |RoundedKernels.sumList fl (List.ofFn fun i => lg (fl (x i + fl Constants.JITTER_LOG))) o| ≤
        2 * n * ((1 + ζ) * Λ) ∧
      |RoundedKernels.sumList fl (List.ofFn fun i => lg (fl (x i + fl Constants.JITTER_LOG))) o -
        ∑ i, Real.log (x i)| ≤ n * (ζ * Λ + 1 / 2 ^ 53 + 101 / 10 ^ 9 / c) +
          2 * n * (1 / 2 ^ 53) * (n * ((1 + ζ) * Λ)) := by
  have hq := fun i => log_entry_error hf hlg hζ (hx i) hc (hxc i) (hxH i) h1 h2
  have hs := sumList_error_signed hf ho hn
    (q := fun i => lg (fl (x i + fl Constants.JITTER_LOG))) fun i => hlg.mem _
  set S := RoundedKernels.sumList fl (List.ofFn fun i => lg (fl (x i + fl Constants.JITTER_LOG))) o
  have ha : ∑ i, |lg (fl (x i + fl Constants.JITTER_LOG))| ≤ n * ((1 + ζ) * Λ) := by
    refine (Finset.sum_le_sum fun i _ => (hq i).1).trans_eq (by simp)
  have ha0 : 0 ≤ ∑ i, |lg (fl (x i + fl Constants.JITTER_LOG))| :=
    Finset.sum_nonneg fun i _ => abs_nonneg _
  have hb : |∑ i, lg (fl (x i + fl Constants.JITTER_LOG)) - ∑ i, Real.log (x i)| ≤
      n * (ζ * Λ + 1 / 2 ^ 53 + 101 / 10 ^ 9 / c) := by
    rw [← Finset.sum_sub_distrib]
    refine (Finset.abs_sum_le_sum_abs _ _).trans
      ((Finset.sum_le_sum fun i _ => (hq i).2).trans_eq ?_)
    rw [Finset.sum_const, Finset.card_univ, Fintype.card_fin, nsmul_eq_mul]
  have hc' : |∑ i, lg (fl (x i + fl Constants.JITTER_LOG))| ≤
      ∑ i, |lg (fl (x i + fl Constants.JITTER_LOG))| := Finset.abs_sum_le_sum_abs _ _
  have hk0 : (0 : ℝ) ≤ 2 * n * (1 / 2 ^ 53) := by positivity
  have hk1 : 2 * (n : ℝ) * (1 / 2 ^ 53) ≤ 1 := by
    have : 2 * (n : ℝ) * (1 / 2 ^ 53) ≤ 2 * 2 ^ 20 * (1 / 2 ^ 53) := by gcongr
    exact this.trans (by norm_num)
  refine ⟨sumList_mem hf (by simp [List.mem_ofFn, hlg.mem]) o, ?_, ?_⟩
  · have h3 := abs_add_le (S - ∑ i, lg (fl (x i + fl Constants.JITTER_LOG)))
      (∑ i, lg (fl (x i + fl Constants.JITTER_LOG)))
    rw [sub_add_cancel] at h3
    have h4 := mul_le_mul_of_nonneg_right hk1 ha0
    linarith
  · have h3 := abs_sub_le S (∑ i, lg (fl (x i + fl Constants.JITTER_LOG))) (∑ i, Real.log (x i))
    have h4 := mul_le_mul_of_nonneg_left ha hk0
    linarith

/-- The constant term. -/
theorem constant_error (hf : Nearest fl) {ζ : ℝ} (hlg : LogRelative ζ lg) (hζ : 0 ≤ ζ)
    (hζ1 : ζ ≤ 1 / 4) (hn : (n : ℝ) ≤ 2 ^ 20) :
    |fl (fl (-(n : ℝ) / 2) * lg (fl (2 * fl Real.pi))) - -(n / 2 * Real.log (2 * Real.pi))| ≤
      n * (2 * ζ + 2 * (1 / 2 ^ 53)) + (2 : ℝ) ^ (-1075 : ℤ) ∧
    |fl (fl (-(n : ℝ) / 2) * lg (fl (2 * fl Real.pi)))| ≤ 2 * n + (2 : ℝ) ^ (-1075 : ℤ) := by
  have hhalf : fl (-(n : ℝ) / 2) = -(n : ℝ) / 2 := by
    apply fl_of_mem hf
    have hnn : n < 2 ^ 53 := by
      have : (n : ℝ) < 2 ^ 53 := hn.trans_lt (by norm_num)
      exact_mod_cast this
    refine ⟨-(n : ℤ), -1, ?_, by norm_num, ?_⟩
    · rw [abs_neg, Nat.abs_cast]
      exact_mod_cast hnn
    · push_cast
      rw [_root_.zpow_neg_one]
      ring
  have h2 : fl (2 * fl Real.pi) = 2 * fl Real.pi := fl_of_mem hf (Verif.RoundedTrees.double_twice (hf.mem _))
  have hp3 := Real.pi_gt_three
  have hp4 := Real.pi_lt_d2
  have hrel : |fl Real.pi - Real.pi| ≤ 1 / 2 ^ 53 * Real.pi := by
    have := fl_rel hf (x := Real.pi) (by
      rw [abs_of_pos Real.pi_pos]
      have h1 : (2 : ℝ) ^ (-1022 : ℤ) ≤ (2 : ℝ) ^ (0 : ℤ) :=
        zpow_le_zpow_right₀ (by norm_num) (by norm_num)
      rw [zpow_zero] at h1
      linarith)
    rwa [abs_of_pos Real.pi_pos] at this
  obtain ⟨ha, hb⟩ := abs_le.1 hrel
  set p := fl Real.pi with hp
  have hp0 : 2.9 ≤ p := by norm_num at ha ⊢; linarith
  have hp1 : p ≤ 3.2 := by norm_num at hb hp4 ⊢; linarith
  have hpp : 0 < p := by linarith
  have hπ := Real.pi_pos
  have hlog : |Real.log (2 * p) - Real.log (2 * Real.pi)| ≤ 2 * (1 / 2 ^ 53) := by
    rw [Real.log_mul (by norm_num) hpp.ne', Real.log_mul (by norm_num) hπ.ne', add_sub_add_left_eq_sub,
      abs_le]
    constructor
    · rw [neg_le_sub_iff_le_add, ← sub_le_iff_le_add', ← Real.log_div hπ.ne' hpp.ne']
      refine (Real.log_le_sub_one_of_pos (div_pos hπ hpp)).trans ?_
      rw [sub_le_iff_le_add, div_le_iff₀ hpp]
      norm_num at ha ⊢
      linarith
    · rw [← Real.log_div hpp.ne' hπ.ne']
      refine (Real.log_le_sub_one_of_pos (div_pos hpp hπ)).trans ?_
      rw [sub_le_iff_le_add, div_le_iff₀ hπ]
      norm_num at hb ⊢
      linarith
  have hl2 : |Real.log (2 * p)| ≤ 2 := by
    rw [abs_of_nonneg (Real.log_nonneg (by linarith)), Real.log_le_iff_le_exp (by linarith)]
    have := Real.exp_one_gt_d9
    have e : Real.exp 2 = Real.exp 1 * Real.exp 1 := by rw [← Real.exp_add]; norm_num
    rw [e]
    nlinarith
  rw [hhalf, h2]
  have hg := hlg.near (2 * p) (Verif.RoundedTrees.double_twice (hf.mem _)) (by linarith)
  set g := lg (2 * p) with hgd
  set G := Real.log (2 * p)
  set C := Real.log (2 * Real.pi)
  have hg1 : |g - G| ≤ 2 * ζ := by
    have := mul_le_mul_of_nonneg_left hl2 hζ
    linarith
  have hg2 : |g| ≤ 2 + 2 * ζ := by
    have := abs_add_le (g - G) G
    rw [sub_add_cancel] at this
    linarith
  have hg3 : |g - C| ≤ 2 * ζ + 2 * (1 / 2 ^ 53) := by
    have := abs_sub_le g G C
    linarith
  have hn0 : (0 : ℝ) ≤ n := Nat.cast_nonneg n
  have h5 := fl_error hf (-(n : ℝ) / 2 * g)
  have h6 : |-(n : ℝ) / 2 * g| = n / 2 * |g| := by
    rw [abs_mul, neg_div, abs_neg, abs_of_nonneg (by positivity)]
  have h7 : (n : ℝ) / 2 * |g| ≤ n / 2 * (2 + 2 * ζ) := mul_le_mul_of_nonneg_left hg2 (by positivity)
  have h8 : |-(n : ℝ) / 2 * g - -(n / 2 * C)| ≤ n / 2 * (2 * ζ + 2 * (1 / 2 ^ 53)) := by
    have e : -(n : ℝ) / 2 * g - -(n / 2 * C) = -(n / 2 * (g - C)) := by ring
    rw [e, abs_neg, abs_mul, abs_of_nonneg (show (0 : ℝ) ≤ n / 2 by positivity)]
    exact mul_le_mul_of_nonneg_left hg3 (by positivity)
  rw [h6] at h5
  have h9 := abs_sub_le (fl (-(n : ℝ) / 2 * g)) (-(n : ℝ) / 2 * g) (-(n / 2 * C))
  have h10 : (n : ℝ) * ζ ≤ n * (1 / 4) := mul_le_mul_of_nonneg_left hζ1 hn0
  have h11 : 0 ≤ (n : ℝ) * ζ := by positivity
  generalize (2 : ℝ) ^ (-1075 : ℤ) = T at *
  constructor
  · norm_num at h5 h7 h8 h9 h10 ⊢
    linarith
  · have h12 := abs_add_le (fl (-(n : ℝ) / 2 * g) - -(n : ℝ) / 2 * g) (-(n : ℝ) / 2 * g)
    rw [sub_add_cancel, h6] at h12
    norm_num at h5 h7 h10 h12 ⊢
    linarith

/-- The last operations. -/
theorem assemble_error (hf : Nearest fl) {p q S D T C e₁ e₂ e₃ P M₂ M u : ℝ} (hn : 1 ≤ n)
    (hS : S ∈ Double) (hT : T ∈ Double) (hu : u = 1 / 2 ^ 53)
    (h1 : |p - q| ≤ e₁) (h2 : |S - D| ≤ e₂) (h3 : |T - -C| ≤ e₃) (hP : |p| ≤ P) (hM2 : |S| ≤ M₂)
    (hT2 : |T| ≤ 2 * n + (2 : ℝ) ^ (-1075 : ℤ)) (hM : M = P + M₂ + 3 * n) :
    |fl (-1 * fl (fl (fl (fl (-(1 / 2) * p) + fl (-1 * S)) + T) / n)) - (1 / 2 * q + D + C) / n| ≤
      (e₁ / 2 + e₂ + e₃ + 6 * u * M) / n + 2 * (2 : ℝ) ^ (-1075 : ℤ) := by
  have hn' : (1 : ℝ) ≤ n := by exact_mod_cast hn
  have hn0 : (0 : ℝ) < n := by linarith
  have hw0 : (0 : ℝ) < (2 : ℝ) ^ (-1075 : ℤ) := by positivity
  have hw1 := tiny_lt
  have hneg : ∀ x ∈ Double, fl (-1 * x) = -x := fun x hx => by
    rw [neg_one_mul]
    exact fl_of_mem hf (double_neg hx)
  rw [hneg _ (hf.mem _), hneg S hS]
  have hP0 : 0 ≤ P := (abs_nonneg _).trans hP
  have hM0 : 0 ≤ M₂ := (abs_nonneg _).trans hM2
  have hF := fl_error hf (-(1 / 2) * p)
  have e1 : |-(1 / 2) * p| = 1 / 2 * |p| := by rw [abs_mul, abs_neg]; norm_num
  rw [e1] at hF
  set F := fl (-(1 / 2) * p) with hFd
  have hG := fl_add_rel hf (hf.mem (-(1 / 2) * p)) (double_neg hS)
  rw [← hFd] at hG
  set G := fl (F + -S) with hGd
  have hI := fl_add_rel hf (hf.mem (F + -S)) hT
  rw [← hGd] at hI
  set I := fl (G + T) with hId
  have hJ := fl_error hf (I / n)
  rw [abs_div, abs_of_pos hn0] at hJ
  set J := fl (I / n)
  rw [← hu] at hF hG hI hJ
  have hu0 : 0 ≤ u := by rw [hu]; positivity
  have hu1 : u ≤ 1 / 100 := by rw [hu]; norm_num
  generalize (2 : ℝ) ^ (-1075 : ℤ) = w at *
  have hw2 : w ≤ 1 / 100 := hw1.trans (by norm_num)
  have hM00 : 0 ≤ M := by rw [hM]; positivity
  have huM : u * M ≤ 1 / 100 * M := mul_le_mul_of_nonneg_right hu1 hM00
  have huM0 : 0 ≤ u * M := by positivity
  have hF1 : |F - -(1 / 2) * p| ≤ u * (1 / 2 * P) + w :=
    hF.trans (add_le_add (mul_le_mul_of_nonneg_left (by linarith) hu0) le_rfl)
  have huP : u * (1 / 2 * P) ≤ 1 / 100 * (1 / 2 * P) := mul_le_mul_of_nonneg_right hu1 (by positivity)
  have hF2 : |F| ≤ P + w := by
    have := abs_add_le (F - -(1 / 2) * p) (-(1 / 2) * p)
    rw [sub_add_cancel, e1] at this
    linarith
  have hFS : |F + -S| ≤ M := by
    have := abs_add_le F (-S)
    rw [abs_neg] at this
    linarith
  have hFST : |F + -S| + |T| ≤ M := by
    have := abs_add_le F (-S)
    rw [abs_neg] at this
    linarith
  have hG1 : |G - (F + -S)| ≤ u * M := hG.trans (mul_le_mul_of_nonneg_left hFS hu0)
  have hGT : |G + T| ≤ 2 * M := by
    have h5 := abs_add_le (G - (F + -S)) (F + -S)
    rw [sub_add_cancel] at h5
    have h6 := abs_add_le G T
    linarith
  have hI1 : |I - (G + T)| ≤ 2 * (u * M) := by
    refine hI.trans ((mul_le_mul_of_nonneg_left hGT hu0).trans_eq (by ring))
  have hI2 : |I| ≤ 2 * M + 2 * (u * M) := by
    have := abs_add_le (I - (G + T)) (G + T)
    rw [sub_add_cancel] at this
    linarith
  have hI3 : |I| ≤ 5 / 2 * M := by linarith
  have hJ1 : |J - I / n| ≤ 5 / 2 * (u * M) / n + w := by
    refine hJ.trans (add_le_add ?_ le_rfl)
    rw [← mul_div_assoc]
    apply div_le_div_of_nonneg_right _ hn0.le
    exact (mul_le_mul_of_nonneg_left hI3 hu0).trans_eq (by ring)
  have hIe : |I + (1 / 2 * q + D + C)| ≤ e₁ / 2 + e₂ + e₃ + u * (1 / 2 * P) + w + 3 * (u * M) := by
    have e : I + (1 / 2 * q + D + C) = (I - (G + T)) + (G - (F + -S)) + (F - -(1 / 2) * p) +
        -(1 / 2 * (p - q)) + -(S - D) + (T - -C) := by ring
    rw [e]
    have h5 : |-(1 / 2 * (p - q))| ≤ e₁ / 2 := by
      rw [abs_neg, abs_mul, abs_of_nonneg (by norm_num : (0 : ℝ) ≤ 1 / 2)]
      linarith
    have h6 : |-(S - D)| ≤ e₂ := by rwa [abs_neg]
    have a1 := abs_add_le ((I - (G + T)) + (G - (F + -S)) + (F - -(1 / 2) * p) +
        -(1 / 2 * (p - q)) + -(S - D)) (T - -C)
    have a2 := abs_add_le ((I - (G + T)) + (G - (F + -S)) + (F - -(1 / 2) * p) +
        -(1 / 2 * (p - q))) (-(S - D))
    have a3 := abs_add_le ((I - (G + T)) + (G - (F + -S)) + (F - -(1 / 2) * p))
        (-(1 / 2 * (p - q)))
    have a4 := abs_add_le ((I - (G + T)) + (G - (F + -S))) (F - -(1 / 2) * p)
    have a5 := abs_add_le (I - (G + T)) (G - (F + -S))
    linarith
  have huPM : u * (1 / 2 * P) ≤ 1 / 2 * (u * M) := by
    have : u * P ≤ u * M := mul_le_mul_of_nonneg_left (by rw [hM]; linarith) hu0
    linarith
  have e : -J - (1 / 2 * q + D + C) / n = -(J - I / n) + -((I + (1 / 2 * q + D + C)) / n) := by
    field_simp
    ring
  rw [e]
  have b1 := abs_add_le (-(J - I / n)) (-((I + (1 / 2 * q + D + C)) / n))
  rw [abs_neg, abs_neg, abs_div, abs_of_pos hn0] at b1
  have b2 : |I + (1 / 2 * q + D + C)| / n ≤ (e₁ / 2 + e₂ + e₃ + 7 / 2 * (u * M)) / n + w := by
    rw [div_add' _ _ _ hn0.ne']
    apply div_le_div_of_nonneg_right _ hn0.le
    have : w ≤ w * n := le_mul_of_one_le_right hw0.le hn'
    linarith
  have b3 : (e₁ / 2 + e₂ + e₃ + 6 * u * M) / n = (e₁ / 2 + e₂ + e₃ + 7 / 2 * (u * M)) / n +
      5 / 2 * (u * M) / n := by ring
  rw [b3]
  linarith

/-! ### The function -/

theorem kernelMatrix_mem (hf : Nearest fl) {o : SumOrder} {name : String} (hn : name ∈ baseNames)
    {h : HypDict} {σ s : ℝ} {l : Fin d → ℝ} (hd : Describes h σ s l) {X : Fin n → Point d}
    {K : Matrix (Fin n) (Fin n) ℝ} (hK : RoundedKernels.kernelMatrix fl ex o X h name = .ok K)
    (i j : Fin n) : K i j ∈ Double := by
  obtain ⟨c, L, -, -, hk⟩ := kernelMatrix_ok (ex := ex) (o := o) hf hn hd X
  rw [hk] at hK
  rw [← Except.ok.inj hK]
  simp only
  split <;> exact hf.mem _

/-- The value when the first factorisation succeeds. -/
theorem roundedNegLogMl_ok (hf : Nearest fl) {o o' : SumOrder} {mm : RoundedPredict.MatMul}
    {chol : Matrix (Fin n) (Fin n) ℝ → Py (Matrix (Fin n) (Fin n) ℝ)}
    {solve : Matrix (Fin n) (Fin n) ℝ → (Fin n → ℝ) → Fin n → ℝ} {name : String}
    (hn : name ∈ baseNames) {v : List Flt} {ard fix : Bool} {h : HypDict}
    (hr : restoreHyps name v true ard fix = .ok h) {σ s : ℝ} {l : Fin d → ℝ} (hd : Describes h σ s l)
    {X : Fin n → Point d} {K L : Matrix (Fin n) (Fin n) ℝ}
    (hK : RoundedKernels.kernelMatrix fl ex o X h name = .ok K) (hL : chol K = .ok L) (h0 : n ≠ 0)
    (Y μ : Fin n → ℝ) :
    RoundedLikelihood.negLogMl fl ex lg o o' mm chol solve X Y v name μ ard fix = .ok
      (fl (-1 * fl (fl (fl (fl (-(1 / 2) *
        mm (fun _ k => fl (Y k - μ k) : Matrix (Fin 1) (Fin n) ℝ)
          (fun k _ => solve L (fun i => fl (Y i - μ i)) k : Matrix (Fin n) (Fin 1) ℝ) 0 0) +
        fl (-1 * RoundedKernels.sumList fl
          (List.ofFn fun i => lg (fl (L i i + fl Constants.JITTER_LOG))) o')) +
        fl (fl (-(n : ℝ) / 2) * lg (fl (2 * fl Real.pi)))) / n))) := by
  have hch : checkStrCov name 2 = .ok () := by
    simp [checkStrCov, base_allowed hn, pyAssert, bind, Except.bind, pure, Except.pure]
  have hK0 : (fun i j => fl (K i j + fl 0 * npEye n n i j)) = K := by
    ext i j
    rw [fl_zero hf, zero_mul, add_zero, fl_of_mem hf (kernelMatrix_mem hf hn hd hK i j)]
  have hlow : RoundedLikelihood.getKernelCholesky fl ex o chol X h name = .ok (K, L) := by
    simp only [RoundedLikelihood.getKernelCholesky, hK, bind, Except.bind, Covariance.jitters,
      RoundedLikelihood.choleskyLoop, hK0, hL]
  simp only [RoundedLikelihood.negLogMl, hch, hr, hlow, bind, Except.bind, pure, Except.pure, h0,
    if_false]

/-! ### Numbers -/

theorem typical_quadratic {u q A τ γ t a : ℝ} (hu0 : 0 < u) (hu1 : u ≤ 1 / 10 ^ 15) (hq0 : 0 < q)
    (hq2 : q * q = n) (hqτ : 3 * q / τ ≤ 300 * q) (hqτ0 : 0 ≤ 3 * q / τ) (hA0 : 0 ≤ A)
    (hA1 : A ≤ 7 / 10 ^ 6 * q) (hγ0 : 0 ≤ γ) (hγ1 : γ ≤ 1 / 10 ^ 13) (ht3 : t ≤ n * (1 / 10 ^ 15))
    (ha : a = (1 + u) * (3 * q) * A + u * (3 * q) * (3 * q / τ) +
      γ * ((1 + u) * (3 * q) * (3 * q / τ + A)) + t) : a ≤ n * (22 / 10 ^ 6) := by
  have h1 : (1 + u) * (3 * q) ≤ 301 / 100 * q := by nlinarith
  have h1' : 0 ≤ (1 + u) * (3 * q) := by positivity
  have h2 : (1 + u) * (3 * q) * A ≤ 301 / 100 * q * (7 / 10 ^ 6 * q) :=
    mul_le_mul h1 hA1 hA0 (by positivity)
  have h4 : u * (3 * q) * (3 * q / τ) ≤ 1 / 10 ^ 15 * (3 * q) * (300 * q) :=
    mul_le_mul (mul_le_mul_of_nonneg_right hu1 (by positivity)) hqτ hqτ0 (by positivity)
  have h5 : (1 + u) * (3 * q) * (3 * q / τ + A) ≤ 301 / 100 * q * (301 * q) := by
    refine mul_le_mul h1 ?_ (by positivity) (by positivity)
    norm_num at hA1 ⊢
    linarith
  have h6 : γ * ((1 + u) * (3 * q) * (3 * q / τ + A)) ≤ 1 / 10 ^ 13 * (301 / 100 * q * (301 * q)) :=
    mul_le_mul hγ1 h5 (by positivity) (by positivity)
  have e2 : 301 / 100 * q * (7 / 10 ^ 6 * q) = 301 / 100 * (7 / 10 ^ 6) * n := by rw [← hq2]; ring
  have e4 : 1 / 10 ^ 15 * (3 * q) * (300 * q) = 900 / 10 ^ 15 * n := by rw [← hq2]; ring
  have e6 : 1 / 10 ^ 13 * (301 / 100 * q * (301 * q)) = 301 * 301 / 100 / 10 ^ 13 * n := by
    rw [← hq2]; ring
  rw [e2] at h2
  rw [e4] at h4
  rw [e6] at h6
  rw [ha]
  norm_num at h2 h4 h6 ht3 ⊢
  linarith

theorem typical_determinant {u q κ g c b : ℝ} (hu0 : 0 < u) (hu1 : u ≤ 1 / 10 ^ 15)
    (hn0 : (0 : ℝ) < n) (hn' : (n : ℝ) ≤ 20) (hq0 : 0 < q) (hq1 : q ≤ 5) (hκ0 : 0 ≤ κ)
    (hκ1 : κ ≤ 11 / 10 ^ 12) (hgap : 1 / 100 ≤ g) (hroot : 1 / 10 ≤ c)
    (hb : b = n * (1 / 2 ^ 50 * 3 + u + 101 / 10 ^ 9 / c) +
      2 * n * u * (n * ((1 + 1 / 2 ^ 50) * 3)) + n * q * κ / g / 2) : b ≤ n * (2 / 10 ^ 6) := by
  have h1 : 101 / 10 ^ 9 / c ≤ 101 / 10 ^ 9 / (1 / 10) :=
    div_le_div_of_nonneg_left (by norm_num) (by norm_num) hroot
  have h2 : n * q * κ / g ≤ n * 5 * (11 / 10 ^ 12) / (1 / 100) := by
    refine div_le_div₀ (by positivity) ?_ (by norm_num) hgap
    exact mul_le_mul (mul_le_mul_of_nonneg_left hq1 hn0.le) hκ1 (by positivity) (by positivity)
  have h4 : 2 * n * u * (n * ((1 + 1 / 2 ^ 50) * 3)) ≤
      2 * n * (1 / 10 ^ 15) * (20 * ((1 + 1 / 2 ^ 50) * 3)) :=
    mul_le_mul (mul_le_mul_of_nonneg_left hu1 (by positivity))
      (mul_le_mul_of_nonneg_right hn' (by norm_num)) (by positivity) (by positivity)
  have h5 : n * (1 / 2 ^ 50 * 3 + u + 101 / 10 ^ 9 / c) ≤
      n * (1 / 2 ^ 50 * 3 + 1 / 10 ^ 15 + 101 / 10 ^ 9 / (1 / 10)) :=
    mul_le_mul_of_nonneg_left (by linarith) hn0.le
  rw [hb]
  norm_num at h2 h4 h5 ⊢
  linarith

/-! ### Routines that meet the contracts -/

theorem logRelative_round (hf : Nearest fl) : LogRelative (1 / 2 ^ 53) fun x => fl (Real.log x) := by
  refine ⟨fun x => hf.mem _, fun x hx h0 => ?_⟩
  have hsmall : (2 : ℝ) ^ (-1022 : ℤ) ≤ 1 / 2 ^ 54 := by
    have : (2 : ℝ) ^ (-1022 : ℤ) ≤ (2 : ℝ) ^ (-54 : ℤ) := zpow_le_zpow_right₀ (by norm_num) (by norm_num)
    exact this.trans (by norm_num)
  rcases lt_trichotomy x 1 with h1 | rfl | h1
  · refine fl_rel hf (hsmall.trans ?_)
    have h2 := double_lt_one hx h1
    have h3 := Real.log_le_sub_one_of_pos h0
    refine le_trans ?_ (neg_le_abs _)
    norm_num at h2 ⊢
    linarith
  · simp [fl_zero hf]
  · refine fl_rel hf (hsmall.trans ?_)
    have h2 := double_gt_one hx h1
    have h3 := Real.one_sub_inv_le_log_of_pos h0
    have h4 : x⁻¹ ≤ ((1 : ℝ) + 1 / 2 ^ 52)⁻¹ := inv_anti₀ (by norm_num) h2
    refine le_trans ?_ (le_abs_self _)
    norm_num at h4 ⊢
    linarith

/-- The exact factor, rounded entry by entry. -/
theorem factors_round (hf : Nearest fl) {K L : Matrix (Fin n) (Fin n) ℝ} (hL : IsCholesky K L) {B : ℝ}
    (hB : ∀ i j, |L i j| ≤ B) (hd : ∀ i, 1 / 2 ^ 10 ≤ L i i) {e : ℝ}
    (he : e = 1 / 2 ^ 53 * B + (2 : ℝ) ^ (-1075 : ℤ)) :
    FactorsWithin (n * (e * (B + e) + B * e)) K fun i j => fl (L i j) where
  mem i j := hf.mem _
  upper i j hij := by rw [hL.1 i j hij, fl_zero hf]
  diag i := by
    have h2 : (1 / 2 ^ 10 : ℝ) ∈ Double := by
      have := double_half (e := -10) (by norm_num)
      rwa [show (2 : ℝ) ^ (-10 : ℤ) = 1 / 2 ^ 10 by norm_num] at this
    have h1 := le_fl_of_le hf h2 (hd i)
    exact lt_of_lt_of_le (by norm_num) h1
  near i j := by
    have hB0 : 0 ≤ B := (abs_nonneg _).trans (hB i j)
    have he0 : 0 ≤ e := by rw [he]; positivity
    have h1 : ∀ i j, |fl (L i j) - L i j| ≤ e := fun i j => by
      rw [he]
      exact (fl_error hf _).trans (add_le_add (mul_le_mul_of_nonneg_left (hB i j) (by positivity)) le_rfl)
    have h2 : ∀ i j, |fl (L i j)| ≤ B + e := fun i j => by
      have := abs_add_le (fl (L i j) - L i j) (L i j)
      rw [sub_add_cancel] at this
      linarith [h1 i j, hB i j]
    rw [← isCholesky_entry hL i j, ← Finset.sum_sub_distrib]
    refine (Finset.abs_sum_le_sum_abs _ _).trans
      ((Finset.sum_le_sum fun k _ => (?_ : _ ≤ e * (B + e) + B * e)).trans_eq ?_)
    · have e1 : fl (L i k) * fl (L j k) - L i k * L j k =
          (fl (L i k) - L i k) * fl (L j k) + L i k * (fl (L j k) - L j k) := by ring
      rw [e1]
      refine (abs_add_le _ _).trans ?_
      rw [abs_mul, abs_mul]
      exact add_le_add (mul_le_mul (h1 i k) (h2 j k) (abs_nonneg _) he0)
        (mul_le_mul (hB i k) (h1 j k) (abs_nonneg _) hB0)
    · rw [Finset.sum_const, Finset.card_univ, Fintype.card_fin, nsmul_eq_mul]

/-- The exact solution, rounded entry by entry. -/
theorem solves_round (hf : Nearest fl) {K : Matrix (Fin n) (Fin n) ℝ} (hK : K.PosDef) {r : Fin n → ℝ}
    {B C : ℝ} (hB : ∀ i j, |K i j| ≤ B) (hC : ∀ i, |(K⁻¹ *ᵥ r) i| ≤ C) :
    SolvesWithin (n * (B * (1 / 2 ^ 53 * C + (2 : ℝ) ^ (-1075 : ℤ)))) K r
      fun i => fl ((K⁻¹ *ᵥ r) i) where
  mem i := hf.mem _
  near i := by
    have e : r i = ∑ j, K i j * (K⁻¹ *ᵥ r) j := by
      have : K *ᵥ (K⁻¹ *ᵥ r) = r := by
        rw [mulVec_mulVec, Matrix.mul_nonsing_inv _ hK.det_pos.ne'.isUnit, one_mulVec]
      exact (congrFun this i).symm
    rw [e, ← Finset.sum_sub_distrib]
    refine (Finset.abs_sum_le_sum_abs _ _).trans
      ((Finset.sum_le_sum fun k _ => (?_ : _ ≤ B * (1 / 2 ^ 53 * C + (2 : ℝ) ^ (-1075 : ℤ)))).trans_eq ?_)
    · rw [← mul_sub, abs_mul]
      refine mul_le_mul (hB i k) ((fl_error hf _).trans (add_le_add
        (mul_le_mul_of_nonneg_left (hC k) (by positivity)) le_rfl)) (abs_nonneg _)
        ((abs_nonneg _).trans (hB i k))
    · rw [Finset.sum_const, Finset.card_univ, Fintype.card_fin, nsmul_eq_mul]

/-! ### Without rounding -/

theorem roundedLoop_id (K : Matrix (Fin n) (Fin n) ℝ) (js : List ℝ) :
    RoundedLikelihood.choleskyLoop id spCholesky K js = Covariance.choleskyLoop K js := by
  induction js with
  | nil => rfl
  | cons j t ih =>
    have e : (fun a b => id (K a b + id j * npEye n n a b)) = K + j • npEye n n := by
      ext a b
      simp
    simp only [RoundedLikelihood.choleskyLoop, Covariance.choleskyLoop, e, ih]
    cases spCholesky (K + j • npEye n n) <;> rfl

theorem roundedKernelMatrix_id {o : SumOrder} (ho : o.Covers d) {name : String}
    (hn : name ∈ baseNames) (X : Fin n → Point d) (h : HypDict) :
    RoundedKernels.kernelMatrix id Real.exp o X h name = noisyCov (.vec X) h name := by
  have hch : checkStrCov name 2 = .ok () := by
    simp [checkStrCov, base_allowed hn, pyAssert, bind, Except.bind, pure, Except.pure]
  simp only [RoundedKernels.kernelMatrix, noisyCov, roundedCovMain_id ho (base_allowed hn), hch, id]
  rfl

/-- Without rounding and with exact routines the model is the value of `neg_log_ml` of `Gp.lean`. -/
theorem roundedNegLogMl_id {o o' : SumOrder} (ho : o.Covers d) (ho' : o'.Covers n) {name : String}
    (hn : name ∈ baseNames) (X : Fin n → Point d) (Y μ : Fin n → ℝ) (v : List Flt) (ard fix : Bool) :
    RoundedLikelihood.negLogMl id Real.exp Real.log o o' (fun A B => A * B) spCholesky Gp.choSolve X Y v
        name μ ard fix =
      (Gp.negLogMl (.vec X) Y v name μ ard fix true false).map Prod.fst := by
  have hch : checkStrCov name 2 = .ok () := by
    simp [checkStrCov, base_allowed hn, pyAssert, bind, Except.bind, pure, Except.pure]
  have hch' : checkStrCov name (Inputs.vec X).rank = .ok () := hch
  simp only [RoundedLikelihood.negLogMl, RoundedLikelihood.getKernelCholesky, Gp.negLogMl,
    Covariance.getKernelCholesky, roundedKernelMatrix_id ho hn, roundedLoop_id, hch, hch', id, bind,
    Except.bind, pure, Except.pure, if_true, Bool.false_eq_true, if_false]
  rcases restoreHyps name v true ard fix with e | h
  · rfl
  simp only
  rcases noisyCov (.vec X) h name with e | K
  · rfl
  simp only
  rcases choleskyLoop K jitters with e | ⟨K', L⟩
  · rfl
  simp only
  split
  · rfl
  · simp only [Except.map, Except.ok.injEq, sumList_id, sum_covers ho']
    rfl

end Verif.Lemmas
