import Verif.Lemmas.Gp
import Verif.Spec.Gp
import Verif.Props.KernelMatrix

/-! C32-C35: Gaussian process prediction. -/

namespace Verif.Props

open Verif.Spec Verif.Covariance Verif.UtilsCovariance Verif.Constants Verif.Lemmas Verif.Gp
open Matrix hiding gram
open MeasureTheory

/-- C32: for every training set and test set the returned covariance is symmetric, its
quadratic forms of non-zero vectors are positive, its diagonal is at least `1e-5` (so the clip
at zero does nothing) and the returned standard deviations are the square roots of the
diagonal. -/
theorem C32_posterior_covariance {n m d : ℕ} {name base : String} {X : Inputs n d}
    {Xs : Inputs m d} (hX : Suits name base X) (hXs : Suits name base Xs) {h : HypDict} {σ s : ℝ}
    {l : Fin d → ℝ} (hd : Describes h σ s l) (Y : Fin n → ℝ) {prior : PriorMu d} {μ : Fin n → ℝ}
    {μs : Fin m → ℝ} (hμ : getPriorMu prior X = .ok μ) (hμs : getPriorMu prior Xs = .ok μs) :
    ∃ mu sd S, predictWithHyps X Y Xs h name prior = .ok (mu, sd, S) ∧
      (∀ i j, S i j = S j i) ∧ QuadNonneg S ∧ QuadPos S ∧
      ∀ i, 1 / 100000 ≤ S i i ∧ sd i = √(S i i) ∧ sd i ^ 2 = S i i ∧ 0 < sd i := by
  refine ⟨_, _, _, predictWithHyps_ok hX hXs hd Y hμ hμs, postCov_symm base σ s l X Xs, ?_, ?_, ?_⟩
  · intro c
    rw [quad_eq_dot]
    exact le_trans (mul_nonneg (by norm_num) (dot_self_nonneg c)) (postCov_ge base σ s l X Xs c)
  · intro c hc
    rw [quad_eq_dot]
    refine lt_of_lt_of_le ?_ (postCov_ge base σ s l X Xs c)
    refine mul_pos (by norm_num) (lt_of_le_of_ne (dot_self_nonneg c) fun h0 => hc ?_)
    exact dotProduct_self_eq_zero.mp h0.symm
  · intro i
    have hi := postCov_diag_ge base σ s l X Xs i
    have h0 : 0 < postCov base σ s l X Xs i i := lt_of_lt_of_le (by norm_num) hi
    have e : max (postCov base σ s l X Xs i i) 0 = postCov base σ s l X Xs i i := max_eq_left h0.le
    simp only [e]
    exact ⟨hi, trivial, Real.sq_sqrt h0.le, Real.sqrt_pos.mpr h0⟩

/-- C32: `predict_with_cov` on the matrices of `get_kernel_inverse` returns the same. -/
theorem C32_with_cov {n m d : ℕ} {name base : String} {X : Inputs n d}
    {Xs : Inputs m d} (hX : Suits name base X) (hXs : Suits name base Xs) {h : HypDict} {σ s : ℝ}
    {l : Fin d → ℝ} (hd : Describes h σ s l) (Y : Fin n → ℝ) {prior : PriorMu d} {μ : Fin n → ℝ}
    {μs : Fin m → ℝ} (hμ : getPriorMu prior X = .ok μ) (hμs : getPriorMu prior Xs = .ok μs)
    (fix_noise : Bool) :
    ∃ K Kinv r, getKernelInverse X h name fix_noise false = .ok (K, Kinv, none) ∧
      predictWithCov X Y Xs K Kinv h name prior = .ok r ∧
      predictWithHyps X Y Xs h name prior = .ok r := by
  refine ⟨_, _, _, getKernelInverse_ok hX hd fix_noise, ?_, predictWithHyps_ok hX hXs hd Y hμ hμs⟩
  rw [predictWithCov_ok hX hXs hd Y _ _ hμ hμs]
  rfl

/-- C33: the posterior variance is at most the prior variance, `signal² + 1e-5` for inputs
that are points and at most that for sets. -/
theorem C33_at_most_prior {n m d : ℕ} {name base : String} {X : Inputs n d}
    {Xs : Inputs m d} (hX : Suits name base X) (hXs : Suits name base Xs) {h : HypDict} {σ s : ℝ}
    {l : Fin d → ℝ} (hd : Describes h σ s l) (Y : Fin n → ℝ) {prior : PriorMu d} {μ : Fin n → ℝ}
    {μs : Fin m → ℝ} (hμ : getPriorMu prior X = .ok μ) (hμs : getPriorMu prior Xs = .ok μs) :
    ∃ mu sd S, predictWithHyps X Y Xs h name prior = .ok (mu, sd, S) ∧
      ∀ i, S i i ≤ itemKernel base s l (item Xs i) (item Xs i) + 1 / 100000 ∧
        S i i ≤ s ^ 2 + 1 / 100000 ∧ sd i ≤ √(s ^ 2 + 1 / 100000) := by
  refine ⟨_, _, _, predictWithHyps_ok hX hXs hd Y hμ hμs, fun i => ?_⟩
  have h1 := postCov_le base σ s l X Xs (Pi.single i 1) 0
  simp only [errForm, zero_dotProduct, mul_zero, sub_zero, add_zero, single_quad] at h1
  simp [gram] at h1
  have h2 : itemKernel base s l (item Xs i) (item Xs i) ≤ s ^ 2 := setKernel_le base s l _ _
  have h0 := postCov_diag_ge base σ s l X Xs i
  refine ⟨by linarith, by linarith, ?_⟩
  refine Real.sqrt_le_sqrt ?_
  rw [max_eq_left (by linarith)]
  linarith

/-- C33: adding training rows anywhere, whatever their responses, never increases a posterior
variance (nor any quadratic form of the posterior covariance). -/
theorem C33_more_data {n n' m d : ℕ} {name base : String} {X : Inputs n d} {X' : Inputs n' d}
    {Xs : Inputs m d} (hX : Suits name base X) (hX' : Suits name base X')
    (hXs : Suits name base Xs) {h : HypDict} {σ s : ℝ}
    {l : Fin d → ℝ} (hd : Describes h σ s l) {e : Fin n → Fin n'} (he : Extends X X' e)
    (Y : Fin n → ℝ) (Y' : Fin n' → ℝ) {prior : PriorMu d} {μ : Fin n → ℝ} {μ' : Fin n' → ℝ}
    {μs : Fin m → ℝ} (hμ : getPriorMu prior X = .ok μ) (hμ' : getPriorMu prior X' = .ok μ')
    (hμs : getPriorMu prior Xs = .ok μs) :
    ∃ mu sd S mu' sd' S', predictWithHyps X Y Xs h name prior = .ok (mu, sd, S) ∧
      predictWithHyps X' Y' Xs h name prior = .ok (mu', sd', S') ∧
      (∀ i, S' i i ≤ S i i ∧ sd' i ≤ sd i) ∧
      ∀ c : Fin m → ℝ, ∑ i, ∑ j, c i * S' i j * c j ≤ ∑ i, ∑ j, c i * S i j * c j := by
  have key : ∀ c : Fin m → ℝ, c ⬝ᵥ (postCov base σ s l X' Xs *ᵥ c) ≤
      c ⬝ᵥ (postCov base σ s l X Xs *ᵥ c) := by
    intro c
    obtain ⟨hinj, hit⟩ := he
    set w := (noisyGram base σ s l X)⁻¹ *ᵥ (gram base s l X Xs *ᵥ c) with hw
    have h1 := errForm_eq base σ s l X Xs c w
    rw [sub_self, zero_dotProduct, add_zero] at h1
    rw [← h1]
    -- the same weights, zero on the new rows
    let w' : Fin n' → ℝ := fun i' => ∑ i, if e i = i' then w i else 0
    have hsum : ∀ g : Fin n' → ℝ, ∑ i', w' i' * g i' = ∑ i, w i * g (e i) := by
      intro g
      simp only [w', Finset.sum_mul]
      rw [Finset.sum_comm]
      refine Finset.sum_congr rfl fun i _ => ?_
      simp
    refine le_trans (postCov_le base σ s l X' Xs c w') (le_of_eq ?_)
    have e1 : w' ⬝ᵥ (gram base s l X' Xs *ᵥ c) = w ⬝ᵥ (gram base s l X Xs *ᵥ c) := by
      simp only [dotProduct]
      rw [hsum]
      refine Finset.sum_congr rfl fun i _ => ?_
      simp [mulVec, dotProduct, gram, hit]
    have e2 : w' ⬝ᵥ (noisyGram base σ s l X' *ᵥ w') = w ⬝ᵥ (noisyGram base σ s l X *ᵥ w) := by
      simp only [dotProduct]
      rw [hsum]
      refine Finset.sum_congr rfl fun i _ => ?_
      congr 1
      simp only [mulVec, dotProduct]
      simp only [mul_comm _ (w' _)]
      rw [hsum]
      refine Finset.sum_congr rfl fun j _ => ?_
      simp [noisyGram, gram, hit, Matrix.one_apply, hinj.eq_iff, mul_comm]
    simp only [errForm, e1, e2]
  refine ⟨_, _, _, _, _, _, predictWithHyps_ok hX hXs hd Y hμ hμs,
    predictWithHyps_ok hX' hXs hd Y' hμ' hμs, fun i => ?_, fun c => ?_⟩
  · have := key (Pi.single i 1)
    rw [single_quad, single_quad] at this
    exact ⟨this, Real.sqrt_le_sqrt (max_le_max this le_rfl)⟩
  · rw [quad_eq_dot, quad_eq_dot]
    exact key c

/-- C34: with zero prior mean the posterior mean is linear in the responses and the
covariance does not depend on them. -/
theorem C34_linear {n m d : ℕ} {name base : String} {X : Inputs n d}
    {Xs : Inputs m d} (hX : Suits name base X) (hXs : Suits name base Xs) {h : HypDict} {σ s : ℝ}
    {l : Fin d → ℝ} (hd : Describes h σ s l) :
    ∃ (w : Fin m → Fin n → ℝ) (sd : Fin m → ℝ) (S : Matrix (Fin m) (Fin m) ℝ),
      ∀ Y : Fin n → ℝ, predictWithHyps X Y Xs h name none =
        .ok (fun j => ∑ i, w j i * Y i, sd, S) := by
  refine ⟨fun j i => ((gram base s l X Xs)ᵀ * (noisyGram base σ s l X)⁻¹) j i,
    fun i => √(max (postCov base σ s l X Xs i i) 0), postCov base σ s l X Xs, fun Y => ?_⟩
  rw [predictWithHyps_ok hX hXs hd Y (prior := none) (μ := 0) (μs := 0) rfl rfl]
  congr 2
  simp only [sub_zero, add_zero]
  rfl

/-- C34: a prior mean function shifts the responses down before and the mean up after. In
particular a constant prior mean together with the same constant added to the responses shifts
the posterior mean by that constant. -/
theorem C34_prior_mean {n m d : ℕ} {name base : String} {X : Inputs n d}
    {Xs : Inputs m d} (hX : Suits name base X) (hXs : Suits name base Xs) {h : HypDict} {σ s : ℝ}
    {l : Fin d → ℝ} (hd : Describes h σ s l) (Y : Fin n → ℝ) {prior : PriorMu d} {μ : Fin n → ℝ}
    {μs : Fin m → ℝ} (hμ : getPriorMu prior X = .ok μ) (hμs : getPriorMu prior Xs = .ok μs) :
    ∃ mu sd S, predictWithHyps X Y Xs h name none = .ok (mu, sd, S) ∧
      predictWithHyps X (fun i => Y i + μ i) Xs h name prior =
        .ok (fun j => mu j + μs j, sd, S) := by
  refine ⟨_, _, _, predictWithHyps_ok hX hXs hd Y (prior := none) (μ := 0) (μs := 0) rfl rfl, ?_⟩
  rw [predictWithHyps_ok hX hXs hd _ hμ hμs]
  have e : (fun i => Y i + μ i) - μ = Y := by ext i; simp
  rw [e]
  congr 2
  simp only [sub_zero, add_zero]
  rfl

theorem constPrior_ok {n d : ℕ} (c : ℝ) (X : Inputs n d) :
    getPriorMu (some fun n _ => .ok (List.replicate n c)) X = .ok fun _ => c := by
  simp [getPriorMu, bind, Except.bind, pure, Except.pure]

/-- C34: the constant case. -/
theorem C34_shift {n m d : ℕ} {name base : String} {X : Inputs n d}
    {Xs : Inputs m d} (hX : Suits name base X) (hXs : Suits name base Xs) {h : HypDict} {σ s : ℝ}
    {l : Fin d → ℝ} (hd : Describes h σ s l) (Y : Fin n → ℝ) (c : ℝ) :
    ∃ mu sd S, predictWithHyps X Y Xs h name none = .ok (mu, sd, S) ∧
      predictWithHyps X (fun i => Y i + c) Xs h name
        (some fun n _ => .ok (List.replicate n c)) = .ok (fun j => mu j + c, sd, S) :=
  C34_prior_mean hX hXs hd Y (constPrior_ok c X) (constPrior_ok c Xs)

/-- C34: reordering the training rows together with their responses changes nothing. -/
theorem C34_row_order {n m d : ℕ} {name base : String} {X X' : Inputs n d}
    {Xs : Inputs m d} (hX : Suits name base X) (hX' : Suits name base X')
    (hXs : Suits name base Xs) {h : HypDict} {σ s : ℝ}
    {l : Fin d → ℝ} (hd : Describes h σ s l) (π : Equiv.Perm (Fin n))
    (hπ : ∀ i, item X' i = item X (π i)) (Y : Fin n → ℝ) :
    predictWithHyps X' (fun i => Y (π i)) Xs h name none = predictWithHyps X Y Xs h name none := by
  have hk : gram base s l X' Xs = (gram base s l X Xs).submatrix π id := by
    ext i j; simp [gram, hπ]
  have hK : noisyGram base σ s l X' = (noisyGram base σ s l X).submatrix π π := by
    ext i j; simp [noisyGram, gram, hπ, Matrix.one_apply]
  have hKi : (noisyGram base σ s l X')⁻¹ = ((noisyGram base σ s l X)⁻¹).submatrix π π := by
    rw [hK, Matrix.inv_submatrix_equiv]
  have hp : (gram base s l X' Xs)ᵀ * (noisyGram base σ s l X')⁻¹ =
      ((gram base s l X Xs)ᵀ * (noisyGram base σ s l X)⁻¹).submatrix id π := by
    rw [hk, hKi, Matrix.transpose_submatrix, Matrix.submatrix_mul_equiv]
  have hS : postCov base σ s l X' Xs = postCov base σ s l X Xs := by
    simp only [postCov]
    rw [hp, hk, Matrix.submatrix_mul_equiv]
    simp
  have hm : postMean base σ s l X' Xs (fun i => Y (π i)) = postMean base σ s l X Xs Y := by
    ext j
    simp only [postMean, hp, mulVec, dotProduct, Matrix.submatrix_apply, id]
    exact Equiv.sum_comp π (fun i => ((gram base s l X Xs)ᵀ * (noisyGram base σ s l X)⁻¹) j i * Y i)
  rw [predictWithHyps_ok hX' hXs hd _ (prior := none) (μ := 0) (μs := 0) rfl rfl,
    predictWithHyps_ok hX hXs hd _ (prior := none) (μ := 0) (μs := 0) rfl rfl]
  simp only [sub_zero, add_zero, hS, hm]

/-- C34: mean, standard deviation and covariance at test rows do not depend on which other
test rows are asked for, nor in which order: `Xs` is any selection of rows of `Xs'`. (Off the
diagonal the covariance of distinct rows of `Xs'`.) -/
theorem C34_test_rows {n m m' d : ℕ} {name base : String} {X : Inputs n d}
    {Xs : Inputs m d} {Xs' : Inputs m' d} (hX : Suits name base X) (hXs : Suits name base Xs)
    (hXs' : Suits name base Xs') {h : HypDict} {σ s : ℝ}
    {l : Fin d → ℝ} (hd : Describes h σ s l) (e : Fin m → Fin m')
    (he : ∀ i, item Xs i = item Xs' (e i)) (Y : Fin n → ℝ) :
    ∃ mu sd S mu' sd' S', predictWithHyps X Y Xs h name none = .ok (mu, sd, S) ∧
      predictWithHyps X Y Xs' h name none = .ok (mu', sd', S') ∧
      (∀ i, mu i = mu' (e i) ∧ sd i = sd' (e i)) ∧
      ∀ i j, (i = j ↔ e i = e j) → S i j = S' (e i) (e j) := by
  have hk : gram base s l X Xs = (gram base s l X Xs').submatrix id e := by
    ext i j; simp [gram, he]
  have hS : ∀ i j, (i = j ↔ e i = e j) →
      postCov base σ s l X Xs i j = postCov base σ s l X Xs' (e i) (e j) := by
    intro i j hij
    simp only [postCov, Matrix.sub_apply, Matrix.add_apply, Matrix.smul_apply, Matrix.one_apply]
    have h1 : gram base s l Xs Xs i j = gram base s l Xs' Xs' (e i) (e j) := by simp [gram, he]
    have h2 : ((gram base s l X Xs)ᵀ * (noisyGram base σ s l X)⁻¹ * gram base s l X Xs) i j =
        ((gram base s l X Xs')ᵀ * (noisyGram base σ s l X)⁻¹ * gram base s l X Xs') (e i) (e j) := by
      rw [hk]; rfl
    rw [h1, h2]
    by_cases hc : i = j
    · simp [hc]
    · simp [hc, mt hij.mpr hc]
  refine ⟨_, _, _, _, _, _, predictWithHyps_ok hX hXs hd _ (prior := none) (μ := 0) (μs := 0) rfl rfl,
    predictWithHyps_ok hX hXs' hd _ (prior := none) (μ := 0) (μs := 0) rfl rfl, fun i => ⟨?_, ?_⟩, hS⟩
  · simp only [sub_zero, add_zero, postMean]
    rw [hk]; rfl
  · simp only [hS i i (by simp)]

/-- C35: let `w` be the weights of the posterior mean at a test row. For any random variables
with the second moments of the prior, no linear combination of the responses predicts the
test value with smaller mean squared error, and the error of the posterior mean is the
returned variance. -/
theorem C35_best_linear {n m d : ℕ} {name base : String} {X : Inputs n d}
    {Xs : Inputs m d} (hX : Suits name base X) (hXs : Suits name base Xs) {h : HypDict} {σ s : ℝ}
    {l : Fin d → ℝ} (hd : Describes h σ s l) :
    ∃ (w : Fin m → Fin n → ℝ) (sd : Fin m → ℝ) (S : Matrix (Fin m) (Fin m) ℝ),
      (∀ Y : Fin n → ℝ, predictWithHyps X Y Xs h name none =
        .ok (fun j => ∑ i, w j i * Y i, sd, S)) ∧
      ∀ (Ω : Type) [MeasurableSpace Ω] (P : Measure Ω) (y : Fin n → Ω → ℝ) (f : Ω → ℝ) (j : Fin m),
        PriorMoments P base σ s l X (item Xs j) y f →
        ∫ ω, (f ω - ∑ i, w j i * y i ω) ^ 2 ∂P = S j j ∧
        ∀ v : Fin n → ℝ, S j j ≤ ∫ ω, (f ω - ∑ i, v i * y i ω) ^ 2 ∂P := by
  refine ⟨fun j i => ((gram base s l X Xs)ᵀ * (noisyGram base σ s l X)⁻¹) j i,
    fun i => √(max (postCov base σ s l X Xs i i) 0), postCov base σ s l X Xs, fun Y => ?_, ?_⟩
  · rw [predictWithHyps_ok hX hXs hd Y (prior := none) (μ := 0) (μs := 0) rfl rfl]
    congr 2
    simp only [sub_zero, add_zero]
    rfl
  intro Ω _ P y f j hP
  have hmse : ∀ v : Fin n → ℝ, ∫ ω, (f ω - ∑ i, v i * y i ω) ^ 2 ∂P =
      errForm base σ s l X Xs (Pi.single j 1) v := by
    intro v
    have hff : Integrable (fun ω => f ω * f ω) P := hP.f_sq.integrable_mul hP.f_sq
    have hfy : ∀ i, Integrable (fun ω => f ω * y i ω) P :=
      fun i => hP.f_sq.integrable_mul (hP.y_sq i)
    have hyy : ∀ i k, Integrable (fun ω => y i ω * y k ω) P :=
      fun i k => (hP.y_sq i).integrable_mul (hP.y_sq k)
    have hexp : ∀ ω, (f ω - ∑ i, v i * y i ω) ^ 2 =
        f ω * f ω - 2 * ∑ i, v i * (f ω * y i ω) + ∑ i, ∑ k, v i * (v k * (y i ω * y k ω)) := by
      intro ω
      have h1 : ∑ i, v i * (f ω * y i ω) = f ω * ∑ i, v i * y i ω := by
        rw [Finset.mul_sum]; exact Finset.sum_congr rfl fun i _ => by ring
      have h2 : ∑ i, ∑ k, v i * (v k * (y i ω * y k ω)) =
          (∑ i, v i * y i ω) * ∑ i, v i * y i ω := by
        rw [Finset.sum_mul_sum]
        exact Finset.sum_congr rfl fun i _ => Finset.sum_congr rfl fun k _ => by ring
      rw [h1, h2]; ring
    have i1 : Integrable (fun ω => ∑ i, v i * (f ω * y i ω)) P :=
      integrable_finset_sum _ fun i _ => (hfy i).const_mul _
    have i2 : Integrable (fun ω => ∑ i, ∑ k, v i * (v k * (y i ω * y k ω))) P :=
      integrable_finset_sum _ fun i _ => integrable_finset_sum _ fun k _ =>
        ((hyy i k).const_mul _).const_mul _
    simp only [hexp]
    have i3 : Integrable (fun ω => f ω * f ω - 2 * ∑ i, v i * (f ω * y i ω)) P :=
      hff.sub (i1.const_mul 2)
    rw [integral_add i3 i2, integral_sub hff (i1.const_mul 2),
      integral_const_mul, integral_finset_sum _ fun i _ => (hfy i).const_mul _,
      integral_finset_sum _ fun i _ => integrable_finset_sum _ fun k _ =>
        ((hyy i k).const_mul _).const_mul _]
    have e1 : ∀ i, ∫ ω, ∑ k, v i * (v k * (y i ω * y k ω)) ∂P =
        ∑ k, v i * (v k * noisyGram base σ s l X i k) := by
      intro i
      rw [integral_finset_sum _ fun k _ => ((hyy i k).const_mul _).const_mul _]
      refine Finset.sum_congr rfl fun k _ => ?_
      rw [integral_const_mul, integral_const_mul, hP.yy]
      simp [noisyGram, gram, Matrix.one_apply]
    have e2 : ∀ i, ∫ ω, v i * (f ω * y i ω) ∂P = v i * gram base s l X Xs i j := by
      intro i
      rw [integral_const_mul, hP.fy]
      rfl
    simp only [e1, e2, hP.ff]
    have e3 : errForm base σ s l X Xs (Pi.single j 1) v =
        (itemKernel base s l (item Xs j) (item Xs j) + 1 / 100000) -
          2 * (v ⬝ᵥ fun i => gram base s l X Xs i j) + v ⬝ᵥ (noisyGram base σ s l X *ᵥ v) := by
      rw [errForm, single_quad, mulVec_single_one]
      congr 2
      simp [gram]
    rw [e3]
    simp only [dotProduct, mulVec, Finset.mul_sum]
    congr 1
    refine Finset.sum_congr rfl fun i _ => Finset.sum_congr rfl fun k _ => ?_
    ring
  refine ⟨?_, fun v => ?_⟩
  · have hw : ∀ i, ((gram base s l X Xs)ᵀ * (noisyGram base σ s l X)⁻¹) j i =
        ((noisyGram base σ s l X)⁻¹ *ᵥ (gram base s l X Xs *ᵥ Pi.single j 1)) i := by
      have hi : ((noisyGram base σ s l X)⁻¹)ᵀ = (noisyGram base σ s l X)⁻¹ := by
        rw [Matrix.transpose_nonsing_inv, noisyGram_transpose]
      intro i
      simp only [Matrix.mul_apply, mulVec_single_one, mulVec, dotProduct, Matrix.transpose_apply]
      refine Finset.sum_congr rfl fun k _ => ?_
      have := congrFun (congrFun hi k) i
      simp only [Matrix.transpose_apply] at this
      rw [mul_comm, this]
      congr 1
      simp [Pi.single_apply]
    simp only [hw]
    rw [hmse, errForm_eq, single_quad, sub_self, zero_dotProduct, add_zero]
  · rw [hmse]
    have := postCov_le base σ s l X Xs (Pi.single j 1) v
    rwa [single_quad] at this

/-- One training input `5`. -/
def exTrain : Inputs 1 1 := .vec fun _ _ => 5

theorem exTrain_suits : Suits "matern32" "matern32" exTrain :=
  ⟨by simp [baseNames], .inl ⟨rfl, _, rfl⟩⟩

/-- A training set with the same input three times. -/
def exTrain3 : Inputs 3 1 := .vec fun _ _ => 5

theorem exTrain3_suits : Suits "matern32" "matern32" exTrain3 :=
  ⟨by simp [baseNames], .inl ⟨rfl, _, rfl⟩⟩

/-- Prediction at the training input itself, signal 2 and noise 0, response `1`, prior mean the
constant 7 (all hypotheses of C32-C35 met): the mean moves from 7 almost all the way to the
response, the variance is just below twice the jitter. -/
example : ∃ mu sd S, predictWithHyps exTrain (fun _ => 1) exTrain exHyps "matern32"
      (some fun n _ => .ok (List.replicate n 7)) = .ok (mu, sd, S) ∧
    mu 0 = 7 - 6 * 4 / (4 + 1 / 100000) ∧
    S 0 0 = 4 + 1 / 100000 - 16 / (4 + 1 / 100000) := by
  have hk : ∀ i j, gram "matern32" 2 (fun _ : Fin 1 => 3) exTrain exTrain i j = 4 := by
    intro i j
    simp only [gram, exTrain, Matrix.of_apply, itemKernel_vec, item]
    norm_num [kernel, profile, scaledDistance, m32Profile, itemKernel, setKernel]
  have hK : noisyGram "matern32" 0 2 (fun _ : Fin 1 => 3) exTrain =
      Matrix.diagonal fun _ => (4 + 1 / 100000 : ℝ) := by
    ext i j
    rw [Subsingleton.elim i j]
    simp [noisyGram, hk]
  have hi : (Matrix.diagonal fun _ : Fin 1 => (4 + 1 / 100000 : ℝ))⁻¹ =
      Matrix.diagonal fun _ => (4 + 1 / 100000 : ℝ)⁻¹ := by
    refine Matrix.inv_eq_right_inv ?_
    rw [Matrix.diagonal_mul_diagonal]
    ext i j
    rw [Subsingleton.elim i j]
    norm_num
  refine ⟨_, _, _, predictWithHyps_ok exTrain_suits exTrain_suits exHyps_describes _
    (constPrior_ok 7 _) (constPrior_ok 7 _), ?_, ?_⟩
  · simp only [postMean, hK, hi, Pi.add_apply, Matrix.mulVec, dotProduct, Matrix.mul_diagonal,
      Matrix.transpose_apply, hk, Pi.sub_apply, Finset.univ_unique, Finset.sum_singleton]
    norm_num
  · simp only [postCov, hK, hi, Matrix.sub_apply, Matrix.add_apply, Matrix.smul_apply,
      Matrix.mul_apply, Matrix.mul_diagonal, Matrix.transpose_apply, hk, Finset.univ_unique,
      Finset.sum_singleton, Matrix.one_apply_eq]
    norm_num

/-- `exTrain3` extends `exTrain` (C33). -/
example : Extends exTrain exTrain3 (fun _ => 1) :=
  ⟨fun i j _ => Subsingleton.elim i j, fun _ => rfl⟩

end Verif.Props
