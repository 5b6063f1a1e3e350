import Verif.Props.Gp

/-! C78, C79: Gaussian process predictions at observed inputs, and conditioning in two steps. -/

namespace Verif.Props

open Verif.Spec Verif.Lemmas Verif.Covariance Verif.UtilsCovariance Verif.Constants Verif.Gp
open Matrix hiding gram

/-! ### C78 -/

/-- C78: at the training inputs the residuals are the noise variance (with the jitter) times the
solution `α` of the kernel system; the prediction moves the prior mean towards the responses without
overshooting: the squares of the two parts add up to at most the square of the whole. -/
theorem C78_residuals {n d : ℕ} {name base : String} {X : Inputs n d} (hX : Suits name base X)
    {h : HypDict} {σ s : ℝ} {l : Fin d → ℝ} (hd : Describes h σ s l) (Y : Fin n → ℝ)
    {prior : PriorMu d} {μ : Fin n → ℝ} (hμ : getPriorMu prior X = .ok μ) :
    ∃ mu sd S, ∃ α : Fin n → ℝ, predictWithHyps X Y X h name prior = .ok (mu, sd, S) ∧
      (∀ i, ∑ j, itemKernel base s l (item X i) (item X j) * α j + (σ ^ 2 + 1 / 100000) * α i =
        Y i - μ i) ∧
      (∀ i, Y i - mu i = (σ ^ 2 + 1 / 100000) * α i) ∧
      (∀ i, mu i - μ i = ∑ j, itemKernel base s l (item X i) (item X j) * α j) ∧
      ∑ i, (mu i - μ i) ^ 2 + ∑ i, (Y i - mu i) ^ 2 ≤ ∑ i, (Y i - μ i) ^ 2 := by
  have hu : IsUnit (noisyGram base σ s l X).det := (noisyGram_posDef base σ s l X).det_pos.ne'.isUnit
  set α := (noisyGram base σ s l X)⁻¹ *ᵥ (Y - μ) with hα
  have h1 : noisyGram base σ s l X *ᵥ α = Y - μ := by
    rw [hα, Matrix.mulVec_mulVec, Matrix.mul_nonsing_inv _ hu, Matrix.one_mulVec]
  have hg : (gram base s l X X)ᵀ = gram base s l X X := by
    ext i j; exact gram_symm base s l X X j i
  have h2 : postMean base σ s l X X (Y - μ) = gram base s l X X *ᵥ α := by
    rw [postMean, hg, ← Matrix.mulVec_mulVec]
  have h3 : ∀ i, (gram base s l X X *ᵥ α) i + (σ ^ 2 + 1 / 100000) * α i = Y i - μ i := by
    intro i
    have := congrFun h1 i
    simp only [noisyGram, Matrix.add_mulVec, Matrix.smul_mulVec, Matrix.one_mulVec, Pi.add_apply,
      Pi.smul_apply, smul_eq_mul, Pi.sub_apply] at this
    exact this
  refine ⟨_, _, _, α, predictWithHyps_ok hX hX hd Y hμ hμ, h3, fun i => ?_, fun i => ?_, ?_⟩
  · rw [h2, Pi.add_apply]
    linarith [h3 i]
  · rw [h2, Pi.add_apply]
    simp [mulVec, dotProduct, gram]
  · have h4 : 0 ≤ α ⬝ᵥ (gram base s l X X *ᵥ α) := by
      have := (gram_posSemidef base s l X).dotProduct_mulVec_nonneg α
      simpa using this
    rw [h2]
    simp only [Pi.add_apply, add_sub_cancel_right]
    have h5 : ∀ i, (Y i - μ i) ^ 2 = (gram base s l X X *ᵥ α) i ^ 2 +
        (Y i - ((gram base s l X X *ᵥ α) i + μ i)) ^ 2 +
        2 * (σ ^ 2 + 1 / 100000) * (α i * (gram base s l X X *ᵥ α) i) := by
      intro i
      have := h3 i
      rw [show Y i - ((gram base s l X X *ᵥ α) i + μ i) = (σ ^ 2 + 1 / 100000) * α i by linarith,
        ← this]
      ring
    rw [Finset.sum_congr rfl fun i _ => h5 i, Finset.sum_add_distrib, Finset.sum_add_distrib,
      ← Finset.mul_sum]
    have : 0 ≤ 2 * (σ ^ 2 + 1 / 100000) * ∑ i, α i * (gram base s l X X *ᵥ α) i :=
      mul_nonneg (by positivity) h4
    linarith

/-- C78: if the training set has `r` rows equal to a test input (with prior variance `k`), then the
posterior variance there is at most the jitter plus that of the mean of `r` noisy observations. -/
theorem C78_repeated {n m d : ℕ} {name base : String} {X : Inputs n d} {Xs : Inputs m d}
    (hX : Suits name base X) (hXs : Suits name base Xs) {h : HypDict} {σ s : ℝ} {l : Fin d → ℝ}
    (hd : Describes h σ s l) (Y : Fin n → ℝ) {prior : PriorMu d} {μ : Fin n → ℝ} {μs : Fin m → ℝ}
    (hμ : getPriorMu prior X = .ok μ) (hμs : getPriorMu prior Xs = .ok μs) (j : Fin m)
    (R : Finset (Fin n)) (hR : ∀ i ∈ R, item X i = item Xs j) :
    ∃ mu sd S, predictWithHyps X Y Xs h name prior = .ok (mu, sd, S) ∧
      let k := itemKernel base s l (item Xs j) (item Xs j)
      S j j ≤ 1 / 100000 + k * (σ ^ 2 + 1 / 100000) / (R.card * k + (σ ^ 2 + 1 / 100000)) := by
  refine ⟨_, _, _, predictWithHyps_ok hX hXs hd Y hμ hμs, ?_⟩
  intro k
  have hk : 0 ≤ k := by
    have := setKernel_quad base s l (fun _ : Unit => (item Xs j).1) (fun _ => (item Xs j).2)
      (fun _ => 1)
    simpa [k, itemKernel] using this
  set c : ℝ := σ ^ 2 + 1 / 100000 with hc
  have hc0 : 0 < c := by positivity
  have hD : 0 < R.card * k + c := by positivity
  set t : ℝ := k / (R.card * k + c) with ht
  let w : Fin n → ℝ := fun i => if i ∈ R then t else 0
  have h1 := postCov_le base σ s l X Xs (Pi.single j 1) w
  rw [single_quad] at h1
  refine h1.trans (le_of_eq ?_)
  have e1 : w ⬝ᵥ (gram base s l X Xs *ᵥ Pi.single j 1) = R.card * (t * k) := by
    rw [mulVec_single_one]
    simp only [dotProduct, w, ite_mul, zero_mul, Finset.sum_ite_mem, Finset.univ_inter]
    rw [Finset.sum_congr rfl fun i hi => ?_, Finset.sum_const, nsmul_eq_mul]
    simp [gram, hR i hi, k]
  have e2 : w ⬝ᵥ (noisyGram base σ s l X *ᵥ w) = R.card * (t * (R.card * (k * t) + c * t)) := by
    have e3 : ∀ i ∈ R, (noisyGram base σ s l X *ᵥ w) i = R.card * (k * t) + c * t := by
      intro i hi
      simp only [noisyGram, Matrix.add_mulVec, Matrix.smul_mulVec, Matrix.one_mulVec, Pi.add_apply,
        Pi.smul_apply, smul_eq_mul]
      congr 1
      · simp only [mulVec, dotProduct, w, mul_ite, mul_zero, Finset.sum_ite_mem, Finset.univ_inter]
        rw [Finset.sum_congr rfl fun i' hi' => ?_, Finset.sum_const, nsmul_eq_mul]
        simp [gram, hR i hi, hR i' hi', k]
      · simp [w, hi, hc]
    simp only [dotProduct, w, ite_mul, zero_mul, Finset.sum_ite_mem, Finset.univ_inter]
    rw [Finset.sum_congr rfl fun i hi => by rw [e3 i hi], Finset.sum_const, nsmul_eq_mul]
  have e4 : (gram base s l Xs Xs + (1 / 100000 : ℝ) • (1 : Matrix (Fin m) (Fin m) ℝ)) j j =
      k + 1 / 100000 := by
    simp [gram, k]
  rw [errForm, single_quad, e1, e2, e4, ht]
  field_simp
  ring

/-- C78: at a training input the posterior variance is at most the noise variance (plus twice the
jitter), whatever the kernel; and an input observed `r` times has at most an `r`-th of it (plus the
jitter). -/
theorem C78_noise_bound {n m d : ℕ} {name base : String} {X : Inputs n d} {Xs : Inputs m d}
    (hX : Suits name base X) (hXs : Suits name base Xs) {h : HypDict} {σ s : ℝ} {l : Fin d → ℝ}
    (hd : Describes h σ s l) (Y : Fin n → ℝ) {prior : PriorMu d} {μ : Fin n → ℝ} {μs : Fin m → ℝ}
    (hμ : getPriorMu prior X = .ok μ) (hμs : getPriorMu prior Xs = .ok μs) (j : Fin m)
    (R : Finset (Fin n)) (hR : ∀ i ∈ R, item X i = item Xs j) (hne : R.Nonempty) :
    ∃ mu sd S, predictWithHyps X Y Xs h name prior = .ok (mu, sd, S) ∧
      S j j ≤ 1 / 100000 + (σ ^ 2 + 1 / 100000) / R.card := by
  obtain ⟨mu, sd, S, h1, h2⟩ := C78_repeated hX hXs hd Y hμ hμs j R hR
  refine ⟨mu, sd, S, h1, h2.trans ?_⟩
  have hr : (0 : ℝ) < R.card := by exact_mod_cast hne.card_pos
  have hk : 0 ≤ itemKernel base s l (item Xs j) (item Xs j) := by
    have := setKernel_quad base s l (fun _ : Unit => (item Xs j).1) (fun _ => (item Xs j).2)
      (fun _ => 1)
    simpa [itemKernel] using this
  have hc : 0 < σ ^ 2 + 1 / 100000 := by positivity
  have : itemKernel base s l (item Xs j) (item Xs j) * (σ ^ 2 + 1 / 100000) /
      (R.card * itemKernel base s l (item Xs j) (item Xs j) + (σ ^ 2 + 1 / 100000)) ≤
      (σ ^ 2 + 1 / 100000) / R.card := by
    rw [div_le_div_iff₀ (by positivity) hr]
    nlinarith
  linarith

/-! ### C79 -/

/-- C79: predicting from all the data is updating the prediction from the first part of the data with
the second part: with the gain that solves the system of the predictive covariance of the second part
(noise included), the mean moves by the gain times the surprise, and the covariance shrinks
accordingly. -/
theorem C79_update {n k m d : ℕ} {name base : String} {X₁ : Inputs n d} {X : Inputs (n + k) d}
    {T : Inputs (k + m) d} {Xs : Inputs m d} (hX₁ : Suits name base X₁) (hX : Suits name base X)
    (hT : Suits name base T) (hXs : Suits name base Xs)
    (h₁ : ∀ i, item X (Fin.castAdd k i) = item X₁ i)
    (h₂ : ∀ a, item X (Fin.natAdd n a) = item T (Fin.castAdd m a))
    (h₃ : ∀ j, item T (Fin.natAdd k j) = item Xs j)
    {h : HypDict} {σ s : ℝ} {l : Fin d → ℝ} (hd : Describes h σ s l) (Y₁ : Fin n → ℝ)
    (Y₂ : Fin k → ℝ) {prior : PriorMu d} {μ₁ : Fin n → ℝ} {μ₂ : Fin k → ℝ} {μs : Fin m → ℝ}
    (e₁ : getPriorMu prior X₁ = .ok μ₁) (e₂ : getPriorMu prior X = .ok (Fin.append μ₁ μ₂))
    (e₃ : getPriorMu prior T = .ok (Fin.append μ₂ μs)) (e₄ : getPriorMu prior Xs = .ok μs) :
    ∃ mu sd S mu' sd' S', ∃ gain : Fin m → Fin k → ℝ,
      predictWithHyps X₁ Y₁ T h name prior = .ok (mu, sd, S) ∧
      predictWithHyps X (Fin.append Y₁ Y₂) Xs h name prior = .ok (mu', sd', S') ∧
      (∀ j b, ∑ a, gain j a * (S (Fin.castAdd m a) (Fin.castAdd m b) + if a = b then σ ^ 2 else 0) =
        S (Fin.natAdd k j) (Fin.castAdd m b)) ∧
      (∀ j, mu' j = mu (Fin.natAdd k j) + ∑ a, gain j a * (Y₂ a - mu (Fin.castAdd m a))) ∧
      ∀ j j', S' j j' = S (Fin.natAdd k j) (Fin.natAdd k j') -
        ∑ a, gain j a * S (Fin.castAdd m a) (Fin.natAdd k j') := by
  have hu : IsUnit (noisyGram base σ s l X).det := (noisyGram_posDef base σ s l X).det_pos.ne'.isUnit
  have hu₁ : IsUnit (noisyGram base σ s l X₁).det :=
    (noisyGram_posDef base σ s l X₁).det_pos.ne'.isUnit
  set A := noisyGram base σ s l X₁ with hA
  set W := (gram base s l X Xs)ᵀ * (noisyGram base σ s l X)⁻¹ with hW
  have hWK : W * noisyGram base σ s l X = (gram base s l X Xs)ᵀ := by
    rw [hW, Matrix.mul_assoc, Matrix.nonsing_inv_mul _ hu, Matrix.mul_one]
  let W₁ : Matrix (Fin m) (Fin n) ℝ := Matrix.of fun j i => W j (Fin.castAdd k i)
  let W₂ : Matrix (Fin m) (Fin k) ℝ := Matrix.of fun j a => W j (Fin.natAdd n a)
  let B : Matrix (Fin n) (Fin k) ℝ := Matrix.of fun i a => gram base s l X₁ T i (Fin.castAdd m a)
  let g : Matrix (Fin n) (Fin m) ℝ := gram base s l X₁ Xs
  let g₂ : Matrix (Fin k) (Fin m) ℝ := Matrix.of fun a j => gram base s l T Xs (Fin.castAdd m a) j
  let D : Matrix (Fin k) (Fin k) ℝ :=
    Matrix.of fun a b => noisyGram base σ s l X (Fin.natAdd n a) (Fin.natAdd n b)
  have q₁ : W₁ * A + W₂ * Bᵀ = gᵀ := by
    ext j i
    have := congrFun (congrFun hWK j) (Fin.castAdd k i)
    rw [Matrix.mul_apply, Fin.sum_univ_add] at this
    simp only [Matrix.add_apply, Matrix.mul_apply, W₁, W₂, B, Matrix.of_apply, g, hA,
      Matrix.transpose_apply] at this ⊢
    rw [show gram base s l X Xs (Fin.castAdd k i) j = gram base s l X₁ Xs i j by
      simp [gram, h₁]] at this
    rw [← this]
    congr 1
    · refine Finset.sum_congr rfl fun i' _ => ?_
      simp [noisyGram, gram, h₁, Matrix.one_apply]
    · refine Finset.sum_congr rfl fun a _ => ?_
      rw [gram_symm]
      have hne : Fin.natAdd n a ≠ Fin.castAdd k i := by
        intro hh
        have := congrArg Fin.val hh
        simp at this
        omega
      simp [noisyGram, gram, h₁, h₂, Matrix.one_apply, hne]
  have q₂ : W₁ * B + W₂ * D = g₂ᵀ := by
    ext j b
    have := congrFun (congrFun hWK j) (Fin.natAdd n b)
    rw [Matrix.mul_apply, Fin.sum_univ_add] at this
    simp only [Matrix.add_apply, Matrix.mul_apply, W₁, W₂, B, D, Matrix.of_apply, g₂,
      Matrix.transpose_apply] at this ⊢
    rw [show gram base s l X Xs (Fin.natAdd n b) j = gram base s l T Xs (Fin.castAdd m b) j by
      simp [gram, h₂]] at this
    rw [← this]
    congr 1
    refine Finset.sum_congr rfl fun i _ => ?_
    have hne : Fin.castAdd k i ≠ Fin.natAdd n b := by
      intro hh
      have := congrArg Fin.val hh
      simp at this
      omega
    simp [noisyGram, gram, h₁, h₂, Matrix.one_apply, hne]
  have q₃ : W₁ = gᵀ * A⁻¹ - W₂ * (Bᵀ * A⁻¹) := by
    have : W₁ * A = gᵀ - W₂ * Bᵀ := by rw [← q₁, add_sub_cancel_right]
    have h5 := congrArg (· * A⁻¹) this
    simp only [Matrix.mul_assoc, Matrix.mul_nonsing_inv _ hu₁, Matrix.mul_one, Matrix.sub_mul] at h5
    exact h5
  have q₄ : W₂ * (D - Bᵀ * A⁻¹ * B) = g₂ᵀ - gᵀ * A⁻¹ * B := by
    rw [← q₂, q₃]
    simp only [Matrix.mul_sub, Matrix.sub_mul, Matrix.mul_assoc]
    abel
  have hkg : ∀ i j, gram base s l X₁ T i (Fin.natAdd k j) = g i j := fun i j => by
    simp [gram, g, h₃]
  have p₁ : ∀ a b, postCov base σ s l X₁ T (Fin.castAdd m a) (Fin.castAdd m b) +
      (if a = b then σ ^ 2 else 0) = (D - Bᵀ * A⁻¹ * B) a b := by
    intro a b
    have e5 : ((gram base s l X₁ T)ᵀ * A⁻¹ * gram base s l X₁ T) (Fin.castAdd m a)
      (Fin.castAdd m b) = (Bᵀ * A⁻¹ * B) a b := rfl
    have e6 : D a b = itemKernel base s l (item T (Fin.castAdd m a)) (item T (Fin.castAdd m b)) +
        (σ ^ 2 + 1 / 100000) * if a = b then 1 else 0 := by
      simp [D, noisyGram, gram, h₂, Matrix.one_apply]
    have e7 : gram base s l T T (Fin.castAdd m a) (Fin.castAdd m b) =
      itemKernel base s l (item T (Fin.castAdd m a)) (item T (Fin.castAdd m b)) := rfl
    rw [Matrix.sub_apply, e6]
    simp only [postCov, Matrix.sub_apply, Matrix.add_apply, Matrix.smul_apply, ← hA, e5, e7,
      Matrix.one_apply, smul_eq_mul]
    generalize (Bᵀ * A⁻¹ * B) a b = z
    by_cases hab : a = b
    · subst hab
      simp only [if_true]
      ring
    · simp [hab]
  have p₂ : ∀ j b, postCov base σ s l X₁ T (Fin.natAdd k j) (Fin.castAdd m b) =
      g₂ᵀ j b - (gᵀ * A⁻¹ * B) j b := by
    intro j b
    have hne : Fin.natAdd k j ≠ Fin.castAdd m b := by
      intro hh
      have := congrArg Fin.val hh
      simp at this
      omega
    simp only [postCov, Matrix.sub_apply, Matrix.add_apply, Matrix.smul_apply, ← hA,
      Matrix.one_apply, hne, if_false, smul_zero, add_zero]
    congr 1
    · rw [gram_symm]
      simp [g₂, gram, h₃]
    · simp only [Matrix.mul_apply, Matrix.transpose_apply, hkg]
      rfl
  refine ⟨_, _, _, _, _, _, fun j a => W j (Fin.natAdd n a), predictWithHyps_ok hX₁ hT hd Y₁ e₁ e₃,
    predictWithHyps_ok hX hXs hd _ e₂ e₄, fun j b => ?_, fun j => ?_, fun j j' => ?_⟩
  · have := congrFun (congrFun q₄ j) b
    rw [Matrix.mul_apply, Matrix.sub_apply] at this
    rw [p₂ j b, ← this]
    exact Finset.sum_congr rfl fun a _ => by rw [p₁ a b]; rfl
  · have c₂ : ∀ a, (Fin.append Y₁ Y₂ - Fin.append μ₁ μ₂) (Fin.natAdd n a) = Y₂ a - μ₂ a := by
      intro a; simp
    have c₁ : ∀ i, (Fin.append Y₁ Y₂ - Fin.append μ₁ μ₂) (Fin.castAdd k i) = (Y₁ - μ₁) i := by
      intro i; simp
    have m₁ : ∀ a, postMean base σ s l X₁ T (Y₁ - μ₁) (Fin.castAdd m a) =
        ((Bᵀ * A⁻¹) *ᵥ (Y₁ - μ₁)) a := fun a => rfl
    have m₂ : postMean base σ s l X₁ T (Y₁ - μ₁) (Fin.natAdd k j) =
        ((gᵀ * A⁻¹) *ᵥ (Y₁ - μ₁)) j := by
      simp only [postMean, mulVec, dotProduct, Matrix.mul_apply, Matrix.transpose_apply, hkg, ← hA]
    have m₃ : postMean base σ s l X Xs (Fin.append Y₁ Y₂ - Fin.append μ₁ μ₂) j =
        (W₁ *ᵥ (Y₁ - μ₁)) j + (W₂ *ᵥ (Y₂ - μ₂)) j := by
      simp only [postMean, ← hW, mulVec, dotProduct]
      rw [Fin.sum_univ_add]
      simp only [c₁, c₂]
      rfl
    simp only [Pi.add_apply, Fin.append_left, Fin.append_right, m₁, m₂, m₃]
    rw [q₃, Matrix.sub_mulVec, ← Matrix.mulVec_mulVec (M := W₂), Pi.sub_apply]
    have : ∑ a, W j (Fin.natAdd n a) * (Y₂ a - (((Bᵀ * A⁻¹) *ᵥ (Y₁ - μ₁)) a + μ₂ a)) =
        (W₂ *ᵥ (Y₂ - μ₂)) j - (W₂ *ᵥ ((Bᵀ * A⁻¹) *ᵥ (Y₁ - μ₁))) j := by
      rw [← Pi.sub_apply, ← Matrix.mulVec_sub]
      refine Finset.sum_congr rfl fun a _ => ?_
      simp only [Pi.sub_apply, W₂, Matrix.of_apply]
      ring
    rw [this]
    ring
  · have r₁ : ((gram base s l X Xs)ᵀ * (noisyGram base σ s l X)⁻¹ * gram base s l X Xs) j j' =
        (W₁ * g) j j' + (W₂ * g₂) j j' := by
      rw [← hW, Matrix.mul_apply, Fin.sum_univ_add, Matrix.mul_apply, Matrix.mul_apply]
      congr 1
      · exact Finset.sum_congr rfl fun i _ => by simp [W₁, g, gram, h₁]
      · exact Finset.sum_congr rfl fun a _ => by simp [W₂, g₂, gram, h₂]
    have r₂ : ∀ a, postCov base σ s l X₁ T (Fin.castAdd m a) (Fin.natAdd k j') =
        (g₂ - Bᵀ * A⁻¹ * g) a j' := by
      intro a
      rw [postCov_symm, p₂ j' a]
      have hAt : (A⁻¹)ᵀ = A⁻¹ := by
        rw [Matrix.transpose_nonsing_inv, hA, noisyGram_transpose]
      have : g₂ᵀ - gᵀ * A⁻¹ * B = (g₂ - Bᵀ * A⁻¹ * g)ᵀ := by
        simp only [Matrix.transpose_sub, Matrix.transpose_mul, Matrix.transpose_transpose, hAt,
          Matrix.mul_assoc]
      rw [← Matrix.sub_apply, this]
      rfl
    simp only [r₂]
    have r₃ : ∑ a, W j (Fin.natAdd n a) * (g₂ - Bᵀ * A⁻¹ * g) a j' =
        (W₂ * (g₂ - Bᵀ * A⁻¹ * g)) j j' := rfl
    have r₄ : postCov base σ s l X₁ T (Fin.natAdd k j) (Fin.natAdd k j') =
        postCov base σ s l X₁ Xs j j' := by
      simp only [postCov, Matrix.sub_apply, Matrix.add_apply, Matrix.smul_apply, Matrix.mul_apply,
        Matrix.transpose_apply, hkg, ← hA]
      simp [gram, h₃, Matrix.one_apply, g]
    rw [r₃, r₄]
    simp only [postCov, Matrix.sub_apply, r₁, ← hA]
    rw [q₃]
    simp only [Matrix.sub_mul, Matrix.mul_sub, Matrix.sub_apply, Matrix.mul_assoc]
    ring

/-- C79: one more observation `y` at an input `x`, in closed form. -/
theorem C79_one {n m d : ℕ} {name base : String} {X₁ : Inputs n d} {X : Inputs (n + 1) d}
    {T : Inputs (1 + m) d} {Xs : Inputs m d} (hX₁ : Suits name base X₁) (hX : Suits name base X)
    (hT : Suits name base T) (hXs : Suits name base Xs)
    (h₁ : ∀ i, item X (Fin.castAdd 1 i) = item X₁ i)
    (h₂ : item X (Fin.last n) = item T 0)
    (h₃ : ∀ j, item T (Fin.natAdd 1 j) = item Xs j)
    {h : HypDict} {σ s : ℝ} {l : Fin d → ℝ} (hd : Describes h σ s l) (Y₁ : Fin n → ℝ) (y : ℝ) :
    ∃ mu sd S mu' sd' S', predictWithHyps X₁ Y₁ T h name none = .ok (mu, sd, S) ∧
      predictWithHyps X (Fin.append Y₁ fun _ => y) Xs h name none = .ok (mu', sd', S') ∧
      0 < S 0 0 + σ ^ 2 ∧
      (∀ j, mu' j = mu (Fin.natAdd 1 j) +
        S (Fin.natAdd 1 j) 0 / (S 0 0 + σ ^ 2) * (y - mu 0)) ∧
      ∀ j j', S' j j' = S (Fin.natAdd 1 j) (Fin.natAdd 1 j') -
        S (Fin.natAdd 1 j) 0 * S 0 (Fin.natAdd 1 j') / (S 0 0 + σ ^ 2) := by
  have h0 : ∀ {n' : ℕ} (Z : Inputs n' d), getPriorMu (none : PriorMu d) Z = .ok fun _ => 0 :=
    fun _ => rfl
  have ha : ∀ p q : ℕ, Fin.append (fun _ : Fin p => (0 : ℝ)) (fun _ : Fin q => (0 : ℝ)) =
      fun _ => 0 := by
    intro p q
    ext i
    refine Fin.addCases (fun i => ?_) (fun i => ?_) i <;> simp
  obtain ⟨mu, sd, S, mu', sd', S', gain, h4, h5, h6, h7, h8⟩ := C79_update hX₁ hX hT hXs h₁
    (fun a => by rw [Subsingleton.elim a 0]; exact h₂) h₃ hd Y₁ (fun _ => y)
    (h0 X₁) (by rw [h0, ha]) (by rw [h0, ha]) (h0 Xs)
  obtain ⟨_, _, _, h9, -, -, -, hp⟩ := C32_posterior_covariance hX₁ hT hd Y₁ (h0 X₁) (h0 T)
  rw [h4] at h9
  obtain ⟨rfl, rfl, rfl⟩ : _ ∧ _ ∧ _ := by simpa using h9
  have hpos : 0 < S 0 0 + σ ^ 2 := by
    have := (hp 0).1
    positivity
  have hz : (Fin.castAdd m (0 : Fin 1)) = 0 := rfl
  simp only [Fin.sum_univ_one, if_true, hz, Finset.univ_unique, Finset.sum_singleton,
    Fin.default_eq_zero] at h6 h7 h8
  have hg : ∀ j, gain j 0 = S (Fin.natAdd 1 j) 0 / (S 0 0 + σ ^ 2) := fun j => by
    rw [eq_div_iff hpos.ne']
    have := h6 j 0
    simpa [hz] using this
  refine ⟨_, _, _, _, _, _, h4, h5, hpos, fun j => ?_, fun j j' => ?_⟩
  · rw [h7, hg]
  · rw [h8, hg]
    ring

/-- C78 and C79 at work: three observations of the same input, of which one is new. -/
example : (∃ mu sd S, predictWithHyps exTrain3 ![1, 2, 4] exTrain exHyps "matern32" none =
      .ok (mu, sd, S) ∧ S 0 0 ≤ 1 / 100000 + (0 ^ 2 + 1 / 100000) / 3) ∧
    ∃ mu sd S mu' sd' S',
      predictWithHyps (.vec fun (_ : Fin 2) _ => 5 : Inputs 2 1) ![1, 2]
        (.vec fun (_ : Fin (1 + 1)) _ => 5 : Inputs (1 + 1) 1) exHyps "matern32" none =
          .ok (mu, sd, S) ∧
      predictWithHyps exTrain3 (Fin.append ![1, 2] fun _ : Fin 1 => 4) exTrain exHyps "matern32"
        none = .ok (mu', sd', S') ∧
      mu' 0 = mu 1 + S 1 0 / (S 0 0 + 0 ^ 2) * (4 - mu 0) := by
  constructor
  · obtain ⟨mu, sd, S, h1, h2⟩ := C78_noise_bound exTrain3_suits exTrain_suits exHyps_describes
      ![1, 2, 4] (prior := none) rfl rfl 0 Finset.univ (fun i _ => rfl) ⟨0, by simp⟩
    refine ⟨mu, sd, S, h1, ?_⟩
    simpa using h2
  · obtain ⟨mu, sd, S, mu', sd', S', h1, h2, -, h3, -⟩ := C79_one (X := exTrain3) (Xs := exTrain)
      (X₁ := (.vec fun (_ : Fin 2) _ => 5 : Inputs 2 1))
      (T := (.vec fun (_ : Fin (1 + 1)) _ => 5 : Inputs (1 + 1) 1))
      ⟨by simp [baseNames], .inl ⟨rfl, _, rfl⟩⟩ exTrain3_suits
      ⟨by simp [baseNames], .inl ⟨rfl, _, rfl⟩⟩ exTrain_suits (fun _ => rfl) rfl (fun _ => rfl)
      exHyps_describes ![1, 2] 4
    exact ⟨mu, sd, S, mu', sd', S', h1, h2, h3 0⟩

end Verif.Props
