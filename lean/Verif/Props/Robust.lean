import Verif.Lemmas.Robust
import Verif.Props.Tp

/-! C101: how far predictions move with the responses. C102: what errors in the kernel matrix and its
inverse do to predictions. -/

namespace Verif.Props

open Verif.Spec Verif.Lemmas Verif.Covariance Verif.UtilsCovariance Verif.Constants
open Matrix hiding gram

variable {n m d : ℕ}

/-! ### C101 -/

private theorem mean_moves (base : String) (σ s : ℝ) (l : Fin d → ℝ) (X : Inputs n d)
    (Xs : Inputs m d) (μ : Fin n → ℝ) (μs : Fin m → ℝ) (Y Y' : Fin n → ℝ) (j : Fin m) :
    ((postMean base σ s l X Xs (Y - μ) + μs) j - (postMean base σ s l X Xs (Y' - μ) + μs) j) ^ 2 *
      (4 * (σ ^ 2 + 1 / 100000)) ≤ s ^ 2 * ∑ i, (Y i - Y' i) ^ 2 := by
  have h1 := postMean_le base σ s l X Xs (Y - Y') j
  have e : (Y - Y') ⬝ᵥ (Y - Y') = ∑ i, (Y i - Y' i) ^ 2 := by
    simp [dotProduct, pow_two]
  rw [e] at h1
  have e2 : (Y - μ) - (Y' - μ) = Y - Y' := sub_sub_sub_cancel_right Y Y' μ
  rw [Pi.add_apply, Pi.add_apply, add_sub_add_right_eq_sub, postMean_sub, e2]
  exact h1

/-- C101: if the responses change, no predicted mean moves by more than `s / (2 √(σ² + 1e-5))` times
the length of the change, whatever the inputs; deviations and covariances stay. -/
theorem C101_gp {name base : String} {X : Inputs n d} {Xs : Inputs m d} (hX : Suits name base X)
    (hXs : Suits name base Xs) {h : HypDict} {σ s : ℝ} {l : Fin d → ℝ} (hd : Describes h σ s l)
    {prior : Gp.PriorMu d} {μ : Fin n → ℝ} {μs : Fin m → ℝ} (hμ : Gp.getPriorMu prior X = .ok μ)
    (hμs : Gp.getPriorMu prior Xs = .ok μs) (Y Y' : Fin n → ℝ) :
    ∃ mu mu' sd S, Gp.predictWithHyps X Y Xs h name prior = .ok (mu, sd, S) ∧
      Gp.predictWithHyps X Y' Xs h name prior = .ok (mu', sd, S) ∧
      ∀ j, (mu j - mu' j) ^ 2 * (4 * (σ ^ 2 + 1 / 100000)) ≤ s ^ 2 * ∑ i, (Y i - Y' i) ^ 2 :=
  ⟨_, _, _, _, predictWithHyps_ok hX hXs hd Y hμ hμs, predictWithHyps_ok hX hXs hd Y' hμ hμs,
    fun j => mean_moves base σ s l X Xs μ μs Y Y' j⟩

/-- C101: the same bound for the means of the Student-t process. -/
theorem C101_tp {name base : String} {X : Inputs n d} {Xs : Inputs m d} (hX : Suits name base X)
    (hXs : Suits name base Xs) {h : HypDict} {σ s : ℝ} {l : Fin d → ℝ} (hd : Describes h σ s l)
    {ν : ℝ} (hν : 2 < ν) (hdof : h.dof = some (.flt (.fin ν)))
    {prior : Gp.PriorMu d} {μ : Fin n → ℝ} {μs : Fin m → ℝ} (hμ : Gp.getPriorMu prior X = .ok μ)
    (hμs : Gp.getPriorMu prior Xs = .ok μs) (Y Y' : Fin n → ℝ) :
    ∃ mu mu' sd sd' S S', Tp.predictWithHyps X Y Xs h name prior = .ok (ν + n, mu, sd, S) ∧
      Tp.predictWithHyps X Y' Xs h name prior = .ok (ν + n, mu', sd', S') ∧
      ∀ j, (mu j - mu' j) ^ 2 * (4 * (σ ^ 2 + 1 / 100000)) ≤ s ^ 2 * ∑ i, (Y i - Y' i) ^ 2 :=
  ⟨_, _, _, _, _, _, tpPredictWithHyps_ok hX hXs hd hν hdof Y hμ hμs,
    tpPredictWithHyps_ok hX hXs hd hν hdof Y' hμ hμs,
    fun j => mean_moves base σ s l X Xs μ μs Y Y' j⟩

/-- C101: the constant cannot be improved, whatever the noise and the kernel: with one training
input and signal `√(σ² + 1e-5)` it is attained at that input. -/
theorem C101_attained {base : String} (hb : base ∈ baseNames) (σ : ℝ) (Y Y' : Fin 1 → ℝ) :
    ∃ (h : HypDict) (s : ℝ) (mu mu' sd : Fin 1 → ℝ) (S : Matrix (Fin 1) (Fin 1) ℝ),
      Describes h σ s (fun _ : Fin 1 => 1) ∧
      Gp.predictWithHyps exTrain Y exTrain h base none = .ok (mu, sd, S) ∧
      Gp.predictWithHyps exTrain Y' exTrain h base none = .ok (mu', sd, S) ∧ s ≠ 0 ∧
      (mu 0 - mu' 0) ^ 2 * (4 * (σ ^ 2 + 1 / 100000)) = s ^ 2 * ∑ i, (Y i - Y' i) ^ 2 := by
  set τ : ℝ := σ ^ 2 + 1 / 100000 with hτ
  have hτ0 : 0 < τ := by positivity
  let h : HypDict :=
    { noise := some (.flt (.fin σ)), signal := some (.flt (.fin √τ)),
      lengthscales := some (.flt (.fin 1)) }
  have hd : Describes h σ √τ (fun _ : Fin 1 => 1) :=
    ⟨rfl, rfl, .inr ⟨1, by norm_num, fun _ => rfl, rfl⟩, fun _ => by norm_num⟩
  have hX : Suits base base exTrain := ⟨hb, .inl ⟨rfl, _, rfl⟩⟩
  have hμ : Gp.getPriorMu none exTrain = .ok (0 : Fin 1 → ℝ) := rfl
  refine ⟨h, √τ, _, _, _, _, hd, predictWithHyps_ok hX hX hd Y hμ hμ,
    predictWithHyps_ok hX hX hd Y' hμ hμ, (Real.sqrt_pos.2 hτ0).ne', ?_⟩
  rw [Pi.add_apply, Pi.add_apply, add_sub_add_right_eq_sub, postMean_sub, sub_zero, sub_zero,
    postMean_apply]
  have hg : gram base √τ (fun _ : Fin 1 => 1) exTrain exTrain 0 0 = τ := by
    have e : gram base √τ (fun _ : Fin 1 => 1) exTrain exTrain 0 0 =
        (∑ _a : Fin 1, ∑ _b : Fin 1, kernel base √τ (fun _ : Fin 1 => 1) (fun _ => 5)
          (fun _ => 5)) / (((1 : ℕ) : ℝ) * ((1 : ℕ) : ℝ)) := rfl
    rw [e, kernel_self, Real.sq_sqrt hτ0.le]
    simp
  have hN : noisyGram base σ √τ (fun _ : Fin 1 => 1) exTrain 0 0 = 2 * τ := by
    rw [noisyGram, Matrix.add_apply, hg, Matrix.smul_apply, Matrix.one_apply_eq, ← hτ, smul_eq_mul]
    ring
  have hv := congrFun (mul_inv_vec (noisyGram_posDef base σ √τ (fun _ : Fin 1 => 1) exTrain)
    (Y - Y')) 0
  simp only [Matrix.mulVec_single_one, dotProduct, Matrix.col_apply, Finset.univ_unique,
    Fin.default_eq_zero, Finset.sum_singleton, hg]
  rw [Matrix.mulVec, dotProduct] at hv
  simp only [Finset.univ_unique, Fin.default_eq_zero, Finset.sum_singleton, hN,
    Pi.sub_apply] at hv
  rw [← hv, Real.sq_sqrt hτ0.le]
  ring

/-- Concrete case of C101. -/
example : Suits "matern32" "matern32" exTrain3 ∧ Suits "matern32" "matern32" exTrain ∧
    Describes exHypsT 0 2 (fun _ : Fin 1 => 3) ∧ (2 : ℝ) < 5 ∧
    exHypsT.dof = some (.flt (.fin 5)) ∧ Gp.getPriorMu none exTrain3 = .ok (0 : Fin 3 → ℝ) ∧
    Gp.getPriorMu none exTrain = .ok (0 : Fin 1 → ℝ) ∧ (![1, 2, 4] : Fin 3 → ℝ) ≠ ![1, 2, 5] :=
  ⟨exTrain3_suits, exTrain_suits, exHypsT_describes, by norm_num, rfl, rfl, rfl, by
    intro h
    have := congrFun h 2
    simp at this⟩

/-! ### C102 -/

/-- C102: if the (symmetric) kernel matrix is off by at most `η` in each entry and `n η < σ² + 1e-5`,
then it is still positive definite and its factorisation succeeds at once, without any jitter. -/
theorem C102_factorised {name base : String} {X : Inputs n d} (hX : Suits name base X)
    {h : HypDict} {σ s : ℝ} {l : Fin d → ℝ} (hd : Describes h σ s l) (fix : Bool)
    {K₀ V₀ : Matrix (Fin n) (Fin n) ℝ} (h0 : getKernelInverse X h name fix false = .ok (K₀, V₀, none))
    {K : Matrix (Fin n) (Fin n) ℝ} (hs : ∀ i j, K i j = K j i) {η : ℝ}
    (hη : ∀ i j, |K i j - K₀ i j| ≤ η) (hn : n * η < σ ^ 2 + 1 / 100000) :
    K.PosDef ∧ ∃ L, choleskyLoop K jitters = .ok (K, L) ∧ IsCholesky K L := by
  rw [getKernelInverse_ok hX hd fix, Except.ok.injEq, Prod.mk.injEq] at h0
  obtain ⟨rfl, -⟩ := h0
  have hp := near_posDef hs hη hn
  obtain ⟨L, hL, hc⟩ := spCholesky_posDef hp
  refine ⟨hp, L, ?_, hc⟩
  simp [choleskyLoop, jitters, hL]

/-- C102: and if the inverse of that matrix is off by at most `θ` in each entry, then the predictions
made with it differ from the exact ones by at most a multiple of
`ρ = n η / (τ (τ - n η)) + n θ`, where `τ = σ² + 1e-5`. -/
theorem C102_predictions {name base : String} {X : Inputs n d} {Xs : Inputs m d}
    (hX : Suits name base X) (hXs : Suits name base Xs) {h : HypDict} {σ s : ℝ} {l : Fin d → ℝ}
    (hd : Describes h σ s l) {prior : Gp.PriorMu d} {μ : Fin n → ℝ} {μs : Fin m → ℝ}
    (hμ : Gp.getPriorMu prior X = .ok μ) (hμs : Gp.getPriorMu prior Xs = .ok μs) (Y : Fin n → ℝ)
    (fix : Bool) {K₀ V₀ : Matrix (Fin n) (Fin n) ℝ}
    (h0 : getKernelInverse X h name fix false = .ok (K₀, V₀, none))
    {K V : Matrix (Fin n) (Fin n) ℝ} (hs : ∀ i j, K i j = K j i) {η θ : ℝ}
    (hη : ∀ i j, |K i j - K₀ i j| ≤ η) (hn : n * η < σ ^ 2 + 1 / 100000)
    (hθ : ∀ i j, |V i j - K⁻¹ i j| ≤ θ) {ρ : ℝ}
    (hρ : ρ = n * η / ((σ ^ 2 + 1 / 100000) * (σ ^ 2 + 1 / 100000 - n * η)) + n * θ) :
    ∃ mu sd S mu' sd' S', Gp.predictWithHyps X Y Xs h name prior = .ok (mu, sd, S) ∧
      Gp.predictWithCov X Y Xs K V h name prior = .ok (mu', sd', S') ∧
      (∀ j, |mu' j - mu j| ≤ s ^ 2 * √n * ρ * √(∑ i, (Y i - μ i) ^ 2)) ∧
      (∀ j, |sd' j - sd j| ≤ √(s ^ 4 * n * ρ)) ∧
      ∀ j j', |S' j j' - S j j'| ≤ s ^ 4 * n * ρ := by
  rw [getKernelInverse_ok hX hd fix, Except.ok.injEq, Prod.mk.injEq] at h0
  obtain ⟨rfl, -⟩ := h0
  have hη0 : 0 ≤ (n : ℝ) * η := by
    rcases Nat.eq_zero_or_pos n with rfl | hn
    · simp
    · have := (abs_nonneg _).trans (hη ⟨0, hn⟩ ⟨0, hn⟩)
      positivity
  have hθ0 : 0 ≤ (n : ℝ) * θ := by
    rcases Nat.eq_zero_or_pos n with rfl | hn
    · simp
    · have := (abs_nonneg _).trans (hθ ⟨0, hn⟩ ⟨0, hn⟩)
      positivity
  have hρ0 : 0 ≤ ρ := by
    have := sub_pos.2 hn
    rw [hρ]
    positivity
  have hS : ∀ j j', |(gram base s l Xs Xs + (1 / 100000 : ℝ) • (1 : Matrix (Fin m) (Fin m) ℝ) -
      (gram base s l X Xs)ᵀ * V * gram base s l X Xs) j j' - postCov base σ s l X Xs j j'| ≤
      s ^ 4 * n * ρ := by
    intro j j'
    have h1 := near_inverse hs hη hn hθ Xs (fun i => gram base s l X Xs i j') j
    rw [← hρ] at h1
    have e : (gram base s l Xs Xs + (1 / 100000 : ℝ) • (1 : Matrix (Fin m) (Fin m) ℝ) -
        (gram base s l X Xs)ᵀ * V * gram base s l X Xs) j j' - postCov base σ s l X Xs j j' =
        -((((gram base s l X Xs)ᵀ * V) *ᵥ (fun i => gram base s l X Xs i j')) j -
          postMean base σ s l X Xs (fun i => gram base s l X Xs i j') j) := by
      simp only [postCov, postMean, Matrix.sub_apply, Matrix.mul_apply_eq_vecMul, Matrix.mulVec,
        Matrix.mul_apply, dotProduct]
      ring
    rw [e, abs_neg]
    refine h1.trans ?_
    have h2 := mul_le_mul_of_nonneg_left (column_length base s l X Xs j')
      (show 0 ≤ s ^ 2 * √n * ρ by positivity)
    refine h2.trans_eq ?_
    have := Real.mul_self_sqrt (Nat.cast_nonneg (α := ℝ) n)
    calc s ^ 2 * √n * ρ * (s ^ 2 * √n) = s ^ 4 * (√n * √n) * ρ := by ring
      _ = s ^ 4 * n * ρ := by rw [this]
  refine ⟨_, _, _, _, _, _, predictWithHyps_ok hX hXs hd Y hμ hμs,
    predictWithCov_ok hX hXs hd Y K V hμ hμs, ?_, ?_, hS⟩
  · intro j
    have h1 := near_inverse hs hη hn hθ Xs (Y - μ) j
    rw [← hρ] at h1
    have e : (Y - μ) ⬝ᵥ (Y - μ) = ∑ i, (Y i - μ i) ^ 2 := by simp [dotProduct, pow_two]
    rw [e] at h1
    rwa [Pi.add_apply, Pi.add_apply, add_sub_add_right_eq_sub]
  · intro j
    have hp : 0 ≤ postCov base σ s l X Xs j j :=
      (by norm_num : (0 : ℝ) ≤ 1 / 100000).trans (postCov_diag_ge base σ s l X Xs j)
    simp only [max_eq_left hp]
    exact abs_sqrt_sub_le hp (hS j j)

/-- Concrete case of C102: three equal inputs, noise 0, and a matrix whose diagonal is off by `1e-6`,
with its exact inverse. -/
example : ∃ K₀ V₀ K : Matrix (Fin 3) (Fin 3) ℝ,
    getKernelInverse exTrain3 exHyps "matern32" false false = .ok (K₀, V₀, none) ∧ K ≠ K₀ ∧
    (∀ i j, K i j = K j i) ∧ (∀ i j, |K i j - K₀ i j| ≤ 1 / 1000000) ∧
    ((3 : ℕ) : ℝ) * (1 / 1000000) < 0 ^ 2 + 1 / 100000 ∧ ∀ i j, |K⁻¹ i j - K⁻¹ i j| ≤ 0 := by
  refine ⟨_, _, noisyGram "matern32" 0 2 (fun _ => 3) exTrain3 + (1 / 1000000 : ℝ) • 1,
    getKernelInverse_ok exTrain3_suits exHyps_describes false, ?_, ?_, ?_, by norm_num, by simp⟩
  · intro h
    have := congrFun (congrFun h 0) 0
    simp at this
  · intro i j
    rw [Matrix.add_apply, Matrix.add_apply, noisyGram_symm]
    simp [Matrix.one_apply, eq_comm]
  · intro i j
    rw [Matrix.add_apply, add_sub_cancel_left, Matrix.smul_apply, Matrix.one_apply]
    split <;> norm_num

end Verif.Props
