import Verif.Model.RoundedChoice
import Verif.Spec.RoundedChoice
import Verif.Props.Selection
import Verif.Props.RoundedPredict
import Verif.Props.RoundedAcquisition
import Verif.Lemmas.RoundedLikelihood
import Verif.Lemmas.EndToEnd

/-! # Choosing a point with rounding (lemmas for C157) -/

namespace Verif.Lemmas

open Verif.Spec Verif.Covariance Verif.UtilsCovariance Verif.Rounded Verif.RoundedPredict Verif.Constants
  Verif.BoCommon Verif.BoWGp Verif.UtilsBo Matrix

variable {fl ex cdf pdf lg : ℝ → ℝ} {n d : ℕ} {o : SumOrder} {mm : MatMul} {name : String} {h : HypDict}
  {σ s : ℝ} {l : Fin d → ℝ}

/-- The candidate that is chosen when the objective is ten times a computed value, rounded, with the sign
changed, and computed values are within `Δ` of the values `A` and at most `D` in size. -/
theorem choice_near (hf : Nearest fl) {ps : List (Point d)} (hps : ps ≠ []) {f : Point d → Py Flt}
    {v A : Point d → ℝ} {Δ D : ℝ} (hv : ∀ x ∈ ps, f x = .ok (.fin (-1 * fl (v x * 10))))
    (hA : ∀ x ∈ ps, |v x - A x| ≤ Δ) (hD : ∀ x ∈ ps, |v x| ≤ D) :
    ∃ x, getBestAcquisitionByEvaluation ps f = .ok [x] ∧
      NearBest A ps (2 * Δ + 2 / 2 ^ 53 * D + (2 : ℝ) ^ (-1075 : ℤ)) x := by
  rcases Props.C03_best_by_evaluation ps f (fun x => .fin (-1 * fl (v x * 10))) hv with
    ⟨i, x, h1, h2, -, -, h3, -⟩ | ⟨-, h1⟩
  · have hx : x ∈ ps := by
      have := List.mem_of_getElem? h2
      obtain ⟨z, hz, e⟩ := List.mem_map.1 this
      rw [Prod.mk.injEq] at e
      exact e.1 ▸ hz
    refine ⟨x, h1, hx, fun y hy => ?_⟩
    obtain ⟨k, hk⟩ := List.mem_iff_getElem?.1 hy
    have h4 := h3 k y (.fin (-1 * fl (v y * 10))) (by simp [List.getElem?_map, hk]) trivial
    have h5 : fl (v y * 10) ≤ fl (v x * 10) := by
      rcases h4 with h4 | h4
      · cases h4
      · have : -1 * fl (v x * 10) ≤ -1 * fl (v y * 10) := h4
        linarith
    have e1 := abs_le.1 (fl_error hf (v y * 10))
    have e2 := abs_le.1 (fl_error hf (v x * 10))
    rw [abs_mul, abs_of_pos (by norm_num : (0 : ℝ) < 10)] at e1 e2
    have a1 := abs_le.1 (hA x hx)
    have a2 := abs_le.1 (hA y hy)
    have d1 := hD x hx
    have d2 := hD y hy
    have ht : (0 : ℝ) < (2 : ℝ) ^ (-1075 : ℤ) := by positivity
    generalize (2 : ℝ) ^ (-1075 : ℤ) = t at *
    linarith only [h5, e1.1, e1.2, e2.1, e2.2, a1.1, a1.2, a2.1, a2.2, d1, d2, ht]
  · obtain ⟨x, hx⟩ := List.exists_mem_of_ne_nil ps hps
    exact absurd trivial (h1 x hx)

/-- Exact predictions at one point are one mean and one deviation. -/
theorem predict_point (hn : name ∈ baseNames) (hh : Describes h σ s l) (X : Fin n → Point d)
    (Y : Fin n → ℝ) (x : Point d) {prior : Gp.PriorMu d} {μ : Fin n → ℝ} {p : ℝ}
    (hμ : Gp.getPriorMu prior (.vec X) = .ok μ)
    (hμs : Gp.getPriorMu prior (.vec fun _ : Fin 1 => x) = .ok fun _ => p) :
    ∃ m w S, Gp.predictWithHyps (.vec X) Y (.vec fun _ : Fin 1 => x) h name prior =
      .ok (fun _ => m, fun _ => w, S) := by
  have hsuit : ∀ {p : ℕ} (Z : Fin p → Point d), Suits name name (.vec Z) :=
    fun Z => ⟨hn, .inl ⟨rfl, Z, rfl⟩⟩
  have key : ∀ (g w : Fin 1 → ℝ) (S : Matrix (Fin 1) (Fin 1) ℝ), ∃ m v S',
      (Except.ok (g, w, S) : Py _) = .ok (fun _ => m, fun _ => v, S') := fun g w S => by
    refine ⟨g 0, w 0, S, ?_⟩
    congr 2
    · funext j
      fin_cases j
      rfl
    · congr 1
      funext j
      fin_cases j
      rfl
  rw [predictWithHyps_ok (hsuit X) (hsuit _) hh Y hμ hμs]
  exact key _ _ _

/-- Deviations of exact predictions at one point lie between those of the jitter and of the prior. -/
theorem deviation_bounds (hn : name ∈ baseNames) (hh : Describes h σ s l) {X : Fin n → Point d}
    {Y : Fin n → ℝ} {x : Point d} {prior : Gp.PriorMu d} {μ : Fin n → ℝ} {p m w : ℝ}
    {S : Matrix (Fin 1) (Fin 1) ℝ} (hμ : Gp.getPriorMu prior (.vec X) = .ok μ)
    (hμs : Gp.getPriorMu prior (.vec fun _ : Fin 1 => x) = .ok fun _ => p)
    (hp : Gp.predictWithHyps (.vec X) Y (.vec fun _ : Fin 1 => x) h name prior =
      .ok (fun _ => m, fun _ => w, S)) :
    0 < w ∧ w = √(S 0 0) ∧ |S 0 0| ≤ s ^ 2 + 1 / 100000 ∧ w ≤ √(s ^ 2 + 1 / 100000) ∧
      m = postMean name σ s l (.vec X) (.vec fun _ : Fin 1 => x) (Y - μ) 0 + p := by
  have hsuit : ∀ {p : ℕ} (Z : Fin p → Point d), Suits name name (.vec Z) :=
    fun Z => ⟨hn, .inl ⟨rfl, Z, rfl⟩⟩
  rw [predictWithHyps_ok (hsuit X) (hsuit _) hh Y hμ hμs, Except.ok.injEq, Prod.mk.injEq,
    Prod.mk.injEq] at hp
  obtain ⟨hm, hw, hS⟩ := hp
  have h1 := postCov_diag_ge name σ s l (.vec X) (.vec fun _ : Fin 1 => x) 0
  have h2 : postCov name σ s l (.vec X) (.vec fun _ : Fin 1 => x) 0 0 ≤ s ^ 2 + 1 / 100000 := by
    have h3 := (noisyGram_posDef name σ s l (.vec X)).inv.posSemidef.dotProduct_mulVec_nonneg
      (fun i => gram name s l (.vec X) (.vec fun _ : Fin 1 => x) i 0)
    have h4 := (gram_bound name s l (.vec fun _ : Fin 1 => x) (.vec fun _ : Fin 1 => x) 0 0).2
    have e1 : postCov name σ s l (.vec X) (.vec fun _ : Fin 1 => x) 0 0 =
        gram name s l (.vec fun _ : Fin 1 => x) (.vec fun _ : Fin 1 => x) 0 0 + 1 / 100000 -
          (fun i => gram name s l (.vec X) (.vec fun _ : Fin 1 => x) i 0) ⬝ᵥ
            ((noisyGram name σ s l (.vec X))⁻¹ *ᵥ
              fun i => gram name s l (.vec X) (.vec fun _ : Fin 1 => x) i 0) := by
      rw [postCov, Matrix.mul_assoc]
      simp [Matrix.mul_apply, Matrix.sub_apply, dotProduct, Matrix.mulVec]
    simp only [star_trivial] at h3
    rw [e1]
    linarith
  rw [hS] at h1 h2
  have h0 : 0 < S 0 0 := by linarith
  have hw0 : w = √(S 0 0) := by
    have := congrFun hw 0
    simp only [hS] at this
    rw [← this, max_eq_left h0.le]
  have hm0 := congrFun hm 0
  exact ⟨hw0 ▸ Real.sqrt_pos.2 h0, hw0, by rwa [abs_of_pos h0], hw0 ▸ Real.sqrt_le_sqrt h2, hm0.symm⟩

/-- Size of an exact predictive mean above the prior mean. -/
theorem postMean_size (name : String) (σ s : ℝ) (l : Fin d → ℝ) (X : Fin n → Point d) (x : Point d)
    (r : Fin n → ℝ) :
    |postMean name σ s l (.vec X) (.vec fun _ : Fin 1 => x) r 0| ≤
      √n * s ^ 2 * (√(r ⬝ᵥ r) / (σ ^ 2 + 1 / 100000)) := by
  have hp := noisyGram_posDef name σ s l (.vec X)
  have e1 : postMean name σ s l (.vec X) (.vec fun _ : Fin 1 => x) r 0 =
      (fun i => gram name s l (.vec X) (.vec fun _ : Fin 1 => x) i 0) ⬝ᵥ
        ((noisyGram name σ s l (.vec X))⁻¹ *ᵥ r) := by
    rw [postMean, ← Matrix.mulVec_mulVec]
    rfl
  rw [e1]
  refine (cauchy _ _).trans (mul_le_mul ?_ ?_ (Real.sqrt_nonneg _) (by positivity))
  · refine length_le_entries (sq_nonneg s) fun i => ?_
    have := gram_bound name s l (.vec X) (.vec fun _ : Fin 1 => x) i 0
    rw [abs_of_nonneg this.1]
    exact this.2
  · exact length_inv_le (by positivity) hp (noisyGram_form name σ s l (.vec X)) r

/-- Computed means and deviations are doubles, and deviations are not negative. -/
theorem roundedPredict_doubles (hf : Nearest fl) {m : ℕ} {X : Fin n → Point d} {Y : Fin n → ℝ}
    {Xs : Fin m → Point d} {K V : Matrix (Fin n) (Fin n) ℝ} {prior : Gp.PriorMu d} {mu sd : Fin m → ℝ}
    {S : Matrix (Fin m) (Fin m) ℝ}
    (hp : RoundedPredict.predictWithCov fl ex o mm X Y Xs K V h name prior = .ok (mu, sd, S)) (j : Fin m) :
    mu j ∈ Double ∧ sd j ∈ Double ∧ 0 ≤ sd j := by
  simp only [RoundedPredict.predictWithCov, bind, Except.bind, pure, Except.pure] at hp
  split at hp <;> try cases hp
  split at hp <;> try cases hp
  split at hp <;> try cases hp
  split at hp <;> try cases hp
  split at hp <;> try cases hp
  split at hp <;> try cases hp
  exact ⟨hf.mem _, hf.mem _, fl_nonneg hf (Real.sqrt_nonneg _)⟩

/-- The objective at one candidate, from what predictions and the acquisition function give there. -/
theorem objective_at {bo : BOwGP d} {X : Fin n → Point d} {Y : Fin n → ℝ}
    {K V : Matrix (Fin n) (Fin n) ℝ} (hh : Describes h σ s l) {x : Point d} {mu sd : Fin 1 → ℝ}
    {S : Matrix (Fin 1) (Fin 1) ℝ} {f : AcqFun} {v : ℝ}
    (hp : RoundedPredict.predictWithCov fl ex o mm X Y (fun _ : Fin 1 => x) K V h bo.str_cov bo.prior_mu =
      .ok (mu, sd, S))
    (hc : RoundedChoice.chooseFunAcquisition fl cdf pdf lg bo.str_acq (some σ) = .ok f)
    (hv : f [mu 0] [sd 0] (List.ofFn Y) = .ok [v]) :
    onePoint (RoundedChoice.negAcquisition fl ex cdf pdf lg o mm bo X Y (some (K, V, h))) x =
      .ok (.fin (-1 * fl (v * 10))) := by
  have hg : ([x] : List (Point d)).get = fun _ : Fin 1 => x := by
    funext i
    fin_cases i
    rfl
  have e1 : ∀ g : Fin 1 → ℝ, List.ofFn g = [g 0] := fun g => by simp
  have hp' : RoundedPredict.predictWithCov fl ex o mm X Y ([x] : List (Point d)).get K V h bo.str_cov
      bo.prior_mu = .ok (mu, sd, S) := by
    rw [hg]
    exact hp
  have ha : RoundedChoice.computeAcquisitions fl ex cdf pdf lg o mm bo ([x] : List (Point d)).get X Y
      (K, V, h) = .ok [fl (v * MULTIPLIER_ACQ)] := by
    simp only [RoundedChoice.computeAcquisitions, RoundedChoice.computePosteriors, Gp.validateCommonArgs,
      noiseArg_describes hh, hc, hp', bind, Except.bind, pure, Except.pure]
    have e2 : List.ofFn (n := ([x] : List (Point d)).length) mu = [mu 0] := e1 mu
    have e3 : List.ofFn (n := ([x] : List (Point d)).length) sd = [sd 0] := e1 sd
    rw [e2, e3, hv]
    rfl
  simp [onePoint, RoundedChoice.negAcquisition, ha, bind, Except.bind, pure, Except.pure, pyIndex,
    MULTIPLIER_ACQ]

/-- The jitter of acquisition functions as a double. -/
theorem jitter_double (hf : Nearest fl) :
    fl JITTER_ACQ ∈ Double ∧ 0 < fl JITTER_ACQ ∧ fl JITTER_ACQ ≤ 1 / 80000 ∧
      fl JITTER_ACQ * (√(2 * Real.pi))⁻¹ ≤ 1 / 200000 := by
  have hje : |fl JITTER_ACQ - 1 / 100000| ≤ 1 / 10 ^ 10 := by
    have h1 := fl_error hf JITTER_ACQ
    have e : JITTER_ACQ = 1 / 100000 := by norm_num [JITTER_ACQ]
    rw [e] at h1 ⊢
    refine h1.trans ?_
    rw [abs_of_pos (by norm_num)]
    have h3 : (2 : ℝ) ^ (-1075 : ℤ) ≤ (2 : ℝ) ^ (-70 : ℤ) :=
      zpow_le_zpow_right₀ (by norm_num) (by norm_num)
    exact (add_le_add le_rfl h3).trans (by norm_num)
  have hj1 := abs_le.1 hje
  have h1 : fl JITTER_ACQ ≤ 1 / 80000 := by
    have := hj1.2
    norm_num at this ⊢
    linarith
  refine ⟨hf.mem _, ?_, h1, ?_⟩
  · have := hj1.1
    norm_num at this ⊢
    linarith
  · exact (mul_le_mul h1 inv_sqrt_two_pi_le (by positivity) (by norm_num)).trans (by norm_num)

/-- The probability of improvement with other predictions and a jitter. -/
theorem chance_near {b m m' s s' j em es w : ℝ} (hj : 0 < j) (hs : 0 < s) (hs' : 0 ≤ s')
    (hm : |m' - m| ≤ em) (he : |s' - s| ≤ es) (hw : w ≤ s) (hes : 2 * (es + j) ≤ w - es) :
    |Acquisition.normCdf ((b - m') / (s' + j)) - improvementChance b m s| ≤
      4 / 5 * ((es + j) / (w - es)) + 2 / 5 * (em / (w - es)) := by
  have hes0 : 0 ≤ es := (abs_nonneg _).trans he
  have hem0 : 0 ≤ em := (abs_nonneg _).trans hm
  have hwe : 0 < w - es := by linarith
  have hr : w - es ≤ s' + j := by linarith [(abs_le.1 he).1]
  have hsj : 0 < s' + j := by linarith
  have e1 : improvementChance b m s = Acquisition.normCdf ((b - m) / s) := by
    have hv : (s ^ 2).toNNReal ≠ 0 := by
      rw [Ne, Real.toNNReal_eq_zero]
      have := pow_pos hs 2
      linarith
    have := ProbabilityTheory.nullSingletonClass_gaussianReal (μ := m) hv
    rw [improvementChance, ← Acquisition.prob_le_eq m s b hs]
    exact MeasureTheory.measureReal_congr MeasureTheory.Iio_ae_eq_Iic
  rw [e1]
  refine normCdf_variation (div_nonneg (by linarith) hwe.le) ?_ (div_nonneg hem0 hwe.le) ?_
  · rw [div_le_iff₀ hwe]
    linarith
  · have e2 : (b - m') / (s' + j) - (b - m) / s =
        (s - (s' + j)) / (s' + j) * ((b - m) / s) + (m - m') / (s' + j) := by
      field_simp
      ring
    rw [e2]
    refine (abs_add_le _ _).trans (add_le_add ?_ ?_)
    · rw [abs_mul, abs_div, abs_of_pos hsj]
      refine mul_le_mul_of_nonneg_right (div_le_div₀ (by linarith) ?_ hwe hr) (abs_nonneg _)
      have e3 : s - (s' + j) = -((s' - s) + j) := by ring
      rw [e3, abs_neg]
      refine (abs_add_le _ _).trans (add_le_add he (abs_of_pos hj).le)
    · rw [abs_div, abs_of_pos hsj]
      exact div_le_div₀ hem0 (by rwa [abs_sub_comm]) hwe hr

/-- The discount of augmented expected improvement changes slowly with the deviation. -/
theorem discount_near {τ s s' : ℝ} (hτ : 0 < τ) :
    |Props.discount τ s' - Props.discount τ s| ≤ |s' - s| / τ ∧ 0 ≤ Props.discount τ s' ∧
      Props.discount τ s' ≤ 1 := by
  have hr : ∀ s : ℝ, τ ≤ √(s ^ 2 + τ ^ 2) := fun s => Real.le_sqrt_of_sq_le (by nlinarith)
  have hs : ∀ s : ℝ, |s| ≤ √(s ^ 2 + τ ^ 2) := fun s => Real.abs_le_sqrt (by nlinarith)
  have h1 := hr s
  have h2 := hr s'
  have h3 := hs s
  have h4 := hs s'
  have e1 := Real.sq_sqrt (show 0 ≤ s ^ 2 + τ ^ 2 by positivity)
  have e2 := Real.sq_sqrt (show 0 ≤ s' ^ 2 + τ ^ 2 by positivity)
  unfold Props.discount
  generalize √(s ^ 2 + τ ^ 2) = r at *
  generalize √(s' ^ 2 + τ ^ 2) = r' at *
  have hr0 : 0 < r := by linarith
  have hr0' : 0 < r' := by linarith
  refine ⟨?_, ?_, ?_⟩
  · have h5 : |r' - r| ≤ |s' - s| := by
      have e3 : |r' - r| * (r' + r) = |s' - s| * |s' + s| := by
        rw [← abs_of_pos (show 0 < r' + r by linarith), ← abs_mul, ← abs_mul]
        congr 1
        linarith
      have h6 : |s' - s| * |s' + s| ≤ |s' - s| * (r' + r) :=
        mul_le_mul_of_nonneg_left ((abs_add_le _ _).trans (add_le_add h4 h3)) (abs_nonneg _)
      exact le_of_mul_le_mul_right (e3.trans_le h6) (by linarith)
    have e4 : 1 - τ / r' - (1 - τ / r) = τ * (r' - r) / (r' * r) := by
      field_simp
      ring
    rw [e4, abs_div, abs_mul, abs_of_pos hτ, abs_of_pos (mul_pos hr0' hr0),
      div_le_div_iff₀ (mul_pos hr0' hr0) hτ]
    have h6 : τ * τ ≤ r' * r := mul_le_mul h2 h1 hτ.le hr0'.le
    calc τ * |r' - r| * τ = τ * τ * |r' - r| := by ring
      _ ≤ r' * r * |s' - s| := mul_le_mul h6 h5 (abs_nonneg _) (by positivity)
      _ = |s' - s| * (r' * r) := by ring
  · rw [sub_nonneg, div_le_one hr0']
    exact h2
  · have : 0 ≤ τ / r' := by positivity
    linarith

/-- The errors of the augmented expected improvement together. `A` is the improvement with the computed
prediction, `A₁` with the computed deviation only, `A₀` with the exact prediction, `I` without jitter. -/
theorem aei_total {v v₀ A A₁ A₀ I g g' b m m' s s' em es q c T D Δ : ℝ}
    (h1 : |v - v₀| ≤ c * (|b - m'| + |s'|) + T) (h2 : v₀ = A * g') (h3 : |A - A₁| ≤ 3 / 2 * |m' - m|)
    (h4 : |A₁ - A₀| ≤ |s' - s|) (h5 : |A₀| ≤ |b - m| + |s|) (h6 : |A₀ - I| ≤ 1 / 200000)
    (hm : |m' - m| ≤ em) (hs : |s' - s| ≤ es) (hg : |g' - g| ≤ q) (hg0' : 0 ≤ g') (hg1' : g' ≤ 1)
    (hg0 : 0 ≤ g) (hg1 : g ≤ 1) (hs0 : 0 ≤ s) (hD : |b - m| + s ≤ D) (hs0' : 0 ≤ s') (hc : 0 ≤ c)
    (hΔ : Δ = 3 / 2 * em + es + 1 / 200000 + (D + 1 / 200000) * q + (c * (D + em + es) + T)) :
    |v - I * g| ≤ Δ ∧ |v| ≤ D + 1 / 200000 + Δ := by
  rw [abs_of_nonneg hs0] at h5
  rw [abs_of_nonneg hs0'] at h1
  have hq : 0 ≤ q := (abs_nonneg _).trans hg
  have hI : |I| ≤ D + 1 / 200000 := by
    have := abs_sub_abs_le_abs_sub I A₀
    rw [abs_sub_comm] at h6
    linarith
  have t1 : |b - m'| + s' ≤ D + em + es := by
    have u1 := abs_sub_le b m m'
    rw [abs_sub_comm m m'] at u1
    linarith [(abs_le.1 hs).2]
  have t2 := mul_le_mul_of_nonneg_left t1 hc
  have t3 : |A - I| ≤ 3 / 2 * em + es + 1 / 200000 := by
    have u1 := abs_sub_le A A₁ I
    have u2 := abs_sub_le A₁ A₀ I
    linarith
  have t4 : |v₀ - I * g| ≤ 3 / 2 * em + es + 1 / 200000 + (D + 1 / 200000) * q := by
    have e : v₀ - I * g = (A - I) * g' + I * (g' - g) := by
      rw [h2]
      ring
    rw [e]
    refine (abs_add_le _ _).trans (add_le_add ?_ ?_)
    · rw [abs_mul, abs_of_nonneg hg0']
      exact (mul_le_of_le_one_right (abs_nonneg _) hg1').trans t3
    · rw [abs_mul]
      exact mul_le_mul hI hg (abs_nonneg _) ((abs_nonneg _).trans hI)
  have t5 : |v - I * g| ≤ Δ := by
    have := abs_sub_le v v₀ (I * g)
    rw [hΔ]
    linarith
  refine ⟨t5, ?_⟩
  have t6 : |I * g| ≤ D + 1 / 200000 := by
    rw [abs_mul, abs_of_nonneg hg0]
    exact (mul_le_of_le_one_right (abs_nonneg _) hg1).trans hI
  have := abs_sub_abs_le_abs_sub v (I * g)
  linarith

/-- Without rounding the model is the one of `BoWGp.lean`. -/
theorem roundedChoose_id (str_acq : String) (noise : Option ℝ) :
    RoundedChoice.chooseFunAcquisition id Acquisition.normCdf Acquisition.normPdf Real.log str_acq noise =
      UtilsBo.chooseFunAcquisition str_acq noise := rfl

theorem roundedNegAcquisition_id (ho : o.Covers d) {bo : BOwGP d} (hn : bo.str_cov ∈ baseNames)
    (X : Fin n → Point d) (Y : Fin n → ℝ) (fit : Option (Fit n)) (xs : List (Point d)) :
    RoundedChoice.negAcquisition id Real.exp Acquisition.normCdf Acquisition.normPdf Real.log o
      (fun A B => A * B) bo X Y fit xs = BoWGp.negAcquisition bo (.vec X) Y fit xs := by
  rcases fit with _ | fit
  · rfl
  · simp only [RoundedChoice.negAcquisition, RoundedChoice.computeAcquisitions,
      RoundedChoice.computePosteriors, BoWGp.negAcquisition, BoWGp.computeAcquisitions,
      BoWGp.computePosteriors, roundedPredict_id ho hn, roundedChoose_id, id]

/-- The residuals of at most 20 responses between -10 and 10. -/
theorem typical_residual (hn : (n : ℝ) ≤ 20) {Y : Fin n → ℝ} (hY : ∀ i, |Y i| ≤ 10) :
    √n * √(∑ i, (Y i - 0) ^ 2) ≤ 200 := by
  have hn0 : (0 : ℝ) ≤ n := Nat.cast_nonneg n
  have h1 : ∑ i, (Y i - 0) ^ 2 ≤ (n : ℝ) * 100 := by
    refine (Finset.sum_le_sum fun i _ => (?_ : (Y i - 0) ^ 2 ≤ 100)).trans_eq (by simp)
    rw [sub_zero, ← sq_abs]
    have := pow_le_pow_left₀ (abs_nonneg _) (hY i) 2
    norm_num at this ⊢
    exact this
  rw [← Real.sqrt_mul hn0]
  apply Real.sqrt_le_iff.2
  refine ⟨by norm_num, ?_⟩
  have h2 := mul_le_mul hn (h1.trans (mul_le_mul_of_nonneg_right hn (by norm_num)))
    (Finset.sum_nonneg fun i _ => sq_nonneg _) (by norm_num)
  norm_num at h2 ⊢
  exact h2

/-- The errors of predictions in a case with numbers. -/
theorem typical_choice {n d σ Q : ℝ} (hn : n ≤ 20) (hn0 : 0 ≤ n) (hd : d ≤ 10) (hd0 : 0 ≤ d)
    (hσ : 1 / 100 ≤ σ ^ 2) (hσ1 : σ ^ 2 ≤ 1) (hQ : Q ≤ 200) (hQ0 : 0 ≤ Q) {E e B κ ρ F G γ t : ℝ}
    (hE : E = 1 ^ 2 * (2 * (1 / 2 ^ 50) + (1 + (d + 1) * 10) / 2 ^ 44) + (σ ^ 2 + 1) / 2 ^ 49)
    (he : e = 1 ^ 2 * (2 * (1 / 2 ^ 50) + (1 + (d + 1) * 10) / 2 ^ 45) + (2 : ℝ) ^ (-1070 : ℤ))
    (hB : B = 1 / (σ ^ 2 + 1 / 100000 - n * E) + 1 / 10 ^ 9) (hκ : κ = 1 ^ 2 + e)
    (hρ : ρ = n * E / ((σ ^ 2 + 1 / 100000) * (σ ^ 2 + 1 / 100000 - n * E)) + n * (1 / 10 ^ 9))
    (hγ : γ = (4 * n + 1) / 2 ^ 53) (ht : t = 2 * n * (2 : ℝ) ^ (-1075 : ℤ))
    (hF : F = Q * (1 ^ 2 * ρ + n * B * (e + (6 * γ + 1 / 2 ^ 53) * κ) + 4 * t) + t)
    (hG : G = 1 ^ 4 * n * ρ + n * κ * (n * B * (2 * e + 3 * γ * κ) + 2 * t) + t +
      (1 ^ 2 * (2 * (1 / 2 ^ 50) + (1 + (d + 1) * 10) / 2 ^ 44) + 1 / 2 ^ 49)) :
    n * E < σ ^ 2 + 1 / 100000 ∧ 0 ≤ F ∧ F ≤ 5 / 10 ^ 4 ∧ G ≤ 42 / 10 ^ 6 := by
  have ht1 : (2 : ℝ) ^ (-1070 : ℤ) ≤ 1 / 10 ^ 20 := by
    have h1 : (2 : ℝ) ^ (-1070 : ℤ) ≤ (2 : ℝ) ^ (-70 : ℤ) := zpow_le_zpow_right₀ (by norm_num) (by norm_num)
    exact h1.trans (by norm_num)
  have ht2 : (2 : ℝ) ^ (-1075 : ℤ) ≤ 1 / 10 ^ 20 := by
    have h1 : (2 : ℝ) ^ (-1075 : ℤ) ≤ (2 : ℝ) ^ (-70 : ℤ) := zpow_le_zpow_right₀ (by norm_num) (by norm_num)
    exact h1.trans (by norm_num)
  have ht2' : (0 : ℝ) < (2 : ℝ) ^ (-1075 : ℤ) := by positivity
  have ht1' : (0 : ℝ) < (2 : ℝ) ^ (-1070 : ℤ) := by positivity
  have hE0 : 0 ≤ E := by rw [hE]; positivity
  have he0 : 0 ≤ e := by rw [he]; positivity
  have hE1 : E ≤ 1 / 10 ^ 11 := by
    rw [hE]
    norm_num
    linarith
  have he1 : e ≤ 1 / 10 ^ 11 := by
    rw [he]
    norm_num at ht1 ⊢
    linarith
  have hnE0 : 0 ≤ n * E := by positivity
  have hnE : n * E ≤ 2 / 10 ^ 10 := by
    have := mul_le_mul hn hE1 hE0 (by norm_num)
    linarith
  have hlt : n * E < σ ^ 2 + 1 / 100000 := by
    norm_num at hnE hσ ⊢
    linarith
  have hgap : 1 / 100 ≤ σ ^ 2 + 1 / 100000 - n * E := by
    norm_num at hnE hσ ⊢
    linarith
  have hgap0 : 0 < σ ^ 2 + 1 / 100000 - n * E := sub_pos.2 hlt
  have hτ : 1 / 100 ≤ σ ^ 2 + 1 / 100000 := by linarith
  have hB1 : B ≤ 101 := by
    have : 1 / (σ ^ 2 + 1 / 100000 - n * E) ≤ 1 / (1 / 100) :=
      one_div_le_one_div_of_le (by norm_num) hgap
    rw [hB]
    norm_num at this ⊢
    linarith
  have hB0 : 0 ≤ B := by rw [hB]; positivity
  have hρ1 : ρ ≤ 1 / 490000 := by
    have h1 : (1 / 100) * (1 / 100) ≤ (σ ^ 2 + 1 / 100000) * (σ ^ 2 + 1 / 100000 - n * E) :=
      mul_le_mul hτ hgap (by norm_num) (by positivity)
    have h2 : n * E / ((σ ^ 2 + 1 / 100000) * (σ ^ 2 + 1 / 100000 - n * E)) ≤
        (2 / 10 ^ 10) / ((1 / 100) * (1 / 100)) :=
      div_le_div₀ (by norm_num) hnE (by norm_num) h1
    rw [hρ]
    norm_num at h2 ⊢
    linarith
  have hρ0 : 0 ≤ ρ := by rw [hρ]; positivity
  have hγ0 : 0 ≤ γ := by rw [hγ]; positivity
  have hγ1 : γ ≤ 1 / 10 ^ 13 := by
    rw [hγ]
    norm_num
    linarith
  have ht0 : 0 ≤ t := by rw [ht]; positivity
  have ht3 : t ≤ 1 / 10 ^ 15 := by
    rw [ht]
    have := mul_le_mul (mul_le_mul_of_nonneg_left hn (by norm_num : (0 : ℝ) ≤ 2)) ht2 ht2'.le
      (by norm_num)
    refine this.trans (by norm_num)
  have hκ0 : 0 ≤ κ := by rw [hκ]; positivity
  have hκ1 : κ ≤ 1 + 1 / 10 ^ 11 := by
    rw [hκ]
    linarith
  have hnB : n * B ≤ 20 * 101 := mul_le_mul hn hB1 hB0 (by norm_num)
  have hnB0 : 0 ≤ n * B := mul_nonneg hn0 hB0
  refine ⟨hlt, by rw [hF]; positivity, ?_, ?_⟩
  · have h5 : (6 * γ + 1 / 2 ^ 53) * κ ≤ (6 * (1 / 10 ^ 13) + 1 / 2 ^ 53) * 2 :=
      mul_le_mul (by linarith) (by linarith) hκ0 (by norm_num)
    have hin : e + (6 * γ + 1 / 2 ^ 53) * κ ≤ 2 / 10 ^ 11 := by
      norm_num at h5 he1 ⊢
      linarith
    have h6 : n * B * (e + (6 * γ + 1 / 2 ^ 53) * κ) ≤ 20 * 101 * (2 / 10 ^ 11) :=
      mul_le_mul hnB hin (by positivity) (by norm_num)
    have h7 : Q * (1 ^ 2 * ρ + n * B * (e + (6 * γ + 1 / 2 ^ 53) * κ) + 4 * t) ≤
        200 * (1 / 490000 + 20 * 101 * (2 / 10 ^ 11) + 4 * (1 / 10 ^ 15)) :=
      mul_le_mul hQ (by linarith) (by positivity) (by norm_num)
    rw [hF]
    norm_num at h7 ht3 ⊢
    linarith
  · have h5 : 3 * γ * κ ≤ 3 * (1 / 10 ^ 13) * 2 :=
      mul_le_mul (by linarith) (by linarith) hκ0 (by norm_num)
    have hin : 2 * e + 3 * γ * κ ≤ 21 / 10 ^ 12 := by
      norm_num at h5 he1 ⊢
      linarith
    have h6 : n * B * (2 * e + 3 * γ * κ) ≤ 20 * 101 * (21 / 10 ^ 12) :=
      mul_le_mul hnB hin (by positivity) (by norm_num)
    have h7 : n * κ * (n * B * (2 * e + 3 * γ * κ) + 2 * t) ≤
        20 * (1 + 1 / 10 ^ 11) * (20 * 101 * (21 / 10 ^ 12) + 2 * (1 / 10 ^ 15)) :=
      mul_le_mul (mul_le_mul hn hκ1 hκ0 (by norm_num)) (by linarith) (by positivity) (by norm_num)
    have h8 : n * ρ ≤ 20 * (1 / 490000) := mul_le_mul hn hρ1 hρ0 (by norm_num)
    have h9 : (1 : ℝ) ^ 2 * (2 * (1 / 2 ^ 50) + (1 + (d + 1) * 10) / 2 ^ 44) + 1 / 2 ^ 49 ≤ 1 / 10 ^ 11 := by
      norm_num
      linarith
    rw [hG, one_pow, one_mul]
    refine (add_le_add (add_le_add (add_le_add h8 h7) ht3) h9).trans ?_
    norm_num

/-- The error of a choice in a case with numbers. -/
theorem typical_total {F G Q σ b : ℝ} (hF0 : 0 ≤ F) (hF : F ≤ 5 / 10 ^ 4) (hG : G ≤ 42 / 10 ^ 6)
    (hQ : Q ≤ 200) (hQ0 : 0 ≤ Q) (hσ : 1 / 100 ≤ σ ^ 2) (hb : |b| ≤ 10) {u M W em es D Δ : ℝ}
    (hu : u = 1 / 2 ^ 53) (hM : M = 1 ^ 2 * Q / (σ ^ 2 + 1 / 100000) + 0)
    (hW : W = √(1 ^ 2 + 1 / 100000)) (hem : em = (1 + u) * F + u * M)
    (hes : es = (1 + u) * √((1 + u) * G + u * W ^ 2) + u * W + (2 : ℝ) ^ (-1075 : ℤ))
    (hD : D = |b| + M + W)
    (hΔ : Δ = 3 / 2 * em + es + ((1 / 2 ^ 40 + 8 / 2 ^ 53) * (D + em + es) + (2 : ℝ) ^ (-1073 : ℤ))) :
    em ≤ 6 / 10 ^ 4 ∧ es ≤ 66 / 10 ^ 4 ∧ M + W ≤ 20002 ∧
      2 * (Δ + 1 / 200000) + 2 / 2 ^ 53 * (D + Δ) + (2 : ℝ) ^ (-1075 : ℤ) ≤ 1 / 50 := by
  have t1 : (2 : ℝ) ^ (-1073 : ℤ) ≤ 1 / 10 ^ 20 := by
    have h1 : (2 : ℝ) ^ (-1073 : ℤ) ≤ (2 : ℝ) ^ (-70 : ℤ) := zpow_le_zpow_right₀ (by norm_num) (by norm_num)
    exact h1.trans (by norm_num)
  have t2 : (2 : ℝ) ^ (-1075 : ℤ) ≤ 1 / 10 ^ 20 := by
    have h1 : (2 : ℝ) ^ (-1075 : ℤ) ≤ (2 : ℝ) ^ (-70 : ℤ) := zpow_le_zpow_right₀ (by norm_num) (by norm_num)
    exact h1.trans (by norm_num)
  have hu1 : u ≤ 1 / 10 ^ 15 := by rw [hu]; norm_num
  have hu0 : 0 ≤ u := by rw [hu]; positivity
  have hM1 : M ≤ 20000 := by
    have h1 : Q / (σ ^ 2 + 1 / 100000) ≤ 200 / (1 / 100) :=
      div_le_div₀ (by norm_num) hQ (by norm_num) (by linarith)
    rw [hM, one_pow, one_mul, add_zero]
    norm_num at h1 ⊢
    exact h1
  have hM0 : 0 ≤ M := by rw [hM]; positivity
  have hW1 : W ≤ 2 := by
    rw [hW]
    exact Real.sqrt_le_iff.2 ⟨by norm_num, by norm_num⟩
  have hW0 : 0 ≤ W := hW ▸ Real.sqrt_nonneg _
  have huW : u * W ≤ 1 / 10 ^ 15 * 2 := mul_le_mul hu1 hW1 hW0 (by norm_num)
  have huM : u * M ≤ 1 / 10 ^ 15 * 20000 := mul_le_mul hu1 hM1 hM0 (by norm_num)
  have huF : u * F ≤ 1 / 10 ^ 15 * (5 / 10 ^ 4) := mul_le_mul hu1 hF hF0 (by norm_num)
  have hr : √((1 + u) * G + u * W ^ 2) ≤ 65 / 10 ^ 4 := by
    refine Real.sqrt_le_iff.2 ⟨by norm_num, ?_⟩
    have h1 : (1 + u) * G ≤ (1 + 1 / 10 ^ 15) * (42 / 10 ^ 6) :=
      (mul_le_mul_of_nonneg_left hG (by linarith)).trans
        (mul_le_mul_of_nonneg_right (by linarith) (by norm_num))
    have h2 : u * W ^ 2 ≤ 1 / 10 ^ 15 * 2 ^ 2 :=
      mul_le_mul hu1 (pow_le_pow_left₀ hW0 hW1 2) (by positivity) (by norm_num)
    refine (add_le_add h1 h2).trans ?_
    norm_num
  have hem1 : em ≤ 6 / 10 ^ 4 := by
    rw [hem]
    norm_num at huM huF hF ⊢
    linarith
  have hes1 : es ≤ 66 / 10 ^ 4 := by
    have h1 := mul_le_mul (show 1 + u ≤ 1 + 1 / 10 ^ 15 by linarith) hr (Real.sqrt_nonneg _) (by norm_num)
    rw [hes]
    refine (add_le_add (add_le_add h1 huW) t2).trans ?_
    norm_num
  have hD1 : D ≤ 20012 := by
    rw [hD]
    linarith
  have hΔ1 : Δ ≤ 8 / 10 ^ 3 := by
    have h1 : ((1 : ℝ) / 2 ^ 40 + 8 / 2 ^ 53) * (D + em + es) ≤ (1 / 2 ^ 40 + 8 / 2 ^ 53) * 20013 :=
      mul_le_mul_of_nonneg_left (by norm_num at hem1 hes1 ⊢; linarith) (by norm_num)
    rw [hΔ]
    refine (add_le_add (add_le_add (mul_le_mul_of_nonneg_left hem1 (by norm_num)) hes1)
      (add_le_add h1 t1)).trans ?_
    norm_num
  have h2 : (2 : ℝ) / 2 ^ 53 * (D + Δ) ≤ 2 / 2 ^ 53 * 20013 :=
    mul_le_mul_of_nonneg_left (by norm_num at hΔ1 ⊢; linarith) (by norm_num)
  refine ⟨hem1, hes1, by linarith, (add_le_add (add_le_add (mul_le_mul_of_nonneg_left
    (add_le_add hΔ1 le_rfl) (by norm_num)) h2) t2).trans ?_⟩
  norm_num

end Verif.Lemmas
