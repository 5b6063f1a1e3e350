import Verif.Lemmas.Tp
import Verif.Lemmas.StudentCond
import Verif.Spec.Tp
import Verif.Props.Likelihood

/-! C39, C40, C68: Student-t process regression. -/

namespace Verif.Props

open Verif.Spec Verif.Covariance Verif.UtilsCovariance Verif.Constants Verif.Lemmas
open Matrix hiding gram
open MeasureTheory ProbabilityTheory
open scoped Topology

/-- C39, `predict_with_cov` with whatever matrices and hyperparameters: where the Gaussian process
predicts, the Student-t process predicts the same mean with `dof + n` degrees of freedom, and the
covariance scaled by `(dof - 2 + beta) / (dof - 2 + n)`; where the Gaussian process raises, so does
the Student-t process, with the same exception. -/
theorem C39_predict_with_cov {n m d : ℕ} (X : Inputs n d) (Y : Fin n → ℝ) (Xs : Inputs m d)
    (K P : Matrix (Fin n) (Fin n) ℝ) (h : HypDict) (name : String) (prior : Gp.PriorMu d) {ν : ℝ}
    (hν : 2 < ν) (hdof : h.dof = some (.flt (.fin ν))) :
    (∀ e, Gp.predictWithCov X Y Xs K P h name prior = .error e →
      Tp.predictWithCov X Y Xs K P h name prior = .error e) ∧
    ∀ mu sd S, Gp.predictWithCov X Y Xs K P h name prior = .ok (mu, sd, S) →
      ∃ μ c, Gp.getPriorMu prior X = .ok μ ∧
        c = (ν - 2 + (Y - μ) ⬝ᵥ (P *ᵥ (Y - μ))) / (ν - 2 + n) ∧
        Tp.predictWithCov X Y Xs K P h name prior =
          .ok (ν + n, mu, fun i => √(max (c * S i i) 0), c • S) := by
  have h0 : ¬ ν + n - 2 = 0 := by
    have : (0 : ℝ) ≤ n := Nat.cast_nonneg n
    intro h; linarith
  unfold Gp.predictWithCov Tp.predictWithCov
  simp only [hdof, numKey, getKey, finite, h0, if_false, bind, Except.bind, pure, Except.pure]
  cases Gp.validateCommonArgs X Xs with
  | error e => simp
  | ok _ =>
  cases checkStrCov name X.rank (some Xs.rank) with
  | error e => simp
  | ok _ =>
  cases Gp.getPriorMu prior X with
  | error e => simp
  | ok μ =>
  cases Gp.getPriorMu prior Xs with
  | error e => simp
  | ok μs =>
  cases covMain name X Xs h false with
  | error e => simp
  | ok k =>
  cases covMain name Xs Xs h true with
  | error e => simp
  | ok C =>
    refine ⟨fun e he => by simp at he, fun mu sd S hS => ⟨μ, _, rfl, rfl, ?_⟩⟩
    have hS := Except.ok.inj hS
    simp only [Prod.mk.injEq] at hS
    obtain ⟨rfl, -, rfl⟩ := hS
    have hY : (fun i => Y i - μ i) = Y - μ := rfl
    have hc : (ν + (Y - μ) ⬝ᵥ (P *ᵥ (Y - μ)) - 2) / (ν + n - 2) =
        (ν - 2 + (Y - μ) ⬝ᵥ (P *ᵥ (Y - μ))) / (ν - 2 + n) := by congr 1 <;> ring
    simp only [hY, ← Matrix.dotProduct_mulVec, hc]
    rfl

/-- C39, prediction with given hyperparameters: the same relation with the kernel matrix's true
inverse; the factor is positive and the covariance positive definite. -/
theorem C39_predict_with_hyps {n m d : ℕ} {name base : String} {X : Inputs n d} {Xs : Inputs m d}
    (hX : Suits name base X) (hXs : Suits name base Xs) {h : HypDict} {σ s : ℝ} {l : Fin d → ℝ}
    (hd : Describes h σ s l) {ν : ℝ} (hν : 2 < ν) (hdof : h.dof = some (.flt (.fin ν)))
    (Y : Fin n → ℝ) {prior : Gp.PriorMu d} {μ : Fin n → ℝ} {μs : Fin m → ℝ}
    (hμ : Gp.getPriorMu prior X = .ok μ) (hμs : Gp.getPriorMu prior Xs = .ok μs) :
    ∃ K P mu sd S c, getKernelInverse X h name = .ok (K, P, none) ∧ P * K = 1 ∧
      c = (ν - 2 + (Y - μ) ⬝ᵥ (P *ᵥ (Y - μ))) / (ν - 2 + n) ∧ 0 < c ∧
      Gp.predictWithHyps X Y Xs h name prior = .ok (mu, sd, S) ∧
      Tp.predictWithHyps X Y Xs h name prior = .ok (ν + n, mu, fun i => √c * sd i, c • S) ∧
      (c • S).PosDef := by
  have hp := noisyGram_posDef base σ s l X
  have hβ := misfit_nonneg hp (Y - μ)
  have hn : (0 : ℝ) ≤ n := Nat.cast_nonneg n
  have hc : 0 < (ν - 2 + misfit (noisyGram base σ s l X) (Y - μ)) / (ν - 2 + n) :=
    div_pos (by linarith) (by linarith)
  have hS := postCov_posDef base σ s l X Xs
  refine ⟨_, _, _, _, _, (ν - 2 + misfit (noisyGram base σ s l X) (Y - μ)) / (ν - 2 + n),
    getKernelInverse_ok hX hd FIX_GP_NOISE, nonsing_inv_mul _ hp.det_pos.ne'.isUnit, rfl, hc,
    predictWithHyps_ok hX hXs hd Y hμ hμs, ?_, hS.smul hc⟩
  rw [tpPredictWithHyps_ok hX hXs hd hν hdof Y hμ hμs]
  have e : (ν + misfit (noisyGram base σ s l X) (Y - μ) - 2) / (ν + n - 2) =
      (ν - 2 + misfit (noisyGram base σ s l X) (Y - μ)) / (ν - 2 + n) := by congr 1 <;> ring
  simp only [e]
  congr 4
  funext i
  have hi : 0 < postCov base σ s l X Xs i i := hS.diag_pos
  rw [Matrix.smul_apply, smul_eq_mul, max_eq_left (mul_pos hc hi).le, max_eq_left hi.le,
    Real.sqrt_mul hc.le]

/-- Concrete data for C39, C40 and C68: three equal training inputs and one test input. -/
def exHypsT : HypDict :=
  ⟨some (.flt (.fin 0)), some (.flt (.fin 5)), some (.flt (.fin 2)), some (.flt (.fin 3))⟩

theorem exHypsT_describes : Describes exHypsT 0 2 (fun _ : Fin 1 => 3) :=
  ⟨rfl, rfl, .inr ⟨3, by norm_num, fun _ => rfl, rfl⟩, fun _ => by norm_num⟩

/-- The hypotheses of C39, C40 and C68 at the concrete data. -/
example : Suits "matern32" "matern32" exTrain3 ∧ Suits "matern32" "matern32" exTrain ∧
    Describes exHypsT 0 2 (fun _ : Fin 1 => 3) ∧ (2 : ℝ) < 5 ∧
    exHypsT.dof = some (.flt (.fin 5)) ∧ Gp.getPriorMu none exTrain3 = .ok (0 : Fin 3 → ℝ) ∧
    Gp.getPriorMu none exTrain = .ok (0 : Fin 1 → ℝ) :=
  ⟨exTrain3_suits, exTrain_suits, exHypsT_describes, by norm_num, rfl, rfl, rfl⟩

/-- C68: a Student-t process prior exists, whatever kernel, hyperparameters, inputs and mean
values. -/
theorem C68_prior_exists {n m d : ℕ} {ν : ℝ} (hν : 2 < ν) (base : String) (σ s : ℝ)
    (l : Fin d → ℝ) (X : Inputs n d) (Xs : Inputs m d) (μ : Fin n → ℝ) (μs : Fin m → ℝ) :
    ∃ (Ω : Type) (_ : MeasurableSpace Ω) (P : Measure Ω) (y : Fin n → Ω → ℝ) (f : Fin m → Ω → ℝ),
      IsProbabilityMeasure P ∧ StudentPrior P ν base σ s l X Xs μ μs y f := by
  refine ⟨Fin n ⊕ Fin m → ℝ, inferInstance,
    studentT ν (Sum.elim μ μs) (jointCov base σ s l X Xs), fun i z => z (Sum.inl i),
    fun j z => z (Sum.inr j), isProbabilityMeasure_studentT hν _ (jointCov_posDef base σ s l X Xs),
    fun i => (measurable_pi_apply _).aemeasurable, fun j => (measurable_pi_apply _).aemeasurable,
    jointCov base σ s l X Xs, ?_, ?_, ?_, ?_, ?_⟩
  · intro i j; simp [jointCov, noisyGram, gram, Matrix.one_apply]
  · intro i j; simp [jointCov, gram]
  · intro i j; simp [jointCov, gram]
  · intro i j; simp [jointCov, gram, Matrix.one_apply]
  · have : (fun z : Fin n ⊕ Fin m → ℝ => Sum.elim (fun i => z (Sum.inl i)) fun j => z (Sum.inr j)) =
        id := by
      funext z a
      rcases a with i | j <;> rfl
    rw [this, Measure.map_id]

theorem studentPrior_cov {Ω : Type} [MeasurableSpace Ω] {P : Measure Ω} {n m d : ℕ} {ν : ℝ}
    {base : String} {σ s : ℝ} {l : Fin d → ℝ} {X : Inputs n d} {Xs : Inputs m d} {μ : Fin n → ℝ}
    {μs : Fin m → ℝ} {y : Fin n → Ω → ℝ} {f : Fin m → Ω → ℝ}
    (hP : StudentPrior P ν base σ s l X Xs μ μs y f) :
    AEMeasurable (fun ω i => y i ω) P ∧ AEMeasurable (fun ω j => f j ω) P ∧
    P.map (fun ω => Sum.elim (fun i => y i ω) fun j => f j ω) =
      studentT ν (Sum.elim μ μs) (jointCov base σ s l X Xs) := by
  obtain ⟨hy, hf, K, h1, h2, h3, h4, h5⟩ := hP
  refine ⟨aemeasurable_pi_lambda _ hy, aemeasurable_pi_lambda _ hf, ?_⟩
  have : K = jointCov base σ s l X Xs := by
    ext (i | i) (j | j)
    · rw [h1]; simp [jointCov, noisyGram, gram, Matrix.one_apply]
    · rw [h2]; simp [jointCov, gram]
    · rw [h3]; simp [jointCov, gram]
    · rw [h4]; simp [jointCov, gram, Matrix.one_apply]
  rw [h5, this]

/-- C68: under the Student-t process prior, the conditional distribution of the test values given
the responses is, for almost every vector of responses `Y`, the multivariate Student-t
distribution with exactly the degrees of freedom, the mean vector and the covariance matrix that
prediction returns for `Y`. -/
theorem C68_exact_posterior {n m d : ℕ} {name base : String} {X : Inputs n d}
    {Xs : Inputs m d} (hX : Suits name base X) (hXs : Suits name base Xs) {h : HypDict} {σ s : ℝ}
    {l : Fin d → ℝ} (hd : Describes h σ s l) {ν : ℝ} (hν : 2 < ν)
    (hdof : h.dof = some (.flt (.fin ν))) {prior : Gp.PriorMu d} {μ : Fin n → ℝ}
    {μs : Fin m → ℝ} (hμ : Gp.getPriorMu prior X = .ok μ) (hμs : Gp.getPriorMu prior Xs = .ok μs)
    {Ω : Type} [MeasurableSpace Ω] {P : Measure Ω} [IsProbabilityMeasure P] {y : Fin n → Ω → ℝ}
    {f : Fin m → Ω → ℝ} (hP : StudentPrior P ν base σ s l X Xs μ μs y f) :
    ∃ (ν' : (Fin n → ℝ) → ℝ) (mu sd : (Fin n → ℝ) → Fin m → ℝ)
      (S : (Fin n → ℝ) → Matrix (Fin m) (Fin m) ℝ),
      (∀ Y, Tp.predictWithHyps X Y Xs h name prior = .ok (ν' Y, mu Y, sd Y, S Y) ∧
        (S Y).PosDef ∧ 2 < ν' Y) ∧
      condDistrib (fun ω j => f j ω) (fun ω i => y i ω) P
        =ᵐ[P.map (fun ω i => y i ω)] fun Y => studentT (ν' Y) (mu Y) (S Y) := by
  have hp := noisyGram_posDef base σ s l X
  have hn : (0 : ℝ) ≤ n := Nat.cast_nonneg n
  obtain ⟨hy, hf, hlaw⟩ := studentPrior_cov hP
  refine ⟨_, _, _, _, fun Y => ⟨tpPredictWithHyps_ok hX hXs hd hν hdof Y hμ hμs,
    (postCov_posDef base σ s l X Xs).smul
      (div_pos (by linarith [misfit_nonneg hp (Y - μ)]) (by linarith)), by linarith⟩, ?_⟩
  have hc := (studentT_cond hy hf hp (k := gram base s l X Xs)
    (C := gram base s l Xs Xs + (1 / 100000 : ℝ) • (1 : Matrix (Fin m) (Fin m) ℝ))
    (S := postCov base σ s l X Xs) rfl (postCov_posDef base σ s l X Xs)
    (jointCov_posDef base σ s l X Xs) hν hlaw).2
  filter_upwards [hc] with Y hY
  rw [hY, Fintype.card_fin, misfit, postMean, add_comm μs]

/-- A prior satisfying the hypotheses of C68 at the concrete data. -/
example : ∃ (Ω : Type) (_ : MeasurableSpace Ω) (P : Measure Ω) (y : Fin 3 → Ω → ℝ)
    (f : Fin 1 → Ω → ℝ), IsProbabilityMeasure P ∧
      StudentPrior P 5 "matern32" 0 2 (fun _ => 3) exTrain3 exTrain 0 0 y f :=
  C68_prior_exists (by norm_num) "matern32" 0 2 (fun _ => 3) exTrain3 exTrain 0 0

/-- C40: the value is minus the logarithm of the Student-t density of the responses, divided by
their number. -/
theorem C40_value {n d : ℕ} {name base : String} {X : Inputs n d}
    (hX : Suits name base X) {v : List Flt} {ard fix : Bool} {h : HypDict}
    (hr : restoreHyps name v false ard fix = .ok h) {σ s : ℝ} {l : Fin d → ℝ}
    (hd : Describes h σ s l) {ν : ℝ} (hν : 2 < ν) (hdof : h.dof = some (.flt (.fin ν)))
    (hn : n ≠ 0) (Y μ : Fin n → ℝ) :
    Tp.negLogMl X Y v name μ ard fix false =
      .ok (-Real.log (mvtDensity ν μ (noisyGram base σ s l X) Y) / n, none) := by
  have hp := noisyGram_posDef base σ s l X
  rw [tpNegLogMl_of_noisyCov hX hr hν hdof (noisyCov_ok hX hd) hp.det_pos hn,
    tllExact_eq hν hp]

/-- C40: the same against the density of the responses under any Student-t process prior. -/
theorem C40_density {n d : ℕ} {name base : String} {X : Inputs n d}
    (hX : Suits name base X) {v : List Flt} {ard fix : Bool} {h : HypDict}
    (hr : restoreHyps name v false ard fix = .ok h) {σ s : ℝ} {l : Fin d → ℝ}
    (hd : Describes h σ s l) {ν : ℝ} (hν : 2 < ν) (hdof : h.dof = some (.flt (.fin ν)))
    (hn : n ≠ 0) (μ : Fin n → ℝ) :
    ∃ p : (Fin n → ℝ) → ℝ, (∀ Y, 0 < p Y) ∧
      (∀ (Ω : Type) [MeasurableSpace Ω] (P : Measure Ω) [IsProbabilityMeasure P] (m : ℕ)
        (Xs : Inputs m d) (μs : Fin m → ℝ) (y : Fin n → Ω → ℝ) (f : Fin m → Ω → ℝ),
        StudentPrior P ν base σ s l X Xs μ μs y f →
        P.map (fun ω i => y i ω) = volume.withDensity fun Y => ENNReal.ofReal (p Y)) ∧
      ∀ Y, Tp.negLogMl X Y v name μ ard fix false = .ok (-Real.log (p Y) / n, none) := by
  have hp := noisyGram_posDef base σ s l X
  refine ⟨mvtDensity ν μ (noisyGram base σ s l X), fun Y => mvtDensity_pos hν μ hp Y, ?_,
    fun Y => C40_value hX hr hd hν hdof hn Y μ⟩
  intro Ω _ P _ m Xs μs y f hP
  obtain ⟨hy, hf, hlaw⟩ := studentPrior_cov hP
  exact (studentT_cond hy hf hp (k := gram base s l X Xs)
    (C := gram base s l Xs Xs + (1 / 100000 : ℝ) • (1 : Matrix (Fin m) (Fin m) ℝ))
    (S := postCov base σ s l X Xs) rfl (postCov_posDef base σ s l X Xs)
    (jointCov_posDef base σ s l X Xs) hν hlaw).1

/-! ### The gradient -/

/-- The vector with the degrees of freedom inserted after the noise. -/
def withDof (fix : Bool) (ν : ℝ) (w : List ℝ) : List ℝ :=
  if fix then ν :: w else w.take 1 ++ ν :: w.drop 1

theorem restore_withDof (name : String) (ard fix : Bool) (ν : ℝ) (w : List ℝ)
    (hw : fix = false → w ≠ []) (noise : Flt) :
    restoreHyps name ((withDof fix ν w).map Flt.fin) false ard fix noise =
      (restoreHyps name (w.map Flt.fin) true ard fix noise).map
        fun h => { h with dof := some (.flt (.fin ν)) } := by
  by_cases hA : name ∈ ALLOWED_COV
  · have hL : name ∈ getListFirst := listFirst_eq ▸ hA
    cases fix
    · obtain ⟨a, w, rfl⟩ := List.exists_cons_of_ne_nil (hw rfl)
      simp only [restoreHyps, withDof, pyAssert, hA, hL, restore_tail, bind, Except.bind, pure,
        Except.pure, Bool.false_eq_true, if_false, if_true, Bool.not_false, Bool.not_true,
        List.take_succ_cons, List.take_zero, List.drop_succ_cons, List.drop_zero, List.map_append,
        List.map_cons, List.map_nil, List.cons_append, List.nil_append, pyIndex,
        List.getElem?_cons_zero, List.getElem?_cons_succ, List.length_cons]
      rcases w with _ | ⟨b, w⟩ <;> cases ard
      · simp [Except.map]
      · simp [Except.map]
      · rcases w with _ | ⟨c, w⟩
        · simp [Except.map]
        · rcases w with _ | ⟨e, w⟩ <;> simp [Except.map]
      · have h1 := restore_tail (.fin a :: .fin ν :: .fin b :: w.map Flt.fin) 3
        have h2 := restore_tail (.fin a :: .fin b :: w.map Flt.fin) 2
        simp at h1 h2
        simp [Except.map, h1, h2]
    · simp only [restoreHyps, withDof, pyAssert, hA, hL, bind, Except.bind, pure,
        Except.pure, Bool.false_eq_true, if_false, if_true, Bool.not_false, Bool.not_true,
        List.map_cons, pyIndex, List.getElem?_cons_zero, List.getElem?_cons_succ,
        List.length_cons]
      rcases w with _ | ⟨b, w⟩ <;> cases ard
      · simp [Except.map]
      · simp [Except.map]
      · rcases w with _ | ⟨c, w⟩
        · simp [Except.map]
        · rcases w with _ | ⟨e, w⟩ <;> simp [Except.map]
      · have h1 := restore_tail (.fin ν :: .fin b :: w.map Flt.fin) 2
        have h2 := restore_tail (.fin b :: w.map Flt.fin) 1
        simp at h1 h2
        simp [Except.map, h1, h2]
  · simp [restoreHyps, pyAssert, hA, bind, Except.bind, Except.map]

theorem noisyCov_dof {n d : ℕ} (name : String) (X : Inputs n d) (h : HypDict) (x : Option HVal) :
    noisyCov X { h with dof := x } name = noisyCov X h name := by
  simp only [noisyCov, covMain_dof]
  rfl

theorem gradCovMain_dof {n d : ℕ} (name : String) (X : Inputs n d) (h : HypDict) (x : Option HVal)
    (fix : Bool) : gradCovMain name X X { h with dof := x } fix = gradCovMain name X X h fix := by
  unfold gradCovMain
  simp only [covMain_dof]
  rfl

/-- The claim of C40 about entry `k` of the gradient, up to an error: the entry is the
derivative, with respect to entry `k` of the hyperparameter vector, of the negative log
likelihood per response. -/
def TpEntryIsDerivative {n d : ℕ} (name : String) (X : Fin n → Point d) (Y μ : Fin n → ℝ)
    (ard fix : Bool) (θ : List ℝ) (k : ℕ) (g err : ℝ) : Prop :=
  ∃ (x : ℝ) (V : ℝ → ℝ), θ[k]? = some x ∧
    (∀ᶠ t in 𝓝 x, Tp.negLogMl (.vec X) Y ((θ.set k t).map Flt.fin) name μ ard fix false =
      .ok (V t, none)) ∧
    HasDerivAt V (g - err) x

/-- The error of the derivative in the degrees of freedom: half the digamma terms. -/
noncomputable def dofError (ν : ℝ) (n : ℕ) : ℝ :=
  -(Tp.digamma ((ν + n) / 2) - Tp.digamma (ν / 2)) / 2 / n

theorem dofError_ne_zero {ν : ℝ} (hν : 2 < ν) {n : ℕ} (hn : n ≠ 0) : dofError ν n ≠ 0 := by
  have hn' : (0 : ℝ) < n := by positivity
  have h := digamma_strictMono (a := ν / 2) (b := (ν + n) / 2) (by linarith) (by linarith)
  have : Tp.digamma ((ν + n) / 2) - Tp.digamma (ν / 2) ≠ 0 := by linarith
  unfold dofError
  rw [neg_div, neg_div, neg_ne_zero]
  positivity

theorem tp_grad_general {n d : ℕ} {name : String} (hb : name ∈ baseNames) (X : Fin n → Point d)
    (Y μ : Fin n → ℝ) (ard fix : Bool) (θ : List ℝ) (σ s : ℝ) (l : Fin d → ℝ) (hn : n ≠ 0)
    (hθ : θ ≠ []) {ν : ℝ} (hν : 2 < ν)
    (hnoise : ∀ w, restoreHyps name w true ard fix = restoreHyps name w true ard fix (.fin σ))
    {h : HypDict} (hr : restoreHyps name (θ.map Flt.fin) true ard fix (.fin σ) = .ok h)
    (hd : Describes h σ s l) {G : List (Matrix (Fin n) (Fin n) ℝ)}
    (hG : gradCovMain name (.vec X) (.vec X) h fix = .ok G) (hlen : G.length = θ.length) {e : ℝ}
    (hk : ∀ k A, G[k]? = some A → SliceIsDerivative name X ard fix σ θ k A
      (if k = (if fix then 0 else 1) then e • 1 else 0)) :
    ∃ h' value g K P, restoreHyps name ((withDof fix ν θ).map Flt.fin) false ard fix = .ok h' ∧
      Tp.negLogMl (.vec X) Y ((withDof fix ν θ).map Flt.fin) name μ ard fix true =
        .ok (value, some g) ∧ value = -Real.log (mvtDensity ν μ K Y) / n ∧
      g.length = (withDof fix ν θ).length ∧
      getKernelInverse (.vec X) h' name fix false = .ok (K, P, none) ∧
      ∀ k gk, g[k]? = some gk → TpEntryIsDerivative name X Y μ ard fix (withDof fix ν θ) k gk
        (if k = (if fix then 0 else 1) then dofError ν n
         else if k = (if fix then 1 else 2) then
          e / 2 * (∑ i, P i i -
            (ν + n) / (ν - 2 + (Y - μ) ⬝ᵥ (P *ᵥ (Y - μ))) * ∑ i, (P *ᵥ (Y - μ)) i ^ 2) / n
         else 0) := by
  have hX : Suits name name (Inputs.vec X) := ⟨hb, .inl ⟨rfl, X, rfl⟩⟩
  have hp := noisyGram_posDef name σ s l (.vec X)
  have hd' : Describes { h with dof := some (.flt (.fin ν)) } σ s l := ⟨hd.1, hd.2, hd.3, hd.4⟩
  have hres : ∀ (w : List ℝ) (ν' : ℝ), w ≠ [] → ∀ h1,
      restoreHyps name (w.map Flt.fin) true ard fix (.fin σ) = .ok h1 →
      restoreHyps name ((withDof fix ν' w).map Flt.fin) false ard fix =
        .ok { h1 with dof := some (.flt (.fin ν')) } := by
    intro w ν' hw h1 hh
    rw [restore_withDof name ard fix ν' w (fun _ => hw), hnoise, hh]
    rfl
  have hr' := hres θ ν hθ h hr
  have hval := tpNegLogMl_grad_ok hb X hr' hν rfl hd' hn Y μ
    (by rw [gradCovMain_dof]; exact hG)
  set K := noisyGram name σ s l (.vec X) with hK
  refine ⟨_, _, _, K, K⁻¹, hr', hval, tllExact_eq hν hp μ Y, ?_, getKernelInverse_ok hX hd' fix, ?_⟩
  · cases fix
    · obtain ⟨a, w, rfl⟩ := List.exists_cons_of_ne_nil hθ
      obtain ⟨A, G, rfl⟩ := List.exists_cons_of_length_eq_add_one (hlen.trans List.length_cons)
      rw [gradLogMl_noise]
      simpa [withDof] using hlen
    · rw [gradLogMl_fix]
      simpa [withDof] using hlen
  -- the entry of the degrees of freedom
  have hdofE : ∀ k, (∀ t, (withDof fix ν θ).set k t = withDof fix t θ) →
      (withDof fix ν θ)[k]? = some ν →
      TpEntryIsDerivative name X Y μ ard fix (withDof fix ν θ) k
        (-1 * Tp.nuGrad ν n (misfit K (Y - μ)) / n) (dofError ν n) := by
    intro k hset hget
    refine ⟨ν, fun t => tllExact t K (Y - μ), hget, ?_, hasDerivAt_tll_dof hν hp (Y - μ)⟩
    filter_upwards [lt_mem_nhds hν] with t ht
    rw [hset]
    exact tpNegLogMl_of_noisyCov hX (hres θ t hθ h hr) ht rfl
      (by rw [noisyCov_dof, noisyCov_ok hX hd]) hp.det_pos hn Y μ
  -- the entries of the slices
  have hsl : ∀ k k' A, G[k]? = some A →
      (∀ t, (withDof fix ν θ).set k' t = withDof fix ν (θ.set k t)) →
      (withDof fix ν θ)[k']? = θ[k]? →
      TpEntryIsDerivative name X Y μ ard fix (withDof fix ν θ) k'
        (-1 * sliceGrad ν (misfit K (Y - μ)) (K⁻¹ *ᵥ (Y - μ)) K⁻¹ A / n)
        (if k = (if fix then 0 else 1) then
          e / 2 * (∑ i, K⁻¹ i i -
            (ν + n) / (ν - 2 + (Y - μ) ⬝ᵥ (K⁻¹ *ᵥ (Y - μ))) * ∑ i, (K⁻¹ *ᵥ (Y - μ)) i ^ 2) / n
         else 0) := by
    intro k k' A hA hset hget
    obtain ⟨x, M, hx, hM, hder⟩ := hk k A hA
    have hself : θ.set k x = θ := by
      obtain ⟨hlt, he⟩ := List.getElem?_eq_some_iff.mp hx
      rw [← he, List.set_getElem_self]
    have hMx : M x = K := by
      obtain ⟨h', h1, h2⟩ := hM.self_of_nhds
      rw [hself, hr] at h1
      cases h1
      rw [noisyCov_ok hX hd] at h2
      exact (Except.ok.inj h2).symm
    set E : Matrix (Fin n) (Fin n) ℝ := if k = (if fix then 0 else 1) then e • 1 else 0 with hE
    have hder' : ∀ i j, HasDerivAt (fun t => M t i j) ((A - E) i j) x := fun i j => hder i j
    have hMp : (M x).PosDef := by rw [hMx]; exact hp
    have hev : ∀ᶠ t in 𝓝 x, 0 < (M t).det :=
      (hasDerivAt_det hder').continuousAt.eventually (lt_mem_nhds hMp.det_pos)
    refine ⟨x, fun t => tllExact ν (M t) (Y - μ), by rw [hget, hx], ?_, ?_⟩
    · filter_upwards [hM, hev] with t ⟨h', h1, h2⟩ h3
      rw [hset]
      refine tpNegLogMl_of_noisyCov hX (hres (θ.set k t) ν (by simpa using hθ) h' h1) hν rfl
        (by rw [noisyCov_dof, h2]) h3 hn Y μ
    · refine (hasDerivAt_tll_cov hν hMp hder' (Y - μ)).congr_deriv ?_
      rw [hMx]
      have h05 : (0.5 : ℝ) = 1 / 2 := by norm_num
      have hsub : sliceGrad ν (misfit K (Y - μ)) (K⁻¹ *ᵥ (Y - μ)) K⁻¹ (A - E) =
          sliceGrad ν (misfit K (Y - μ)) (K⁻¹ *ᵥ (Y - μ)) K⁻¹ A -
            sliceGrad ν (misfit K (Y - μ)) (K⁻¹ *ᵥ (Y - μ)) K⁻¹ E := by
        simp only [sliceGrad, Matrix.mul_sub, Matrix.trace_sub, mul_sub]
      rw [hsub]
      by_cases hks : k = (if fix then 0 else 1)
      · have hE' : E = e • 1 := by rw [hE, if_pos hks]
        have h1 : sliceGrad ν (misfit K (Y - μ)) (K⁻¹ *ᵥ (Y - μ)) K⁻¹ E = e / 2 *
            ((ν + n) / (ν - 2 + (Y - μ) ⬝ᵥ (K⁻¹ *ᵥ (Y - μ))) * ∑ i, (K⁻¹ *ᵥ (Y - μ)) i ^ 2 -
              ∑ i, K⁻¹ i i) := by
          rw [hE', sliceGrad, misfit, h05, Matrix.mul_smul, Matrix.mul_one, Matrix.trace_smul,
            smul_eq_mul, show ν + (Y - μ) ⬝ᵥ (K⁻¹ *ᵥ (Y - μ)) - 2 =
              ν - 2 + (Y - μ) ⬝ᵥ (K⁻¹ *ᵥ (Y - μ)) by ring]
          generalize (Y - μ) ⬝ᵥ (K⁻¹ *ᵥ (Y - μ)) = β
          generalize K⁻¹ *ᵥ (Y - μ) = a
          generalize K⁻¹ = P
          simp only [Matrix.trace, Matrix.diag, Matrix.of_apply, Finset.sum_sub_distrib, ← sq,
            ← Finset.mul_sum]
          ring
        rw [if_pos hks, h1]
        ring
      · have hE' : E = 0 := by rw [hE, if_neg hks]
        have h1 : sliceGrad ν (misfit K (Y - μ)) (K⁻¹ *ᵥ (Y - μ)) K⁻¹ E = 0 := by
          simp [hE', sliceGrad]
        rw [if_neg hks, h1]
        ring
  intro k gk hgk
  cases fix
  · obtain ⟨a, w, rfl⟩ := List.exists_cons_of_ne_nil hθ
    obtain ⟨A, G, rfl⟩ := List.exists_cons_of_length_eq_add_one (hlen.trans List.length_cons)
    rw [gradLogMl_noise] at hgk
    match k, hgk with
    | 0, hgk =>
      simp only [List.map_cons, List.getElem?_cons_zero, Option.some.injEq] at hgk
      rw [← hgk]
      simpa using hsl 0 0 A rfl (fun t => rfl) rfl
    | 1, hgk =>
      simp only [List.map_cons, List.getElem?_cons_zero, List.getElem?_cons_succ,
        Option.some.injEq] at hgk
      rw [← hgk]
      simpa using hdofE 1 (fun t => rfl) rfl
    | k + 2, hgk =>
      simp only [List.map_cons, List.getElem?_cons_succ, List.getElem?_map, Option.map_map,
        Option.map_eq_some_iff] at hgk
      obtain ⟨A', hA', rfl⟩ := hgk
      have := hsl (k + 1) (k + 2) A' (by simpa using hA') (fun t => rfl) rfl
      simpa using this
  · rw [gradLogMl_fix] at hgk
    match k, hgk with
    | 0, hgk =>
      simp only [List.map_cons, List.getElem?_cons_zero, Option.some.injEq] at hgk
      rw [← hgk]
      simpa using hdofE 0 (fun t => rfl) rfl
    | k + 1, hgk =>
      simp only [List.map_cons, List.getElem?_cons_succ, List.getElem?_map, Option.map_map,
        Option.map_eq_some_iff] at hgk
      obtain ⟨A', hA', rfl⟩ := hgk
      have := hsl k (k + 1) A' (by simpa using hA') (fun t => rfl) rfl
      simpa using this

/-- The hyperparameter vector of a Student-t process: noise (unless fixed), degrees of freedom,
signal, lengthscales. -/
def hypVectorT (fix : Bool) (σ ν s : ℝ) (ls : List ℝ) : List ℝ :=
  (if fix then [] else [σ]) ++ ν :: s :: ls

theorem withDof_hypVector (fix : Bool) (σ ν s : ℝ) (ls : List ℝ) :
    withDof fix ν (hypVector fix σ s ls) = hypVectorT fix σ ν s ls := by
  cases fix <;> rfl

/-- C40, one lengthscale per dimension. The value is exact; the gradient has one entry per entry
of the vector; the entries of noise and lengthscales are derivatives of the value. Missing from
the full claim: the entry of the degrees of freedom is off by half the digamma terms, and that of
the signal by a multiple of the jitter. -/
theorem C40_ard_partial {n d : ℕ} {name : String} (hb : name ∈ baseNames) (hn : n ≠ 0)
    (X : Fin n → Point d) (Y μ : Fin n → ℝ) (fix : Bool) (σ s : ℝ) {ν : ℝ} (hν : 2 < ν)
    (hfix : fix = true → σ = GP_NOISE) (hs : s ≠ 0) (l : Fin d → ℝ) (hl : ∀ k, l k ≠ 0) :
    ∃ h value g K P,
      restoreHyps name ((hypVectorT fix σ ν s (List.ofFn l)).map Flt.fin) false true fix = .ok h ∧
      Tp.negLogMl (.vec X) Y ((hypVectorT fix σ ν s (List.ofFn l)).map Flt.fin) name μ true fix
        true = .ok (value, some g) ∧ value = -Real.log (mvtDensity ν μ K Y) / n ∧
      g.length = (hypVectorT fix σ ν s (List.ofFn l)).length ∧
      getKernelInverse (.vec X) h name fix false = .ok (K, P, none) ∧
      ∀ k gk, g[k]? = some gk →
        TpEntryIsDerivative name X Y μ true fix (hypVectorT fix σ ν s (List.ofFn l)) k gk
          (if k = (if fix then 0 else 1) then dofError ν n
           else if k = (if fix then 1 else 2) then
            1 / 100000 / s * (∑ i, P i i -
              (ν + n) / (ν - 2 + (Y - μ) ⬝ᵥ (P *ᵥ (Y - μ))) * ∑ i, (P *ᵥ (Y - μ)) i ^ 2) / n
           else 0) := by
  obtain ⟨h, G, h1, h2, h3, h4⟩ := C29_ard_partial hb X fix σ s hs l hl
  have hd : Describes h σ s l := by
    have h5 := restore_vec hb fix σ s (List.ofFn l)
    rw [h1] at h5
    cases h5
    exact ⟨rfl, rfl, .inl (by rw [List.map_ofFn]; rfl), hl⟩
  have := tp_grad_general hb X Y μ true fix _ σ s l hn (by cases fix <;> simp [hypVector]) hν
    (noise_irrelevant name true fix σ hfix) h1 hd h2 h3 h4
  rwa [withDof_hypVector, show (2 / 100000 / s / 2 : ℝ) = 1 / 100000 / s by ring] at this

/-- C40, one lengthscale for all dimensions; missing as in `C40_ard_partial`. -/
theorem C40_iso_partial {n d : ℕ} {name : String} (hb : name ∈ baseNames) (hn : n ≠ 0)
    (X : Fin n → Point d) (Y μ : Fin n → ℝ) (fix : Bool) (σ s : ℝ) {ν : ℝ} (hν : 2 < ν)
    (hfix : fix = true → σ = GP_NOISE) (hs : s ≠ 0) (a : ℝ) (ha : a ≠ 0) :
    ∃ h value g K P,
      restoreHyps name ((hypVectorT fix σ ν s [a]).map Flt.fin) false false fix = .ok h ∧
      Tp.negLogMl (.vec X) Y ((hypVectorT fix σ ν s [a]).map Flt.fin) name μ false fix
        true = .ok (value, some g) ∧ value = -Real.log (mvtDensity ν μ K Y) / n ∧
      g.length = (hypVectorT fix σ ν s [a]).length ∧
      getKernelInverse (.vec X) h name fix false = .ok (K, P, none) ∧
      ∀ k gk, g[k]? = some gk →
        TpEntryIsDerivative name X Y μ false fix (hypVectorT fix σ ν s [a]) k gk
          (if k = (if fix then 0 else 1) then dofError ν n
           else if k = (if fix then 1 else 2) then
            1 / 100000 / s * (∑ i, P i i -
              (ν + n) / (ν - 2 + (Y - μ) ⬝ᵥ (P *ᵥ (Y - μ))) * ∑ i, (P *ᵥ (Y - μ)) i ^ 2) / n
           else 0) := by
  obtain ⟨h, G, h1, h2, h3, h4⟩ := C29_iso_partial hb X fix σ s a hs ha
  have hd : Describes h σ s (fun _ : Fin d => a) := by
    have h5 := restore_vec_iso hb fix σ s a
    rw [h1] at h5
    cases h5
    exact ⟨rfl, rfl, .inr ⟨a, ha, fun _ => rfl, rfl⟩, fun _ => ha⟩
  have := tp_grad_general hb X Y μ false fix _ σ s (fun _ => a) hn
    (by cases fix <;> simp [hypVector]) hν
    (noise_irrelevant name false fix σ hfix) h1 hd h2 h3 h4
  rwa [withDof_hypVector, show (2 / 100000 / s / 2 : ℝ) = 1 / 100000 / s by ring] at this

/-- C40: the full claim fails for the degrees of freedom, whatever the data, kernel and
hyperparameters: the returned entry is never the derivative of the value. -/
theorem C40_dof_violated {n d : ℕ} {name : String} (hb : name ∈ baseNames) (hn : n ≠ 0)
    (X : Fin n → Point d) (Y μ : Fin n → ℝ) (fix : Bool) (σ s : ℝ) {ν : ℝ} (hν : 2 < ν)
    (hfix : fix = true → σ = GP_NOISE) (hs : s ≠ 0) (l : Fin d → ℝ) (hl : ∀ k, l k ≠ 0) :
    ∃ value g gk,
      Tp.negLogMl (.vec X) Y ((hypVectorT fix σ ν s (List.ofFn l)).map Flt.fin) name μ true fix
        true = .ok (value, some g) ∧ g[if fix then 0 else 1]? = some gk ∧
      ¬ TpEntryIsDerivative name X Y μ true fix (hypVectorT fix σ ν s (List.ofFn l))
        (if fix then 0 else 1) gk 0 := by
  obtain ⟨h, value, g, K, P, h1, h2, -, h3, h4, h5⟩ :=
    C40_ard_partial hb hn X Y μ fix σ s hν hfix hs l hl
  have hlt : (if fix then 0 else 1) < g.length := by
    rw [h3]; cases fix <;> simp [hypVectorT]
  refine ⟨value, g, _, h2, List.getElem?_eq_getElem hlt, ?_⟩
  rintro ⟨x, V, hx, hV, hder⟩
  obtain ⟨x', V', hx', hV', hder'⟩ := h5 _ _ (List.getElem?_eq_getElem hlt)
  have : x' = x := by rw [hx] at hx'; exact (Option.some.inj hx').symm
  subst this
  have heq : V =ᶠ[𝓝 x'] V' := by
    filter_upwards [hV, hV'] with t ha hb'
    rw [ha] at hb'
    exact (Prod.mk.inj (Except.ok.inj hb')).1
  have e1 := hder.unique (hder'.congr_of_eventuallyEq heq)
  rw [if_pos rfl] at e1
  exact dofError_ne_zero hν hn (by linarith)

/-- Concrete data for the gradient: three points in the plane, one repeated, fixed noise. -/
example : "matern52" ∈ baseNames ∧ (3 : ℕ) ≠ 0 ∧ (2 : ℝ) < 5 ∧ (2 : ℝ) ≠ 0 ∧
    (true = true → GP_NOISE = GP_NOISE) ∧ ∀ k, (![1, 3] : Fin 2 → ℝ) k ≠ 0 :=
  ⟨by simp [baseNames], by norm_num, by norm_num, by norm_num, fun _ => rfl,
    by intro k; fin_cases k <;> simp⟩

/-- The vector and the dictionary of C40 at concrete numbers. -/
example : restoreHyps "matern32" [.fin 5, .fin 2, .fin 3] false true true =
    .ok ⟨some (.flt (.fin GP_NOISE)), some (.flt (.fin 5)), some (.flt (.fin 2)),
      some (.arr [.fin 3])⟩ := by
  have h := restore_withDof "matern32" true true 5 [2, 3] (by simp) (.fin GP_NOISE)
  have := restore_vec (name := "matern32") (by simp [baseNames]) true GP_NOISE 2 [3]
  have e : restoreHyps "matern32" (List.map Flt.fin [2, 3]) true true true (.fin GP_NOISE) =
    .ok ⟨some (.flt (.fin GP_NOISE)), none, some (.flt (.fin 2)), some (.arr [.fin 3])⟩ := by
    simpa [hypVector] using this
  rw [e] at h
  simpa [withDof, Except.map] using h

end Verif.Props
