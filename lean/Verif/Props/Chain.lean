import Verif.Lemmas.Chain
import Verif.Props.Likelihood
import Verif.Props.Tp

/-! C106: the likelihood is the product of the predictive densities of the responses, one after the
other. -/

namespace Verif.Props

open Verif.Spec Verif.Lemmas Verif.Covariance Verif.UtilsCovariance Verif.Constants
open Matrix hiding gram

/-- C106: the Gaussian process likelihood of two batches of responses is that of the first times
the density the prediction from the first gives to the second: normal with the predicted mean and
the predicted covariance with the noise variance added. -/
theorem C106_batches_gp {n k d : ℕ} {name base : String} {X : Inputs (n + k) d} {X₁ : Inputs n d}
    {X₂ : Inputs k d} (hX : Suits name base X) (hX₁ : Suits name base X₁)
    (hX₂ : Suits name base X₂) (h1 : ∀ i, item X (Fin.castAdd k i) = item X₁ i)
    (h2 : ∀ j, item X (Fin.natAdd n j) = item X₂ j) {v : List Flt} {ard fix : Bool} {h : HypDict}
    (hr : restoreHyps name v true ard fix = .ok h) {σ s : ℝ} {l : Fin d → ℝ}
    (hd : Describes h σ s l) (hn : n ≠ 0) {prior : Gp.PriorMu d} {μ₁ : Fin n → ℝ}
    {μ₂ : Fin k → ℝ} (hμ₁ : Gp.getPriorMu prior X₁ = .ok μ₁)
    (hμ₂ : Gp.getPriorMu prior X₂ = .ok μ₂) (Y₁ : Fin n → ℝ) (Y₂ : Fin k → ℝ) :
    ∃ a a₁ mu sd S, Gp.negLogMl X (Fin.append Y₁ Y₂) v name (Fin.append μ₁ μ₂) ard fix false false =
        .ok (a, none) ∧
      Gp.negLogMl X₁ Y₁ v name μ₁ ard fix false false = .ok (a₁, none) ∧
      Gp.predictWithHyps X₁ Y₁ X₂ h name prior = .ok (mu, sd, S) ∧
      (n + k) * a = n * a₁ -
        Real.log (mvnDensity mu (S + σ ^ 2 • (1 : Matrix (Fin k) (Fin k) ℝ)) Y₂) := by
  refine ⟨_, _, _, _, _, C36_inverse_path hX hr hd (by omega) _ _ false,
    C36_inverse_path hX₁ hr hd hn _ _ false, predictWithHyps_ok hX₁ hX₂ hd Y₁ hμ₁ hμ₂, ?_⟩
  rw [mvn_batches h1 h2, Real.log_mul (mvnDensity_pos _ (noisyGram_posDef base σ s l X₁) _).ne'
    (mvnDensity_pos _ (postCov_noise_posDef base σ s l X₁ X₂) _).ne']
  have hn' : (n : ℝ) ≠ 0 := Nat.cast_ne_zero.mpr hn
  have hk' : (n : ℝ) + k ≠ 0 := by positivity
  push_cast
  field_simp
  ring

/-- C106: the same for the Student-t process. The density of the second batch is Student-t with the
predicted degrees of freedom, mean and covariance; the noise variance is scaled like the covariance
is. -/
theorem C106_batches_tp {n k d : ℕ} {name base : String} {X : Inputs (n + k) d} {X₁ : Inputs n d}
    {X₂ : Inputs k d} (hX : Suits name base X) (hX₁ : Suits name base X₁)
    (hX₂ : Suits name base X₂) (h1 : ∀ i, item X (Fin.castAdd k i) = item X₁ i)
    (h2 : ∀ j, item X (Fin.natAdd n j) = item X₂ j) {v : List Flt} {ard fix : Bool} {h : HypDict}
    (hr : restoreHyps name v false ard fix = .ok h) {σ s : ℝ} {l : Fin d → ℝ}
    (hd : Describes h σ s l) {ν : ℝ} (hν : 2 < ν) (hdof : h.dof = some (.flt (.fin ν)))
    (hn : n ≠ 0) {prior : Gp.PriorMu d} {μ₁ : Fin n → ℝ}
    {μ₂ : Fin k → ℝ} (hμ₁ : Gp.getPriorMu prior X₁ = .ok μ₁)
    (hμ₂ : Gp.getPriorMu prior X₂ = .ok μ₂) (Y₁ : Fin n → ℝ) (Y₂ : Fin k → ℝ) :
    ∃ a a₁ ν' mu sd S, ∃ Sg : Matrix (Fin k) (Fin k) ℝ, ∃ sdg mug, ∃ c : ℝ,
      Tp.negLogMl X (Fin.append Y₁ Y₂) v name (Fin.append μ₁ μ₂) ard fix false = .ok (a, none) ∧
      Tp.negLogMl X₁ Y₁ v name μ₁ ard fix false = .ok (a₁, none) ∧
      Tp.predictWithHyps X₁ Y₁ X₂ h name prior = .ok (ν', mu, sd, S) ∧
      Gp.predictWithHyps X₁ Y₁ X₂ h name prior = .ok (mug, sdg, Sg) ∧ S = c • Sg ∧ 0 < c ∧
      (n + k) * a = n * a₁ -
        Real.log (mvtDensity ν' mu (S + (c * σ ^ 2) • (1 : Matrix (Fin k) (Fin k) ℝ)) Y₂) := by
  have hm := misfit_nonneg (noisyGram_posDef base σ s l X₁) (Y₁ - μ₁)
  have hν' : (2 : ℝ) < ν + n := by have := Nat.cast_nonneg (α := ℝ) n; linarith
  have hc : 0 < (ν + misfit (noisyGram base σ s l X₁) (Y₁ - μ₁) - 2) / (ν + n - 2) :=
    div_pos (by linarith) (by linarith)
  refine ⟨_, _, _, _, _, _, _, _, _, _, C40_value hX hr hd hν hdof (by omega) _ _,
    C40_value hX₁ hr hd hν hdof hn _ _, tpPredictWithHyps_ok hX₁ hX₂ hd hν hdof Y₁ hμ₁ hμ₂,
    predictWithHyps_ok hX₁ hX₂ hd Y₁ hμ₁ hμ₂, rfl, hc, ?_⟩
  rw [mvt_batches h1 h2 hν, Real.log_mul (mvtDensity_pos hν _ (noisyGram_posDef base σ s l X₁) _).ne'
    (mvtDensity_pos hν' _ ((postCov_noise_posDef base σ s l X₁ X₂).smul hc) _).ne', smul_add,
    smul_smul]
  have hn' : (n : ℝ) ≠ 0 := Nat.cast_ne_zero.mpr hn
  have hk' : (n : ℝ) + k ≠ 0 := by positivity
  push_cast
  field_simp
  ring

/-- C106: so for a sequence of observations the Gaussian process likelihood is the product of the
densities of the responses, each under the prediction from those before it: normal with the
predicted mean and the square of the predicted standard deviation plus the noise variance. The first
observation is predicted from nothing. -/
theorem C106_sequence {d : ℕ} {name base : String} {X : (n : ℕ) → Inputs n d}
    {x : ℕ → Inputs 1 d} (hX : ∀ n, Suits name base (X n)) (hx : ∀ n, Suits name base (x n))
    (hseq : ∀ n (i : Fin n), item (X n) i = item (x i) 0) {v : List Flt} {ard fix : Bool}
    {h : HypDict} (hr : restoreHyps name v true ard fix = .ok h) {σ s : ℝ} {l : Fin d → ℝ}
    (hd : Describes h σ s l) {prior : Gp.PriorMu d} {μ : ℕ → ℝ}
    (hμX : ∀ n, Gp.getPriorMu prior (X n) = .ok fun i => μ i)
    (hμx : ∀ n, Gp.getPriorMu prior (x n) = .ok fun _ => μ n) (Y : ℕ → ℝ) :
    ∃ mu sd : ℕ → ℝ,
      (∀ n, ∃ S, Gp.predictWithHyps (X n) (fun i => Y i) (x n) h name prior =
        .ok (fun _ => mu n, fun _ => sd n, S)) ∧
      ∀ n : ℕ, n ≠ 0 → Gp.negLogMl (X n) (fun i => Y i) v name (fun i => μ i) ard fix false false =
        .ok (-(∑ i ∈ Finset.range n, Real.log (ProbabilityTheory.gaussianPDFReal (mu i)
          (sd i ^ 2 + σ ^ 2).toNNReal (Y i))) / n, none) := by
  refine ⟨fun n => (postMean base σ s l (X n) (x n) ((fun i : Fin n => Y i) - fun i : Fin n => μ i)) 0 +
      μ n, fun n => √(max (postCov base σ s l (X n) (x n) 0 0) 0),
    fun n => ⟨postCov base σ s l (X n) (x n), ?_⟩,
    fun n hn => ?_⟩
  · rw [predictWithHyps_ok (hX n) (hx n) hd _ (hμX n) (hμx n)]
    congr 2
    · funext i
      rw [Subsingleton.elim i 0]
      rfl
    · congr 1
      funext i
      rw [Subsingleton.elim i 0]
  · rw [C36_inverse_path (hX n) hr hd hn]
    have key : ∀ n : ℕ, Real.log (mvnDensity (fun i : Fin n => μ i) (noisyGram base σ s l (X n))
        fun i => Y i) = ∑ i ∈ Finset.range n, Real.log (ProbabilityTheory.gaussianPDFReal
          (postMean base σ s l (X i) (x i) ((fun j : Fin i => Y j) - fun j : Fin i => μ j) 0 + μ i)
          (√(max (postCov base σ s l (X i) (x i) 0 0) 0) ^ 2 + σ ^ 2).toNNReal (Y i)) := by
      intro n
      induction n with
      | zero => simp [mvnDensity]
      | succ n ih =>
        have ha : ∀ f : ℕ → ℝ, (fun i : Fin (n + 1) => f i) =
            Fin.append (fun i : Fin n => f i) fun _ : Fin 1 => f n := by
          intro f
          funext i
          refine Fin.lastCases ?_ (fun j => ?_) i
          · rw [show Fin.last n = Fin.natAdd n (0 : Fin 1) from rfl, Fin.append_right]
            rfl
          · rw [show j.castSucc = Fin.castAdd 1 j from rfl, Fin.append_left]
            rfl
        have hS := postCov_noise_posDef base σ s l (X n) (x n)
        have hp : 0 < postCov base σ s l (X n) (x n) 0 0 :=
          (postCov_posDef base σ s l (X n) (x n)).diag_pos
        have hsq : √(max (postCov base σ s l (X n) (x n) 0 0) 0) ^ 2 =
            postCov base σ s l (X n) (x n) 0 0 := by
          rw [max_eq_left hp.le, Real.sq_sqrt hp.le]
        rw [Finset.sum_range_succ, ← ih, ha μ, ha Y, mvn_batches (X₁ := X n) (X₂ := x n)
          (fun i => by rw [hseq, hseq]; rfl)
          (fun j => by rw [hseq, Subsingleton.elim j 0]; rfl),
          Real.log_mul (mvnDensity_pos _ (noisyGram_posDef base σ s l (X n)) _).ne'
            (mvnDensity_pos _ hS _).ne',
          mvnDensity_one (v := postCov base σ s l (X n) (x n) 0 0 + σ ^ 2) (by positivity) _
            (by simp) _ _ rfl rfl, hsq]
        rfl
    rw [key n]

/-- A sequence of observations as C106 asks for, three of them, and the two batches. -/
example : ∃ mu sd : ℕ → ℝ,
    Gp.negLogMl (.vec fun (i : Fin 3) (_ : Fin 1) => ((i : ℕ) : ℝ)) (fun i => (i : ℝ) ^ 2)
      [.fin 2, .fin 3] "matern32" (fun _ => 0) true true false false =
      .ok (-(∑ i ∈ Finset.range 3, Real.log (ProbabilityTheory.gaussianPDFReal (mu i)
        (sd i ^ 2 + GP_NOISE ^ 2).toNNReal ((i : ℝ) ^ 2))) / (3 : ℕ), none) := by
  have hb : "matern32" ∈ baseNames := by simp [baseNames]
  have hr := restore_vec (name := "matern32") hb true GP_NOISE 2 [3]
  obtain ⟨mu, sd, -, h⟩ := C106_sequence (name := "matern32") (base := "matern32")
    (X := fun n => .vec fun (i : Fin n) (_ : Fin 1) => ((i : ℕ) : ℝ))
    (x := fun n => .vec fun _ _ => (n : ℝ)) (fun n => ⟨hb, .inl ⟨rfl, _, rfl⟩⟩)
    (fun n => ⟨hb, .inl ⟨rfl, _, rfl⟩⟩) (fun n i => rfl) (v := [.fin 2, .fin 3]) (ard := true)
    (fix := true) (by simpa [hypVector] using hr) (σ := GP_NOISE) (s := 2) (l := fun _ => 3)
    ⟨rfl, rfl, .inl rfl, by intro; norm_num⟩ (prior := none) (μ := fun _ => 0) (fun _ => rfl)
    (fun _ => rfl) fun n => (n : ℝ) ^ 2
  exact ⟨mu, sd, h 3 (by norm_num)⟩

/-- Two batches as C106 asks for, with the dictionary of the Student-t process. -/
example : ∃ (X : Inputs (2 + 1) 1) (X₁ : Inputs 2 1) (X₂ : Inputs 1 1) (h : HypDict),
    Suits "matern32" "matern32" X ∧ Suits "matern32" "matern32" X₁ ∧
    Suits "matern32" "matern32" X₂ ∧ (∀ i, item X (Fin.castAdd 1 i) = item X₁ i) ∧
    (∀ j, item X (Fin.natAdd 2 j) = item X₂ j) ∧ item X₁ 0 ≠ item X₁ 1 ∧
    restoreHyps "matern32" [.fin 5, .fin 2, .fin 3] false true true = .ok h ∧
    Describes h GP_NOISE 2 (fun _ : Fin 1 => 3) ∧ h.dof = some (.flt (.fin 5)) ∧
    Gp.getPriorMu none X₁ = .ok 0 ∧ Gp.getPriorMu none X₂ = .ok 0 := by
  have hb : "matern32" ∈ baseNames := by simp [baseNames]
  refine ⟨.vec fun i _ => ((i : ℕ) : ℝ), .vec fun i _ => ((i : ℕ) : ℝ), .vec fun _ _ => 2,
    ⟨some (.flt (.fin GP_NOISE)), some (.flt (.fin 5)), some (.flt (.fin 2)),
      some (.arr [.fin 3])⟩, ⟨hb, .inl ⟨rfl, _, rfl⟩⟩, ⟨hb, .inl ⟨rfl, _, rfl⟩⟩,
    ⟨hb, .inl ⟨rfl, _, rfl⟩⟩, fun i => rfl, fun j => ?_, fun h => ?_, ?_,
    ⟨rfl, rfl, .inl rfl, by intro; norm_num⟩, rfl, rfl, rfl⟩
  · rw [Subsingleton.elim j 0]
    simp [item]
  · simp only [item, Sigma.mk.injEq, heq_eq_eq, true_and] at h
    have := congrFun (congrFun h 0) 0
    norm_num at this
  · have h := restore_withDof "matern32" true true 5 [2, 3] (by simp) (.fin GP_NOISE)
    have := restore_vec (name := "matern32") hb true GP_NOISE 2 [3]
    have e : restoreHyps "matern32" (List.map Flt.fin [2, 3]) true true true (.fin GP_NOISE) =
      .ok ⟨some (.flt (.fin GP_NOISE)), none, some (.flt (.fin 2)), some (.arr [.fin 3])⟩ := by
      simpa [hypVector] using this
    rw [e] at h
    simpa [withDof, Except.map] using h

end Verif.Props
