import Verif.Lemmas.Fit

/-! C82: predictions with fitted hyperparameters. -/

namespace Verif.Props

open Verif.Spec Verif.Lemmas Verif.UtilsCovariance Verif.Covariance Verif.Constants
open Verif.Gp (PriorMu getPriorMu Minimize)

variable {n m d : ℕ}

/-- C82: predicting with optimised hyperparameters is fitting and then predicting with what was
fitted; if the fit raises, so does the prediction. -/
theorem C82_prediction (min : Minimize) (X : Inputs n d) (Y : Fin n → ℝ) (Xs : Inputs m d)
    (name method : String) (prior : PriorMu d) (fix : Bool) :
    (∀ K P hyps, Gp.getOptimizedKernel min X Y prior name method (fix_noise := fix) =
        .ok (K, P, hyps) →
      Gp.predictWithOptimizedHyps min X Y Xs name method prior fix =
        Gp.predictWithHyps X Y Xs hyps name prior) ∧
    ∀ e, Gp.getOptimizedKernel min X Y prior name method (fix_noise := fix) = .error e →
      ∃ e', Gp.predictWithOptimizedHyps min X Y Xs name method prior fix = .error e' := by
  constructor
  · intro K P hyps h3
    have hm := gpFit_method h3
    obtain ⟨μ, h0, v0, mt, bounds, jac, v, w, ug, -, -, -, -, -, -, h4⟩ := gpFit_trace h3
    have h5 : getKernelInverse X hyps name = .ok (K, P, w) := h4
    simp only [Gp.predictWithHyps, Gp.predictWithOptimizedHyps, pyAssert, if_pos hm, h3, h5, bind,
      Except.bind]
  · intro e he
    cases hr : Gp.predictWithOptimizedHyps min X Y Xs name method prior fix with
    | error e' => exact ⟨e', rfl⟩
    | ok r =>
      unfold Gp.predictWithOptimizedHyps at hr
      obtain ⟨_, -, hr⟩ := py_bind_ok hr
      obtain ⟨_, -, hr⟩ := py_bind_ok hr
      obtain ⟨_, -, hr⟩ := py_bind_ok hr
      obtain ⟨_, h3, hr⟩ := py_bind_ok hr
      rw [he] at h3
      cases h3

/-- C82: the same for Student-t processes. -/
theorem C82_prediction_student (min : Minimize) (X : Inputs n d) (Y : Fin n → ℝ) (Xs : Inputs m d)
    (name method : String) (prior : PriorMu d) (fix : Bool) :
    (∀ K P hyps, Tp.getOptimizedKernel min X Y prior name method (fix_noise := fix) =
        .ok (K, P, hyps) →
      Tp.predictWithOptimizedHyps min X Y Xs name method prior fix =
        Tp.predictWithHyps X Y Xs hyps name prior) ∧
    ∀ e, Tp.getOptimizedKernel min X Y prior name method (fix_noise := fix) = .error e →
      ∃ e', Tp.predictWithOptimizedHyps min X Y Xs name method prior fix = .error e' := by
  constructor
  · intro K P hyps h3
    have hm := tpFit_method h3
    obtain ⟨μ, h0, v0, mt, bounds, jac, v, hr, w, -, -, -, -, -, -, h4⟩ := tpFit_trace h3
    have h5 : getKernelInverse X hyps name = .ok (K, P, w) := h4
    simp only [Tp.predictWithHyps, Tp.predictWithOptimizedHyps, pyAssert, if_pos hm, h3, h5, bind,
      Except.bind]
  · intro e he
    cases hr : Tp.predictWithOptimizedHyps min X Y Xs name method prior fix with
    | error e' => exact ⟨e', rfl⟩
    | ok r =>
      unfold Tp.predictWithOptimizedHyps at hr
      obtain ⟨_, -, hr⟩ := py_bind_ok hr
      obtain ⟨_, -, hr⟩ := py_bind_ok hr
      obtain ⟨_, -, hr⟩ := py_bind_ok hr
      obtain ⟨_, h3, hr⟩ := py_bind_ok hr
      rw [he] at h3
      cases h3

/-- C82: with a minimiser that does not end worse than it starts, the data are (up to `4e-5` per
observation, the effect of the `1e-7` in the logarithms) at least as likely under the fitted
hyperparameters as under the initial ones, noise 0.01 and signal and lengthscales 1. The kernel
matrix and inverse returned belong to the fitted hyperparameters, and fixed noise stays. -/
theorem C82_fit {min : Minimize} (hm : Descends min) {X : Inputs n d} {name base : String}
    (hX : Suits name base X) (hn : n ≠ 0) {Y : Fin n → ℝ} {prior : PriorMu d} {μ : Fin n → ℝ}
    (hμ : getPriorMu prior X = .ok μ) {method : String} {ard fix : Bool} {K P : Matrix (Fin n) (Fin n) ℝ}
    {hyps : HypDict}
    (h : Gp.getOptimizedKernel min X Y prior name method "ml" ard fix = .ok (K, P, hyps)) :
    ∃ σ s, ∃ l : Fin d → ℝ, Describes hyps σ s l ∧ (fix = true → σ = 1 / 100) ∧
      K = noisyGram base σ s l X ∧ P = K⁻¹ ∧
      Real.log (mvnDensity μ (noisyGram base (1 / 100) 1 (fun _ => 1) X) Y) - n * (4 / 100000) ≤
        Real.log (mvnDensity μ K Y) := by
  obtain ⟨μ', h0, v0, mt, bounds, jac, v, w, ug, hug, h1, h2, h3, h4, h5, h6⟩ := gpFit_trace h
  rw [hμ] at h1
  obtain rfl := Except.ok.inj h1
  obtain ⟨σ, s, l, hd⟩ := getKernelInverse_describes h6
  have hcov : name ∈ ALLOWED_COV := suits_allowed hX
  have hstart := (start_describes hcov h2).1
  have hrestore := start_restore hcov h2 h3
  have h7 := getKernelInverse_ok hX hd fix
  rw [h6] at h7
  simp only [Except.ok.injEq, Prod.mk.injEq] at h7
  obtain ⟨hK, hP, -⟩ := h7
  have hg : GP_NOISE = 1 / 100 := by norm_num [GP_NOISE]
  refine ⟨σ, s, l, hd, ?_, hK, by rw [hP, hK], ?_⟩
  · rintro rfl
    have := restore_fixed h5
    rw [hd.noise] at this
    rw [← hg]
    simpa using this
  · simp only [if_true] at h4
    obtain ⟨y0, g0, hy0⟩ : ∃ y0 g0, Gp.negLogMl X Y v0 name μ ard fix true ug = .ok (y0, g0) := by
      cases ug with
      | false =>
        obtain ⟨L, -, h8⟩ := C36_cholesky_path hX hrestore hstart hn Y μ
        exact ⟨_, _, h8⟩
      | true =>
        have hb := hug rfl
        obtain ⟨x, rfl⟩ := suits_vec hX hb
        exact start_grad_total hb hn x Y μ h2 h3
    obtain ⟨y, g, hy, hle⟩ := hm _ _ _ _ _ _ h4 y0 g0 hy0
    obtain ⟨a, b, ha, hb, -, hab⟩ := C36_paths_close hX hrestore hstart hn Y μ
    obtain ⟨a', b', ha', hb', hab', -⟩ := C36_paths_close hX h5 hd hn Y μ
    rw [negLogMl_without hy0] at hb
    rw [negLogMl_without hy] at hb'
    rw [C36_inverse_path hX hrestore hstart hn] at ha
    rw [C36_inverse_path hX h5 hd hn] at ha'
    simp only [Except.ok.injEq, Prod.mk.injEq, and_true] at ha hb ha' hb'
    subst hb hb' ha ha'
    rw [hK, ← hg]
    have hn' : (0 : ℝ) < n := by positivity
    have := hab'.le.trans (hle.trans hab)
    rw [div_le_iff₀ hn', add_mul, div_mul_cancel₀ _ hn'.ne'] at this
    linarith

/-- C82: the same for Student-t processes, without loss, and with five degrees of freedom at the
start. -/
theorem C82_fit_student {min : Minimize} (hm : Descends min) {X : Inputs n d} {name base : String}
    (hX : Suits name base X) (hn : n ≠ 0) {Y : Fin n → ℝ} {prior : PriorMu d} {μ : Fin n → ℝ}
    (hμ : getPriorMu prior X = .ok μ) {method : String} {ard fix : Bool} {K P : Matrix (Fin n) (Fin n) ℝ}
    {hyps : HypDict}
    (h : Tp.getOptimizedKernel min X Y prior name method ard fix = .ok (K, P, hyps)) :
    ∃ ν σ s, ∃ l : Fin d → ℝ, Describes hyps σ s l ∧ hyps.dof = some (.flt (.fin ν)) ∧ 2 < ν ∧
      (fix = true → σ = 1 / 100) ∧ K = noisyGram base σ s l X ∧ P = K⁻¹ ∧
      Real.log (mvtDensity 5 μ (noisyGram base (1 / 100) 1 (fun _ => 1) X) Y) ≤
        Real.log (mvtDensity ν μ K Y) := by
  obtain ⟨μ', h0, v0, mt, bounds, jac, v, hr, w, h1, h2, h3, h4, h5, hval, h6⟩ := tpFit_trace h
  rw [hμ] at h1
  obtain rfl := Except.ok.inj h1
  obtain ⟨σ, s, l, hd⟩ := getKernelInverse_describes h6
  have hcov : name ∈ ALLOWED_COV := suits_allowed hX
  obtain ⟨hstart, hdof, -⟩ := start_describes hcov h2
  have hrestore := start_restore hcov h2 h3
  have h7 := getKernelInverse_ok hX hd fix
  rw [h6] at h7
  simp only [Except.ok.injEq, Prod.mk.injEq] at h7
  obtain ⟨hK, hP, -⟩ := h7
  have hg : GP_NOISE = 1 / 100 := by norm_num [GP_NOISE]
  have hy0 := C40_value hX hrestore hstart (by norm_num : (2 : ℝ) < 5) (hdof rfl) hn Y μ
  obtain ⟨y, g, hy, hle⟩ := hm _ _ _ _ _ _ h4 _ _ hy0
  obtain ⟨ν, hν, hdof'⟩ := tpNegLogMl_dof h5 hy
  obtain ⟨k1, k2, k3, -⟩ := validate_keeps hval
  have hsame : hr = hyps := validate_same hval hd.noise hdof' hν
  subst hsame
  refine ⟨ν, σ, s, l, hd, hdof', hν, ?_, hK, by rw [hP, hK], ?_⟩
  · rintro rfl
    have := restore_fixed h5
    rw [hd.noise] at this
    rw [← hg]
    simpa using this
  · rw [C40_value hX h5 hd hν hdof' hn] at hy
    simp only [Except.ok.injEq, Prod.mk.injEq] at hy
    rw [← hy.1] at hle
    have hn' : (0 : ℝ) < n := by positivity
    rw [div_le_div_iff_of_pos_right hn'] at hle
    rw [hK, ← hg]
    linarith

/-- C82: fitting by leave-one-out cross validation (with a lengthscale per dimension): the score
does not get worse either. The score is that of a zero prior mean, whatever the prior mean (C38). -/
theorem C82_fit_loocv {min : Minimize} (hm : Descends min) {X : Inputs (n + 1) d}
    {name base : String} (hX : Suits name base X) {Y : Fin (n + 1) → ℝ} {prior : PriorMu d}
    {method : String} {fix : Bool} {K P : Matrix (Fin (n + 1)) (Fin (n + 1)) ℝ} {hyps : HypDict}
    (h : Gp.getOptimizedKernel min X Y prior name method "loocv" true fix = .ok (K, P, hyps)) :
    ∃ σ s, ∃ l : Fin d → ℝ, Describes hyps σ s l ∧ (fix = true → σ = 1 / 100) ∧
      K = noisyGram base σ s l X ∧ P = K⁻¹ ∧
      ∃ start, Describes start (1 / 100) 1 (fun _ : Fin d => 1) ∧ ∃ mu0 var0 mu var,
        IsLeaveOneOut X Y start name none (1 / 100) mu0 var0 ∧
        IsLeaveOneOut X Y hyps name none σ mu var ∧
        looScore mu var Y ≤ looScore mu0 var0 Y := by
  obtain ⟨μ', h0, v0, mt, bounds, jac, v, w, ug, hug, h1, h2, h3, h4, h5, h6⟩ := gpFit_trace h
  obtain ⟨σ, s, l, hd⟩ := getKernelInverse_describes h6
  have hcov : name ∈ ALLOWED_COV := suits_allowed hX
  have hstart := (start_describes hcov h2).1
  have hrestore := start_restore hcov h2 h3
  have h7 := getKernelInverse_ok hX hd fix
  rw [h6] at h7
  simp only [Except.ok.injEq, Prod.mk.injEq] at h7
  obtain ⟨hK, hP, -⟩ := h7
  have hg : GP_NOISE = 1 / 100 := by norm_num [GP_NOISE]
  obtain ⟨mu0, var0, i0, e0⟩ := C38_leave_one_out_partial hX hrestore hstart Y
  obtain ⟨mu, var, i1, e1⟩ := C38_leave_one_out_partial hX h5 hd Y
  rw [hg] at hstart i0
  refine ⟨σ, s, l, hd, ?_, hK, by rw [hP, hK], h0, hstart, mu0, var0, mu, var, i0, i1, ?_⟩
  · rintro rfl
    have := restore_fixed h5
    rw [hd.noise] at this
    rw [← hg]
    simpa using this
  · rw [if_neg (by decide)] at h4
    obtain ⟨y, g, hy, hle⟩ := hm _ _ _ _ _ _ h4 (looScore mu0 var0 Y) none (by
      rw [C38_prior_ignored X Y _ (fun _ => 0), e0]
      rfl)
    rw [C38_prior_ignored X Y _ (fun _ => 0), e1] at hy
    simp only [bind, Except.bind, pure, Except.pure, Except.ok.injEq, Prod.mk.injEq] at hy
    rwa [hy.1]

/-! A concrete case: a minimiser that keeps the better of two vectors, the start and its double. -/

/-- Twice the value. -/
noncomputable def double : Flt → Flt
  | .fin a => .fin (2 * a)
  | x => x

/-- The better of the start and its double. -/
noncomputable def exBetter : Minimize := fun _ f x0 _ _ => do
  let a ← f x0
  let b ← f (x0.map double)
  if b.1 ≤ a.1 then return x0.map double else return x0

theorem exBetter_descends : Descends exBetter := by
  intro method f x0 bounds jac v h y0 g0 h0
  unfold exBetter at h
  obtain ⟨a, ha, h⟩ := py_bind_ok h
  obtain ⟨b, hb, h⟩ := py_bind_ok h
  rw [h0] at ha
  obtain rfl := Except.ok.inj ha
  by_cases hle : b.1 ≤ y0
  · simp only [hle, if_true] at h
    obtain rfl := Except.ok.inj h
    exact ⟨b.1, b.2, hb, hle⟩
  · simp only [hle, if_false] at h
    obtain rfl := Except.ok.inj h
    exact ⟨y0, g0, h0, le_rfl⟩

theorem double_fit {k : ℕ} {v : List Flt} (hv : FitVector k v) : FitVector k (v.map double) := by
  obtain ⟨s, ls, rfl, hl, hs, h0⟩ := hv
  refine ⟨2 * s, ls.map (2 * ·), ?_, by simpa using hl, ?_, ?_⟩
  · simp [double, Function.comp_def]
  · simpa using hs
  · intro x hx
    obtain ⟨y, hy, rfl⟩ := List.mem_map.1 hx
    exact mul_ne_zero two_ne_zero (h0 y hy)

theorem exBetter_minimizes (k : ℕ) : Minimizes exBetter (FitVector k) := by
  intro method f x0 bounds jac h0 hf
  obtain ⟨y, g, e, -⟩ := hf x0 h0
  obtain ⟨y', g', e', -⟩ := hf _ (double_fit h0)
  by_cases hle : y' ≤ y
  · exact ⟨_, double_fit h0, by simp [exBetter, e, e', hle, bind, Except.bind, pure, Except.pure]⟩
  · exact ⟨_, h0, by simp [exBetter, e, e', hle, bind, Except.bind, pure, Except.pure]⟩

example (ms : String) (h : ms ∈ ALLOWED_MODELSELECTION_METHOD) : ∃ K P hyps,
    Gp.getOptimizedKernel exBetter exTrain3 ![1, 2, 4] none "matern32" "BFGS" ms true true =
      .ok (K, P, hyps) ∧ Descends exBetter ∧ Suits "matern32" "matern32" exTrain3 := by
  obtain ⟨K, P, hyps, e, -⟩ := gpFit_total (n := 3) (d := 1) (name := "matern32") (by decide)
    (by decide) (fun _ _ => 5) ![1, 2, 4] (prior := none) (fun _ _ => ⟨_, rfl⟩) (method := "BFGS")
    (by decide) h (ard := true) (.inr (.inl rfl)) (exBetter_minimizes _)
  exact ⟨K, P, hyps, e, exBetter_descends, exTrain3_suits⟩

theorem double_fitT {k : ℕ} {v : List Flt} (hv : FitVectorT k v) :
    FitVectorT k (v.map double) := by
  obtain ⟨ν, s, ls, rfl, hl, hν, hs, h0⟩ := hv
  refine ⟨2 * ν, 2 * s, ls.map (2 * ·), ?_, by simpa using hl, by linarith, ?_, ?_⟩
  · simp [double, Function.comp_def]
  · simpa using hs
  · intro x hx
    obtain ⟨y, hy, rfl⟩ := List.mem_map.1 hx
    exact mul_ne_zero two_ne_zero (h0 y hy)

theorem exBetter_minimizesT (k : ℕ) : Minimizes exBetter (FitVectorT k) := by
  intro method f x0 bounds jac h0 hf
  obtain ⟨y, g, e, -⟩ := hf x0 h0
  obtain ⟨y', g', e', -⟩ := hf _ (double_fitT h0)
  by_cases hle : y' ≤ y
  · exact ⟨_, double_fitT h0, by simp [exBetter, e, e', hle, bind, Except.bind, pure, Except.pure]⟩
  · exact ⟨_, h0, by simp [exBetter, e, e', hle, bind, Except.bind, pure, Except.pure]⟩

example : ∃ K P hyps, Tp.getOptimizedKernel exBetter exTrain3 ![1, 2, 4] none "matern32" "SLSQP"
    true true = .ok (K, P, hyps) := by
  obtain ⟨K, P, hyps, -, -, -, e, -⟩ := tpFit_total (n := 3) (d := 1) (name := "matern32")
    (by decide) (by decide) (fun _ _ => 5) ![1, 2, 4] (prior := none) (fun _ _ => ⟨_, rfl⟩)
    (method := "SLSQP") (by decide) (ard := true) (exBetter_minimizesT _)
  exact ⟨K, P, hyps, e⟩

end Verif.Props
