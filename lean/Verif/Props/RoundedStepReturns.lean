import Verif.Props.RoundedStep
import Verif.Lemmas.StepTotal

/-! # C158: steps in double precision that return -/

namespace Verif.Props

open Verif.Spec Verif.Covariance Verif.UtilsCovariance Verif.Lemmas Verif.Rounded Verif.RoundedPredict
  Verif.Constants Verif.BoCommon Verif.BoWGp Verif.UtilsBo Verif.RoundedStep

section

variable {n d : ℕ} {lib : Library n} {bo : BOwGP d} {orc : Oracles d} {X : Fin n → Point d}

/-- Where a step needs hyperparameters of ordinary size: at inputs and in the box. -/
def StepPoint (X : Fin n → Point d) (B : Bounds d) (x : Point d) : Prop := (∃ i, x = X i) ∨ InBox B x

/-- The acquisition values of several candidates can be computed. -/
theorem batch_returns (hlib : Accurate lib X bo.str_cov) (hn10 : n ≤ 10) (hd : d ≤ 2)
    (hacq : bo.str_acq = "ei") (hprior : bo.prior_mu = none) (hn : bo.str_cov ∈ baseNames)
    {P : Point d → Prop} {hyps : HypDict} {s : ℝ} {l : Fin d → ℝ} (hm : OrdinaryHyps P hyps s l)
    (hP : ∀ i, P (X i)) {K V : Matrix (Fin n) (Fin n) ℝ}
    (hK : RoundedKernels.kernelMatrix lib.fl lib.ex lib.o X hyps bo.str_cov = .ok K)
    (hV : lib.inv K = .ok V) {Yt : Fin n → ℝ} (hYd : ∀ i, Yt i ∈ Double)
    (hY : ∀ i, 0 ≤ Yt i ∧ Yt i ≤ 10) (hY0 : ∃ i, Yt i = 0) (pts : List (Point d)) (hx : ∀ x ∈ pts, P x) :
    ∃ a, RoundedChoice.negAcquisition lib.fl lib.ex lib.cdf lib.pdf lib.lg lib.o lib.mm bo X Yt
      (some (K, V, hyps)) pts = .ok a := by
  have hn' : (n : ℝ) ≤ 10 := by exact_mod_cast hn10
  have hd' : (d : ℝ) ≤ 2 := by exact_mod_cast hd
  have hd0 : (0 : ℝ) ≤ d := Nat.cast_nonneg d
  have zero : (0 : ℝ) ∈ Double := by simpa using double_nat (show 0 < 2 ^ 53 by norm_num)
  have hY10 : ∀ i, |Yt i| ≤ 10 := fun i => abs_le.2 ⟨by linarith [hY i], (hY i).2⟩
  have hQ := default_residual hn' hY10
  have hmX : OrdinaryHyps (fun x => ∃ i, x = X i) hyps s l :=
    ⟨hm.describes, hm.signal, by rintro _ ⟨i, rfl⟩; exact hm.points _ (hP i)⟩
  obtain ⟨V', hV', hVe⟩ := hlib.inverse _ _ _ _ hmX hK
  obtain rfl : V' = V := by simpa [hV] using hV'.symm
  obtain ⟨k1, -⟩ := default_choice (n := n) hn' (Nat.cast_nonneg n) hd' hd0 hm.signal hQ
    (by positivity) rfl rfl rfl rfl rfl rfl rfl rfl rfl
  obtain ⟨_, _, _, mu, sd, S, -, h2, -⟩ := C129_predictions (mm := lib.mm) (Xs := pts.get) (prior := none)
    (μ := fun _ => 0) (μs := fun _ => 0) hlib.nearest hlib.exp (by positivity) (by norm_num) hlib.order
    (hd.trans (by norm_num)) hn hm.describes (fun i => hm.points _ (hP i))
    (fun j => hm.points _ (hx _ (List.get_mem pts j))) (by norm_num; linarith) (by positivity)
    (by norm_num; linarith) (by positivity) hlib.mul rfl rfl (fun _ => zero) (fun _ => zero) hYd hK
    (fun i j => (hVe i j).1) (by positivity) (fun i j => (hVe i j).2) (u := 1 / 2 ^ 53) rfl rfl rfl k1 rfl rfl
    rfl rfl rfl rfl
  rw [← hprior] at h2
  have h3 := roundedPredict_doubles hlib.nearest h2
  obtain ⟨hjd, hj0, -⟩ := jitter_double hlib.nearest
  have h4 := rounded_ei_eq (cdf := lib.cdf) (pdf := lib.pdf) hlib.nearest (ms := List.ofFn mu)
    (ss := List.ofFn sd) hjd (doubles_ofFn fun j => (h3 j).2.1) (by simp)
    (isBest_ofFn hY0 fun i => (hY i).1) (by
      intro w hw
      obtain ⟨j, rfl⟩ := List.mem_ofFn.1 hw
      linarith [(h3 j).2.2])
  have hch : RoundedChoice.chooseFunAcquisition lib.fl lib.cdf lib.pdf lib.lg bo.str_acq (some (1 / 100)) =
      .ok fun m s Y => RoundedAcquisition.ei lib.fl lib.cdf lib.pdf m s Y (lib.fl JITTER_ACQ) := by
    rw [hacq]
    simp [RoundedChoice.chooseFunAcquisition, pyAssert, ALLOWED_BO_ACQ, bind, Except.bind, pure,
      Except.pure]
  rw [RoundedChoice.negAcquisition]
  simp only [RoundedChoice.computeAcquisitions, RoundedChoice.computePosteriors, Gp.validateCommonArgs,
    noiseArg_describes hm.describes, hch, h2, h4, bind, Except.bind, pure, Except.pure]
  exact ⟨_, rfl⟩

/-- The fit of the hyperparameters returns. -/
theorem fit_returns (hlib : Accurate lib X bo.str_cov) (h0 : n ≠ 0) (hn10 : n ≤ 10) (hd : d ≤ 2)
    (hprior : bo.prior_mu = none) (hn : bo.str_cov ∈ baseNames) {P : Point d → Prop} (hP : ∀ i, P (X i))
    (hgp : bo.str_optimizer_method_gp ∈ ALLOWED_OPTIMIZER_METHOD_GP)
    (hml : bo.str_modelselection_method = "ml") (hX : ∀ x, P x → scaledLength (fun _ => 1) x ≤ 2)
    (hfit : Minimizes orc.fitHyps fun v => ∃ h s l, restoreHyps bo.str_cov v true bo.use_ard true = .ok h ∧
      OrdinaryHyps P h s l ∧ s ≠ 0) {Yt : Fin n → ℝ} (hYd : ∀ i, Yt i ∈ Double) (hY : ∀ i, |Yt i| ≤ 10) :
    ∃ K V hyps s l, RoundedStep.getOptimizedKernel lib orc.fitHyps X Yt bo.prior_mu bo.str_cov
        bo.str_optimizer_method_gp bo.str_modelselection_method bo.use_ard = .ok (K, V, hyps) ∧
      OrdinaryHyps P hyps s l ∧ RoundedKernels.kernelMatrix lib.fl lib.ex lib.o X hyps bo.str_cov = .ok K ∧
      lib.inv K = .ok V := by
  have hd' : (d : ℝ) ≤ 2 := by exact_mod_cast hd
  have hd0 : (0 : ℝ) ≤ d := Nat.cast_nonneg d
  have hall : bo.str_cov ∈ ALLOWED_COV := List.mem_append_left _ hn
  have hsub : ∀ {h s l}, OrdinaryHyps P h s l → OrdinaryHyps (fun x => ∃ i, x = X i) h s l := fun hm =>
    ⟨hm.describes, hm.signal, by rintro _ ⟨i, rfl⟩; exact hm.points _ (hP i)⟩
  obtain ⟨hs, v0, e1, e2, -⟩ := start_vector (d := d) hn bo.use_ard
  have hdes := (start_describes hall e1).1
  rw [show GP_NOISE = 1 / 100 by norm_num [GP_NOISE]] at hdes
  have hv0 : ∃ h s l, restoreHyps bo.str_cov v0 true bo.use_ard true = .ok h ∧ OrdinaryHyps P h s l ∧
      s ≠ 0 :=
    ⟨hs, 1, fun _ => 1, start_restore hall e1 e2, ⟨hdes, by norm_num, hX⟩, one_ne_zero⟩
  obtain ⟨ranges, -, -, e5, -⟩ := C20_ranges_aligned bo.str_cov hall d true bo.use_ard true
  have key : ∀ (mt : String) bounds (ug : Bool), ∃ v,
      (∃ h s l, restoreHyps bo.str_cov v true bo.use_ard true = .ok h ∧ OrdinaryHyps P h s l ∧ s ≠ 0) ∧
      orc.fitHyps mt (fun hyps => RoundedStep.negLogMl lib X Yt hyps bo.str_cov (fun _ => 0) bo.use_ard true ug)
        v0 bounds ug = .ok v := fun mt bounds ug => by
    refine hfit mt _ v0 bounds ug hv0 fun v hv => ?_
    obtain ⟨h, s, l, f1, f2, f3⟩ := hv
    obtain ⟨g, hg⟩ := hlib.gradient _ _ _ _ _ f1 (hsub f2) f3
    obtain ⟨c, hc, -⟩ := C158_likelihood hlib h0 hn10 hd hn (hsub f2) f1 hYd hY
    simp only [RoundedStep.negLogMl, hc, ok_bind]
    cases ug
    · exact ⟨c, none, rfl, by simp⟩
    · exact ⟨c, some g, by simp only [if_true, hg, ok_bind]; rfl, by simp⟩
  have tail : ∀ v, (∃ h s l, restoreHyps bo.str_cov v true bo.use_ard true = .ok h ∧ OrdinaryHyps P h s l ∧
        s ≠ 0) →
      ∃ K V hyps s l, (do
        let hyps ← restoreHyps bo.str_cov v true bo.use_ard true
        let hyps ← (validateHypsDict hyps bo.str_cov d).2
        let (cov_X_X, inv_cov_X_X) ← RoundedStep.getKernelInverse lib X hyps bo.str_cov
        return (cov_X_X, inv_cov_X_X, hyps)) = (.ok (K, V, hyps) : Py _) ∧
      OrdinaryHyps P hyps s l ∧ RoundedKernels.kernelMatrix lib.fl lib.ex lib.o X hyps bo.str_cov = .ok K ∧
      lib.inv K = .ok V := by
    rintro v ⟨h, s, l, f1, f2, -⟩
    obtain ⟨K, hK, -, -⟩ := kernelMatrix_error hlib.nearest hlib.exp (by norm_num) (by norm_num) hlib.order
      (by norm_num; linarith) hn f2.describes (fun i => f2.points _ (hP i)) (by norm_num; linarith)
    obtain ⟨V, hV, -⟩ := hlib.inverse _ _ _ _ (hsub f2) hK
    refine ⟨K, V, h, s, l, ?_, f2, hK, hV⟩
    rw [f1, ok_bind, validate_describes f2.describes hall, ok_bind, RoundedStep.getKernelInverse, hK, ok_bind,
      hV, ok_bind]
    rfl
  have hc := checkStrCov_suits (vec_suits hn X)
  have hb' : bo.str_cov ∈ ALLOWED_COV_BASE := hn
  have hμ : Gp.getPriorMu bo.prior_mu (.vec X) = .ok fun _ => 0 := by rw [hprior]; rfl
  have hms : bo.str_modelselection_method ∈ ALLOWED_MODELSELECTION_METHOD := by
    rw [hml]
    simp [ALLOWED_MODELSELECTION_METHOD]
  have hc' : checkStrCov bo.str_cov 2 = .ok () := hc
  unfold RoundedStep.getOptimizedKernel
  have hmn : bo.str_optimizer_method_gp = "BFGS" ∨ bo.str_optimizer_method_gp = "L-BFGS-B" ∨
      bo.str_optimizer_method_gp = "Nelder-Mead" ∨
      bo.str_optimizer_method_gp = "SLSQP" ∨ bo.str_optimizer_method_gp = "SLSQP-Bounded" := by
    simpa [ALLOWED_OPTIMIZER_METHOD_GP] using hgp
  rw [hc', ok_bind, assert_true hgp, ok_bind, assert_true hms, ok_bind, hμ, ok_bind]
  simp only [hml, hb', FIX_GP_NOISE, e1, e2, ok_bind, if_true]
  rcases hmn with hg | hg | hg | hg | hg
  · obtain ⟨v, hv, hk⟩ := key "BFGS" none true
    simpa [hg, hk, e5, ok_bind] using tail v hv
  · obtain ⟨v, hv, hk⟩ := key "L-BFGS-B" (some ranges) true
    simpa [hg, hk, e5, ok_bind] using tail v hv
  · obtain ⟨v, hv, hk⟩ := key "Nelder-Mead" none false
    simpa [hg, hk, e5, ok_bind] using tail v hv
  · obtain ⟨v, hv, hk⟩ := key "SLSQP" none true
    simpa [hg, hk, e5, ok_bind] using tail v hv
  · obtain ⟨v, hv, hk⟩ := key "SLSQP" (some ranges) true
    simpa [hg, hk, e5, ok_bind] using tail v hv

/-- Sampling starting points returns some. -/
theorem roundedSamples_returns {fl : ℝ → ℝ} {B : Bounds d} {r : BaseBo.Draws d} {sm : String}
    (hsm : sm ∈ ALLOWED_SAMPLING_METHOD) (hg : sm ≠ "grid") {ns : ℤ} (hns : 0 < ns) :
    ∃ pts, Rounded.getSamples fl B r sm ns = .ok pts ∧ pts ≠ [] := by
  have h1 : (List.range ns.toNat) ≠ [] := by
    intro h
    have := congrArg List.length h
    simp at this
    omega
  have h2 : ¬ ns < 0 := by omega
  rcases sampling_names hsm with rfl | rfl | rfl | rfl | rfl
  · exact absurd rfl hg
  all_goals
    simp [Rounded.getSamples, pyAssert, hsm, Rounded.getSamplesUniform, Rounded.getSamplesGaussian,
      Rounded.getSamplesQmc, h1, h2, bind, Except.bind, pure, Except.pure]
    try omega

/-- C158: a step in double precision returns, in the mode 'regular' with likelihood as the criterion and
L-BFGS-B for the acquisition function, if each numerical optimiser returns admissible values whenever its
objective has a value wherever it may look. What it returns can be used in `C158_choice` and `C158_fit`. -/
theorem C158_returns {y : Fin n → ℝ} (clock : ℕ → ℝ) (st : GpState) (t : ℕ)
    (hlib : Accurate lib X bo.str_cov) (hn10 : n ≤ 10) (hd : d ≤ 2)
    (hacq : bo.str_acq = "ei") (hprior : bo.prior_mu = none) (hnorm : bo.normalize_Y = true)
    (hn : bo.str_cov ∈ baseNames) (hgp : bo.str_optimizer_method_gp ∈ ALLOWED_OPTIMIZER_METHOD_GP)
    (hml : bo.str_modelselection_method = "ml") (hbo : bo.str_optimizer_method_bo = "L-BFGS-B")
    {sm : String} (hsm : sm ∈ ALLOWED_SAMPLING_METHOD) (hg : sm ≠ "grid") {ns : ℤ} (hns : 0 < ns)
    (hy : ∀ i, y i ∈ Double) {lo hi : ℝ} (hlo : (∃ i, y i = lo) ∧ ∀ i, lo ≤ y i)
    (hhi : (∃ i, y i = hi) ∧ ∀ i, y i ≤ hi) (hlt : lo < hi)
    (hX : ∀ x, StepPoint X bo.range_X x → scaledLength (fun _ => 1) x ≤ 2)
    (hfit : Minimizes orc.fitHyps fun v => ∃ h s l, restoreHyps bo.str_cov v true bo.use_ard true = .ok h ∧
      OrdinaryHyps (StepPoint X bo.range_X) h s l ∧ s ≠ 0)
    (hacqs : ∀ f x0, (∀ q, InBox bo.range_X q → ∃ v, f q = .ok (.fin v)) →
      ∃ q, InBox bo.range_X q ∧ orc.lbfgsb f x0 bo.range_X = .ok q) :
    ∃ r p info K V hyps s l, RoundedStep.optimize lib bo orc clock X (List.ofFn y) sm ns "regular" (st, t) =
        (r, .ok (p, info)) ∧ info.fit = some (K, V, hyps) ∧ OrdinaryHyps (StepPoint X bo.range_X) hyps s l ∧
      ∀ v ∈ info.Y_normalized, v ∈ Double ∧ |v| ≤ 10 := by
  obtain ⟨Y', o1, o2, o3, -⟩ := C104_normalize hlib.nearest (List.ofFn y)
    (fun z hz => by obtain ⟨i, rfl⟩ := List.mem_ofFn.1 hz; exact hy i) lo hi
    ⟨List.mem_ofFn.2 hlo.1, fun z hz => by obtain ⟨i, rfl⟩ := List.mem_ofFn.1 hz; exact hlo.2 i⟩
    ⟨List.mem_ofFn.2 hhi.1, fun z hz => by obtain ⟨i, rfl⟩ := List.mem_ofFn.1 hz; exact hhi.2 i⟩ hlt
  obtain ⟨c1, hc1⟩ := column_total (n := n) (Y := List.ofFn y) (by simp)
  obtain ⟨Yt, hc2⟩ := column_total (n := n) (Y := Y') (by simp [o2])
  have e1 : List.ofFn Yt = Y' := (column_ok hc2).2
  have hat : ∀ i : Fin n, (List.ofFn y)[(i : ℕ)]? = some (y i) ∧ Y'[(i : ℕ)]? = some (Yt i) :=
    fun i => by rw [← e1]; simp
  have hYt := fun i : Fin n => o3 i (y i) (Yt i) (hat i).1 (hat i).2
  have hYd' : ∀ v ∈ Y', v ∈ Double := fun v hv => normalized_double hlib.nearest
    (fun z hz => by obtain ⟨i, rfl⟩ := List.mem_ofFn.1 hz; exact hy i) o1 _ hv
  have hYd : ∀ i, Yt i ∈ Double := fun i => hYd' _ (by rw [← e1]; exact List.mem_ofFn.2 ⟨i, rfl⟩)
  have hY10 : ∀ i, |Yt i| ≤ 10 := fun i => abs_le.2 ⟨by linarith [(hYt i).1], (hYt i).2.1⟩
  have hY0 : ∃ i, Yt i = 0 := by
    obtain ⟨i, hi⟩ := hlo.1
    exact ⟨i, (hYt i).2.2.2.1 hi⟩
  have h0 : n ≠ 0 := by
    rintro rfl
    exact hY0.choose.elim0
  obtain ⟨K, V, hyps, s, l, f1, f2, f3, f4⟩ := fit_returns hlib h0 hn10 hd hprior hn
    (fun i => .inl ⟨i, rfl⟩) hgp hml hX hfit hYd hY10
  have hobj : ∀ q, InBox bo.range_X q → ∃ v, objective lib bo X Yt (some (K, V, hyps)) q = .ok (.fin v) :=
    fun q hq => by
      obtain ⟨_, _, _, v, -, e, -⟩ := C158_value (Z := Yt) hlib hn10 hd hacq hprior hn f2
        (fun i => .inl ⟨i, rfl⟩) f3 f4 hYd (fun i => ⟨(hYt i).1, (hYt i).2.1⟩) hY0
        (fun i => by simp; norm_num) (.inr hq)
      exact ⟨_, e⟩
  obtain ⟨init, g1, g2⟩ := roundedSamples_returns (fl := lib.fl) (B := bo.range_X) (r := orc.draws) hsm hg hns
  obtain ⟨pts, g3, g4, g5⟩ := mapM_total
    (f := fun x => orc.lbfgsb (objective lib bo X Yt (some (K, V, hyps))) x bo.range_X)
    (P := InBox bo.range_X) init fun a _ => hacqs _ a hobj
  have g6 : pts ≠ [] := by
    rintro rfl
    exact g2 (List.length_eq_zero_iff.1 g4.symm)
  classical
  have hval : ∀ q ∈ pts, objective lib bo X Yt (some (K, V, hyps)) q =
      .ok (if hq : InBox bo.range_X q then .fin (hobj q hq).choose else .nan) := fun q hq => by
    rw [dif_pos (g5 q hq)]
    exact (hobj q (g5 q hq)).choose_spec
  obtain ⟨p, hp, hpb⟩ : ∃ p, getBestAcquisitionByEvaluation pts
      (objective lib bo X Yt (some (K, V, hyps))) = .ok [p] ∧ InBox bo.range_X p := by
    rcases C03_best_by_evaluation pts _ _ hval with ⟨i, x, h4, h5⟩ | ⟨-, h4⟩
    · refine ⟨x, h4, ?_⟩
      obtain ⟨q, hq, e⟩ := List.mem_map.1 (List.mem_of_getElem? h5.1)
      obtain rfl := (Prod.mk.inj e).1
      exact g5 q hq
    · obtain ⟨q, hq⟩ := List.exists_mem_of_ne_nil _ g6
      refine absurd ?_ (h4 q hq)
      rw [dif_pos (g5 q hq)]
      trivial
  have ha : RoundedStep.optimizeAcq lib bo.toBaseBO orc (onePoint (RoundedChoice.negAcquisition lib.fl lib.ex
      lib.cdf lib.pdf lib.lg lib.o lib.mm bo X Yt (some (K, V, hyps)))) sm ns = .ok (p, pts) := by
    have hc : RoundedStep.candidates lib bo.toBaseBO orc (objective lib bo X Yt (some (K, V, hyps))) sm ns =
        .ok pts := by
      rw [RoundedStep.candidates, if_pos hbo, g1, ok_bind]
      exact g3
    change RoundedStep.optimizeAcq lib bo.toBaseBO orc (objective lib bo X Yt (some (K, V, hyps))) sm ns = _
    rw [RoundedStep.optimizeAcq, hc, ok_bind, assert_true g6, ok_bind, hp]
    rfl
  obtain ⟨acqs, hacqs'⟩ := batch_returns hlib hn10 hd hacq hprior hn f2 (fun i => .inl ⟨i, rfl⟩) f3 f4 hYd
    (fun i => ⟨(hYt i).1, (hYt i).2.1⟩) hY0 pts fun q hq => .inr (g5 q hq)
  have hs : RoundedStep.fitSurrogate lib bo orc X Yt "regular" (st, t + 2) =
      ((st, t + 2), .ok (some (K, V, hyps))) := by
    rw [RoundedStep.fitSurrogate, if_pos rfl, lift_bind f1]
    rfl
  refine ⟨({ st with historical_hyps := st.historical_hyps ++ [some hyps] }, t + 6), p,
    { next_points := pts
      acquisitions := acqs
      Y_original := List.ofFn y
      Y_normalized := Y'
      fit := some (K, V, hyps)
      time_surrogate := lib.fl (clock (t + 2) - clock (t + 1))
      time_acq := lib.fl (clock (t + 4) - clock (t + 3))
      time_overall := lib.fl (clock (t + 5) - clock t) }, K, V, hyps, s, l, ?_, rfl, f2, fun v hv => ⟨hYd' v hv, ?_⟩⟩
  · unfold RoundedStep.optimize
    have hY' : (if bo.normalize_Y = true ∧ "regular" ≠ "converged" then
        Rounded.normalizeMinMax lib.fl (List.ofFn y) else .ok (List.ofFn y)) = .ok Y' := by
      rw [if_pos ⟨hnorm, by simp⟩, o1]
    rw [lift_bind hc1, lift_bind (assert_true hns), lift_bind (assert_true hsm),
      lift_bind (assert_true (by simp [ALLOWED_MLM_METHOD])), now_bind, lift_bind hY',
      lift_bind hc2, now_bind, OptM.bind_of_ok hs,
      OptM.bind_of_ok (s1 := ({ st with historical_hyps :=
        st.historical_hyps ++ [some hyps] }, t + 2)) (a := ()) rfl, now_bind, now_bind,
      lift_bind ha]
    dsimp only
    rw [lift_bind (nextInBounds_total hpb), lift_bind (inBounds_total g5), now_bind,
      lift_bind hacqs', now_bind]
    rfl
  · rw [← e1] at hv
    obtain ⟨i, rfl⟩ := List.mem_ofFn.1 hv
    exact hY10 i

end

open Matrix

open Classical in
/-- The library that rounds what it should compute. -/
noncomputable def roundLibrary (o o' : SumOrder) : Library 2 where
  fl := roundAway
  ex x := roundAway (Real.exp x)
  lg x := roundAway (Real.log x)
  cdf x := roundAway (Acquisition.normCdf x)
  pdf x := roundAway (Acquisition.normPdf x)
  o := o
  o' := o'
  mm := orderedMul roundAway o'
  chol K := if h : ∃ L, IsCholesky K L then .ok fun i j => roundAway (h.choose i j) else .error .linalg
  solve L r := fun i => roundAway (((L * Lᵀ)⁻¹ *ᵥ r) i)
  inv K := .ok fun i j => roundAway (K⁻¹ i j)
  grad _ := .ok []
  loo _ := .ok 0

/-- It is accurate. -/
theorem roundLibrary_accurate {d : ℕ} {o o' : SumOrder} (ho : o.Covers d) (ho' : o'.Covers 2)
    (hd : d ≤ 2) (X : Fin 2 → Point d) {name : String} (hn : name ∈ baseNames) :
    Accurate (roundLibrary o o') X name := by
  have hf := roundAway_nearest
  have hd' : (d : ℝ) ≤ 2 := by exact_mod_cast hd
  have hd0 : (0 : ℝ) ≤ d := Nat.cast_nonneg d
  have hex : ExpWithin (1 / 2 ^ 50) fun x => roundAway (Real.exp x) := by
    have h := expWithin_round hf
    exact ⟨h.zero, h.nonneg, h.le_one, fun x hx => (h.near x hx).trans (add_le_add
      (mul_le_mul_of_nonneg_right (by norm_num) (Real.exp_pos x).le) le_rfl)⟩
  have hlg : LogRelative (1 / 2 ^ 50) fun x => roundAway (Real.log x) := by
    have h := logRelative_round hf
    exact ⟨h.mem, fun x hx h0 => (h.near x hx h0).trans
      (mul_le_mul_of_nonneg_right (by norm_num) (abs_nonneg _))⟩
  have hc : CdfWithin (1 / 2 ^ 40) fun x => roundAway (Acquisition.normCdf x) := by
    have h := cdfWithin_round hf
    exact ⟨h.nonneg, h.le_one, fun x => (h.near x).trans (by norm_num)⟩
  have hp : PdfWithin (1 / 2 ^ 40) fun x => roundAway (Acquisition.normPdf x) :=
    fun x => (pdfWithin_round hf x).trans (by norm_num)
  have hw := small_zpow (k := -1075) (by norm_num)
  have hw0 : (0 : ℝ) < (2 : ℝ) ^ (-1075 : ℤ) := by positivity
  have hker : ∀ h s l K, OrdinaryHyps (fun x => ∃ i, x = X i) h s l →
      RoundedKernels.kernelMatrix roundAway (fun x => roundAway (Real.exp x)) o X h name = .ok K →
      (∀ i j, K i j = K j i) ∧
        ∀ i j, |K i j - noisyGram name (1 / 100) s l (.vec X) i j| ≤ 5 / 10 ^ 13 := fun h s l K hm hK => by
    obtain ⟨K', hK', k1, k2⟩ := kernelMatrix_error hf hex (by norm_num) (by norm_num) ho
      (by norm_num; linarith) hn hm.describes (fun i => hm.points _ ⟨i, rfl⟩) (by norm_num; linarith)
    obtain rfl : K' = K := by
      rw [hK] at hK'
      exact (Except.ok.inj hK').symm
    refine ⟨k1, fun i j => (k2 i j).trans ?_⟩
    have h1 : s ^ 2 * (2 * (1 / 2 ^ 50) + (1 + (d + 1) * 2) / 2 ^ 44) ≤ 41 / 10 ^ 14 := by
      refine (mul_le_mul_of_nonneg_right hm.signal (by positivity)).trans ?_
      norm_num
      linarith
    norm_num at h1 ⊢
    linarith
  refine ⟨hf, hex, hlg, hc, hp, ho, ho', C129_products hf ho' (by norm_num), ?_, ?_,
    fun _ _ _ _ _ _ _ _ => ⟨_, rfl⟩⟩
  · intro h s l K hm hK
    obtain ⟨hs, hKe⟩ := hker h s l K hm hK
    have hlt : ((2 : ℕ) : ℝ) * (5 / 10 ^ 13) < (1 / 100) ^ 2 + 1 / 100000 := by norm_num
    have hpos := near_posDef hs hKe hlt
    have hform := near_form hKe
    have hKb : ∀ i j, |K i j| ≤ 2 := fun i j => by
      have h1 := hKe i j
      obtain ⟨h4, h5⟩ := gram_bound name s l (.vec X) (.vec X) i j
      have h3 : |noisyGram name (1 / 100) s l (.vec X) i j| ≤ 3 / 2 := by
        have := hm.signal
        rw [noisyGram, Matrix.add_apply, Matrix.smul_apply, smul_eq_mul, Matrix.one_apply]
        split <;> rw [abs_of_nonneg (by positivity)] <;> norm_num at h5 ⊢ <;> linarith
      have h6 := abs_add_le (K i j - noisyGram name (1 / 100) s l (.vec X) i j)
        (noisyGram name (1 / 100) s l (.vec X) i j)
      rw [sub_add_cancel] at h6
      norm_num at h1
      linarith
    have hex : ∃ L, IsCholesky K L := exists_cholesky K hs fun x hx => by
      have := hpos.dotProduct_mulVec_pos hx
      simpa [dotProduct, Matrix.mulVec, mul_add, mul_assoc] using this
    obtain ⟨L, hLe⟩ : ∃ L, L = hex.choose := ⟨_, rfl⟩
    have hL : IsCholesky K L := hLe ▸ hex.choose_spec
    have hch : (roundLibrary o o').chol K = .ok fun i j => roundAway (L i j) := by
      rw [hLe]
      exact dif_pos hex
    have hLb : ∀ i j, |L i j| ≤ 2 := fun i j => by
      have h1 : L i j ^ 2 ≤ K i i := by
        rw [← isCholesky_entry hL i i]
        have := Finset.single_le_sum (f := fun k => L i k * L i k) (fun k _ => mul_self_nonneg (L i k))
          (Finset.mem_univ j)
        simpa [sq] using this
      have h2 := (abs_le.1 (hKb i i)).2
      exact abs_le_of_sq_le_sq (by linarith) (by norm_num)
    have hLd : ∀ i, 1 / 2 ^ 10 ≤ L i i := fun i => by
      have h1 := cholesky_diag_ge hL (by norm_num) hform i
      refine le_of_sq_le_sq ?_ (hL.2.1 i).le
      exact le_trans (by norm_num) h1
    obtain ⟨e, he⟩ : ∃ e : ℝ, e = 1 / 2 ^ 53 * 2 + (2 : ℝ) ^ (-1075 : ℤ) := ⟨_, rfl⟩
    have he1 : e ≤ 23 / 10 ^ 17 := by
      rw [he]
      refine (add_le_add le_rfl hw).trans ?_
      norm_num
    have he0 : 0 ≤ e := by rw [he]; positivity
    have hfac := factors_round hf hL hLb hLd he
    obtain ⟨δ, hδ⟩ : ∃ δ : ℝ, δ = ((2 : ℕ) : ℝ) * (e * (2 + e) + 2 * e) := ⟨_, rfl⟩
    rw [← hδ] at hfac
    have hδ1 : δ ≤ 2 / 10 ^ 15 := by
      have h1 : e * (2 + e) ≤ 23 / 10 ^ 17 * (2 + 1 / 10 ^ 10) := mul_le_mul he1
        (by norm_num at he1 ⊢; linarith) (by positivity) (by norm_num)
      rw [hδ]
      norm_num at h1 he1 ⊢
      linarith
    have hδ0 : 0 ≤ δ := by rw [hδ]; positivity
    refine ⟨_, hch, ⟨hfac.mem, hfac.upper, hfac.diag, fun i j => (hfac.near i j).trans ?_⟩, fun r hr => ?_⟩
    · norm_num at hδ1 ⊢
      linarith
    obtain ⟨A, hA⟩ : ∃ A : Matrix (Fin 2) (Fin 2) ℝ, A = (Matrix.of fun i j => roundAway (L i j)) *
      (Matrix.of fun i j => roundAway (L i j))ᵀ := ⟨_, rfl⟩
    have hAe : ∀ i j, A i j = ∑ k, roundAway (L i k) * roundAway (L j k) := fun i j => by
      rw [hA, Matrix.mul_apply]
      rfl
    have hAK : ∀ i j, |A i j - K i j| ≤ δ := fun i j => by
      rw [hAe]
      exact hfac.near i j
    have hAs : ∀ i j, A i j = A j i := fun i j => by
      rw [hAe, hAe]
      exact Finset.sum_congr rfl fun k _ => mul_comm _ _
    have hAG : ∀ i j, |A i j - noisyGram name (1 / 100) s l (.vec X) i j| ≤ 51 / 10 ^ 14 := fun i j => by
      refine (abs_sub_le _ (K i j) _).trans ((add_le_add (hAK i j) (hKe i j)).trans ?_)
      norm_num at hδ1 ⊢
      linarith
    have hAp := near_posDef hAs hAG (by norm_num)
    have hAf := near_form hAG
    have hAb : ∀ i j, |A i j| ≤ 3 := fun i j => by
      have h1 := abs_add_le (A i j - K i j) (K i j)
      rw [sub_add_cancel] at h1
      have := hAK i j
      have := hKb i j
      norm_num at hδ1
      linarith
    have hxb : ∀ i, |(A⁻¹ *ᵥ r) i| ≤ 130000 := fun i => by
      refine (entry_le_length _ i).trans ((length_inv_le (by norm_num) hAp hAf r).trans ?_)
      rw [div_le_iff₀ (by norm_num)]
      have h1 := length_le_entries (by norm_num) hr
      have h2 : √((2 : ℕ) : ℝ) ≤ 1415 / 1000 := Real.sqrt_le_iff.2 ⟨by norm_num, by norm_num⟩
      norm_num at h1 h2 ⊢
      linarith
    have hsol := solves_round hf hAp hAb hxb
    have hsolve : (roundLibrary o o').solve (fun i j => roundAway (L i j)) r =
        fun i => roundAway ((A⁻¹ *ᵥ r) i) := by
      rw [hA]
      rfl
    rw [hsolve]
    refine ⟨hsol.mem, fun i => ?_⟩
    have hab : ∀ j, |roundAway ((A⁻¹ *ᵥ r) j)| ≤ 130001 := fun j => by
      have h1 := abs_add_le (roundAway ((A⁻¹ *ᵥ r) j) - (A⁻¹ *ᵥ r) j) ((A⁻¹ *ᵥ r) j)
      rw [sub_add_cancel] at h1
      have h2 := fl_error hf ((A⁻¹ *ᵥ r) j)
      have h3 := hxb j
      norm_num at h2 hw
      linarith
    have h1 := hsol.near i
    have h2 : |∑ j, K i j * roundAway ((A⁻¹ *ᵥ r) j) - ∑ j, A i j * roundAway ((A⁻¹ *ᵥ r) j)| ≤
        2 * (2 / 10 ^ 15 * 130001) := by
      rw [← Finset.sum_sub_distrib]
      refine (Finset.abs_sum_le_sum_abs _ _).trans ((Finset.sum_le_sum fun j _ =>
        (?_ : _ ≤ (2 / 10 ^ 15 * 130001 : ℝ))).trans_eq (by simp))
      rw [← sub_mul, abs_mul, abs_sub_comm]
      exact mul_le_mul ((hAK i j).trans hδ1) (hab j) (abs_nonneg _) (by norm_num)
    refine (abs_sub_le _ (∑ j, A i j * roundAway ((A⁻¹ *ᵥ r) j)) _).trans ((add_le_add h2 h1).trans ?_)
    refine (add_le_add le_rfl (mul_le_mul_of_nonneg_left (mul_le_mul_of_nonneg_left
      (add_le_add le_rfl hw) (by norm_num)) (by norm_num))).trans ?_
    norm_num
  · intro h s l K hm hK
    obtain ⟨hs, hKe⟩ := hker h s l K hm hK
    have hB := near_inverse_entry (V := K⁻¹) (θ := 0) hs hKe (by norm_num) (by simp)
    refine ⟨_, rfl, fun i j => ⟨hf.mem _, (fl_error hf _).trans ?_⟩⟩
    have h1 : |K⁻¹ i j| ≤ 10000 := (hB i j).trans (by norm_num)
    refine (add_le_add (mul_le_mul_of_nonneg_left h1 (by norm_num)) hw).trans ?_
    norm_num

/-- A model for examples. -/
noncomputable def rsBo : BOwGP 2 where
  range_X := fun _ => (-1, 1)
  str_surrogate := "gp"
  str_acq := "ei"
  normalize_Y := true
  str_optimizer_method_bo := "L-BFGS-B"
  str_cov := "matern52"
  use_ard := true
  prior_mu := none
  str_optimizer_method_gp := "BFGS"
  str_modelselection_method := "ml"

/-- Inputs for examples. -/
noncomputable def rsPoints : Fin 2 → Point 2 := ![![0, 0], ![1, -1 / 2]]

/-- Optimisers that stay where they start, in the box. -/
noncomputable def rsOracles : Oracles 2 where
  fitHyps _ _ x0 _ _ := .ok x0
  lbfgsb _ x0 B := .ok fun i => max (B i).1 (min (B i).2 (x0 i))
  direct _ _ := .error .value
  cma _ _ _ _ := .error .value
  draws := { uniform := fun k => if k % 3 = 0 then 0 else 1 / 2, normal := fun _ => 0, sobol := fun _ _ => 0,
             halton := fun _ _ => 0 }

/-- Inputs and the box are close to the origin. -/
theorem rsPoints_box (x : Point 2) (h : StepPoint rsPoints rsBo.range_X x) :
    scaledLength (fun _ => 1) x ≤ 2 := by
  have h1 : ∀ i, |x i| ≤ 1 := by
    rcases h with ⟨k, rfl⟩ | h
    · intro i
      fin_cases k <;> fin_cases i <;> simp [rsPoints] <;> norm_num [abs_le]
    · exact fun i => abs_le.2 (h i)
  have h2 : ∀ i, x i ^ 2 ≤ 1 := fun i => by
    have := pow_le_pow_left₀ (abs_nonneg _) (h1 i) 2
    simpa using this
  refine Real.sqrt_le_iff.2 ⟨by norm_num, ?_⟩
  have h3 := h2 0
  have h4 := h2 1
  simp [Fin.sum_univ_two]
  norm_num
  linarith

/-- Two responses, a library that rounds what it should compute, and optimisers that stay where they start: the
step returns (`C158_returns`) and the conclusions of `C158_choice` and `C158_fit` hold for it. -/
example : ∃ (lib : Library 2) (r : GpState × ℕ) (p : Point 2) (info : DictInfo 2 2)
      (K V : Matrix (Fin 2) (Fin 2) ℝ) (hyps : HypDict) (s : ℝ) (l : Fin 2 → ℝ) (mean dev : Point 2 → ℝ)
      (Yt : Fin 2 → ℝ),
    Accurate lib rsPoints "matern52" ∧
    RoundedStep.optimize lib rsBo rsOracles (fun k => k) rsPoints [3, 7] "uniform" 5 "regular"
      ({ is_optimize_hyps := true, historical_hyps := [] }, 0) = (r, .ok (p, info)) ∧
    info.fit = some (K, V, hyps) ∧
    NearBest (fun x => meanImprovement 0 (mean x) (dev x)) info.next_points (26 / 100) p ∧
    List.ofFn Yt = info.Y_normalized ∧
    Real.log (mvnDensity (fun _ => 0) (noisyGram "matern52" (1 / 100) 1 (fun _ => 1) (.vec rsPoints)) Yt) ≤
      Real.log (mvnDensity (fun _ => 0) (noisyGram "matern52" (1 / 100) s l (.vec rsPoints)) Yt) + 44 / 100 := by
  have ho : (SumOrder.add (.entry 0) (.entry 1)).Covers 2 := by
    simp [SumOrder.Covers, SumOrder.entries, List.range_succ]
  have hn : "matern52" ∈ baseNames := by simp [baseNames]
  have hlib := roundLibrary_accurate ho ho le_rfl rsPoints hn
  have hy : ∀ i, (![3, 7] : Fin 2 → ℝ) i ∈ Double := by
    intro i
    fin_cases i
    · exact ⟨3, 0, by norm_num, by norm_num, by norm_num⟩
    · exact ⟨7, 0, by norm_num, by norm_num, by norm_num⟩
  have hlo : (∃ i, (![3, 7] : Fin 2 → ℝ) i = 3) ∧ ∀ i, 3 ≤ (![3, 7] : Fin 2 → ℝ) i :=
    ⟨⟨0, rfl⟩, fun i => by fin_cases i <;> norm_num⟩
  have hhi : (∃ i, (![3, 7] : Fin 2 → ℝ) i = 7) ∧ ∀ i, (![3, 7] : Fin 2 → ℝ) i ≤ 7 :=
    ⟨⟨1, rfl⟩, fun i => by fin_cases i <;> norm_num⟩
  obtain ⟨r, p, info, K, V, hyps, s, l, h1, h2, h3, h4⟩ := C158_returns (bo := rsBo) (orc := rsOracles)
    (y := ![3, 7]) (sm := "uniform") (ns := 5) (lo := 3) (hi := 7) (fun k => k)
    { is_optimize_hyps := true, historical_hyps := [] } 0 hlib (by norm_num) le_rfl rfl rfl rfl hn
    (by simp [rsBo, ALLOWED_OPTIMIZER_METHOD_GP]) rfl rfl
    (by simp [ALLOWED_SAMPLING_METHOD, ALLOWED_INITIALIZING_METHOD_BO]) (by simp) (by norm_num) hy hlo hhi
    (by norm_num) rsPoints_box (fun _ _ x0 _ _ h0 _ => ⟨x0, h0, rfl⟩)
    (fun _ x0 _ => ⟨_, fun i => ⟨le_max_left _ _, max_le (by norm_num [rsBo]) (min_le_left _ _)⟩, rfl⟩)
  obtain ⟨_, _, _, _, mean, dev, -, -, -, h5, -⟩ := C158_choice h1 hlib (by norm_num) le_rfl rfl rfl rfl
    (by simp) hy hlo hhi (by norm_num) (fun K' V' hyps' e => by
      rw [h2] at e
      obtain ⟨rfl, rfl, rfl⟩ : K = K' ∧ V = V' ∧ hyps = hyps' := by simpa using e
      exact ⟨s, l, h3⟩)
  obtain ⟨Yt, h6, h7⟩ := C158_fit h1 hlib (by norm_num) (by norm_num) le_rfl rfl
    (fun _ _ _ _ _ v hv y0 g0 e => by
      obtain rfl := Except.ok.inj hv
      exact ⟨y0, g0, e, le_rfl⟩) rfl (by simp) (fun i => rsPoints_box _ (.inl ⟨i, rfl⟩)) h4 h2
    ⟨h3.describes, h3.signal, by rintro _ ⟨i, rfl⟩; exact h3.points _ (.inl ⟨i, rfl⟩)⟩
  exact ⟨_, r, p, info, K, V, hyps, s, l, mean, dev, Yt, hlib, by simpa using h1, h2, h5, h6, h7⟩

end Verif.Props
