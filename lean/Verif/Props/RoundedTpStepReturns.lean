import Verif.Props.RoundedTpStep
import Verif.Props.RoundedStepReturns
import Verif.Lemmas.StepTotalOthers

/-! # C161: steps with the Student-t process in double precision that return -/

namespace Verif.Props

open Verif.Spec Verif.Covariance Verif.UtilsCovariance Verif.Lemmas Verif.Rounded Verif.RoundedPredict
  Verif.Constants Verif.BoCommon Verif.UtilsBo Verif.RoundedStep
open Verif.BoWTp (BOwTP TpState)

section

variable {n d : ℕ} {lib : Library n} {nll : List Flt → Py ℝ} {bo : BOwTP d} {orc : Oracles d}
  {X : Fin n → Point d}

/-- Hyperparameters of ordinary size with between three and a million degrees of freedom. -/
def OrdinaryTpHyps (P : Point d → Prop) (h : HypDict) (s : ℝ) (l : Fin d → ℝ) (ν : ℝ) : Prop :=
  OrdinaryHyps P h s l ∧ h.dof = some (.flt (.fin ν)) ∧ 3 ≤ ν ∧ ν ≤ 10 ^ 6 ∧ ν ∈ Double

/-- The acquisition values of several candidates can be computed. -/
theorem tp_batch_returns (hlib : Accurate lib X bo.str_cov) (hn10 : n ≤ 10) (hd : d ≤ 2)
    (hacq : bo.str_acq = "ei") (hprior : bo.prior_mu = none) (hn : bo.str_cov ∈ baseNames)
    {P : Point d → Prop} {hyps : HypDict} {s ν : ℝ} {l : Fin d → ℝ} (hm : OrdinaryTpHyps P hyps s l ν)
    (hP : ∀ i, P (X i)) {K V : Matrix (Fin n) (Fin n) ℝ}
    (hK : RoundedKernels.kernelMatrix lib.fl lib.ex lib.o X hyps bo.str_cov = .ok K)
    (hV : lib.inv K = .ok V) {Yt : Fin n → ℝ} (hYd : ∀ i, Yt i ∈ Double)
    (hY : ∀ i, 0 ≤ Yt i ∧ Yt i ≤ 10) (hY0 : ∃ i, Yt i = 0) (pts : List (Point d)) (hx : ∀ x ∈ pts, P x) :
    ∃ a, RoundedTp.negAcquisition lib.fl lib.ex lib.cdf lib.pdf lib.lg lib.o lib.mm bo X Yt
      (K, V, hyps) pts = .ok a := by
  obtain ⟨hm, hdof, hν, -, hνd⟩ := hm
  have hn1 : 1 ≤ n := Nat.one_le_iff_ne_zero.2 fun h0 => by subst h0; exact hY0.choose.elim0
  have hn' : (n : ℝ) ≤ 10 := by exact_mod_cast hn10
  have hd' : (d : ℝ) ≤ 2 := by exact_mod_cast hd
  have hd0 : (0 : ℝ) ≤ d := Nat.cast_nonneg d
  have zero : (0 : ℝ) ∈ Double := by simpa using double_nat (show 0 < 2 ^ 53 by norm_num)
  have hY10 : ∀ i, |Yt i| ≤ 10 := fun i => abs_le.2 ⟨by linarith [hY i], (hY i).2⟩
  have hQ := default_residual hn' hY10
  have hmX : OrdinaryHyps (fun x => ∃ i, x = X i) hyps s l :=
    ⟨hm.describes, hm.signal, by rintro _ ⟨i, rfl⟩; exact hm.points _ (hP i)⟩
  obtain ⟨V', hV', hVe⟩ := hlib.inverse _ _ _ _ hmX hK
  obtain rfl : V' = V := by simpa [hV] using hV'.symm
  obtain ⟨k1, -⟩ := default_choice (n := n) hn' (Nat.cast_nonneg n) hd' hd0 hm.signal hQ
    (by positivity) rfl rfl rfl rfl rfl rfl rfl rfl rfl
  obtain ⟨-, _, _, _, _, ν', mu, sd, S, -, -, h2, -⟩ := C159_predictions (mm := lib.mm) (Xs := pts.get)
    (prior := none) (μ := fun _ => 0) (μs := fun _ => 0) hlib.nearest hlib.exp (by positivity) (by norm_num)
    hlib.order (hd.trans (by norm_num)) hn hm.describes (show 2 < ν by linarith) hνd hdof hn1
    (lt_of_le_of_lt hn10 (by norm_num)) (fun i => hm.points _ (hP i))
    (fun j => hm.points _ (hx _ (List.get_mem pts j))) (by norm_num; linarith) (by positivity)
    (by norm_num; linarith) (by positivity) hlib.mul rfl rfl (fun _ => zero) (fun _ => zero) hYd hK
    (fun i j => (hVe i j).1) (by positivity) (fun i j => (hVe i j).2) (u := 1 / 2 ^ 53) rfl rfl rfl k1 rfl rfl
    rfl rfl rfl rfl rfl rfl rfl rfl rfl
  rw [← hprior] at h2
  have h3 := roundedTp_doubles hlib.nearest h2
  obtain ⟨hjd, hj0, -⟩ := jitter_double hlib.nearest
  have h4 := rounded_ei_eq (cdf := lib.cdf) (pdf := lib.pdf) hlib.nearest (ms := List.ofFn mu)
    (ss := List.ofFn sd) hjd (doubles_ofFn fun j => (h3 j).2.1) (by simp)
    (isBest_ofFn hY0 fun i => (hY i).1) (by
      intro w hw
      obtain ⟨j, rfl⟩ := List.mem_ofFn.1 hw
      linarith [(h3 j).2.2])
  have hch : RoundedChoice.chooseFunAcquisition lib.fl lib.cdf lib.pdf lib.lg bo.str_acq (some (1 / 100)) =
      .ok fun m s Y => RoundedAcquisition.ei lib.fl lib.cdf lib.pdf m s Y (lib.fl JITTER_ACQ) := by
    rw [hacq]
    simp [RoundedChoice.chooseFunAcquisition, pyAssert, ALLOWED_BO_ACQ, bind, Except.bind, pure,
      Except.pure]
  rw [RoundedTp.negAcquisition]
  simp only [RoundedTp.computeAcquisitions, RoundedTp.computePosteriors, Gp.validateCommonArgs,
    noiseArg_describes hm.describes, hch, h2, h4, bind, Except.bind, pure, Except.pure]
  exact ⟨_, rfl⟩

/-- The fit of the hyperparameters returns. -/
theorem tp_fit_returns (hlib : Accurate lib X bo.str_cov) (hd : d ≤ 2)
    (hprior : bo.prior_mu = none) (hn : bo.str_cov ∈ baseNames) {P : Point d → Prop} (hP : ∀ i, P (X i))
    (htp : bo.str_optimizer_method_tp ∈ ALLOWED_OPTIMIZER_METHOD_TP)
    (hX : ∀ x, P x → scaledLength (fun _ => 1) x ≤ 2)
    (hnll : ∀ v h s l ν, restoreHyps bo.str_cov v false bo.use_ard true = .ok h →
      OrdinaryTpHyps P h s l ν → ∃ a, nll v = .ok a)
    (hfit : Minimizes orc.fitHyps fun v => ∃ h s l ν,
      restoreHyps bo.str_cov v false bo.use_ard true = .ok h ∧ OrdinaryTpHyps P h s l ν) :
    ∃ K V hyps s l ν, RoundedTpStep.getOptimizedKernel lib nll orc.fitHyps X bo.prior_mu bo.str_cov
        bo.str_optimizer_method_tp bo.use_ard = .ok (K, V, hyps) ∧
      OrdinaryTpHyps P hyps s l ν ∧
      RoundedKernels.kernelMatrix lib.fl lib.ex lib.o X hyps bo.str_cov = .ok K ∧ lib.inv K = .ok V := by
  have hd' : (d : ℝ) ≤ 2 := by exact_mod_cast hd
  have hall : bo.str_cov ∈ ALLOWED_COV := List.mem_append_left _ hn
  have hsub : ∀ {h s l}, OrdinaryHyps P h s l → OrdinaryHyps (fun x => ∃ i, x = X i) h s l := fun hm =>
    ⟨hm.describes, hm.signal, by rintro _ ⟨i, rfl⟩; exact hm.points _ (hP i)⟩
  obtain ⟨hs, v0, e1, e2, -⟩ := start_vector_tp (d := d) hn bo.use_ard
  obtain ⟨hdes, hdof, -⟩ := start_describes hall e1
  rw [show GP_NOISE = 1 / 100 by norm_num [GP_NOISE]] at hdes
  have five : (5 : ℝ) ∈ Double := by simpa using double_nat (show 5 < 2 ^ 53 by norm_num)
  have hv0 : ∃ h s l ν, restoreHyps bo.str_cov v0 false bo.use_ard true = .ok h ∧ OrdinaryTpHyps P h s l ν :=
    ⟨hs, 1, fun _ => 1, 5, start_restore hall e1 e2, ⟨hdes, by norm_num, hX⟩, hdof rfl, by norm_num,
      by norm_num, five⟩
  obtain ⟨ranges, -, -, e5, -⟩ := C20_ranges_aligned bo.str_cov hall d false bo.use_ard true
  obtain ⟨v, ⟨h, s, l, ν, f1, f2⟩, hk⟩ := hfit bo.str_optimizer_method_tp (fun hyps => do
      let v ← nll hyps
      return (v, none)) v0 (some ranges) false hv0 fun v ⟨h, s, l, ν, f1, f2⟩ => by
    obtain ⟨a, ha⟩ := hnll v h s l ν f1 f2
    exact ⟨a, none, by rw [ha]; rfl, by simp⟩
  obtain ⟨K, hK, -, -⟩ := kernelMatrix_error hlib.nearest hlib.exp (by norm_num) (by norm_num) hlib.order
    (by norm_num; linarith) hn f2.1.describes (fun i => f2.1.points _ (hP i)) (by norm_num; linarith)
  obtain ⟨V, hV, -⟩ := hlib.inverse _ _ _ _ (hsub f2.1) hK
  refine ⟨K, V, h, s, l, ν, ?_, f2, hK, hV⟩
  have hc : checkStrCov bo.str_cov 2 = .ok () := checkStrCov_suits (vec_suits hn X)
  have hμ : Gp.getPriorMu bo.prior_mu (.vec X) = .ok fun _ => 0 := by rw [hprior]; rfl
  have hm' : bo.str_optimizer_method_tp ∈ ["L-BFGS-B", "SLSQP"] := htp
  unfold RoundedTpStep.getOptimizedKernel
  simp only [FIX_GP_NOISE]
  rw [hc, ok_bind, assert_true htp, ok_bind, hμ, ok_bind, e1, ok_bind, e2, ok_bind, if_pos hm', e5, ok_bind, hk,
    ok_bind, f1, ok_bind, validate_describes_tp f2.1.describes (by linarith [f2.2.2.1]) f2.2.1 hall, ok_bind,
    RoundedStep.getKernelInverse, hK, ok_bind, hV, ok_bind]
  rfl

/-- C161: a step with the Student-t process in double precision returns, with L-BFGS-B for the acquisition
function, if the likelihood has a value at hyperparameters of ordinary size and each numerical optimiser returns
admissible values whenever its objective has a value wherever it may look. What it returns can be used in
`C161_choice`. -/
theorem C161_returns {y : Fin n → ℝ} (clock : ℕ → ℝ) (st : TpState) (t : ℕ)
    (hlib : Accurate lib X bo.str_cov) (hn10 : n ≤ 10) (hd : d ≤ 2)
    (hacq : bo.str_acq = "ei") (hprior : bo.prior_mu = none) (hnorm : bo.normalize_Y = true)
    (hn : bo.str_cov ∈ baseNames) (htp : bo.str_optimizer_method_tp ∈ ALLOWED_OPTIMIZER_METHOD_TP)
    (hbo : bo.str_optimizer_method_bo = "L-BFGS-B")
    {sm : String} (hsm : sm ∈ ALLOWED_SAMPLING_METHOD) (hg : sm ≠ "grid") {ns : ℤ} (hns : 0 < ns)
    (hy : ∀ i, y i ∈ Double) {lo hi : ℝ} (hlo : (∃ i, y i = lo) ∧ ∀ i, lo ≤ y i)
    (hhi : (∃ i, y i = hi) ∧ ∀ i, y i ≤ hi) (hlt : lo < hi)
    (hX : ∀ x, StepPoint X bo.range_X x → scaledLength (fun _ => 1) x ≤ 2)
    (hnll : ∀ v h s l ν, restoreHyps bo.str_cov v false bo.use_ard true = .ok h →
      OrdinaryTpHyps (StepPoint X bo.range_X) h s l ν → ∃ a, nll v = .ok a)
    (hfit : Minimizes orc.fitHyps fun v => ∃ h s l ν,
      restoreHyps bo.str_cov v false bo.use_ard true = .ok h ∧
      OrdinaryTpHyps (StepPoint X bo.range_X) h s l ν)
    (hacqs : ∀ f x0, (∀ q, InBox bo.range_X q → ∃ v, f q = .ok (.fin v)) →
      ∃ q, InBox bo.range_X q ∧ orc.lbfgsb f x0 bo.range_X = .ok q) :
    ∃ r p info K V hyps s l ν, RoundedTpStep.optimize lib nll bo orc clock X (List.ofFn y) sm ns (st, t) =
        (r, .ok (p, info)) ∧ info.fit = some (K, V, hyps) ∧
      OrdinaryTpHyps (StepPoint X bo.range_X) hyps s l ν := by
  obtain ⟨Y', o1, o2, o3, -⟩ := C104_normalize hlib.nearest (List.ofFn y)
    (fun z hz => by obtain ⟨i, rfl⟩ := List.mem_ofFn.1 hz; exact hy i) lo hi
    ⟨List.mem_ofFn.2 hlo.1, fun z hz => by obtain ⟨i, rfl⟩ := List.mem_ofFn.1 hz; exact hlo.2 i⟩
    ⟨List.mem_ofFn.2 hhi.1, fun z hz => by obtain ⟨i, rfl⟩ := List.mem_ofFn.1 hz; exact hhi.2 i⟩ hlt
  obtain ⟨c1, hc1⟩ := column_total (n := n) (Y := List.ofFn y) (by simp)
  obtain ⟨Yt, hc2⟩ := column_total (n := n) (Y := Y') (by simp [o2])
  have e1 : List.ofFn Yt = Y' := (column_ok hc2).2
  have hat : ∀ i : Fin n, (List.ofFn y)[(i : ℕ)]? = some (y i) ∧ Y'[(i : ℕ)]? = some (Yt i) :=
    fun i => by rw [← e1]; simp
  have hYt := fun i : Fin n => o3 i (y i) (Yt i) (hat i).1 (hat i).2
  have hYd : ∀ i, Yt i ∈ Double := fun i => normalized_double hlib.nearest
    (fun z hz => by obtain ⟨i, rfl⟩ := List.mem_ofFn.1 hz; exact hy i) o1 _
    (by rw [← e1]; exact List.mem_ofFn.2 ⟨i, rfl⟩)
  have hY0 : ∃ i, Yt i = 0 := by
    obtain ⟨i, hi⟩ := hlo.1
    exact ⟨i, (hYt i).2.2.2.1 hi⟩
  have hY10 : ∃ i, Yt i = 10 := by
    obtain ⟨i, hi⟩ := hhi.1
    exact ⟨i, (hYt i).2.2.2.2.1 hi⟩
  obtain ⟨K, V, hyps, s, l, ν, f1, f2, f3, f4⟩ := tp_fit_returns hlib hd hprior hn
    (fun i => .inl ⟨i, rfl⟩) htp hX hnll hfit
  have hobj : ∀ q, InBox bo.range_X q → ∃ v, tpObjective lib bo X Yt (K, V, hyps) q = .ok (.fin v) :=
    fun q hq => by
      obtain ⟨_, _, _, v, -, e, -⟩ := C161_value hlib hn10 hd hacq hprior hn f2.1
        (fun i => .inl ⟨i, rfl⟩) f2.2.2.1 f2.2.2.2.1 f2.2.2.2.2 f2.2.1 f3 f4 hYd
        (fun i => ⟨(hYt i).1, (hYt i).2.1⟩) hY0 hY10 (.inr hq) rfl
      exact ⟨_, e⟩
  obtain ⟨init, g1, g2⟩ := roundedSamples_returns (fl := lib.fl) (B := bo.range_X) (r := orc.draws) hsm hg hns
  obtain ⟨pts, g3, g4, g5⟩ := mapM_total
    (f := fun x => orc.lbfgsb (tpObjective lib bo X Yt (K, V, hyps)) x bo.range_X)
    (P := InBox bo.range_X) init fun a _ => hacqs _ a hobj
  have g6 : pts ≠ [] := by
    rintro rfl
    exact g2 (List.length_eq_zero_iff.1 g4.symm)
  classical
  have hval : ∀ q ∈ pts, tpObjective lib bo X Yt (K, V, hyps) q =
      .ok (if hq : InBox bo.range_X q then .fin (hobj q hq).choose else .nan) := fun q hq => by
    rw [dif_pos (g5 q hq)]
    exact (hobj q (g5 q hq)).choose_spec
  obtain ⟨p, hp, hpb⟩ : ∃ p, getBestAcquisitionByEvaluation pts
      (tpObjective lib bo X Yt (K, V, hyps)) = .ok [p] ∧ InBox bo.range_X p := by
    rcases C03_best_by_evaluation pts _ _ hval with ⟨i, x, h4, h5⟩ | ⟨-, h4⟩
    · refine ⟨x, h4, ?_⟩
      obtain ⟨q, hq, e⟩ := List.mem_map.1 (List.mem_of_getElem? h5.1)
      obtain rfl := (Prod.mk.inj e).1
      exact g5 q hq
    · obtain ⟨q, hq⟩ := List.exists_mem_of_ne_nil _ g6
      refine absurd ?_ (h4 q hq)
      rw [dif_pos (g5 q hq)]
      trivial
  have ha : RoundedStep.optimizeAcq lib bo.toBaseBO orc (onePoint (RoundedTp.negAcquisition lib.fl lib.ex
      lib.cdf lib.pdf lib.lg lib.o lib.mm bo X Yt (K, V, hyps))) sm ns = .ok (p, pts) := by
    have hc : RoundedStep.candidates lib bo.toBaseBO orc (tpObjective lib bo X Yt (K, V, hyps)) sm ns =
        .ok pts := by
      rw [RoundedStep.candidates, if_pos hbo, g1, ok_bind]
      exact g3
    change RoundedStep.optimizeAcq lib bo.toBaseBO orc (tpObjective lib bo X Yt (K, V, hyps)) sm ns = _
    rw [RoundedStep.optimizeAcq, hc, ok_bind, assert_true g6, ok_bind, hp]
    rfl
  obtain ⟨acqs, hacqs'⟩ := tp_batch_returns hlib hn10 hd hacq hprior hn f2 (fun i => .inl ⟨i, rfl⟩) f3 f4 hYd
    (fun i => ⟨(hYt i).1, (hYt i).2.1⟩) hY0 pts fun q hq => .inr (g5 q hq)
  refine ⟨({ st with historical_hyps := st.historical_hyps ++ [hyps] }, t + 6), p,
    { next_points := pts
      acquisitions := acqs
      Y_original := List.ofFn y
      Y_normalized := Y'
      fit := some (K, V, hyps)
      time_surrogate := lib.fl (clock (t + 2) - clock (t + 1))
      time_acq := lib.fl (clock (t + 4) - clock (t + 3))
      time_overall := lib.fl (clock (t + 5) - clock t) }, K, V, hyps, s, l, ν, ?_, rfl, f2⟩
  unfold RoundedTpStep.optimize
  have hY' : (if bo.normalize_Y = true then Rounded.normalizeMinMax lib.fl (List.ofFn y)
      else .ok (List.ofFn y)) = .ok Y' := by
    rw [if_pos hnorm, o1]
  rw [lift_bind hc1, lift_bind (assert_true hns), lift_bind (assert_true hsm), now_bind, lift_bind hY',
    lift_bind hc2, now_bind, lift_bind f1,
    OptM.bind_of_ok (s1 := (st, t + 2)) (a := st) rfl,
    OptM.bind_of_ok (s1 := ({ st with historical_hyps :=
      st.historical_hyps ++ [hyps] }, t + 2)) (a := ()) rfl, now_bind, now_bind, lift_bind ha]
  dsimp only
  rw [lift_bind (nextInBounds_total hpb), lift_bind (inBounds_total g5), now_bind,
    lift_bind hacqs', now_bind]
  rfl

end

private noncomputable def rtsBo : BOwTP 2 where
  range_X := fun _ => (-1, 1)
  str_surrogate := "tp"
  str_acq := "ei"
  normalize_Y := true
  str_optimizer_method_bo := "L-BFGS-B"
  str_cov := "matern52"
  use_ard := true
  prior_mu := none
  str_optimizer_method_tp := "SLSQP"

/-- Two responses, a library that rounds what it should compute, and optimisers that stay where they start: the
step returns (`C161_returns`) and the conclusions of `C161_step` and `C161_choice` hold for it. -/
example : ∃ (lib : Library 2) (r : TpState × ℕ) (p : Point 2) (info : DictInfo 2 2)
      (K V : Matrix (Fin 2) (Fin 2) ℝ) (hyps : HypDict) (c : ℝ) (mean dev : Point 2 → ℝ),
    Accurate lib rsPoints "matern52" ∧
    RoundedTpStep.optimize lib (fun _ => .ok 0) rtsBo rsOracles (fun k => k) rsPoints [3, 7] "uniform" 5
      ({ historical_hyps := [] }, 0) = (r, .ok (p, info)) ∧
    info.fit = some (K, V, hyps) ∧ r.1.historical_hyps = [hyps] ∧ InBox rtsBo.range_X p ∧
    NearBest (fun x => meanImprovement 0 (mean x) (dev x)) info.next_points
      (132 / 1000 + 298 / 1000 * √c) p := by
  have ho : (SumOrder.add (.entry 0) (.entry 1)).Covers 2 := by
    simp [SumOrder.Covers, SumOrder.entries, List.range_succ]
  have hn : "matern52" ∈ baseNames := by simp [baseNames]
  have hlib := roundLibrary_accurate ho ho le_rfl rsPoints hn
  have hy : ∀ i, (![3, 7] : Fin 2 → ℝ) i ∈ Double := by
    intro i
    fin_cases i
    · exact ⟨3, 0, by norm_num, by norm_num, by norm_num⟩
    · exact ⟨7, 0, by norm_num, by norm_num, by norm_num⟩
  have hlo : (∃ i, (![3, 7] : Fin 2 → ℝ) i = 3) ∧ ∀ i, 3 ≤ (![3, 7] : Fin 2 → ℝ) i :=
    ⟨⟨0, rfl⟩, fun i => by fin_cases i <;> norm_num⟩
  have hhi : (∃ i, (![3, 7] : Fin 2 → ℝ) i = 7) ∧ ∀ i, (![3, 7] : Fin 2 → ℝ) i ≤ 7 :=
    ⟨⟨1, rfl⟩, fun i => by fin_cases i <;> norm_num⟩
  obtain ⟨r, p, info, K, V, hyps, s, l, ν, h1, h2, h3⟩ := C161_returns (bo := rtsBo) (orc := rsOracles)
    (nll := fun _ => .ok 0)
    (y := ![3, 7]) (sm := "uniform") (ns := 5) (lo := 3) (hi := 7) (fun k => k)
    { historical_hyps := [] } 0 hlib (by norm_num) le_rfl rfl rfl rfl hn
    (by simp [rtsBo, ALLOWED_OPTIMIZER_METHOD_TP]) rfl
    (by simp [ALLOWED_SAMPLING_METHOD, ALLOWED_INITIALIZING_METHOD_BO]) (by simp) (by norm_num) hy hlo hhi
    (by norm_num) rsPoints_box (fun _ _ _ _ _ _ _ => ⟨0, rfl⟩) (fun _ _ x0 _ _ h0 _ => ⟨x0, h0, rfl⟩)
    (fun _ x0 _ => ⟨_, fun i => ⟨le_max_left _ _, max_le (by norm_num [rtsBo]) (min_le_left _ _)⟩, rfl⟩)
  obtain ⟨_, _, _, _, _, _, _, c, mean, dev, -, -, -, -, -, -, -, h5, -⟩ := C161_choice h1 hlib (by norm_num)
    le_rfl rfl rfl rfl hy hlo hhi (by norm_num) (fun K' V' hyps' e => by
      rw [h2] at e
      obtain ⟨rfl, rfl, rfl⟩ : K = K' ∧ V = V' ∧ hyps = hyps' := by simpa using e
      exact ⟨s, l, ν, h3⟩)
  obtain ⟨_, K', V', hyps', _, _, -, e, -, -, -, -, h6, h7, h8, -⟩ := C161_step h1
  rw [h2] at e
  obtain ⟨rfl, rfl, rfl⟩ : K = K' ∧ V = V' ∧ hyps = hyps' := by simpa using e
  exact ⟨_, r, p, info, K, V, hyps, c, mean, dev, hlib, by simpa using h1, h2, by simpa using h6, h8 p h7, h5⟩

end Verif.Props
