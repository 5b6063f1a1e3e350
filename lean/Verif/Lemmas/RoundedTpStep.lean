import Verif.Model.RoundedTpStep
import Verif.Lemmas.RoundedStep
import Verif.Lemmas.RoundedTp

/-! # A whole step with the Student-t process and rounding (lemmas for C161) -/

namespace Verif.Lemmas

open Verif.Spec Verif.Covariance Verif.UtilsCovariance Verif.Rounded Verif.RoundedPredict Verif.Constants
  Verif.BoCommon Verif.BoWTp Verif.UtilsBo Verif.Gp
open Verif.RoundedStep (Library)

variable {n d : ℕ} {lib : Library n} {nll : List Flt → Py ℝ} {name : String} {h : HypDict}

/-- What a fit went through. -/
theorem roundedTpFit_trace {m : Minimize} {X : Fin n → Point d} {prior : PriorMu d}
    {method : String} {ard fix : Bool} {K V : Matrix (Fin n) (Fin n) ℝ}
    (hf : RoundedTpStep.getOptimizedKernel lib nll m X prior name method ard fix = .ok (K, V, h)) :
    ∃ μ h0 v0 mt bounds jac v hr, getPriorMu prior (.vec X) = .ok μ ∧
      getHyps name d false ard = .ok h0 ∧ convertHyps name h0 false fix = .ok v0 ∧
      m mt (fun hyps => do
        let v ← nll hyps
        return (v, none)) v0 bounds jac = .ok v ∧
      restoreHyps name v false ard fix = .ok hr ∧ (validateHypsDict hr name d false).2 = .ok h ∧
      RoundedKernels.kernelMatrix lib.fl lib.ex lib.o X h name = .ok K ∧ lib.inv K = .ok V := by
  unfold RoundedTpStep.getOptimizedKernel at hf
  obtain ⟨_, -, hf⟩ := py_bind_ok hf
  obtain ⟨_, -, hf⟩ := py_bind_ok hf
  obtain ⟨μ, e1, hf⟩ := py_bind_ok hf
  obtain ⟨h0, e2, hf⟩ := py_bind_ok hf
  obtain ⟨v0, e3, hf⟩ := py_bind_ok hf
  dsimp only at hf
  split at hf
  · obtain ⟨b, -, hf⟩ := py_bind_ok hf
    obtain ⟨v, e4, hf⟩ := py_bind_ok hf
    obtain ⟨hr, e5, hf⟩ := py_bind_ok hf
    obtain ⟨h', e6, hf⟩ := py_bind_ok hf
    obtain ⟨⟨K', V'⟩, e7, hf⟩ := py_bind_ok hf
    simp only [pure, Except.pure, Except.ok.injEq, Prod.mk.injEq] at hf
    obtain ⟨rfl, rfl, rfl⟩ := hf
    exact ⟨μ, h0, v0, _, _, _, v, hr, e1, e2, e3, e4, e5, e6, roundedInverse_ok e7⟩
  · obtain ⟨v, e4, hf⟩ := py_bind_ok hf
    cases e4

/-- What a step went through. -/
theorem roundedTpStep_ok {bo : BOwTP d} {o : Oracles d} {clock : ℕ → ℝ} {X : Fin n → Point d}
    {Y : List ℝ} {sm : String} {ns : ℤ} {st : TpState} {t : ℕ} {r : TpState × ℕ} {p : Point d}
    {info : DictInfo n d}
    (h : RoundedTpStep.optimize lib nll bo o clock X Y sm ns (st, t) = (r, .ok (p, info))) :
    n = Y.length ∧ 0 < ns ∧ sm ∈ ALLOWED_SAMPLING_METHOD ∧ info.Y_original = Y ∧
    (if bo.normalize_Y then Rounded.normalizeMinMax lib.fl Y else .ok Y) = .ok info.Y_normalized ∧
    ∃ Y_train fit, List.ofFn Y_train = info.Y_normalized ∧ info.fit = some fit ∧
      RoundedTpStep.getOptimizedKernel lib nll o.fitHyps X bo.prior_mu bo.str_cov bo.str_optimizer_method_tp
        bo.use_ard true = .ok fit ∧
      r = ({ st with historical_hyps := st.historical_hyps ++ [fit.2.2] }, t + 6) ∧
      info.next_points ≠ [] ∧
      getBestAcquisitionByEvaluation info.next_points (onePoint (RoundedTp.negAcquisition lib.fl lib.ex
        lib.cdf lib.pdf lib.lg lib.o lib.mm bo X Y_train fit)) = .ok [p] ∧
      RoundedStep.candidates lib bo.toBaseBO o (onePoint (RoundedTp.negAcquisition lib.fl lib.ex lib.cdf
        lib.pdf lib.lg lib.o lib.mm bo X Y_train fit)) sm ns = .ok info.next_points ∧
      (∀ q ∈ info.next_points, InBox bo.range_X q) ∧
      RoundedTp.negAcquisition lib.fl lib.ex lib.cdf lib.pdf lib.lg lib.o lib.mm bo X Y_train fit
        info.next_points = .ok info.acquisitions := by
  unfold RoundedTpStep.optimize at h
  obtain ⟨_, s1, a, h⟩ := OptM.bind_ok h
  obtain ⟨a2, rfl⟩ := lift_ok a
  obtain ⟨_, s1, a, h⟩ := OptM.bind_ok h
  obtain ⟨a3, rfl⟩ := lift_ok a
  obtain ⟨_, s1, a, h⟩ := OptM.bind_ok h
  obtain ⟨a4, rfl⟩ := lift_ok a
  obtain ⟨_, s1, a, h⟩ := OptM.bind_ok h
  obtain ⟨rfl, rfl⟩ := now_ok a
  obtain ⟨Y', s1, a, h⟩ := OptM.bind_ok h
  obtain ⟨a6, rfl⟩ := lift_ok a
  obtain ⟨Yt, s1, a, h⟩ := OptM.bind_ok h
  obtain ⟨a7, rfl⟩ := lift_ok a
  obtain ⟨_, s1, a, h⟩ := OptM.bind_ok h
  obtain ⟨rfl, rfl⟩ := now_ok a
  obtain ⟨fit, s1, a, h⟩ := OptM.bind_ok h
  obtain ⟨a8, rfl⟩ := lift_ok a
  obtain ⟨s, s1, a, h⟩ := OptM.bind_ok h
  obtain ⟨rfl, e⟩ := Prod.mk.inj a
  obtain rfl := Except.ok.inj e
  obtain ⟨_, s1, a, h⟩ := OptM.bind_ok h
  obtain rfl := (Prod.mk.inj a).1
  obtain ⟨_, s1, a, h⟩ := OptM.bind_ok h
  obtain ⟨rfl, rfl⟩ := now_ok a
  obtain ⟨_, s1, a, h⟩ := OptM.bind_ok h
  obtain ⟨rfl, rfl⟩ := now_ok a
  obtain ⟨⟨p', pts'⟩, s1, a, h⟩ := OptM.bind_ok h
  obtain ⟨a9, rfl⟩ := lift_ok a
  obtain ⟨p1, s1, a, h⟩ := OptM.bind_ok h
  obtain ⟨a10, rfl⟩ := lift_ok a
  obtain ⟨pts, s1, a, h⟩ := OptM.bind_ok h
  obtain ⟨a11, rfl⟩ := lift_ok a
  obtain ⟨_, s1, a, h⟩ := OptM.bind_ok h
  obtain ⟨rfl, rfl⟩ := now_ok a
  obtain ⟨acqs, s1, a, h⟩ := OptM.bind_ok h
  obtain ⟨a12, rfl⟩ := lift_ok a
  obtain ⟨_, s1, a, h⟩ := OptM.bind_ok h
  obtain ⟨rfl, rfl⟩ := now_ok a
  obtain ⟨hr, hi⟩ := Prod.mk.inj h
  obtain ⟨rfl, rfl⟩ := Prod.mk.inj (Except.ok.inj hi)
  obtain ⟨rfl, b1⟩ := nextInBounds_ok a10
  obtain ⟨rfl, b2⟩ := inBounds_ok a11
  obtain ⟨c1, c2, c3⟩ := roundedAcq_ok a9
  exact ⟨(column_ok a2).1, pyAssert_ok a3, pyAssert_ok a4, rfl, a6,
    Yt, fit, (column_ok a7).2, rfl, a8, hr.symm, c2, c3, c1, b2, a12⟩

/-! ### Without rounding -/

variable {o o' : SumOrder} {grad : List Flt → Py (List ℝ)} {loo : List Flt → Py ℝ}

theorem tpNegLogMl_without (X : Fin n → Point d) (Y μ : Fin n → ℝ) (v : List Flt) (ard fix : Bool) :
    (do
      let a ← (Tp.negLogMl (.vec X) Y v name μ ard fix false).map Prod.fst
      return (a, none)) = Tp.negLogMl (.vec X) Y v name μ ard fix false := by
  simp only [Tp.negLogMl, bind, Except.bind, pure, Except.pure, Bool.false_eq_true, if_false]
  rcases checkStrCov name (Inputs.vec X).rank with e | _
  · rfl
  simp only
  rcases restoreHyps name v false ard fix with e | h
  · rfl
  simp only
  rcases numKey h.dof with e | ν
  · rfl
  simp only
  rcases getKernelInverse (.vec X) h name fix false with e | ⟨K, V, g⟩
  · rfl
  simp only
  by_cases h1 : ν ≤ 2
  · simp only [if_pos h1]
    rfl
  by_cases h2 : n = 0
  · simp only [if_neg h1, if_pos h2]
    rfl
  simp only [if_neg h1, if_neg h2]
  rfl

/-- Without rounding, a step is the one of `BoWTp.lean`. -/
theorem exactTpStep {bo : BOwTP d} (ho : o.Covers d) (hn : bo.str_cov ∈ baseNames)
    (orc : Oracles d) (clock : ℕ → ℝ) (X : Fin n → Point d) {Y Y' : List ℝ} {Yt μ : Fin n → ℝ} (sm : String)
    (ns : ℤ) (hY : (if bo.normalize_Y then normalizeMinMax Y else .ok Y) = .ok Y')
    (hc : column n Y' = .ok Yt) (hμ : getPriorMu bo.prior_mu (.vec X) = .ok μ) :
    RoundedTpStep.optimize (exactLibrary n o o' grad loo)
        (fun v => (Tp.negLogMl (.vec X) Yt v bo.str_cov μ bo.use_ard true false).map Prod.fst)
        bo orc clock X Y sm ns = BoWTp.optimize bo orc clock (.vec X) Y sm ns := by
  have e1 : ∀ method, RoundedTpStep.getOptimizedKernel (exactLibrary n o o' grad loo)
      (fun v => (Tp.negLogMl (.vec X) Yt v bo.str_cov μ bo.use_ard true false).map Prod.fst)
      orc.fitHyps X bo.prior_mu bo.str_cov method bo.use_ard =
      Tp.getOptimizedKernel orc.fitHyps (.vec X) Yt bo.prior_mu bo.str_cov method bo.use_ard := fun method => by
    have e3 : ∀ hyps, (do
        let (cov_X_X, inv_cov_X_X) ← RoundedStep.getKernelInverse (exactLibrary n o o' grad loo) X hyps bo.str_cov
        return (cov_X_X, inv_cov_X_X, hyps)) = (do
        let (cov_X_X, inv_cov_X_X, _) ← Covariance.getKernelInverse (.vec X) hyps bo.str_cov FIX_GP_NOISE
        return (cov_X_X, inv_cov_X_X, hyps) : Py (Fit n)) := fun hyps => by
      rw [exactInverse ho hn X hyps FIX_GP_NOISE]
      rcases Covariance.getKernelInverse (.vec X) hyps bo.str_cov FIX_GP_NOISE with e | r <;> rfl
    unfold RoundedTpStep.getOptimizedKernel Tp.getOptimizedKernel
    simp only [hμ, ok_bind, tpNegLogMl_without, e3]
    rfl
  have e5 : ∀ fit, RoundedTp.negAcquisition (exactLibrary n o o' grad loo).fl (exactLibrary n o o' grad loo).ex
      (exactLibrary n o o' grad loo).cdf (exactLibrary n o o' grad loo).pdf (exactLibrary n o o' grad loo).lg
      (exactLibrary n o o' grad loo).o (exactLibrary n o o' grad loo).mm bo X Yt fit =
      BoWTp.negAcquisition bo (.vec X) Yt fit :=
    fun fit => funext fun xs => roundedTpNegAcquisition_id ho hn X Yt fit xs
  have e6 : ∀ f, RoundedStep.candidates (exactLibrary n o o' grad loo) bo.toBaseBO orc f sm ns =
      BoCommon.candidates bo.toBaseBO orc f sm ns := fun f => by
    simp only [RoundedStep.candidates, BoCommon.candidates, exactLibrary, getSamples_id, sumList_id,
      sum_covers ho, id]
  have e7 : ∀ f, RoundedStep.optimizeAcq (exactLibrary n o o' grad loo) bo.toBaseBO orc f sm ns =
      BoCommon.optimizeAcq bo.toBaseBO orc f sm ns := fun f => by
    simp only [RoundedStep.optimizeAcq, BoCommon.optimizeAcq, e6]
  have e8 : Rounded.normalizeMinMax (exactLibrary n o o' grad loo).fl Y = normalizeMinMax Y := normalize_id Y
  have e9 : ∀ a : ℝ, (exactLibrary n o o' grad loo).fl a = a := fun _ => rfl
  have ha : pyAssert ((Inputs.vec X).rank = 2) = .ok () := rfl
  unfold RoundedTpStep.optimize BoWTp.optimize
  simp only [e8, hY, hc, lift_ok_bind, ha, e1, e5, e7, e9]

end Verif.Lemmas
