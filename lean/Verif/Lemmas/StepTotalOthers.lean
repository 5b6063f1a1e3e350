import Verif.Lemmas.StepTotal
import Verif.Props.Trees

/-! A step of the Student-t process or random forest model that is set up correctly does not
raise; what the constructors guarantee. -/

namespace Verif.Lemmas

open Verif.BoCommon Verif.UtilsBo Verif.UtilsCovariance Verif.Constants Verif.BaseBo Verif.Spec
open Verif.Covariance (Inputs getKernelInverse)

variable {n d : ℕ}

/-! ### Student-t processes -/

theorem validate_describes_tp {h : HypDict} {σ s : ℝ} {l : Fin d → ℝ}
    (hd : Describes h σ s l) {ν : ℝ} (hν : 2 < ν) (hdof : h.dof = some (.flt (.fin ν)))
    {name : String} (hn : name ∈ ALLOWED_COV) : (validateHypsDict h name d false).2 = .ok h := by
  obtain ⟨hno, hsi, hl, hnz⟩ := hd
  rcases h with ⟨noise, dof, signal, ls⟩
  simp only at hno hsi hl hdof
  subst hno hsi hdof
  have hb : ¬ (BOUND_UPPER_GP_NOISE ≤ absF (.fin σ)) := by
    change ¬ Flt.le _ _
    simp [BOUND_UPPER_GP_NOISE, absF, Flt.le]
  have hv : validLengthscales ⟨some (.flt (.fin σ)), some (.flt (.fin ν)), some (.flt (.fin s)),
      ls⟩ d = true := by
    rcases hl with hl | ⟨a, _, _, hl⟩ <;> subst hl <;> simp [validLengthscales]
  have h2 : ¬ (Flt.fin ν ≤ Flt.fin 2) := by
    change ¬ Flt.le _ _
    simpa [Flt.le] using hν
  simp [validateHypsDict, hn, validateNoise, hb, validateDof, h2, hv, validSignal]

theorem fit_restore_tp {name : String} (hb : name ∈ baseNames) {ard : Bool} {v : List Flt}
    (hv : FitVectorT (scaleCount ard d) v) :
    ∃ h ν s, ∃ l : Fin d → ℝ, restoreHyps name v false ard true = .ok h ∧
      Describes h GP_NOISE s l ∧ 2 < ν ∧ h.dof = some (.flt (.fin ν)) := by
  obtain ⟨ν, s, ls, rfl, hl, hν, hs, hne⟩ := hv
  obtain ⟨h, s', l, e, hd⟩ := fit_restore (d := d) (ard := ard) hb
    (v := (s :: ls).map Flt.fin) ⟨s, ls, rfl, hl, hs, hne⟩
  refine ⟨{ h with dof := some (.flt (.fin ν)) }, ν, s', l, ?_, ⟨hd.1, hd.2, hd.3, hd.4⟩, hν, rfl⟩
  have := Props.restore_withDof name ard true ν (s :: ls) (by simp) (.fin GP_NOISE)
  rw [e] at this
  exact this

theorem start_vector_tp {name : String} (hb : name ∈ baseNames) (ard : Bool) :
    ∃ h v, getHyps name d false ard = .ok h ∧ convertHyps name h false true = .ok v ∧
      FitVectorT (scaleCount ard d) v := by
  have h1 := base_allowed' hb
  have h2 : name ∈ getListFirst := Props.listFirst_eq ▸ h1
  have h5 : (2 : ℝ) < 5 := by norm_num
  cases ard
  · refine ⟨{ noise := some (.flt (.fin GP_NOISE)), dof := some (.flt (.fin 5)),
              signal := some (.flt (.fin 1)), lengthscales := some (.flt (.fin 1)) },
      [.fin 5, .fin 1, .fin 1], ?_, ?_, 5, 1, [1], rfl, rfl, h5, one_ne_zero, by simp⟩
    · simp [getHyps, pyAssert, h1, h2, bind, Except.bind, pure, Except.pure]
    · simp [convertHyps, pyAssert, h1, h2, bind, Except.bind, pure, Except.pure, getKey,
        HVal.scalar]
  · refine ⟨{ noise := some (.flt (.fin GP_NOISE)), dof := some (.flt (.fin 5)),
              signal := some (.flt (.fin 1)),
              lengthscales := some (.arr (List.replicate d (.fin 1))) },
      .fin 5 :: .fin 1 :: List.replicate d (.fin 1), ?_, ?_, 5, 1, List.replicate d 1, by simp,
      by simp [scaleCount], h5, one_ne_zero, ?_⟩
    · simp [getHyps, pyAssert, h1, h2, bind, Except.bind, pure, Except.pure]
    · simp [convertHyps, pyAssert, h1, h2, bind, Except.bind, pure, Except.pure, getKey,
        HVal.scalar]
    · intro a ha
      obtain ⟨-, rfl⟩ := List.mem_replicate.1 ha
      exact one_ne_zero

theorem tpFit_total {name : String} (hb : name ∈ baseNames) (hn : n ≠ 0) (X : Fin n → Point d)
    (Y : Fin n → ℝ) {prior : Gp.PriorMu d} (hprior : PriorTotal prior) {method : String}
    (hm : method ∈ ALLOWED_OPTIMIZER_METHOD_TP) {ard : Bool} {fit : Gp.Minimize}
    (hfit : Minimizes fit (FitVectorT (scaleCount ard d))) :
    ∃ K P h ν s, ∃ l : Fin d → ℝ,
      Tp.getOptimizedKernel fit (.vec X) Y prior name method ard = .ok (K, P, h) ∧
      Describes h GP_NOISE s l ∧ 2 < ν ∧ h.dof = some (.flt (.fin ν)) := by
  have h1 := base_allowed' hb
  obtain ⟨μ, hμ⟩ := hprior n X
  obtain ⟨h0, v0, e1, e2, hv0⟩ := start_vector_tp (d := d) hb ard
  obtain ⟨ranges, -, -, e5, -⟩ := Props.C20_ranges_aligned name h1 d false ard true
  have hc := checkStrCov_suits (vec_suits hb X)
  obtain ⟨v, hv, hk⟩ := hfit method (fun hyps => Tp.negLogMl (.vec X) Y hyps name μ ard true false)
    v0 (some ranges) false hv0 (by
      intro v hv
      obtain ⟨h, ν, s, l, e3, hd, hν, hdof⟩ := fit_restore_tp (d := d) hb hv
      exact ⟨_, none, Props.C40_value (vec_suits hb X) e3 hd hν hdof hn Y μ, by simp⟩)
  obtain ⟨h, ν, s, l, e3, hd, hν, hdof⟩ := fit_restore_tp (d := d) hb hv
  have e4 := validate_describes_tp hd hν hdof h1
  have e6 := getKernelInverse_ok (vec_suits hb X) hd true
  have hm' : method ∈ ["L-BFGS-B", "SLSQP"] := hm
  refine ⟨noisyGram name GP_NOISE s l (.vec X), (noisyGram name GP_NOISE s l (.vec X))⁻¹, h, ν, s,
    l, ?_, hd, hν, hdof⟩
  simp only [Tp.getOptimizedKernel, hc, pyAssert, hm, hm', hμ, e1, e2, e5, hk, e3, e4, e6,
    FIX_GP_NOISE, bind, Except.bind, if_true]
  rfl

theorem tpPost_total {bo : BoWTp.BOwTP d} (hb : bo.str_cov ∈ baseNames)
    (hprior : PriorTotal bo.prior_mu) (X : Fin n → Point d) (Y : Fin n → ℝ) {fit : Fit n}
    {σ s : ℝ} {l : Fin d → ℝ} (hd : Describes fit.2.2 σ s l) {ν : ℝ} (hν : 2 < ν)
    (hdof : fit.2.2.dof = some (.flt (.fin ν))) : PostTotal (tpPost bo X Y fit) := by
  intro pts
  obtain ⟨μ, hμ⟩ := hprior n X
  obtain ⟨μs, hμs⟩ := hprior pts.length pts.get
  obtain ⟨μ', c, -, -, this⟩ := (Props.C39_predict_with_cov (.vec X) Y (.vec pts.get) fit.1 fit.2.1
    fit.2.2 bo.str_cov bo.prior_mu hν hdof).2 _ _ _
    (predictWithCov_ok (vec_suits hb X) (vec_suits hb pts.get) hd Y fit.1 fit.2.1 hμ hμs)
  obtain ⟨nu, mu, sd, S, this, hsd⟩ : ∃ nu mu sd S, Tp.predictWithCov (.vec X) Y (.vec pts.get)
      fit.1 fit.2.1 fit.2.2 bo.str_cov bo.prior_mu = .ok (nu, mu, sd, S) ∧ ∀ i, 0 ≤ sd i :=
    ⟨_, _, _, _, this, fun i => Real.sqrt_nonneg _⟩
  refine ⟨List.ofFn mu, List.ofFn sd, ?_, List.length_ofFn, List.length_ofFn, ?_⟩
  · unfold tpPost
    rw [this]
    rfl
  · intro x hx
    obtain ⟨i, rfl⟩ := List.mem_ofFn.1 hx
    exact hsd i

theorem tp_optimize_total (hd : 0 < d) {bo : BoWTp.BOwTP d} (hb : bo.str_cov ∈ baseNames)
    (hacq : bo.str_acq ∈ ALLOWED_BO_ACQ)
    (hB : ∀ i, (bo.range_X i).1 ≤ (bo.range_X i).2)
    (hbo : bo.str_optimizer_method_bo ∈ ALLOWED_OPTIMIZER_METHOD_BO) (hn : n ≠ 0)
    (X : Fin n → Point d) {Y : List ℝ} (hY : n = Y.length) (hprior : PriorTotal bo.prior_mu)
    (hm : bo.str_optimizer_method_tp ∈ ALLOWED_OPTIMIZER_METHOD_TP) {o : Oracles d}
    (hfit : Minimizes o.fitHyps (FitVectorT (scaleCount bo.use_ard d)))
    (ho : AcqOptimizes o bo.range_X) (clock : ℕ → ℝ) {sm : String}
    (hsm : sm ∈ ALLOWED_SAMPLING_METHOD) {ns : ℤ} (hns : 0 < ns) (st : BoWTp.TpState) (t : ℕ) :
    ∃ st' p info, BoWTp.optimize bo o clock (.vec X) Y sm ns (st, t) =
        ((st', t + 6), .ok (p, info)) := by
  have hYne : Y ≠ [] := by rintro rfl; exact hn hY
  obtain ⟨Y', hY', hl⟩ : ∃ Y', (if bo.normalize_Y = true then
      normalizeMinMax Y else .ok Y) = .ok Y' ∧ Y'.length = Y.length := by
    split
    · exact normalize_total hYne
    · exact ⟨Y, rfl, rfl⟩
  obtain ⟨c1, hc1⟩ := column_total hY
  obtain ⟨Yt, hc2⟩ := column_total (hY.trans hl.symm)
  obtain ⟨K, P, h, ν, s, l, hs, hg, hν, hdof⟩ := tpFit_total hb hn X Yt hprior hm hfit
  obtain ⟨fit, hfe⟩ : ∃ fit : Fit n, fit = (K, P, h) := ⟨_, rfl⟩
  rw [← hfe] at hs
  have hg : Describes fit.2.2 GP_NOISE s l := by rw [hfe]; exact hg
  have hdof : fit.2.2.dof = some (.flt (.fin ν)) := by rw [hfe]; exact hdof
  have hno : noiseArg fit.2.2 = .ok (some GP_NOISE) := by
    simp [noiseArg, hg.1, Covariance.finite, bind, Except.bind, pure, Except.pure]
  have hneg := tp_negAcq bo X Yt fit hno
  have hp := tpPost_total hb hprior X Yt hg hν hdof
  have hne : List.ofFn Yt ≠ [] := by simpa using hn
  have hnz : GP_NOISE ≠ 0 := by norm_num [GP_NOISE]
  obtain ⟨p, pts, ha, hpb, hptsb⟩ := optimizeAcq_total (bo := bo.toBaseBO) hd hB hbo ho
    (onePoint_total hacq hnz hne hp) hsm hns
  obtain ⟨m, s, q1, q2, q3, q4⟩ := hp pts
  obtain ⟨acqs, hacqs⟩ := batchAcq_total hacq hnz hne q1 (q2.trans q3.symm) q4
  rw [← hneg] at ha hacqs
  refine ⟨{ st with historical_hyps := st.historical_hyps ++ [fit.2.2] }, p,
    { next_points := pts
      acquisitions := acqs
      Y_original := Y
      Y_normalized := Y'
      fit := some fit
      time_surrogate := clock (t + 2) - clock (t + 1)
      time_acq := clock (t + 4) - clock (t + 3)
      time_overall := clock (t + 5) - clock t }, ?_⟩
  unfold BoWTp.optimize
  have r0 : (Inputs.vec X : Inputs n d).rank = 2 := rfl
  rw [lift_bind (assert_true r0), lift_bind hc1, lift_bind (assert_true hns),
    lift_bind (assert_true hsm), now_bind, lift_bind hY', lift_bind hc2, now_bind, lift_bind hs,
    OptM.bind_of_ok (s1 := (st, t + 2)) (a := st) rfl,
    OptM.bind_of_ok (s1 := ({ st with historical_hyps :=
      st.historical_hyps ++ [fit.2.2] }, t + 2)) (a := ()) rfl, now_bind, now_bind,
    lift_bind ha]
  dsimp only
  rw [lift_bind (nextInBounds_total hpb), lift_bind (inBounds_total hptsb), now_bind,
    lift_bind hacqs, now_bind]
  rfl

/-! ### Random forests -/

theorem trees_optimize_total {σ : Type} (hd : 0 < d) {bo : BaseBO d} (hsur : bo.str_surrogate = "rf")
    (hacq : bo.str_acq ∈ ALLOWED_BO_ACQ) (hB : ∀ i, (bo.range_X i).1 ≤ (bo.range_X i).2)
    {X : List (Point d)} {Y : List ℝ} (hX : X ≠ []) (hY : X.length = Y.length)
    {o : BoWTrees.TreesOracles d} (hf : ForestRndOk o.forest true) (hdr : UnitDraws o.draws)
    (clock : ℕ → ℝ) {sm : String} (hsm : sm ∈ ALLOWED_SAMPLING_METHOD) {ns : ℤ} (hns : 0 < ns)
    (st : σ) (t : ℕ) :
    ∃ p info, BoWTrees.optimize bo o clock X Y sm ns (st, t) = ((st, t + 6), .ok (p, info)) := by
  have hYne : Y ≠ [] := by
    rintro rfl
    exact hX (List.length_eq_zero_iff.1 hY)
  obtain ⟨Y', hY', hl⟩ : ∃ Y', (if bo.normalize_Y = true then
      normalizeMinMax Y else .ok Y) = .ok Y' ∧ Y'.length = Y.length := by
    split
    · exact normalize_total hYne
    · exact ⟨Y, rfl, rfl⟩
  have hXY : X.length = Y'.length := hY.trans hl.symm
  have hd1 : (1 : ℝ) ≤ d := by exact_mod_cast hd
  have hn1 : (1 : ℤ) ≤ ⌊Real.sqrt d⌋ := by
    rw [Int.le_floor]
    simpa using hd1
  have hnd : ⌊Real.sqrt d⌋ ≤ (d : ℤ) := by
    have : ⌊Real.sqrt d⌋ ≤ ⌊(d : ℝ)⌋ := Int.floor_le_floor
      (Real.sqrt_le_iff.2 ⟨le_trans zero_le_one hd1, by nlinarith⟩)
    simpa using this
  obtain ⟨trees, ht, hlen, hs⟩ := Props.C53_random_forest hf hXY hX hn1 hnd 100 5 1
  have htr : BoWTrees.getTrees bo o.forest X Y' = .ok trees := by
    simp only [BoWTrees.getTrees, pyAssert, hXY, hsur, if_true, bind, Except.bind]
    exact ht
  obtain ⟨pts, hp1, hp2, hp3⟩ := samples_total hd hB hdr hsm hns
  have hYne' : Y' ≠ [] := by
    rintro rfl
    exact hYne (List.length_eq_zero_iff.1 hl.symm)
  have htne : trees ≠ [] := by
    rintro rfl
    simp at hlen
  obtain ⟨lo, hi, hlohi⟩ : ∃ lo hi : ℝ, ∀ y ∈ Y', lo ≤ y ∧ y ≤ hi := by
    clear hp1 hs hXY htr ht hYne' hl hY'
    induction Y' with
    | nil => exact ⟨0, 0, by simp⟩
    | cons a l ih =>
      obtain ⟨lo, hi, h⟩ := ih
      refine ⟨min a lo, max a hi, ?_⟩
      intro y hy
      rcases List.mem_cons.1 hy with rfl | hy
      · exact ⟨min_le_left _ _, le_max_left _ _⟩
      · exact ⟨(min_le_right _ _).trans (h y hy).1, (h y hy).2.trans (le_max_right _ _)⟩
  obtain ⟨preds, hpr, hpl, hps⟩ := mapM_total (f := fun bx => Trees.predictByTreesOne bx trees)
    (P := fun r => 0 ≤ r.2) pts (by
      intro q _
      obtain ⟨mu, sg, h1, -, -, h2, -⟩ := Props.C51_range hs htne hlohi q
      exact ⟨(mu, sg), h2, h1⟩)
  have hpred : Trees.predictByTrees pts trees = .ok (preds.map (·.1), preds.map (·.2)) := by
    rw [Props.C52_rowwise, hpr]
    rfl
  have hnz : GP_NOISE ≠ 0 := by norm_num [GP_NOISE]
  obtain ⟨f, a, hf1, hf2⟩ := acq_total hacq hnz (m := preds.map (·.1)) (s := preds.map (·.2))
    (by simp) (by
      intro x hx
      obtain ⟨r, hr, rfl⟩ := List.mem_map.1 hx
      exact hps r hr) hYne'
  obtain ⟨hla, -⟩ := acq_row hf1 (by simp) hf2
  have hacqs : BoWTrees.computeAcquisitions bo pts X Y' trees = .ok (a.map (· * MULTIPLIER_ACQ)) := by
    simp only [BoWTrees.computeAcquisitions, BoWTrees.computePosteriors, pyAssert, hXY, hf1, hf2,
      hpred, bind, Except.bind, if_true]
    rfl
  have hane : ((a.map (· * MULTIPLIER_ACQ)).map (-1 * ·)).map Flt.fin ≠ [] := by
    intro h0
    have : a = [] := by simpa using h0
    rw [this] at hla
    simp [hpl] at hla
    exact hp2 (List.length_eq_zero_iff.1 hla.symm)
  obtain ⟨i, hi⟩ := npArgmin_exists hane
  have hilt : i < pts.length := by
    have : i < (((a.map (· * MULTIPLIER_ACQ)).map (-1 * ·)).map Flt.fin).length := by
      rcases npArgmin_spec hi with ⟨h, -⟩ | ⟨⟨v, h, -⟩, -⟩
      · exact (List.getElem?_eq_some_iff.1 h).1
      · exact (List.getElem?_eq_some_iff.1 h).1
    simpa [hla, hpl] using this
  have hidx : pyIndex pts i = .ok pts[i] := by
    simp [pyIndex, List.getElem?_eq_getElem hilt]
  refine ⟨pts[i],
    { next_points := pts
      acquisitions := (a.map (· * MULTIPLIER_ACQ)).map (-1 * ·)
      Y_original := Y
      Y_normalized := Y'
      trees := trees
      time_surrogate := clock (t + 2) - clock (t + 1)
      time_acq := clock (t + 4) - clock (t + 3)
      time_overall := clock (t + 5) - clock t }, ?_⟩
  unfold BoWTrees.optimize
  rw [lift_bind (assert_true hY), lift_bind (assert_true hns), lift_bind (assert_true hsm),
    now_bind, lift_bind hY', now_bind, lift_bind htr, now_bind, now_bind, lift_bind hp1,
    lift_bind (inBounds_total hp3), lift_bind hacqs, lift_bind hi, lift_bind hidx, now_bind,
    now_bind]
  rfl

/-! ### The constructors -/

theorem optimizer_kept {env : Installed} {m m' : String} {dim : ℕ}
    (h : checkOptimizerMethodBo env m dim = .ok m') :
    m' = m ∨ m' = "L-BFGS-B" := by
  unfold checkOptimizerMethodBo at h
  obtain ⟨_, -, h⟩ := py_bind_ok h
  split at h
  · exact .inr (Except.ok.inj h).symm
  split at h
  · exact .inr (Except.ok.inj h).symm
  split at h
  · exact .inr (Except.ok.inj h).symm
  · exact .inl (Except.ok.inj h).symm

theorem initBase_ok {env : Installed} {B : Bounds d} {sur acq mb : String} {nY : Bool}
    {b : BaseBO d} (h : initBase env B sur acq mb nY = .ok b) :
    b.range_X = B ∧ b.str_surrogate = sur ∧ b.str_acq = acq ∧ b.normalize_Y = nY ∧
      (b.str_optimizer_method_bo = mb ∨ b.str_optimizer_method_bo = "L-BFGS-B") := by
  unfold initBase at h
  obtain ⟨_, -, h⟩ := py_bind_ok h
  obtain ⟨_, -, h⟩ := py_bind_ok h
  obtain ⟨_, -, h⟩ := py_bind_ok h
  obtain ⟨_, -, h⟩ := py_bind_ok h
  obtain ⟨m', hm, h⟩ := py_bind_ok h
  obtain rfl := Except.ok.inj h
  exact ⟨rfl, rfl, rfl, rfl, optimizer_kept hm⟩

theorem gp_init_ok {env : Installed} {B : Bounds d} {cov acq : String} {nY ard : Bool}
    {prior : Gp.PriorMu d} {mg mb ms : String} {bo : BoWGp.BOwGP d} {st : BoWGp.GpState}
    (h : BoWGp.init env B cov acq nY ard prior mg mb ms = .ok (bo, st)) :
    st = {} ∧ bo.range_X = B ∧ bo.str_acq = acq ∧ bo.str_cov = cov ∧ bo.use_ard = ard ∧
      bo.prior_mu = prior ∧ bo.str_optimizer_method_gp = mg ∧ bo.str_modelselection_method = ms ∧
      bo.normalize_Y = nY ∧ (∀ i, (B i).1 ≤ (B i).2) ∧ acq ∈ ALLOWED_BO_ACQ ∧
      mg ∈ ALLOWED_OPTIMIZER_METHOD_GP ∧ ms ∈ ALLOWED_MODELSELECTION_METHOD ∧
      bo.str_optimizer_method_bo ∈ ALLOWED_OPTIMIZER_METHOD_BO := by
  unfold BoWGp.init at h
  obtain ⟨_, a1, h⟩ := py_bind_ok h
  obtain ⟨_, -, h⟩ := py_bind_ok h
  obtain ⟨_, a2, h⟩ := py_bind_ok h
  obtain ⟨_, a3, h⟩ := py_bind_ok h
  obtain ⟨_, a4, h⟩ := py_bind_ok h
  obtain ⟨_, a5, h⟩ := py_bind_ok h
  obtain ⟨_, -, h⟩ := py_bind_ok h
  obtain ⟨b, hb, h⟩ := py_bind_ok h
  obtain ⟨rfl, rfl⟩ := Prod.mk.inj (Except.ok.inj h)
  obtain ⟨e1, e2, e3, e4, e5⟩ := initBase_ok hb
  refine ⟨rfl, e1, e3, rfl, rfl, rfl, rfl, rfl, e4, pyAssert_ok a1, pyAssert_ok a2, pyAssert_ok a3,
    pyAssert_ok a5, ?_⟩
  rcases e5 with e | e
  · exact e ▸ pyAssert_ok a4
  · exact (congrArg (· ∈ ALLOWED_OPTIMIZER_METHOD_BO) e).mpr (by decide)

theorem tp_init_ok {env : Installed} {B : Bounds d} {cov acq : String} {nY ard : Bool}
    {prior : Gp.PriorMu d} {mt mb : String} {bo : BoWTp.BOwTP d} {st : BoWTp.TpState}
    (h : BoWTp.init env B cov acq nY ard prior mt mb = .ok (bo, st)) :
    bo.range_X = B ∧ bo.str_acq = acq ∧ bo.str_cov = cov ∧ bo.use_ard = ard ∧
      bo.prior_mu = prior ∧ bo.str_optimizer_method_tp = mt ∧ bo.normalize_Y = nY ∧
      (∀ i, (B i).1 ≤ (B i).2) ∧ acq ∈ ALLOWED_BO_ACQ ∧ mt ∈ ALLOWED_OPTIMIZER_METHOD_TP ∧
      bo.str_optimizer_method_bo ∈ ALLOWED_OPTIMIZER_METHOD_BO := by
  unfold BoWTp.init at h
  obtain ⟨_, a1, h⟩ := py_bind_ok h
  obtain ⟨_, -, h⟩ := py_bind_ok h
  obtain ⟨_, a2, h⟩ := py_bind_ok h
  obtain ⟨_, a3, h⟩ := py_bind_ok h
  obtain ⟨_, a4, h⟩ := py_bind_ok h
  obtain ⟨_, -, h⟩ := py_bind_ok h
  obtain ⟨b, hb, h⟩ := py_bind_ok h
  obtain ⟨rfl, rfl⟩ := Prod.mk.inj (Except.ok.inj h)
  obtain ⟨e1, e2, e3, e4, e5⟩ := initBase_ok hb
  refine ⟨e1, e3, rfl, rfl, rfl, rfl, e4, pyAssert_ok a1, pyAssert_ok a2, pyAssert_ok a3, ?_⟩
  rcases e5 with e | e
  · exact e ▸ pyAssert_ok a4
  · exact (congrArg (· ∈ ALLOWED_OPTIMIZER_METHOD_BO) e).mpr (by decide)

theorem trees_init_ok {env : Installed} {B : Bounds d} {sur acq : String} {nY : Bool}
    {mb : String} {bo : BaseBO d} (h : BoWTrees.init env B sur acq nY mb = .ok bo) :
    bo.range_X = B ∧ bo.str_acq = acq ∧ bo.str_surrogate = "rf" ∧ bo.normalize_Y = nY ∧
      (∀ i, (B i).1 ≤ (B i).2) ∧ acq ∈ ALLOWED_BO_ACQ := by
  unfold BoWTrees.init at h
  obtain ⟨_, a1, h⟩ := py_bind_ok h
  obtain ⟨_, a2, h⟩ := py_bind_ok h
  obtain ⟨_, a3, h⟩ := py_bind_ok h
  obtain ⟨_, a4, h⟩ := py_bind_ok h
  obtain ⟨e1, e2, e3, e4, e5⟩ := initBase_ok h
  refine ⟨e1, e3, ?_, e4, pyAssert_ok a1, pyAssert_ok a3⟩
  have := pyAssert_ok a2
  simp only [ALLOWED_SURROGATE_TREES, List.mem_singleton] at this
  rw [e2, this]

end Verif.Lemmas
