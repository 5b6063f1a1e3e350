import Verif.Model.RoundedStep
import Verif.Lemmas.RoundedChoice

/-! # A whole step with rounding (lemmas for C158) -/

namespace Verif.Lemmas

open Verif.Spec Verif.Covariance Verif.UtilsCovariance Verif.Rounded Verif.RoundedPredict Verif.Constants
  Verif.BoCommon Verif.BoWGp Verif.UtilsBo Verif.RoundedStep Verif.Gp

variable {n d : ℕ} {lib : Library n} {name : String} {h : HypDict}

/-- A dictionary for which the kernel matrix could be computed holds usable numbers. -/
theorem roundedKernel_describes {fl ex : ℝ → ℝ} {o : SumOrder} {X : Fin n → Point d}
    {K : Matrix (Fin n) (Fin n) ℝ} (hk : RoundedKernels.kernelMatrix fl ex o X h name = .ok K) :
    name ∈ baseNames ∧ ∃ σ s, ∃ l : Fin d → ℝ, Describes h σ s l := by
  unfold RoundedKernels.kernelMatrix at hk
  obtain ⟨_, -, hk⟩ := py_bind_ok hk
  obtain ⟨C, h1, hk⟩ := py_bind_ok hk
  obtain ⟨σ, h3, -⟩ := py_bind_ok hk
  unfold RoundedKernels.covMain at h1
  obtain ⟨_, -, h1⟩ := py_bind_ok h1
  obtain ⟨_, -, h1⟩ := py_bind_ok h1
  simp only at h1
  by_cases hb : name ∈ ALLOWED_COV_BASE
  · replace h1 := (if_pos hb).symm.trans h1
    obtain ⟨h', e1, h1⟩ := py_bind_ok h1
    obtain ⟨_, -, h1⟩ := py_bind_ok h1
    obtain ⟨L, e2, h1⟩ := py_bind_ok h1
    obtain ⟨s, e3, h1⟩ := py_bind_ok h1
    obtain ⟨k1, k2, -⟩ := validate_keeps e1
    rw [k2] at e2
    rw [k1] at e3
    obtain ⟨l, l1, l2⟩ := lengthscalesKey_inv e2
    exact ⟨hb, σ, s, l, numKey_inv h3, numKey_inv e3, l2, l1⟩
  · replace h1 := (if_neg hb).symm.trans h1
    cases h1

theorem roundedInverse_ok {X : Fin n → Point d} {K V : Matrix (Fin n) (Fin n) ℝ}
    (hk : RoundedStep.getKernelInverse lib X h name = .ok (K, V)) :
    RoundedKernels.kernelMatrix lib.fl lib.ex lib.o X h name = .ok K ∧ lib.inv K = .ok V := by
  unfold RoundedStep.getKernelInverse at hk
  obtain ⟨K', e1, hk⟩ := py_bind_ok hk
  obtain ⟨V', e2, hk⟩ := py_bind_ok hk
  simp only [pure, Except.pure, Except.ok.injEq, Prod.mk.injEq] at hk
  obtain ⟨rfl, rfl⟩ := hk
  exact ⟨e1, e2⟩

theorem normalized_double {fl : ℝ → ℝ} (hf : Nearest fl) {Y out : List ℝ} (hY : ∀ y ∈ Y, y ∈ Double)
    (h : Rounded.normalizeMinMax fl Y = .ok out) : ∀ v ∈ out, v ∈ Double := by
  unfold Rounded.normalizeMinMax at h
  obtain ⟨mx, -, h⟩ := py_bind_ok h
  obtain ⟨mn, -, h⟩ := py_bind_ok h
  split at h
  · obtain rfl := Except.ok.inj h
    intro v hv
    obtain ⟨y, -, rfl⟩ := List.mem_map.1 hv
    exact hf.mem _
  · obtain rfl := Except.ok.inj h
    exact hY

/-- What a fit went through. -/
theorem roundedFit_trace {m : Minimize} {X : Fin n → Point d} {Y : Fin n → ℝ} {prior : PriorMu d}
    {method ms : String} {ard fix : Bool} {K V : Matrix (Fin n) (Fin n) ℝ}
    (hf : RoundedStep.getOptimizedKernel lib m X Y prior name method ms ard fix = .ok (K, V, h)) :
    ∃ μ h0 v0 mt bounds jac v, ∃ ug : Bool,
      getPriorMu prior (.vec X) = .ok μ ∧
      getHyps name d true ard = .ok h0 ∧ convertHyps name h0 true fix = .ok v0 ∧
      m mt (if ms = "ml" then fun hyps => RoundedStep.negLogMl lib X Y hyps name μ ard fix ug
        else fun hyps => do
          let v ← lib.loo hyps
          return (v, none)) v0 bounds jac = .ok v ∧
      restoreHyps name v true ard fix = .ok h ∧
      RoundedKernels.kernelMatrix lib.fl lib.ex lib.o X h name = .ok K ∧ lib.inv K = .ok V := by
  unfold RoundedStep.getOptimizedKernel at hf
  obtain ⟨_, -, hf⟩ := py_bind_ok hf
  obtain ⟨_, -, hf⟩ := py_bind_ok hf
  obtain ⟨_, -, hf⟩ := py_bind_ok hf
  obtain ⟨μ, e1, hf⟩ := py_bind_ok hf
  obtain ⟨h0, e2, hf⟩ := py_bind_ok hf
  obtain ⟨v0, e3, hf⟩ := py_bind_ok hf
  have key : ∃ mt bounds jac v, m mt (if ms = "ml" then fun hyps => RoundedStep.negLogMl lib X Y hyps name μ
        ard fix (if name ∈ ALLOWED_COV_BASE then decide (method ≠ "Nelder-Mead") else false)
        else fun hyps => do
          let v ← lib.loo hyps
          return (v, none)) v0 bounds jac = .ok v ∧ (do
      let hyps ← restoreHyps name v true ard fix
      let hyps ← (validateHypsDict hyps name d).2
      let (cov_X_X, inv_cov_X_X) ← RoundedStep.getKernelInverse lib X hyps name
      return (cov_X_X, inv_cov_X_X, hyps)) = .ok (K, V, h) := by
    dsimp only at hf
    split at hf
    · obtain ⟨v, e4, hf⟩ := py_bind_ok hf
      exact ⟨_, _, _, v, e4, hf⟩
    split at hf
    · obtain ⟨b, -, hf⟩ := py_bind_ok hf
      obtain ⟨v, e4, hf⟩ := py_bind_ok hf
      exact ⟨_, _, _, v, e4, hf⟩
    split at hf
    · obtain ⟨v, e4, hf⟩ := py_bind_ok hf
      exact ⟨_, _, _, v, e4, hf⟩
    · obtain ⟨v, e4, hf⟩ := py_bind_ok hf
      cases e4
  obtain ⟨mt, bounds, jac, v, hm, hf⟩ := key
  obtain ⟨hr, e5, hf⟩ := py_bind_ok hf
  obtain ⟨h', e6, hf⟩ := py_bind_ok hf
  obtain ⟨⟨K', V'⟩, e7, hf⟩ := py_bind_ok hf
  simp only [pure, Except.pure, Except.ok.injEq, Prod.mk.injEq] at hf
  obtain ⟨rfl, rfl, rfl⟩ := hf
  obtain ⟨k, k'⟩ := roundedInverse_ok e7
  obtain ⟨-, σ, s, l, hd⟩ := roundedKernel_describes k
  have heq : hr = h' := by
    obtain ⟨k1, k2, k3, k4⟩ := validate_keeps e6
    have k5 := k3 σ hd.noise
    have k6 := k4 rfl
    rcases hr with ⟨a, b, c, e⟩
    rcases h' with ⟨a', b', c', e'⟩
    simp only at k1 k2 k5 k6
    rw [k1, k2, k6, k5]
  subst heq
  exact ⟨μ, h0, v0, mt, bounds, jac, v, _, e1, e2, e3, hm, e5, k, k'⟩

theorem combined_from {get : String → Py (Fit n)} {nll : Fit n → Py Flt} {fit : Fit n}
    (h : combinedFit get nll = .ok (some fit)) : ∃ method, get method = .ok fit := by
  unfold BoWGp.combinedFit at h
  simp only [List.foldlM_cons, List.foldlM_nil] at h
  obtain ⟨best, k1, he⟩ := py_bind_ok h
  obtain ⟨b1, h1, k2⟩ := py_bind_ok k1
  obtain ⟨b2, h2, k3⟩ := py_bind_ok k2
  obtain rfl := Except.ok.inj k3
  obtain ⟨f1, g1, h1⟩ := py_bind_ok h1
  obtain ⟨y1, -, h1⟩ := py_bind_ok h1
  obtain ⟨f2, g2, h2⟩ := py_bind_ok h2
  obtain ⟨y2, -, h2⟩ := py_bind_ok h2
  have he := Except.ok.inj he
  split at h2
  · obtain rfl := Except.ok.inj h2
    obtain rfl := Option.some.inj he
    exact ⟨_, g2⟩
  · obtain rfl := Except.ok.inj h2
    split at h1
    · obtain rfl := Except.ok.inj h1
      obtain rfl := Option.some.inj he
      exact ⟨_, g1⟩
    · obtain rfl := Except.ok.inj h1
      cases he

/-- Outside the mode 'converged' a fit is one of `get_optimized_kernel`; in every mode it is a computed kernel
matrix with its computed inverse. -/
theorem roundedFit_from {bo : BOwGP d} {o : Oracles d} {X : Fin n → Point d} {Y : Fin n → ℝ}
    {mlm : String} {st r : GpState × ℕ} {K V : Matrix (Fin n) (Fin n) ℝ}
    (hf : RoundedStep.fitSurrogate lib bo o X Y mlm st = (r, .ok (some (K, V, h)))) :
    RoundedKernels.kernelMatrix lib.fl lib.ex lib.o X h bo.str_cov = .ok K ∧ lib.inv K = .ok V ∧
    (mlm ≠ "converged" → ∃ method, RoundedStep.getOptimizedKernel lib o.fitHyps X Y bo.prior_mu bo.str_cov
      method bo.str_modelselection_method bo.use_ard true = .ok (K, V, h)) := by
  have key : ∀ {method}, RoundedStep.getOptimizedKernel lib o.fitHyps X Y bo.prior_mu bo.str_cov
      method bo.str_modelselection_method bo.use_ard true = .ok (K, V, h) →
      RoundedKernels.kernelMatrix lib.fl lib.ex lib.o X h bo.str_cov = .ok K ∧ lib.inv K = .ok V := fun e => by
    obtain ⟨_, _, _, _, _, _, _, _, -, -, -, -, -, k⟩ := roundedFit_trace e
    exact k
  unfold RoundedStep.fitSurrogate at hf
  split at hf
  · obtain ⟨f, s1, a, h'⟩ := OptM.bind_ok hf
    obtain ⟨a1, -⟩ := lift_ok a
    have : f = (K, V, h) := Option.some.inj (Except.ok.inj (Prod.mk.inj h').2)
    subst this
    exact ⟨(key a1).1, (key a1).2, fun _ => ⟨_, a1⟩⟩
  split at hf
  · obtain ⟨μ, s1, a, h'⟩ := OptM.bind_ok hf
    clear hf a
    obtain ⟨h1, -⟩ := lift_ok h'
    obtain ⟨_, a1⟩ := combined_from h1
    exact ⟨(key a1).1, (key a1).2, fun _ => ⟨_, a1⟩⟩
  split at hf
  · next hc =>
    obtain ⟨s0, s1, a, h'⟩ := OptM.bind_ok hf
    clear hf a
    split at h'
    · obtain ⟨f, s2, a, h'⟩ := OptM.bind_ok h'
      obtain ⟨a1, -⟩ := lift_ok a
      obtain ⟨_, s3, -, h'⟩ := OptM.bind_ok h'
      obtain ⟨_, s4, -, h'⟩ := OptM.bind_ok h'
      have : f = (K, V, h) := Option.some.inj (Except.ok.inj (Prod.mk.inj h').2)
      subst this
      exact ⟨(key a1).1, (key a1).2, fun hne => absurd hc hne⟩
    · obtain ⟨hy, s2, -, h'⟩ := OptM.bind_ok h'
      cases hy with
      | none =>
        obtain ⟨e, -⟩ := lift_ok h'
        cases e
      | some hyps =>
        obtain ⟨⟨K', V'⟩, s3, a, h'⟩ := OptM.bind_ok h'
        obtain ⟨a1, -⟩ := lift_ok a
        have : (K', V', hyps) = (K, V, h) := Option.some.inj (Except.ok.inj (Prod.mk.inj h').2)
        simp only [Prod.mk.injEq] at this
        obtain ⟨rfl, rfl, rfl⟩ := this
        exact ⟨(roundedInverse_ok a1).1, (roundedInverse_ok a1).2, fun hne => absurd hc hne⟩
  · obtain ⟨h', -⟩ := lift_ok hf
    cases h'

theorem roundedFit_noClock (bo : BOwGP d) (o : Oracles d) (X : Fin n → Point d)
    (Y : Fin n → ℝ) (mlm : String) : NoClock (RoundedStep.fitSurrogate lib bo o X Y mlm) := by
  unfold RoundedStep.fitSurrogate
  split
  · exact .bind (.lift _) fun _ => .pure _
  split
  · exact .bind (.lift _) fun _ => .lift _
  split
  · refine .bind .get fun s => ?_
    split
    · exact .bind (.lift _) fun _ => .bind (.lift _) fun _ => .bind (.set _) fun _ => .pure _
    · refine .bind (.lift _) fun h => ?_
      cases h with
      | none => exact .lift _
      | some h => exact .bind (.lift _) fun _ => .pure _
  · exact .lift _

/-- A fit leaves the history as it is. -/
theorem roundedFit_history {bo : BOwGP d} {o : Oracles d} {X : Fin n → Point d} {Y : Fin n → ℝ} {mlm : String}
    {st st1 : GpState} {t t1 : ℕ} {fit : Option (Fit n)}
    (h : RoundedStep.fitSurrogate lib bo o X Y mlm (st, t) = ((st1, t1), .ok fit)) :
    st1.historical_hyps = st.historical_hyps := by
  unfold RoundedStep.fitSurrogate at h
  split at h
  · obtain ⟨_, s1, a, h⟩ := OptM.bind_ok h
    obtain ⟨-, rfl⟩ := lift_ok a
    exact congrArg (fun z => z.1.1.historical_hyps) h.symm
  split at h
  · obtain ⟨_, s1, a, h⟩ := OptM.bind_ok h
    obtain ⟨-, rfl⟩ := lift_ok a
    obtain ⟨-, e⟩ := lift_ok h
    rw [(Prod.mk.inj e).1]
  split at h
  · obtain ⟨s, s1, a, h⟩ := OptM.bind_ok h
    obtain ⟨rfl, e⟩ := Prod.mk.inj a
    obtain rfl := Except.ok.inj e
    split at h
    · obtain ⟨_, s1, a, h⟩ := OptM.bind_ok h
      obtain ⟨-, rfl⟩ := lift_ok a
      obtain ⟨_, s1, a, h⟩ := OptM.bind_ok h
      obtain ⟨-, rfl⟩ := lift_ok a
      obtain ⟨_, s1, a, h⟩ := OptM.bind_ok h
      obtain rfl := (Prod.mk.inj a).1
      exact congrArg (fun z => z.1.1.historical_hyps) h.symm
    · obtain ⟨q, s1, a, h⟩ := OptM.bind_ok h
      obtain ⟨-, rfl⟩ := lift_ok a
      cases q with
      | none => cases (lift_ok h).1
      | some q =>
        obtain ⟨_, s1, a, h⟩ := OptM.bind_ok h
        obtain ⟨-, rfl⟩ := lift_ok a
        exact congrArg (fun z => z.1.1.historical_hyps) h.symm
  · cases (lift_ok h).1

theorem roundedAcq_ok {bo : BaseBo.BaseBO d} {o : Oracles d} {f : Point d → Py Flt} {sm : String}
    {ns : ℤ} {p : Point d} {pts : List (Point d)}
    (h : RoundedStep.optimizeAcq lib bo o f sm ns = .ok (p, pts)) :
    RoundedStep.candidates lib bo o f sm ns = .ok pts ∧ pts ≠ [] ∧
      getBestAcquisitionByEvaluation pts f = .ok [p] := by
  unfold RoundedStep.optimizeAcq at h
  obtain ⟨pts', h1, h⟩ := py_bind_ok h
  obtain ⟨_, h2, h⟩ := py_bind_ok h
  obtain ⟨best, hb, h⟩ := py_bind_ok h
  obtain ⟨g, hg⟩ := Props.evaluated_of_ok hb
  rcases Props.C03_best_by_evaluation pts' f g hg with ⟨k, x, h3, -⟩ | ⟨h3, -⟩
  · rw [hb] at h3
    obtain rfl := Except.ok.inj h3
    simp only [bind, Except.bind, pyIndex, List.getElem?_cons_zero, pure, Except.pure,
      Except.ok.injEq, Prod.mk.injEq] at h
    obtain ⟨rfl, rfl⟩ := h
    exact ⟨h1, pyAssert_ok h2, hb⟩
  · rw [hb] at h3
    cases h3

/-- What a step went through. -/
theorem roundedStep_ok {bo : BOwGP d} {o : Oracles d} {clock : ℕ → ℝ} {X : Fin n → Point d}
    {Y : List ℝ} {sm : String} {ns : ℤ} {mlm : String} {st : GpState} {t : ℕ}
    {r : GpState × ℕ} {p : Point d} {info : DictInfo n d}
    (h : RoundedStep.optimize lib bo o clock X Y sm ns mlm (st, t) = (r, .ok (p, info))) :
    n = Y.length ∧ 0 < ns ∧ sm ∈ ALLOWED_SAMPLING_METHOD ∧ mlm ∈ ALLOWED_MLM_METHOD ∧
    info.Y_original = Y ∧
    (if bo.normalize_Y = true ∧ mlm ≠ "converged" then Rounded.normalizeMinMax lib.fl Y else .ok Y) =
      .ok info.Y_normalized ∧
    ∃ Y_train st1, List.ofFn Y_train = info.Y_normalized ∧
      RoundedStep.fitSurrogate lib bo o X Y_train mlm (st, t + 2) = ((st1, t + 2), .ok info.fit) ∧
      r = ({ st1 with historical_hyps := st1.historical_hyps ++ [info.fit.map (·.2.2)] }, t + 6) ∧
      RoundedStep.candidates lib bo.toBaseBO o (onePoint (RoundedChoice.negAcquisition lib.fl lib.ex lib.cdf
        lib.pdf lib.lg lib.o lib.mm bo X Y_train info.fit)) sm ns = .ok info.next_points ∧
      info.next_points ≠ [] ∧
      getBestAcquisitionByEvaluation info.next_points (onePoint (RoundedChoice.negAcquisition lib.fl lib.ex
        lib.cdf lib.pdf lib.lg lib.o lib.mm bo X Y_train info.fit)) = .ok [p] ∧
      InBox bo.range_X p ∧ (∀ q ∈ info.next_points, InBox bo.range_X q) ∧
      RoundedChoice.negAcquisition lib.fl lib.ex lib.cdf lib.pdf lib.lg lib.o lib.mm bo X Y_train info.fit
        info.next_points = .ok info.acquisitions := by
  unfold RoundedStep.optimize at h
  obtain ⟨_, s1, a, h⟩ := OptM.bind_ok h
  obtain ⟨a2, rfl⟩ := lift_ok a
  obtain ⟨_, s1, a, h⟩ := OptM.bind_ok h
  obtain ⟨a3, rfl⟩ := lift_ok a
  obtain ⟨_, s1, a, h⟩ := OptM.bind_ok h
  obtain ⟨a4, rfl⟩ := lift_ok a
  obtain ⟨_, s1, a, h⟩ := OptM.bind_ok h
  obtain ⟨a5, rfl⟩ := lift_ok a
  obtain ⟨_, s1, a, h⟩ := OptM.bind_ok h
  obtain ⟨rfl, rfl⟩ := now_ok a
  obtain ⟨Y', s1, a, h⟩ := OptM.bind_ok h
  obtain ⟨a6, rfl⟩ := lift_ok a
  obtain ⟨Yt, s1, a, h⟩ := OptM.bind_ok h
  obtain ⟨a7, rfl⟩ := lift_ok a
  obtain ⟨_, s1, a, h⟩ := OptM.bind_ok h
  obtain ⟨rfl, rfl⟩ := now_ok a
  obtain ⟨fit, s1, a8, h⟩ := OptM.bind_ok h
  have ht := roundedFit_noClock (lib := lib) bo o X Yt mlm st (t + 1 + 1)
  rw [a8] at ht
  obtain ⟨st1, t1⟩ := s1
  simp only at ht
  subst ht
  obtain ⟨_, s1, a, h⟩ := OptM.bind_ok h
  obtain rfl : ({ st1 with historical_hyps := st1.historical_hyps ++ [fit.map (·.2.2)] },
    t + 1 + 1) = s1 := (Prod.mk.inj a).1
  obtain ⟨_, s1, a, h⟩ := OptM.bind_ok h
  obtain ⟨rfl, rfl⟩ := now_ok a
  obtain ⟨_, s1, a, h⟩ := OptM.bind_ok h
  obtain ⟨rfl, rfl⟩ := now_ok a
  obtain ⟨⟨p', pts'⟩, s1, a, h⟩ := OptM.bind_ok h
  obtain ⟨a9, rfl⟩ := lift_ok a
  obtain ⟨p1, s1, a, h⟩ := OptM.bind_ok h
  obtain ⟨a10, rfl⟩ := lift_ok a
  obtain ⟨pts, s1, a, h⟩ := OptM.bind_ok h
  obtain ⟨a11, rfl⟩ := lift_ok a
  obtain ⟨_, s1, a, h⟩ := OptM.bind_ok h
  obtain ⟨rfl, rfl⟩ := now_ok a
  obtain ⟨acqs, s1, a, h⟩ := OptM.bind_ok h
  obtain ⟨a12, rfl⟩ := lift_ok a
  obtain ⟨_, s1, a, h⟩ := OptM.bind_ok h
  obtain ⟨rfl, rfl⟩ := now_ok a
  obtain ⟨hr, hi⟩ := Prod.mk.inj h
  obtain ⟨rfl, rfl⟩ := Prod.mk.inj (Except.ok.inj hi)
  obtain ⟨rfl, b1⟩ := nextInBounds_ok a10
  obtain ⟨rfl, b2⟩ := inBounds_ok a11
  obtain ⟨c1, c2, c3⟩ := roundedAcq_ok a9
  exact ⟨(column_ok a2).1, pyAssert_ok a3, pyAssert_ok a4, pyAssert_ok a5, rfl, a6,
    Yt, st1, (column_ok a7).2, a8, hr.symm, c1, c2, c3, b1, b2, a12⟩

/-! ### Without rounding -/

/-- The library that makes no errors. -/
noncomputable def exactLibrary (n : ℕ) (o o' : SumOrder) (grad : List Flt → Py (List ℝ)) (loo : List Flt → Py ℝ) :
    Library n where
  fl := id
  ex := Real.exp
  lg := Real.log
  cdf := Acquisition.normCdf
  pdf := Acquisition.normPdf
  o := o
  o' := o'
  mm := fun A B => A * B
  chol := spCholesky
  solve := choSolve
  inv := npInv
  grad := grad
  loo := loo

variable {o o' : SumOrder} {grad : List Flt → Py (List ℝ)} {loo : List Flt → Py ℝ}

theorem exactInverse (ho : o.Covers d) (hn : name ∈ baseNames) (X : Fin n → Point d) (h : HypDict) (fix : Bool) :
    RoundedStep.getKernelInverse (exactLibrary n o o' grad loo) X h name =
      (Covariance.getKernelInverse (.vec X) h name fix).map fun a => (a.1, a.2.1) := by
  have hch : checkStrCov name (Inputs.vec X).rank = .ok () := by
    simp [checkStrCov, base_allowed hn, pyAssert, Inputs.rank, bind, Except.bind, pure, Except.pure]
  have e := roundedKernelMatrix_id ho hn X h
  simp only [RoundedStep.getKernelInverse, Covariance.getKernelInverse, exactLibrary, e, hch, bind, Except.bind,
    Bool.false_eq_true, if_false]
  rcases noisyCov (.vec X) h name with e | K
  · rfl
  simp only
  rcases npInv K with e | V <;> rfl

theorem exactNegLogMl (ho : o.Covers d) (ho' : o'.Covers n) (hn : name ∈ baseNames) (X : Fin n → Point d)
    (Y μ : Fin n → ℝ) (v : List Flt) (ard fix ug : Bool)
    (hgrad : Gp.negLogMl (.vec X) Y v name μ ard fix true true =
      do
        let a ← Gp.negLogMl (.vec X) Y v name μ ard fix true false
        let g ← grad v
        return (a.1, some g)) :
    RoundedStep.negLogMl (exactLibrary n o o' grad loo) X Y v name μ ard fix ug =
      Gp.negLogMl (.vec X) Y v name μ ard fix true ug := by
  have e := roundedNegLogMl_id ho ho' hn X Y μ v ard fix
  have h0 : ∀ r, Gp.negLogMl (.vec X) Y v name μ ard fix true false = .ok r → r.2 = none := fun r hr => by
    have := negLogMl_without (y := r.1) (g := r.2) hr
    rw [hr] at this
    exact congrArg Prod.snd (Except.ok.inj this)
  simp only [RoundedStep.negLogMl, exactLibrary] at e ⊢
  rw [e]
  cases ug with
  | true =>
    rw [hgrad]
    rcases Gp.negLogMl (.vec X) Y v name μ ard fix true false with e | r <;> rfl
  | false =>
    rcases hr : Gp.negLogMl (.vec X) Y v name μ ard fix true false with e | r
    · rfl
    · have := h0 r hr
      rcases r with ⟨a, b⟩
      obtain rfl : b = none := this
      rfl

theorem ok_bind {α β : Type} (a : α) (f : α → Py β) : ((.ok a : Py α) >>= f) = f a := rfl

theorem lift_ok_bind {σ α β : Type} (a : α) (f : α → OptM σ β) : (OptM.lift (.ok a) >>= f) = f a := rfl

/-- Without rounding, a fit is the one of `Gp.lean`. -/
theorem exactFit (ho : o.Covers d) (ho' : o'.Covers n) (hn : name ∈ baseNames) (m : Minimize)
    (X : Fin n → Point d) (Y μ : Fin n → ℝ) {prior : PriorMu d} (hμ : getPriorMu prior (.vec X) = .ok μ)
    (method ms : String) (ard fix : Bool)
    (hgrad : ∀ v, Gp.negLogMl (.vec X) Y v name μ ard fix true true =
      do
        let a ← Gp.negLogMl (.vec X) Y v name μ ard fix true false
        let g ← grad v
        return (a.1, some g))
    (hloo : ∀ v, loo v = negLogPseudoLLoocv (.vec X) Y v name μ fix) :
    RoundedStep.getOptimizedKernel (exactLibrary n o o' grad loo) m X Y prior name method ms ard fix =
      Gp.getOptimizedKernel m (.vec X) Y prior name method ms ard fix := by
  have e1 : ∀ ug, (fun v => RoundedStep.negLogMl (exactLibrary n o o' grad loo) X Y v name μ ard fix ug) =
      fun v => Gp.negLogMl (.vec X) Y v name μ ard fix true ug :=
    fun ug => funext fun v => exactNegLogMl ho ho' hn X Y μ v ard fix ug (hgrad v)
  have e2 : (exactLibrary n o o' grad loo).loo = fun v => negLogPseudoLLoocv (.vec X) Y v name μ fix :=
    funext hloo
  have e3 : ∀ hyps, (do
      let (cov_X_X, inv_cov_X_X) ← RoundedStep.getKernelInverse (exactLibrary n o o' grad loo) X hyps name
      return (cov_X_X, inv_cov_X_X, hyps)) = (do
      let (cov_X_X, inv_cov_X_X, _) ← Covariance.getKernelInverse (.vec X) hyps name fix
      return (cov_X_X, inv_cov_X_X, hyps) : Py (Fit n)) := fun hyps => by
    rw [exactInverse ho hn X hyps fix]
    rcases Covariance.getKernelInverse (.vec X) hyps name fix with e | r <;> rfl
  unfold RoundedStep.getOptimizedKernel Gp.getOptimizedKernel
  simp only [hμ, ok_bind, e1, e2, e3]
  rfl

/-- Without rounding, a step is the one of `BoWGp.lean`. -/
theorem exactStep {bo : BOwGP d} (ho : o.Covers d) (ho' : o'.Covers n) (hn : bo.str_cov ∈ baseNames)
    (orc : Oracles d) (clock : ℕ → ℝ) (X : Fin n → Point d) {Y Y' : List ℝ} {Yt μ : Fin n → ℝ} (sm : String)
    (ns : ℤ) (mlm : String)
    (hY : (if bo.normalize_Y = true ∧ mlm ≠ "converged" then normalizeMinMax Y else .ok Y) = .ok Y')
    (hc : column n Y' = .ok Yt) (hμ : getPriorMu bo.prior_mu (.vec X) = .ok μ)
    (hgrad : ∀ v, Gp.negLogMl (.vec X) Yt v bo.str_cov μ bo.use_ard true true true =
      do
        let a ← Gp.negLogMl (.vec X) Yt v bo.str_cov μ bo.use_ard true true false
        let g ← grad v
        return (a.1, some g))
    (hloo : ∀ v, loo v = negLogPseudoLLoocv (.vec X) Yt v bo.str_cov μ true) :
    RoundedStep.optimize (exactLibrary n o o' grad loo) bo orc clock X Y sm ns mlm =
      BoWGp.optimize bo orc clock (.vec X) Y sm ns mlm := by
  have e1 := fun (method ms : String) => exactFit ho ho' hn orc.fitHyps X Yt μ hμ method ms bo.use_ard true hgrad hloo
  have e2 : RoundedStep.fitSurrogate (exactLibrary n o o' grad loo) bo orc X Yt mlm =
      BoWGp.fitSurrogate bo orc (.vec X) Yt mlm := by
    have e3 : ∀ hyps, (do
        let (cov_X_X, inv_cov_X_X) ← OptM.lift
          (RoundedStep.getKernelInverse (exactLibrary n o o' grad loo) X hyps bo.str_cov)
        return some (cov_X_X, inv_cov_X_X, hyps)) = (do
        let (cov_X_X, inv_cov_X_X, _) ← OptM.lift
          (Covariance.getKernelInverse (.vec X) hyps bo.str_cov (fix_noise := FIX_GP_NOISE))
        return some (cov_X_X, inv_cov_X_X, hyps) : OptM GpState (Option (Fit n))) := fun hyps => by
      rw [exactInverse ho hn X hyps FIX_GP_NOISE]
      rcases Covariance.getKernelInverse (.vec X) hyps bo.str_cov FIX_GP_NOISE with e | r <;> rfl
    have e4 : ∀ v, RoundedStep.negLogMl (exactLibrary n o o' grad loo) X Yt v bo.str_cov μ bo.use_ard
        FIX_GP_NOISE false = Gp.negLogMl (.vec X) Yt v bo.str_cov μ bo.use_ard FIX_GP_NOISE true false :=
      fun v => exactNegLogMl ho ho' hn X Yt μ v bo.use_ard true false (hgrad v)
    have e1' : ∀ (method ms : String), RoundedStep.getOptimizedKernel (exactLibrary n o o' grad loo) orc.fitHyps X
        Yt bo.prior_mu bo.str_cov method ms bo.use_ard = Gp.getOptimizedKernel orc.fitHyps (.vec X) Yt
          bo.prior_mu bo.str_cov method ms bo.use_ard := e1
    unfold RoundedStep.fitSurrogate BoWGp.fitSurrogate
    simp only [hμ, lift_ok_bind, e1', e3, e4]
    rfl
  have e5 : RoundedChoice.negAcquisition (exactLibrary n o o' grad loo).fl (exactLibrary n o o' grad loo).ex
      (exactLibrary n o o' grad loo).cdf (exactLibrary n o o' grad loo).pdf (exactLibrary n o o' grad loo).lg
      (exactLibrary n o o' grad loo).o (exactLibrary n o o' grad loo).mm bo X Yt =
      BoWGp.negAcquisition bo (.vec X) Yt :=
    funext fun fit => funext fun xs => roundedNegAcquisition_id ho hn X Yt fit xs
  have e6 : ∀ f, RoundedStep.candidates (exactLibrary n o o' grad loo) bo.toBaseBO orc f sm ns =
      BoCommon.candidates bo.toBaseBO orc f sm ns := fun f => by
    simp only [RoundedStep.candidates, BoCommon.candidates, exactLibrary, getSamples_id, sumList_id,
      sum_covers ho, id]
  have e7 : ∀ f, RoundedStep.optimizeAcq (exactLibrary n o o' grad loo) bo.toBaseBO orc f sm ns =
      BoCommon.optimizeAcq bo.toBaseBO orc f sm ns := fun f => by
    simp only [RoundedStep.optimizeAcq, BoCommon.optimizeAcq, e6]
  have e8 : Rounded.normalizeMinMax (exactLibrary n o o' grad loo).fl Y = normalizeMinMax Y := normalize_id Y
  have e9 : ∀ a : ℝ, (exactLibrary n o o' grad loo).fl a = a := fun _ => rfl
  have ha : pyAssert ((Inputs.vec X).rank = 2) = .ok () := rfl
  unfold RoundedStep.optimize BoWGp.optimize
  simp only [e8, hY, hc, lift_ok_bind, ha, e2, e5, e7, e9]

/-- The gradient of `Gp.lean`. -/
noncomputable def exactGrad (X : Fin n → Point d) (Y μ : Fin n → ℝ) (name : String) (ard fix : Bool)
    (v : List Flt) : Py (List ℝ) := do
  match (← Gp.negLogMl (.vec X) Y v name μ ard fix true true).2 with
  | some g => return g
  | none => .error .assertion

theorem exactGrad_spec (h0 : n ≠ 0) (X : Fin n → Point d) (Y μ : Fin n → ℝ) (v : List Flt) (ard fix : Bool) :
    Gp.negLogMl (.vec X) Y v name μ ard fix true true = do
      let a ← Gp.negLogMl (.vec X) Y v name μ ard fix true false
      let g ← exactGrad X Y μ name ard fix v
      return (a.1, some g) := by
  simp only [exactGrad, Gp.negLogMl, getKernelCholesky, bind, Except.bind, pure, Except.pure, if_true,
    if_neg h0, Bool.false_eq_true, if_false]
  rcases checkStrCov name (Inputs.vec X).rank with e | _
  · rfl
  simp only
  rcases restoreHyps name v true ard fix with e | h
  · rfl
  simp only
  rcases noisyCov (.vec X) h name with e | K
  · rfl
  simp only
  rcases choleskyLoop K jitters with e | ⟨K', L⟩
  · rfl
  simp only
  rcases gradCovMain name (.vec X) (.vec X) h fix with e | G
  · rfl
  rfl

end Verif.Lemmas
