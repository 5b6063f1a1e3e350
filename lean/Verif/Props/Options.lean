import Verif.Props.StepState

/-! # C58, C59: options that are accepted but cannot work -/

namespace Verif.Props

open Verif.Spec Verif.Lemmas Verif.BoCommon Verif.UtilsBo Verif.Constants Verif.BaseBo
open Verif.UtilsCovariance
open Verif.Covariance (Inputs)

variable {n d : ℕ}

/-! ## C58 -/

private theorem set_names {base : String} (hb : base ∈ baseNames) :
    "set_" ++ base ∈ ALLOWED_COV ∧ base ∈ ALLOWED_COV := by
  simp only [baseNames, List.mem_cons, List.not_mem_nil, or_false] at hb
  rcases hb with rfl | rfl | rfl | rfl <;> decide

/-- C58: the constructor accepts a covariance function on sets wherever it accepts the one on
points it is made from. -/
theorem C58_accepted {env : Installed} {B : Bounds d} {base acq : String} {nY ard : Bool}
    {prior : Gp.PriorMu d} {mg mb ms : String} {bo : BoWGp.BOwGP d} {st : BoWGp.GpState}
    (hb : base ∈ baseNames)
    (h : BoWGp.init env B base acq nY ard prior mg mb ms = .ok (bo, st)) :
    BoWGp.init env B ("set_" ++ base) acq nY ard prior mg mb ms =
      .ok ({ bo with str_cov := "set_" ++ base }, st) := by
  obtain ⟨h1, h2⟩ := set_names hb
  unfold BoWGp.init at h ⊢
  obtain ⟨_, a1, h⟩ := py_bind_ok h
  obtain ⟨_, -, h⟩ := py_bind_ok h
  obtain ⟨_, a2, h⟩ := py_bind_ok h
  obtain ⟨_, a3, h⟩ := py_bind_ok h
  obtain ⟨_, a4, h⟩ := py_bind_ok h
  obtain ⟨_, a5, h⟩ := py_bind_ok h
  obtain ⟨_, a6, h⟩ := py_bind_ok h
  obtain ⟨b, a7, h⟩ := py_bind_ok h
  obtain ⟨rfl, rfl⟩ := Prod.mk.inj (Except.ok.inj h)
  simp only [a1, a2, a3, a4, a5, a6, a7, assert_true h1, bind, Except.bind]
  rfl

private theorem set_refused {base : String} (hb : base ∈ baseNames) {u : Unit}
    (h : checkStrCov ("set_" ++ base) 2 = .ok u) : False := by
  obtain ⟨-, h2, h3, -⟩ := setName hb
  simp [checkStrCov, h2, h3, pyAssert, bind, Except.bind] at h

private theorem gpKernel_check {m : Gp.Minimize} {X : Inputs n d} {Y : Fin n → ℝ}
    {prior : Gp.PriorMu d} {cov mg ms : String} {ard : Bool} {fit : Fit n}
    (h : Gp.getOptimizedKernel m X Y prior cov mg ms ard = .ok fit) :
    checkStrCov cov X.rank = .ok () := by
  unfold Gp.getOptimizedKernel at h
  obtain ⟨_, h, -⟩ := py_bind_ok h
  exact h

private theorem fit_check {bo : BoWGp.BOwGP d} {o : Oracles d} {X : Inputs n d} {Y : Fin n → ℝ}
    {mlm : String} {s r : BoWGp.GpState × ℕ} {f : Option (Fit n)}
    (h : BoWGp.fitSurrogate bo o X Y mlm s = (r, .ok f)) :
    checkStrCov bo.str_cov X.rank = .ok () := by
  unfold BoWGp.fitSurrogate at h
  split at h
  · obtain ⟨_, _, a, -⟩ := OptM.bind_ok h
    exact gpKernel_check (lift_ok a).1
  split at h
  · obtain ⟨_, _, -, h⟩ := OptM.bind_ok h
    have h := (lift_ok h).1
    simp only [BoWGp.combinedFit, List.foldlM_cons] at h
    obtain ⟨_, h, -⟩ := py_bind_ok h
    obtain ⟨_, h, -⟩ := py_bind_ok h
    obtain ⟨_, h, -⟩ := py_bind_ok h
    exact gpKernel_check h
  split at h
  · obtain ⟨_, _, -, h⟩ := OptM.bind_ok h
    split at h
    · obtain ⟨_, _, a, -⟩ := OptM.bind_ok h
      exact gpKernel_check (lift_ok a).1
    · obtain ⟨hh, _, -, h⟩ := OptM.bind_ok h
      cases hh with
      | none => cases (Prod.mk.inj h).2
      | some hyps =>
        obtain ⟨_, _, a, -⟩ := OptM.bind_ok h
        have h := (lift_ok a).1
        unfold Covariance.getKernelInverse at h
        obtain ⟨_, h, -⟩ := py_bind_ok h
        exact h
  · cases (Prod.mk.inj h).2

/-- C58 (the code violates the claim): with a covariance function on sets every call of `optimize`
of a Gaussian process model raises: for inputs of either rank, any data, mode and routines, after
any earlier calls. -/
theorem C58_gp_always_raises (bo : BoWGp.BOwGP d) {base : String} (hb : base ∈ baseNames)
    (hcov : bo.str_cov = "set_" ++ base) (o : Oracles d) (clock : ℕ → ℝ) (X : Inputs n d)
    (Y : List ℝ) (sm : String) (ns : ℤ) (mlm : String) (s : BoWGp.GpState × ℕ) :
    ∃ e, (BoWGp.optimize bo o clock X Y sm ns mlm s).2 = .error e := by
  rcases hr : BoWGp.optimize bo o clock X Y sm ns mlm s with ⟨r, e | ⟨p, info⟩⟩
  · exact ⟨e, rfl⟩
  · obtain ⟨h2, -, -, -, -, -, -, Yt, st1, -, hf, -⟩ := gp_optimize_ok hr
    have := fit_check hf
    rw [hcov, h2] at this
    exact (set_refused hb this).elim

/-- C58: on arrays of points, which are the only ones `optimize` lets through, the object does not
even change. -/
theorem C58_gp_unchanged (bo : BoWGp.BOwGP d) {base : String} (hb : base ∈ baseNames)
    (hcov : bo.str_cov = "set_" ++ base) (o : Oracles d) (clock : ℕ → ℝ) (X : Fin n → Point d)
    (Y : List ℝ) (sm : String) (ns : ℤ) (mlm : String) (s : BoWGp.GpState × ℕ) :
    (BoWGp.optimize bo o clock (.vec X) Y sm ns mlm s).1.1 = s.1 := by
  rcases gp_optimize_cases bo o clock (.vec X) Y sm ns mlm s.1 s.2 with
    ⟨t', e, -, h⟩ | ⟨Y', Yt, f, st1, -, -, hf, -⟩
  · rw [h]
  · have := fit_check hf
    rw [hcov] at this
    exact (set_refused hb this).elim

/-- C58 for Student-t processes. -/
theorem C58_tp_always_raises (bo : BoWTp.BOwTP d) {base : String} (hb : base ∈ baseNames)
    (hcov : bo.str_cov = "set_" ++ base) (o : Oracles d) (clock : ℕ → ℝ) (X : Inputs n d)
    (Y : List ℝ) (sm : String) (ns : ℤ) (s : BoWTp.TpState × ℕ) :
    ∃ e, (BoWTp.optimize bo o clock X Y sm ns s).2 = .error e := by
  rcases hr : BoWTp.optimize bo o clock X Y sm ns s with ⟨r, e | ⟨p, info⟩⟩
  · exact ⟨e, rfl⟩
  · obtain ⟨h2, -, -, -, -, -, Yt, fit, -, -, hf, -⟩ := tp_optimize_ok hr
    unfold Tp.getOptimizedKernel at hf
    obtain ⟨_, hf, -⟩ := py_bind_ok hf
    rw [hcov, h2] at hf
    exact (set_refused hb hf).elim

/-- C58: an object the constructor accepts, and a call on sound data that raises. -/
example : ∃ bo : BoWGp.BOwGP 2, BoWGp.init ⟨false, false⟩ exBox ("set_" ++ "matern52") "ei" true true
      none "BFGS" "L-BFGS-B" "ml" = .ok (bo, {}) ∧
    ∃ e, (BoWGp.optimize bo exRoutines (fun k => k)
      (.vec ![![1, 2], ![3, 4], ![5, 5]] : Inputs 3 2) [3, 1, 7] "sobol" 4 "regular"
        ({}, 0)).2 = .error e :=
  ⟨_, C58_accepted (by decide) exBo_init,
    C58_gp_always_raises _ (base := "matern52") (by decide) rfl _ _ _ _ _ _ _ _⟩

example : ∃ e, (BoWTp.optimize { exBoT with str_cov := "set_" ++ "eq" } exRoutines (fun k => k)
      (.vec ![![1, 2], ![3, 4], ![5, 5]] : Inputs 3 2) [3, 1, 7] "sobol" 4 ({}, 0)).2 = .error e :=
  C58_tp_always_raises _ (base := "eq") (by decide) rfl _ _ _ _ _ _ _

/-! ## C59 -/

/-- C59 (the code violates the claim): with one lengthscale for several dimensions and
leave-one-out selection the kernel fit raises, for every minimiser that evaluates its start. -/
theorem C59_fit_raises {name : String} (hb : name ∈ baseNames) (hd : d ≠ 1) {m : Gp.Minimize}
    (hm : EvaluatesStart m) (X : Inputs n d) (Y : Fin n → ℝ) (prior : Gp.PriorMu d)
    (method : String) :
    ∃ e, Gp.getOptimizedKernel m X Y prior name method "loocv" false = .error e := by
  cases hr : Gp.getOptimizedKernel m X Y prior name method "loocv" false with
  | error e => exact ⟨e, rfl⟩
  | ok fit =>
    exfalso
    have hc := gpKernel_check hr
    have hbase : name ∈ ALLOWED_COV_BASE := hb
    obtain ⟨X, rfl⟩ : ∃ X', X = .vec X' := by
      cases X with
      | vec X => exact ⟨X, rfl⟩
      | set p X => simp [checkStrCov, hbase, Inputs.rank, pyAssert, bind, Except.bind] at hc
    obtain ⟨h0, v0, e1, e2, s, ls, rfl, hl, -⟩ := start_vector (d := d) hb false
    obtain ⟨a, rfl⟩ : ∃ a, ls = [a] := List.length_eq_one_iff.1 hl
    have key : ∀ μ, Gp.negLogPseudoLLoocv (.vec X) Y ([s, a].map Flt.fin) name μ true =
        .error .value := fun μ => C38_single_lengthscale_fails hb hd X Y μ true 0 s a
    unfold Gp.getOptimizedKernel at hr
    obtain ⟨_, -, hr⟩ := py_bind_ok hr
    obtain ⟨_, hm', hr⟩ := py_bind_ok hr
    obtain ⟨_, -, hr⟩ := py_bind_ok hr
    obtain ⟨μ, -, hr⟩ := py_bind_ok hr
    obtain ⟨h, e3, hr⟩ := py_bind_ok hr
    rw [e1] at e3
    obtain rfl := Except.ok.inj e3
    obtain ⟨v, e3, hr⟩ := py_bind_ok hr
    rw [show FIX_GP_NOISE = true from rfl, e2] at e3
    obtain rfl := Except.ok.inj e3
    have hmin : ∀ mt bounds jac, m mt (fun hyps => do
        let v ← Gp.negLogPseudoLLoocv (.vec X) Y hyps name μ true
        return (v, none)) ([s, a].map Flt.fin) bounds jac = .error .value := by
      intro mt bounds jac
      refine hm _ _ _ _ _ _ ?_
      simp only [key, bind, Except.bind]
    simp only [String.reduceEq, if_false, FIX_GP_NOISE] at hr
    split at hr
    · obtain ⟨v, e3, -⟩ := py_bind_ok hr
      exact absurd (e3.symm.trans (hmin _ _ _)) (by simp)
    split at hr
    · obtain ⟨bs, -, hr⟩ := py_bind_ok hr
      obtain ⟨v, e3, -⟩ := py_bind_ok hr
      exact absurd (e3.symm.trans (hmin _ _ _)) (by simp)
    split at hr
    · obtain ⟨v, e3, -⟩ := py_bind_ok hr
      exact absurd (e3.symm.trans (hmin _ _ _)) (by simp)
    · obtain ⟨v, e3, -⟩ := py_bind_ok hr
      cases e3

/-- C59: a Gaussian process model with these options never works: every call, in every mode, with
any data and any minimiser that evaluates its start, raises and leaves the new object as it was. -/
theorem C59_gp_always_raises {env : Installed} {B : Bounds d} {cov acq : String} {nY : Bool}
    {prior : Gp.PriorMu d} {mg mb : String} {bo : BoWGp.BOwGP d} {st : BoWGp.GpState}
    (hinit : BoWGp.init env B cov acq nY false prior mg mb "loocv" = .ok (bo, st))
    (hcov : cov ∈ baseNames) (hd : 1 < d) (clock : ℕ → ℝ) (calls : List (AnyCall d))
    (hm : ∀ c ∈ calls, EvaluatesStart c.routines.fitHyps) (t : ℕ) :
    (gpRun bo clock calls (st, t)).1.1 = st ∧
      ∀ out ∈ (gpRun bo clock calls (st, t)).2, ∃ e, out = .error e := by
  obtain ⟨rfl, rfl, rfl, rfl, hard, rfl, rfl, hms, -⟩ := gp_init_ok hinit
  induction calls generalizing t with
  | nil => exact ⟨rfl, by simp [gpRun]⟩
  | cons c cs ih =>
    have h := fun Yt mg => C59_fit_raises (d := d) hcov (by omega) (hm c (by simp)) c.X Yt
      bo.prior_mu mg
    have hone : ∃ t' e, gpCall bo clock c ({}, t) = (({}, t'), .error e) := by
      rcases gp_optimize_cases bo c.routines clock c.X c.Y c.sampling c.samples c.mlm {} t with
        ⟨t', e, -, h⟩ | ⟨Y', Yt, f, st1, -, -, hf, -⟩
      · exact ⟨t', e, h⟩
      · exfalso
        unfold BoWGp.fitSurrogate at hf
        rw [hard, hms] at hf
        split at hf
        · obtain ⟨_, _, a, -⟩ := OptM.bind_ok hf
          obtain ⟨e, he⟩ := h Yt bo.str_optimizer_method_gp
          exact absurd ((lift_ok a).1.symm.trans he) (by simp)
        split at hf
        · obtain ⟨_, _, -, hf⟩ := OptM.bind_ok hf
          have hf := (lift_ok hf).1
          simp only [BoWGp.combinedFit, List.foldlM_cons] at hf
          obtain ⟨_, hf, -⟩ := py_bind_ok hf
          obtain ⟨_, hf, -⟩ := py_bind_ok hf
          obtain ⟨_, hf, -⟩ := py_bind_ok hf
          obtain ⟨e, he⟩ := h Yt "BFGS"
          exact absurd (hf.symm.trans he) (by simp)
        split at hf
        · obtain ⟨_, _, a, hf⟩ := OptM.bind_ok hf
          obtain ⟨rfl, a'⟩ := Prod.mk.inj a
          obtain rfl := Except.ok.inj a'
          simp only [if_true] at hf
          obtain ⟨_, _, a, -⟩ := OptM.bind_ok hf
          obtain ⟨e, he⟩ := h Yt bo.str_optimizer_method_gp
          exact absurd ((lift_ok a).1.symm.trans he) (by simp)
        · cases (Prod.mk.inj hf).2
    obtain ⟨t', e, hone⟩ := hone
    obtain ⟨i1, i2⟩ := ih (fun c h => hm c (by simp [h])) t'
    simp only [gpRun, hone]
    refine ⟨i1, fun out ho => ?_⟩
    rcases List.mem_cons.1 ho with rfl | ho
    · exact ⟨e, rfl⟩
    · exact i2 out ho

/-- C59, the part that holds: one lengthscale for all dimensions works with the likelihood, in any
dimension, and with leave-one-out selection in dimension one. -/
theorem C59_works_partial {env : Installed} {B : Bounds d} {cov acq : String} {nY : Bool}
    {prior : Gp.PriorMu d} {mg mb ms : String} {bo : BoWGp.BOwGP d} {st : BoWGp.GpState}
    (hinit : BoWGp.init env B cov acq nY false prior mg mb ms = .ok (bo, st))
    (hcov : cov ∈ baseNames) (hprior : PriorTotal prior) (hd : 0 < d) (hms : ms = "ml" ∨ d = 1)
    (clock : ℕ → ℝ) (t : ℕ) (calls : List (StepCall d))
    (hcalls : ∀ c ∈ calls, c.Valid B (FitVector 1)) :
    ∃ r ps, gpCalls bo clock calls (st, t) = (r, .ok ps) ∧ ps.length = calls.length ∧
      ∀ p ∈ ps, InBox B p :=
  C71_gp hinit hd hcov hprior (hms.imp_right .inr) clock t calls hcalls

/-- Routines that evaluate their start and stay there. -/
noncomputable def exRoutines' : Oracles 2 :=
  { exRoutines with fitHyps := fun _ f x0 _ _ => do let _ ← f x0; return x0 }

/-- C59: an object the constructor accepts, and a call on sound data that raises. -/
example : ∃ bo : BoWGp.BOwGP 2, BoWGp.init ⟨false, false⟩ exBox "matern52" "ei" true false
      none "BFGS" "L-BFGS-B" "loocv" = .ok (bo, {}) ∧
    ∀ out ∈ (gpRun bo (fun k => k) [{ exAny "regular" with routines := exRoutines' }]
      ({}, 0)).2, ∃ e, out = .error e := by
  have hi : BoWGp.init ⟨false, false⟩ exBox "matern52" "ei" true false
      none "BFGS" "L-BFGS-B" "loocv" =
        .ok ({ exBo with use_ard := false, str_modelselection_method := "loocv" }, {}) := by
    simp only [BoWGp.init, initBase, checkOptimizerMethodBo, pyAssert, exBox_le, implies_true,
      if_true, bind, Except.bind, pure, Except.pure]
    rfl
  refine ⟨_, hi, (C59_gp_always_raises hi (by decide) (by norm_num) _ _ ?_ 0).2⟩
  intro c hc method f x0 bounds jac e he
  rw [List.mem_singleton.1 hc]
  simp only [exRoutines', he, bind, Except.bind]

/-- The working half with the same object but the likelihood. -/
example : ∃ (bo : BoWGp.BOwGP 2) (r : _) (ps : _), BoWGp.init ⟨false, false⟩ exBox "matern52" "ei"
      true false none "BFGS" "L-BFGS-B" "ml" = .ok (bo, {}) ∧
    gpCalls bo (fun k => k) [exCall "regular"] ({}, 0) = (r, .ok ps) ∧ ps.length = 1 := by
  have hi : BoWGp.init ⟨false, false⟩ exBox "matern52" "ei" true false
      none "BFGS" "L-BFGS-B" "ml" = .ok ({ exBo with use_ard := false }, {}) := by
    simp only [BoWGp.init, initBase, checkOptimizerMethodBo, pyAssert, exBox_le, implies_true,
      if_true, bind, Except.bind, pure, Except.pure]
    rfl
  obtain ⟨r, ps, h1, h2, -⟩ := C59_works_partial hi (by decide) (prior_none 2) (by norm_num)
    (.inl rfl) (fun k => k) 0 [exCall "regular"] (by simpa using exCall_valid _ (by simp))
  exact ⟨_, r, ps, hi, h1, h2⟩

end Verif.Props
