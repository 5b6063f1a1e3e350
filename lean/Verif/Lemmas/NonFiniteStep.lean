import Verif.Lemmas.NonFinite
import Verif.Lemmas.WrapperTotal
import Verif.Lemmas.StepTotalOthers
import Verif.Lemmas.WrapperClass
import Verif.Lemmas.WrappersBo

/-! Helper lemmas about steps on responses that are infinite or NaN. -/

namespace Verif.NonFinite

open Verif.Spec Verif.Trees Verif.Constants Verif.UtilsCovariance Verif.BoCommon Verif.Lemmas
open Verif.Covariance (Inputs getKernelCholesky)
open Verif.UtilsBo (finites)
open Verif.WrappersBo

variable {d n : ℕ}

theorem sub_number {y : Flt} {m : ℝ} : IsNumber (y.sub (.fin m)) ↔ IsNumber y := by
  cases y <;> simp [IsNumber, Flt.sub, Flt.neg, Flt.add]

theorem checkFinite_bad {b : Fin n → Flt} {i : Fin n} (h : ¬ IsNumber (b i)) :
    checkFinite b = .error .value := by
  unfold checkFinite
  rw [dif_neg fun h' => h (h' i)]

theorem checkFinite_fin (b : Fin n → ℝ) : checkFinite (fun i => Flt.fin (b i)) = .ok b := by
  unfold checkFinite
  have h : ∀ i, ∃ x, Flt.fin (b i) = .fin x := fun i => ⟨_, rfl⟩
  rw [dif_pos h]
  congr 1
  funext i
  exact (Flt.fin.inj (h i).choose_spec).symm

/-- On numbers, the likelihood of `Gp`. -/
theorem negLogMl_fin (X : Inputs n d) (Y : Fin n → ℝ) (hyps : List Flt) (cov : String)
    (μ : Fin n → ℝ) (ard fix ug : Bool) :
    negLogMl X (fun i => .fin (Y i)) hyps cov μ ard fix ug =
      Gp.negLogMl X Y hyps cov μ ard fix true ug := by
  have e : (fun i => (Flt.fin (Y i)).sub (.fin (μ i))) = fun i => Flt.fin (Y i - μ i) := by
    funext i
    simp [Flt.sub, Flt.neg, Flt.add, sub_eq_add_neg]
  unfold negLogMl
  simp only [e, checkFinite_fin]
  unfold Gp.negLogMl
  cases h1 : checkStrCov cov X.rank with
  | error e => rfl
  | ok _ =>
    simp only [bind, Except.bind]
    cases h2 : restoreHyps cov hyps true ard fix with
    | error e => rfl
    | ok dict =>
      simp only [if_true]
      cases h3 : getKernelCholesky X dict cov fix ug with
      | error e => rfl
      | ok r => simp only [sub_zero]

/-- The likelihood of responses that are not all numbers is refused. -/
theorem negLogMl_bad {name : String} (hb : name ∈ baseNames) (X : Fin n → Point d)
    {Y : Fin n → Flt} {i : Fin n} (hi : ¬ IsNumber (Y i)) (μ : Fin n → ℝ) {ard : Bool}
    {v : List Flt} (hv : FitVector (scaleCount ard d) v) (ug : Bool) :
    negLogMl (.vec X) Y v name μ ard true ug = .error .value := by
  have hn : n ≠ 0 := by
    rintro rfl
    exact i.elim0
  obtain ⟨y, g, h, -⟩ := negLogMl_grad_total hb hn X (fun _ => 0) μ hv ug
  unfold Gp.negLogMl at h
  obtain ⟨_, h1, h⟩ := py_bind_ok h
  obtain ⟨dict, h2, h⟩ := py_bind_ok h
  rw [if_pos rfl] at h
  obtain ⟨L, h4, -⟩ := py_bind_ok h
  unfold negLogMl
  rw [h1]
  simp only [bind, Except.bind, h2, h4]
  rw [checkFinite_bad (i := i) fun h => hi (sub_number.1 h)]

/-- The fit by the marginal likelihood is refused. -/
theorem getOptimizedKernel_bad {name : String} (hb : name ∈ baseNames) (X : Fin n → Point d)
    {Y : Fin n → Flt} {i : Fin n} (hi : ¬ IsNumber (Y i)) {prior : Gp.PriorMu d}
    (hprior : PriorTotal prior) {method : String} (hm : method ∈ ALLOWED_OPTIMIZER_METHOD_GP)
    (ard : Bool) {fit : Gp.Minimize} (hfit : EvaluatesStart fit) :
    getOptimizedKernel fit (.vec X) Y prior name method ard = .error .value := by
  obtain ⟨μ, hμ⟩ := hprior n X
  obtain ⟨h0, v0, e1, e2, hv0⟩ := start_vector (d := d) hb ard
  obtain ⟨ranges, -, -, e5, -⟩ := Props.C20_ranges_aligned name (base_allowed' hb) d true ard true
  have hc := checkStrCov_suits (vec_suits hb X)
  have hb' : name ∈ ALLOWED_COV_BASE := hb
  have key : ∀ mt bounds ug jac, fit mt (fun hyps => negLogMl (.vec X) Y hyps name μ ard true ug) v0
      bounds jac = .error .value := fun mt bounds ug jac =>
    hfit _ _ _ _ _ _ (negLogMl_bad hb X hi μ hv0 ug)
  have hmn : method = "BFGS" ∨ method = "L-BFGS-B" ∨ method = "Nelder-Mead" ∨
      method = "SLSQP" ∨ method = "SLSQP-Bounded" := by
    simpa [ALLOWED_OPTIMIZER_METHOD_GP] using hm
  unfold getOptimizedKernel
  simp only [hc, pyAssert, hm, hb', e1, e2, hμ, FIX_GP_NOISE, bind, Except.bind, if_true]
  rcases hmn with rfl | rfl | rfl | rfl | rfl <;> simp [e5, key]

theorem fitSurrogate_bad {bo : BoWGp.BOwGP d} (hml : bo.str_modelselection_method = "ml")
    (hb : bo.str_cov ∈ baseNames) (hprior : PriorTotal bo.prior_mu)
    (hm : bo.str_optimizer_method_gp ∈ ALLOWED_OPTIMIZER_METHOD_GP) {o : Oracles d}
    (ho : EvaluatesStart o.fitHyps) (X : Fin n → Point d) {Y : Fin n → Flt} {i : Fin n}
    (hi : ¬ IsNumber (Y i)) {mlm : String} {s : BoWGp.GpState} (hmlm : mlm = "regular" ∨
      mlm = "combined" ∨ (mlm = "converged" ∧ s.is_optimize_hyps = true)) (t : ℕ) :
    fitSurrogate bo o (.vec X) Y mlm (s, t) = ((s, t), .error .value) := by
  have hk := fun m hm => getOptimizedKernel_bad (n := n) hb X hi hprior (method := m) hm bo.use_ard ho
  unfold fitSurrogate
  simp only [ne_eq, hml, not_true, if_false]
  rcases hmlm with rfl | rfl | ⟨rfl, hs⟩
  · simp only [if_true, hk _ hm]
    exact OptM.bind_of_error rfl
  · obtain ⟨μ, hμ⟩ := hprior n X
    simp only [String.reduceEq, if_false, if_true]
    rw [OptM.bind_of_ok (s1 := (s, t)) (a := μ) (by rw [hμ]; rfl)]
    refine congrArg (Prod.mk (s, t)) ?_
    unfold BoWGp.combinedFit
    simp only [List.foldlM_cons, hk "BFGS" (by decide), bind, Except.bind]
  · simp only [String.reduceEq, if_false, if_true]
    rw [OptM.bind_of_ok (s1 := (s, t)) (a := s) rfl, if_pos hs, hk _ hm]
    exact OptM.bind_of_error rfl

/-- Normalisation leaves no set of numbers where there was none. -/
theorem normalize_bad {Y : List Flt} {y : Flt} (hy : y ∈ Y) (hn : ¬ IsNumber y) :
    ∃ Y', normalizeMinMax Y = .ok Y' ∧ Y'.length = Y.length ∧ ∃ z ∈ Y', ¬ IsNumber z := by
  have nn : ¬ IsNumber .nan := by simp [IsNumber]
  by_cases h1 : .nan ∈ Y
  · exact ⟨_, normalize_nan h1, by simp, .nan, List.mem_map.2 ⟨_, h1, rfl⟩, nn⟩
  by_cases h2 : .ninf ∈ Y
  · by_cases h : ∃ z ∈ Y, z ≠ .ninf
    · obtain ⟨z, hz, hz'⟩ := h
      exact ⟨_, normalize_ninf h2 hz hz', by simp, .nan, List.mem_map.2 ⟨_, h2, rfl⟩, nn⟩
    · push Not at h
      exact ⟨Y, normalize_same (List.ne_nil_of_mem hy) h (by simp), rfl, y, hy, hn⟩
  have hyp : y = .pinf := by
    cases y with
    | fin x => exact absurd ⟨x, rfl⟩ hn
    | pinf => rfl
    | ninf => exact absurd hy h2
    | nan => exact absurd hy h1
  subst hyp
  by_cases h : ∃ z : ℝ, .fin z ∈ Y
  · obtain ⟨z, hz⟩ := h
    exact ⟨_, normalize_pinf hy hz h1 h2, by simp, .nan, List.mem_map.2 ⟨_, hy, by simp⟩, nn⟩
  · push Not at h
    refine ⟨Y, normalize_same (List.ne_nil_of_mem hy) (z := .pinf) (fun z hz => ?_) (by simp), rfl,
      .pinf, hy, hn⟩
    cases z with
    | fin x => exact absurd hz (h x)
    | pinf => rfl
    | ninf => exact absurd hz h2
    | nan => exact absurd hz h1

theorem lift_ok {σ α β : Type} {p : Py α} {a : α} (h : p = .ok a) (f : α → OptM σ β) (s : σ × ℕ) :
    (OptM.lift p >>= f) s = f a s := OptM.bind_of_ok (by rw [h]; rfl)

theorem now_ok {σ β : Type} (clock : ℕ → ℝ) (f : ℝ → OptM σ β) (s : σ) (t : ℕ) :
    (OptM.now clock >>= f) (s, t) = f (clock t) (s, t + 1) := OptM.bind_of_ok rfl

theorem gpOptimize_bad {bo : BoWGp.BOwGP d} (hml : bo.str_modelselection_method = "ml")
    (hb : bo.str_cov ∈ baseNames) (hprior : PriorTotal bo.prior_mu)
    (hm : bo.str_optimizer_method_gp ∈ ALLOWED_OPTIMIZER_METHOD_GP) {o : Oracles d}
    (ho : EvaluatesStart o.fitHyps) (clock : ℕ → ℝ) (X : Fin n → Point d) {Y : List Flt}
    (hl : n = Y.length) {y : Flt} (hy : y ∈ Y) (hyn : ¬ IsNumber y) {sm : String}
    (hsm : sm ∈ ALLOWED_SAMPLING_METHOD) {ns : ℤ} (hns : 0 < ns) {mlm : String}
    {s : BoWGp.GpState} (hmlm : mlm = "regular" ∨
      mlm = "combined" ∨ (mlm = "converged" ∧ s.is_optimize_hyps = true)) (t : ℕ) :
    gpOptimize bo o clock (.vec X) Y sm ns mlm (s, t) = ((s, t + 2), .error .value) := by
  obtain ⟨Y', e, hl', z, hz, hzn⟩ : ∃ Y', (if bo.normalize_Y = true ∧ mlm ≠ "converged" then
      normalizeMinMax Y else .ok Y) = .ok Y' ∧ Y'.length = Y.length ∧ ∃ z ∈ Y', ¬ IsNumber z := by
    split
    · exact normalize_bad hy hyn
    · exact ⟨Y, rfl, rfl, y, hy, hyn⟩
  have hmm : mlm ∈ ALLOWED_MLM_METHOD := by
    rcases hmlm with rfl | rfl | ⟨rfl, -⟩ <;> decide
  unfold gpOptimize
  rw [lift_ok (a := ()) (by simp [pyAssert, Inputs.rank])]
  rw [lift_ok (p := columnF n Y) (by unfold columnF; rw [dif_pos hl])]
  rw [lift_ok (a := ()) (by simp [pyAssert, hns]), lift_ok (a := ()) (by simp [pyAssert, hsm]),
    lift_ok (a := ()) (by simp [pyAssert, hmm]), now_ok, lift_ok e,
    lift_ok (p := columnF n Y') (by unfold columnF; rw [dif_pos (by omega)]), now_ok]
  obtain ⟨i, hi, rfl⟩ := List.getElem_of_mem hz
  exact OptM.bind_of_error (fitSurrogate_bad hml hb hprior hm ho X
    (Y := fun j => Y'[j.val]'(by omega)) (i := ⟨i, by omega⟩) hzn hmlm _)

theorem finites_bad {Y : List Flt} {y : Flt} (hy : y ∈ Y) (hn : ¬ IsNumber y) :
    ∃ e, finites Y = .error e := by
  cases h : finites Y with
  | error e => exact ⟨e, rfl⟩
  | ok Z =>
    rw [finites_ok h] at hy
    obtain ⟨x, -, rfl⟩ := List.mem_map.1 hy
    exact absurd ⟨x, rfl⟩ hn

theorem treesOptimize_bad {σ : Type} {bo : BaseBo.BaseBO d} (hrf : bo.str_surrogate = "rf")
    (rnd : ForestRnd d) (clock : ℕ → ℝ) {X : List (Point d)} {Y : List Flt}
    (hl : X.length = Y.length) {sm : String} (hsm : sm ∈ ALLOWED_SAMPLING_METHOD) {ns : ℤ}
    (hns : 0 < ns) {Y' : List Flt}
    (hY' : (if bo.normalize_Y then normalizeMinMax Y else .ok Y) = .ok Y') (s : σ × ℕ) :
    (treesOptimize bo rnd clock X Y sm ns 100 5 1 s).2 = .error .type ↔
      getRandomForest rnd X Y' 100 5 1 ⌊Real.sqrt d⌋ = .error .type := by
  obtain ⟨s, t⟩ := s
  unfold treesOptimize
  rw [lift_ok (a := ()) (by simp [pyAssert, hl]), lift_ok (a := ()) (by simp [pyAssert, hns]),
    lift_ok (a := ()) (by simp [pyAssert, hsm]), now_ok, lift_ok hY', now_ok]
  simp only [hrf, if_true]
  cases h : getRandomForest rnd X Y' 100 5 1 ⌊Real.sqrt d⌋ with
  | error e =>
    rw [OptM.bind_of_error (s1 := (s, t + 1 + 1)) (e := e) rfl]
    simp
  | ok T =>
    rw [lift_ok rfl]
    simp [OptM.lift]

/-- A run that was successful has had only good responses before its last step. -/
theorem run_good {σ : Type} {env : WrappersBo.Env d σ} {good : Flt → Prop}
    (hs : ∀ s t X Y, X.length = Y.length → (∃ y ∈ Y, ¬ good y) → ∃ e, (env.step s t X Y).2 = .error e)
    {T : ℕ} {X : List (Point d)} {Y : List Flt} {w w' : WrappersBo.World d σ}
    {st : WrappersBo.LoopSt d}
    (h : WrappersBo.optimizeWithAllInitialInformation env (T + 1) X Y w = (w', .ok st)) :
    ∀ y ∈ st.Y.dropLast, good y := by
  obtain ⟨hl, w1, h1, -⟩ := run_ok env _ X Y w w' st h
  obtain ⟨Q, R, tr⟩ := classLoop_trace env _ _ _ _ _ h1
  have hT : T < Q.length := by rw [tr.lenQ]; omega
  obtain ⟨wi, s', t', p, info, y, -, -, hstep, -, -⟩ := tr.iter T Q[T] (List.getElem?_eq_getElem hT)
  intro z hz
  by_contra hbad
  have e : st.Y.dropLast = Y ++ R.take T := by
    rw [tr.Y]
    have hR : R ≠ [] := by
      intro h0
      have := tr.lenR
      rw [h0] at this
      simp at this
    rw [List.dropLast_append_of_ne_nil hR, List.dropLast_eq_take, tr.lenR]
    rfl
  rw [e] at hz
  obtain ⟨e, he⟩ := hs wi.model (wi.tick + 1) (X ++ Q.take T) (Y ++ R.take T)
    (by simp [hl, tr.lenQ, tr.lenR]) ⟨z, hz, hbad⟩
  rw [hstep] at he
  simp at he

end Verif.NonFinite
