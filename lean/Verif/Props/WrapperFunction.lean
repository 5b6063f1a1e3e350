import Verif.Spec.WrapperFunction
import Verif.Props.OtherRuns
import Verif.Props.EndToEndMore
import Verif.Props.ImprovementChance

/-!
# The function-style interface on an object of the package (C153)
-/

namespace Verif.Props

open Verif.Constants Verif.UtilsBo Verif.BaseBo Verif.BoCommon Verif.WrappersBo Verif.WrapperClass
open Verif.StartLog Verif.WrapperFunction Verif.Spec Verif.Lemmas
open Verif.BoWGp (BOwGP GpState)

variable {d : ℕ}

theorem assert_iff {p : Prop} [Decidable p] {α : Type} {F : Py α} {v : α} :
    (do pyAssert p; F) = .ok v ↔ p ∧ F = .ok v := by
  by_cases hp : p <;> simp [pyAssert, hp, bind, Except.bind]

/-- What the check of the acquisition optimiser returns passes it again. -/
theorem check_twice {env : Installed} {m m' : String} {d : ℕ}
    (h : checkOptimizerMethodBo env m d = .ok m') :
    checkOptimizerMethodBo env m' d = .ok m' ∧
    (m ∈ ALLOWED_OPTIMIZER_METHOD_BO ↔ m' ∈ ALLOWED_OPTIMIZER_METHOD_BO) ∧
    m ∈ ALLOWED_OPTIMIZER_METHOD_BO ++ ALLOWED_OPTIMIZER_METHOD_BO_TREES ∧
    m' ∈ ALLOWED_OPTIMIZER_METHOD_BO ++ ALLOWED_OPTIMIZER_METHOD_BO_TREES := by
  unfold checkOptimizerMethodBo at h
  rw [assert_iff] at h
  obtain ⟨h1, h⟩ := h
  have hl : checkOptimizerMethodBo env "L-BFGS-B" d = .ok "L-BFGS-B" := by
    simp [checkOptimizerMethodBo, pyAssert, ALLOWED_OPTIMIZER_METHOD_BO, bind, Except.bind, pure, Except.pure]
  have hl' : "L-BFGS-B" ∈ ALLOWED_OPTIMIZER_METHOD_BO := by decide
  split_ifs at h with c1 c2 c3 <;> obtain rfl := Except.ok.inj h
  · rw [c1.1]
    exact ⟨hl, by simp [ALLOWED_OPTIMIZER_METHOD_BO], by decide, by decide⟩
  · rw [c2.1]
    exact ⟨hl, by simp [ALLOWED_OPTIMIZER_METHOD_BO], by decide, by decide⟩
  · rw [c3.1]
    exact ⟨hl, by simp [ALLOWED_OPTIMIZER_METHOD_BO], by decide, by decide⟩
  · refine ⟨?_, Iff.rfl, h1, h1⟩
    simp only [checkOptimizerMethodBo, pyAssert, h1, c1, c2, c3, if_true, if_false, bind, Except.bind, pure,
      Except.pure]

/-- The constructor of the object checks the acquisition optimiser itself. -/
theorem init_checked {env : Installed} {a : Args d} {m' : String}
    (h : checkOptimizerMethodBo env a.str_optimizer_method_bo d = .ok m') :
    BoWGp.init env a.range_X a.str_cov a.str_acq a.normalize_Y a.use_ard a.prior_mu
      a.str_optimizer_method_gp m' a.str_modelselection_method = objectOf env a := by
  obtain ⟨h1, h2, h3, h4⟩ := check_twice h
  unfold objectOf BoWGp.init initBase
  simp only [h2, h3, h4, h, h1]

/-- C153: `BayesianOptimization` accepts arguments with the surrogate `gp` just when `BOwGP` accepts
those it has, and the others are as demanded; the object it works with is the one a user would
make. -/
theorem C153_object {env : Installed} {a : Args d} (hgp : a.str_surrogate = "gp") (bo : BOwGP d)
    (st : ModelState) :
    (∃ w, create env a = .ok (w, st) ∧ w.model_bo = .gp bo) ↔
      objectOf env a = .ok (bo, st.gp) ∧ st = {} ∧ RunArguments a := by
  constructor
  · rintro ⟨w, h, hbo⟩
    obtain ⟨h1, rfl, -, -, -, -, -, m', h2, h3⟩ := create_ok h
    obtain ⟨c1, c2, c3, c4, c5, -⟩ := own_checked h1
    rcases h3 with ⟨h3, -⟩ | ⟨-, -, bo', h3, h4⟩ | ⟨h3, -⟩
    · exact absurd (hgp.symm.trans h3) (by decide)
    · rw [h3] at hbo
      obtain rfl := Surrogate.gp.inj hbo
      rw [init_checked h2] at h4
      refine ⟨h4, rfl, c1, c2, c3, c4, c5, ?_⟩
      simp only [ownChecks, assert_iff] at h1
      exact h1.2.2.2.2.2.2.2.2.2.1
    · exact absurd (hgp.symm.trans h3) (by decide)
  · rintro ⟨h, rfl, hr⟩
    have h' := h
    unfold objectOf BoWGp.init initBase at h'
    simp only [assert_iff] at h'
    obtain ⟨i1, i2, i3, i4, i5, i6, -, h'⟩ := h'
    have i7 : a.str_optimizer_method_bo ∈ ALLOWED_OPTIMIZER_METHOD_BO ++ ALLOWED_OPTIMIZER_METHOD_BO_TREES :=
      List.mem_append_left _ i5
    obtain ⟨m', hm⟩ : ∃ m', checkOptimizerMethodBo env a.str_optimizer_method_bo d = .ok m' := by
      simp only [checkOptimizerMethodBo, pyAssert, i7, if_true, bind, Except.bind, pure, Except.pure]
      split_ifs <;> exact ⟨_, rfl⟩
    have hs : a.str_surrogate ∈ ALLOWED_SURROGATE ++ ALLOWED_SURROGATE_TREES := by rw [hgp]; decide
    have ho : ownChecks a = .ok () := by
      simp only [ownChecks, assert_iff]
      have := hr.num_iter
      have := hr.num_samples
      have e : pyAssert (a.str_modelselection_method ∈ ALLOWED_MODELSELECTION_METHOD) = .ok () := by
        simp [pyAssert, i6]
      exact ⟨i1, hr.num_iter, hr.num_samples, hs, i2, i3, hr.initial, hr.sampling, i4, hr.tp, i7, hr.mlm, e⟩
    have ht : ¬ "gp" ∈ ALLOWED_SURROGATE_TREES := by decide
    refine ⟨⟨a.num_iter, "gp", a.str_initial_method_bo, a.str_sampling_method_ao, a.num_samples_ao,
      some a.str_mlm_method, .gp bo⟩, ?_, rfl⟩
    unfold create getModelBo
    simp only [ho, hm, hgp, ht, if_false, if_true, init_checked hm, h, bind, Except.bind, pure, Except.pure]

/-- The messages at the start of a round are written. -/
theorem messages_ok {bo : BOwGP d} {a : RoundArgs}
    (hi : a.str_initial_method_bo ∈ ALLOWED_INITIALIZING_METHOD_BO)
    (hm : a.str_mlm_method ∈ ALLOWED_MLM_METHOD) : ∃ l, messages (.gp bo) a = .ok l := by
  simp only [messages, roundInfo, pyAssert, hi, hm, if_true, UtilsLogger.getStrArray, rangeArray, bind,
    Except.bind, pure, Except.pure]
  exact ⟨_, rfl⟩

/-- C153: the three functions, on the object that `BayesianOptimization` makes of the same arguments, do
what its methods do: the same proposals and evaluations, in the same order, the same reports of times,
the same changes of the object, and the same exceptions, whatever the target and the routines do. -/
theorem C153_same {env : Installed} {a : Args d} {w : BayesianOptimization d} {st : ModelState}
    (hw : create env a = .ok (w, st)) (hgp : a.str_surrogate = "gp") (o : RunOracles d) (clock : ℕ → ℝ)
    (target : ℕ → Point d → Py Flt) (num_init : ℤ) (seed : Option ℤ) :
    (∀ X Y, roundAll w.model_bo (roundArgs a num_init seed) o clock target X Y =
      optimizeWithAllInitialInformation (runEnv w o clock target) w.num_iter.toNat X Y) ∧
    (∀ X, roundInputs w.model_bo (roundArgs a num_init seed) o clock target X =
      optimizeWithInitialInputs (runEnv w o clock target) w.num_iter.toNat X) ∧
    (0 < num_init → ∀ r, roundRun w.model_bo (roundArgs a num_init seed) o clock target r =
      optimize w o clock target r num_init) := by
  obtain ⟨h1, rfl, e1, e2, e3, e4, e5, m', h2, h3⟩ := create_ok hw
  obtain ⟨c1, c2, c3, c4, c5, -⟩ := own_checked h1
  rcases h3 with ⟨h3, -⟩ | ⟨-, e6, bo, h3, h4⟩ | ⟨h3, -⟩
  · exact absurd (hgp.symm.trans h3) (by decide)
  · have ht : ¬ "gp" ∈ ALLOWED_SURROGATE_TREES := by decide
    have henv : roundEnv (.gp bo) (roundArgs a num_init seed) o clock target = runEnv w o clock target := by
      have : roundStep (.gp bo) (roundArgs a num_init seed) o clock = step w o clock := by
        funext s t X Y
        simp only [roundStep, step, optimizeSingleIteration, e2, hgp, ht, if_true, if_false, h3, e4, e5, e6,
          roundArgs]
        rcases finites Y with e | Y <;> rfl
      rw [roundEnv, runEnv, this]
    have hT : a.num_iter = ((w.num_iter.toNat : ℕ) : ℤ) := by
      rw [e1, Int.toNat_of_nonneg c1.le]
    have hm : (roundArgs a num_init seed).str_mlm_method ∈ ALLOWED_MLM_METHOD := c5
    obtain ⟨l, hl⟩ := messages_ok (bo := bo) (a := roundArgs a num_init seed) c3 hm
    have hn : (roundArgs a num_init seed).num_iter = ((w.num_iter.toNat : ℕ) : ℤ) := hT
    refine ⟨fun X Y => ?_, fun X => ?_, fun h0 r => ?_⟩
    · funext u
      simp only [roundAll, h3, isBO, RunM.lift, pyAssert, hm, if_true, bind_apply, henv, hn]
      rw [C12_same_run]
    · funext u
      simp only [roundInputs, h3, isBO, RunM.lift, pyAssert, hm, if_true, bind_apply, henv, hn]
      rw [(C12_same_round _ _).1]
    · funext u
      simp only [roundRun, h3, isBO, RunM.lift, pyAssert, if_true, bind_apply, henv, hn, hl]
      rw [(C12_same_round _ _).2 _ _ (show 0 < (roundArgs a num_init seed).num_init from h0), optimize, h3, e3]
      rfl
  · exact absurd (hgp.symm.trans h3) (by decide)

/-- C153: objects of the Student-t process and of the random forests, unknown fitting modes and unknown
initial designs are an `AssertionError` before anything else happens. -/
theorem C153_rejects {m : Surrogate d} {a : RoundArgs} {o : RunOracles d} {clock : ℕ → ℝ}
    {target : ℕ → Point d → Py Flt} {r : Draws d} {u : World d (ModelState × ℕ)} :
    ((∀ bo, m ≠ .gp bo) ∨ a.str_mlm_method ∉ ALLOWED_MLM_METHOD →
      (∀ X Y, roundAll m a o clock target X Y u = (u, .error .assertion)) ∧
      ∀ X, roundInputs m a o clock target X u = (u, .error .assertion)) ∧
    ((∀ bo, m ≠ .gp bo) ∨ a.str_mlm_method ∉ ALLOWED_MLM_METHOD ∨
        a.str_initial_method_bo ∉ ALLOWED_INITIALIZING_METHOD_BO →
      roundRun m a o clock target r u = (u, .error .assertion)) := by
  constructor
  · intro h
    rcases m with bo | bo | bo
    · have h := h.resolve_left fun h => h bo rfl
      simp [roundAll, roundInputs, isBO, RunM.lift, pyAssert, bind_apply, h]
    · simp [roundAll, roundInputs, isBO, RunM.lift, pyAssert, bind_apply]
    · simp [roundAll, roundInputs, isBO, RunM.lift, pyAssert, bind_apply]
  · intro h
    rcases m with bo | bo | bo
    · have h := h.resolve_left fun h => h bo rfl
      rcases h with h | h
      · by_cases hi : a.str_initial_method_bo ∈ ALLOWED_INITIALIZING_METHOD_BO <;>
          simp [roundRun, isBO, messages, roundInfo, RunM.lift, pyAssert, bind_apply, h, hi, bind, Except.bind]
      · simp [roundRun, isBO, messages, roundInfo, RunM.lift, pyAssert, bind_apply, h, bind, Except.bind]
    · simp [roundRun, isBO, RunM.lift, pyAssert, bind_apply]
    · simp [roundRun, isBO, RunM.lift, pyAssert, bind_apply]

/-- Finite responses at the initial rows, which the target was called on in order. -/
theorem initials_finite {σ : Type} {env : Env d σ} :
    ∀ (X : List (Point d)) (w : World d σ), (∀ k, ∀ x ∈ X, ∃ y : ℝ, env.target k x = .ok (.fin y)) →
      ∃ w' ts, ∃ Y : List ℝ, classInitials env X w = (w', .ok (Y.map .fin, ts)) ∧ Y.length = X.length ∧
        w'.log = w.log ++ X ∧ w'.model = w.model ∧ ts.length = X.length ∧
        ∀ (i : ℕ) x y, X[i]? = some x → Y[i]? = some y → env.target (w.log.length + i) x = .ok (.fin y) := by
  intro X
  induction X with
  | nil => exact fun w _ => ⟨w, [], [], rfl, rfl, by simp, rfl, rfl, by simp⟩
  | cons x X ih =>
    intro w hX
    obtain ⟨y, hy⟩ := hX w.log.length x (by simp)
    obtain ⟨w', ts, Y, h1, h2, h3, h4, h5, h6⟩ := ih ⟨w.model, w.tick + 1 + 1, w.log ++ [x]⟩
      fun k q hq => hX k q (by simp [hq])
    refine ⟨w', (env.clock (w.tick + 1) - env.clock w.tick) :: ts, y :: Y, ?_, by simp [h2], ?_, h4,
      by simp [h5], ?_⟩
    · simp [classInitials, bind_apply, now, callTarget, hy, h1, pure_apply]
    · simp [h3]
    · intro i q z hq hz
      cases i with
      | zero =>
        simp only [List.getElem?_cons_zero, Option.some.injEq] at hq hz
        subst hq hz
        simpa using hy
      | succ i =>
        simp only [List.getElem?_cons_succ] at hq hz
        have := h6 i q z hq hz
        simp only [List.length_append, List.length_singleton] at this
        rwa [show w.log.length + (i + 1) = w.log.length + 1 + i by omega]

/-- C153: a number of samples or a sampling method that the constructor of the class rejects is
rejected by the functions only after the target was called on all initial inputs. -/
theorem C153_late {bo : BOwGP d} {a : RoundArgs} (hm : a.str_mlm_method ∈ ALLOWED_MLM_METHOD)
    (ha : a.num_samples_ao ≤ 0 ∨ a.str_sampling_method_ao ∉ ALLOWED_SAMPLING_METHOD)
    (hT : 0 < a.num_iter) {o : RunOracles d} {clock : ℕ → ℝ} {target : ℕ → Point d → Py Flt}
    {X : List (Point d)} (ht : ∀ k, ∀ x ∈ X, ∃ y : ℝ, target k x = .ok (.fin y))
    (u : World d (ModelState × ℕ)) :
    (∃ u', roundInputs (.gp bo) a o clock target X u = (u', .error .assertion) ∧
      u'.log = u.log ++ X ∧ u'.model.1 = u.model.1) ∧
    (∀ (env : Installed) (b : Args d), b.num_samples_ao = a.num_samples_ao →
      b.str_sampling_method_ao = a.str_sampling_method_ao → ∀ v, create env b ≠ .ok v) := by
  constructor
  · obtain ⟨T, hT⟩ : ∃ T : ℕ, a.num_iter = ((T + 1 : ℕ) : ℤ) := ⟨a.num_iter.toNat - 1, by omega⟩
    obtain ⟨w', ts, Y, h1, h2, h3, h4, -⟩ := initials_finite (env := roundEnv (.gp bo) a o clock target) X u ht
    have hstep : ∀ t, roundStep (.gp bo) a o clock w'.model t X (Y.map .fin) =
        (((w'.model.1, w'.model.2 + 1), t), .error .assertion) := by
      intro t
      have hcol : ∃ c, column X.length Y = .ok c := by
        rw [column, dif_pos h2.symm]
        exact ⟨_, rfl⟩
      obtain ⟨c, hcol⟩ := hcol
      have hopt : ∀ q, BoWGp.optimize bo (o.routines w'.model.2) clock (.vec X.get) Y a.str_sampling_method_ao
          a.num_samples_ao a.str_mlm_method q = (q, .error .assertion) := by
        intro q
        rcases ha with ha | ha
        · have ha' : ¬ a.num_samples_ao > 0 := by omega
          simp [BoWGp.optimize, OptM.lift, bind, Except.bind, pyAssert, hcol, ha', Covariance.Inputs.rank]
        · by_cases ha' : a.num_samples_ao > 0 <;>
            simp [BoWGp.optimize, OptM.lift, bind, Except.bind, pyAssert, hcol, ha, ha',
              Covariance.Inputs.rank]
      simp only [roundStep, finites_map, modelOptimize, Option.getD_some, hopt]
      rfl
    simp only [roundInputs, isBO, RunM.lift, pyAssert, hm, if_true, bind_apply, hT]
    rw [(C12_same_round _ _).1]
    simp only [optimizeWithInitialInputs, bind_apply, h1, optimizeWithAllInitialInformation, RunM.lift,
      pyAssert, List.length_map, h2, if_true, now, classLoop, classIteration, callStep]
    simp only [roundEnv, hstep]
    exact ⟨_, rfl, h3, by rw [h4]⟩
  · rintro env b e1 e2 ⟨w, st⟩ h
    obtain ⟨h1, -⟩ := create_ok h
    obtain ⟨-, c2, -, c4, -⟩ := own_checked h1
    rw [e1] at c2
    rw [e2] at c4
    rcases ha with ha | ha
    · omega
    · exact ha c4

/-- C153: without iterations the functions return the initial rows and their responses. The class
does not accept a number of iterations below one. -/
theorem C153_none {bo : BOwGP d} {a : RoundArgs} (hm : a.str_mlm_method ∈ ALLOWED_MLM_METHOD)
    (hT : a.num_iter ≤ 0) {o : RunOracles d} {clock : ℕ → ℝ} {target : ℕ → Point d → Py Flt}
    (X : List (Point d)) (ht : ∀ k, ∀ x ∈ X, ∃ y : ℝ, target k x = .ok (.fin y))
    (u : World d (ModelState × ℕ)) :
    ∃ u' res, roundInputs (.gp bo) a o clock target X u = (u', .ok res) ∧ res.X = X ∧
      res.Y.length = X.length ∧ (∀ (i : ℕ) x y, X[i]? = some x → res.Y[i]? = some y →
        target (u.log.length + i) x = .ok y) ∧ res.time_all.length = X.length ∧
      res.time_surrogate = [] ∧ res.time_acq = [] ∧ u'.log = u.log ++ X ∧ u'.model = u.model := by
  obtain ⟨w', ts, Y, h1, h2, h3, h4, h5, h6⟩ := initials_finite (env := roundEnv (.gp bo) a o clock target) X u ht
  have hT' : ∀ env : Env d (ModelState × ℕ), runSingleRoundWithInitialInputs env X a.num_iter =
      runSingleRoundWithInitialInputs env X ((0 : ℕ) : ℤ) := by
    intro env
    have : a.num_iter.toNat = ((0 : ℕ) : ℤ).toNat := by omega
    unfold runSingleRoundWithInitialInputs runSingleRoundWithAllInitialInformation
    rw [this]
  simp only [roundInputs, isBO, RunM.lift, pyAssert, hm, if_true, bind_apply]
  rw [hT', (C12_same_round _ _).1]
  simp only [optimizeWithInitialInputs, bind_apply, h1, optimizeWithAllInitialInformation, RunM.lift,
    pyAssert, List.length_map, h2, if_true, now, classLoop, pure_apply]
  refine ⟨_, _, rfl, rfl, by simp [h2], ?_, by simp [h5], rfl, rfl, h3, h4⟩
  intro i x y hx hy
  simp only [List.getElem?_map, Option.map_eq_some_iff] at hy
  obtain ⟨v, hv, rfl⟩ := hy
  exact h6 i x v hx hv

/-- C153: a round on an object that was just made, with options that fit together, routines that work
and a target with finite values, returns. -/
theorem C153_total {env : Installed} {a : Args d} {bo : BOwGP d} {st : GpState}
    (hgp : a.str_surrogate = "gp") (hbo : objectOf env a = .ok (bo, st)) (ha : RunArguments a)
    (hr : Runnable a) {o : RunOracles d} (ho : RunsWell a o) {r : Draws d} (hd : UnitDraws r)
    (clock : ℕ → ℝ) {target : ℕ → Point d → Py Flt}
    (ht : ∀ k x, InBox a.range_X x → ∃ y : ℝ, target k x = .ok (.fin y)) {num_init : ℤ}
    (hn : 0 < num_init) (seed : Option ℤ) (k t : ℕ) (log : List (Point d)) :
    ∃ u res, roundRun (.gp bo) (roundArgs a num_init seed) o clock target r ⟨({ gp := st }, k), t, log⟩ =
        (u, .ok res) ∧
      (res.X.length : ℤ) = num_init + a.num_iter ∧ res.Y.length = res.X.length ∧
      (∀ x ∈ res.X, InBox a.range_X x) ∧ u.log = log ++ res.X ∧
      ∀ (i : ℕ) x y, res.X[i]? = some x → res.Y[i]? = some y → target (log.length + i) x = .ok y := by
  have hst : st = {} := by
    unfold objectOf BoWGp.init at hbo
    simp only [assert_iff] at hbo
    obtain ⟨b, -, h⟩ := py_bind_ok hbo.2.2.2.2.2.2.2
    exact (Prod.mk.inj (Except.ok.inj h)).2.symm
  subst hst
  obtain ⟨w, hw, hm⟩ := (C153_object hgp bo {}).2 ⟨hbo, rfl, ha⟩
  obtain ⟨u, res, h1, h2, h3, h4, h5, -, h6⟩ := C72_run hw hr ho hd clock ht hn k t log
  refine ⟨u, res, ?_, h2, h3, h4, h5, h6⟩
  rw [← hm, (C153_same hw hgp o clock target num_init seed).2.2 hn r]
  exact h1

/-- C153: the end-to-end guarantee of C146 for `run_single_round` on an object of the Gaussian process:
after enough iterations, some response is within the error of C146 of every value of the search
space. -/
theorem C153_improve {R : Bounds d} {base : String} (hb : base ∈ baseNames) {B Λ smax lmin η : ℝ}
    (hB : 0 ≤ B) (hΛ : 0 ≤ Λ) (hl : 0 < lmin) (hη : 0 < η) :
    ∃ M : ℕ, ∀ (env : Installed) (a : Args d) (bo : BOwGP d)
      (m : Point d → ℝ) (δ : ℝ) (H : Set (ℝ × (Fin d → ℝ))) (o : RunOracles d) (spread gap : ℝ)
      (f : Point d → ℝ) (clock : ℕ → ℝ) (target : ℕ → Point d → Py Flt) (r : Draws d) (num_init : ℤ)
      (seed : Option ℤ) (X : List (Point d)) (u u' : World d (ModelState × ℕ)) (res : LoopSt d),
      objectOf env a = .ok (bo, {}) → RunArguments a → a.range_X = R → a.str_cov = base → 0 ≤ δ →
      GoodSearch "ei" a m Λ smax lmin δ H o →
      (a.str_mlm_method = "converged" → FitsFrom H u.model.1.gp) →
      SuitsFits R base H (normalizes a) m B spread gap f →
      (∀ k x, InBox R x → target k x = .ok (.fin (f x))) → UnitDraws r → 0 < num_init →
      getInitials R r a.str_initial_method_bo num_init = .ok X →
      (∃ x ∈ X, ∃ x' ∈ X, gap ≤ f x' - f x) → M ≤ a.num_iter →
      roundRun (.gp bo) (roundArgs a num_init seed) o clock target r u = (u', .ok res) →
      ∃ y, Flt.fin y ∈ res.Y ∧ ∀ z, InBox R z →
        y ≤ f z + max 1 (spread / 10) * (runError B Λ smax lmin (δ / 10) + η) := by
  obtain ⟨M, hM⟩ := C146_optimize (d := d) (R := R) hb hB hΛ (smax := smax) hl hη
  refine ⟨M, fun env a bo m δ H o spread gap f clock target r num_init seed X u u' res hbo ha hR hcov hδ hg hu hf
    ht hr hn hX hgap hT h => ?_⟩
  obtain ⟨w, hw, hm⟩ := (C153_object hg.surrogate bo {}).2 ⟨hbo, rfl, ha⟩
  rw [← hm, (C153_same hw hg.surrogate o clock target num_init seed).2.2 hn r] at h
  exact hM env a w {} m δ H o spread gap f clock target r num_init X u u' res hw hR hcov hδ hg hu hf ht hr hX
    hgap hT h

/-- C153: the finding of C148 and C150 for `run_single_round`: by `pi` or `pure_exploit` from rows that
are all equal, with a response below the constant prior mean, nothing else is ever evaluated. -/
theorem C153_stuck {env : Installed} {a : Args d} {bo : BOwGP d} (hbo : objectOf env a = .ok (bo, {}))
    (ha : RunArguments a) (hgp : a.str_surrogate = "gp")
    (hacq : a.str_acq = "pi" ∨ a.str_acq = "pure_exploit")
    (hcov : a.str_cov ∈ baseNames) {c : ℝ}
    (hm : PriorFunction a.prior_mu fun _ => c) {H : Set (ℝ × (Fin d → ℝ))}
    (hH : ∀ s l, (s, l) ∈ H → s ≠ 0 ∧ ∀ k, l k ≠ 0) {o : RunOracles d}
    (hfit : ∀ k, FitsIn H a.use_ard (o.routines k).fitHyps)
    (ho : ∀ k, FindsLowest (o.routines k) a.range_X) {clock : ℕ → ℝ}
    {target : ℕ → Point d → Py Flt} {f : Point d → ℝ}
    (ht : ∀ k x, InBox a.range_X x → target k x = .ok (.fin (f x))) {r : Draws d} (hr : UnitDraws r)
    {num_init : ℤ} (hni : 0 < num_init) {seed : Option ℤ} {n : ℕ} (hn : 1 ≤ n) {x : Point d}
    (hX : getInitials a.range_X r a.str_initial_method_bo num_init = .ok (List.replicate n x))
    (hf : f x < c) {u u' : World d (ModelState × ℕ)}
    (hu : a.str_mlm_method = "converged" → FitsFrom H u.model.1.gp) {res : LoopSt d}
    (h : roundRun (.gp bo) (roundArgs a num_init seed) o clock target r u = (u', .ok res)) :
    (∀ z ∈ res.X, z = x) ∧ ∀ y ∈ res.Y, y = .fin (f x) := by
  obtain ⟨w, hw, hmo⟩ := (C153_object hgp bo {}).2 ⟨hbo, rfl, ha⟩
  rw [← hmo, (C153_same hw hgp o clock target num_init seed).2.2 hni r] at h
  rcases hacq with hacq | hacq
  · exact C148_optimize hw hgp hacq hcov hm hH hfit ho ht hr hn hX hf hu h
  · exact C150_optimize hw hgp hacq hcov hm hH hfit ho ht hr hn hX hf hu h

/-! ### Examples -/

/-- The object of the example of C146, made by the user. -/
theorem search_objectOf {acq : String} (hacq : acq ∈ ALLOWED_BO_ACQ) (T : ℕ) :
    (∃ bo, objectOf ⟨false, false⟩ (searchArgs acq T) = .ok (bo, {})) ∧ RunArguments (searchArgs acq T) := by
  obtain ⟨-, ⟨w, hw⟩, -, -⟩ := search_object hacq T
  obtain ⟨bo, hbo⟩ : ∃ bo, w.model_bo = .gp bo := by
    obtain ⟨-, -, -, -, -, -, -, m', -, h3⟩ := create_ok hw
    rcases h3 with ⟨h3, -⟩ | ⟨-, -, bo, h3, -⟩ | ⟨h3, -⟩
    · exact absurd (show "gp" = "rf" from h3) (by decide)
    · exact ⟨bo, h3⟩
    · exact absurd (show "gp" = "tp" from h3) (by decide)
  obtain ⟨h1, -, h2⟩ := (C153_object (a := searchArgs acq T) rfl bo {}).1 ⟨w, hw, hbo⟩
  exact ⟨⟨bo, h1⟩, h2⟩

/-- Two initial rows and five iterations of the default acquisition function: seven evaluations. -/
example : ∃ bo u res, objectOf ⟨false, false⟩ (searchArgs "ei" 4) = .ok (bo, {}) ∧
    roundRun (.gp bo) (roundArgs (searchArgs "ei" 4) 2 (some 42)) ⟨fun _ => lowRoutines, fun _ => exForest.forest⟩
      (fun k => k) (fun _ x => .ok (.fin (bump x))) lowRoutines.draws ⟨({}, 0), 0, []⟩ = (u, .ok res) ∧
    res.X.length = 7 ∧ u.log = res.X := by
  obtain ⟨⟨bo, hbo⟩, ha⟩ := search_objectOf (acq := "ei") (by decide) 4
  obtain ⟨hdraws, -, hrun, hwell⟩ := search_object (acq := "ei") (by decide) 4
  obtain ⟨u, res, h1, h2, -, -, h3, -⟩ := C153_total (num_init := 2) rfl hbo ha hrun hwell hdraws (fun k => k)
    (target := fun _ x => .ok (.fin (bump x))) (fun _ x _ => ⟨_, rfl⟩) (by norm_num) (some 42) 0 0 []
  refine ⟨bo, u, res, hbo, h1, ?_, by simpa using h3⟩
  have : (res.X.length : ℤ) = 2 + ((4 : ℕ) + 1) := h2
  omega

/-- `C153_improve` at work. -/
example {η : ℝ} (hη : 0 < η) : ∃ T bo u res,
    objectOf ⟨false, false⟩ (searchArgs "ei" T) = .ok (bo, {}) ∧
    roundRun (.gp bo) (roundArgs (searchArgs "ei" T) 2 none) ⟨fun _ => lowRoutines, fun _ => exForest.forest⟩
      (fun k => k) (fun _ x => .ok (.fin (bump x))) lowRoutines.draws ⟨({}, 0), 0, []⟩ = (u, .ok res) ∧
    ∃ y, Flt.fin y ∈ res.Y ∧ ∀ z, InBox exBox z → y ≤ bump z +
      max 1 ((1 - Real.exp (-100)) / 10) * (runError (10 / (1 - Real.exp (-100))) 0 1 1 (0 / 10) + η) := by
  have he : Real.exp (-100) < 1 := Real.exp_lt_one_iff.2 (by norm_num)
  have hpos : 0 < 1 - Real.exp (-100) := by linarith
  obtain ⟨T, hT⟩ := C153_improve (d := 2) (R := exBox) (base := "se") (by simp [baseNames])
    (B := 10 / (1 - Real.exp (-100))) (Λ := 0) (smax := 1) (lmin := 1) (by positivity) le_rfl
    one_pos hη
  obtain ⟨⟨bo, hbo⟩, ha⟩ := search_objectOf (acq := "ei") (by decide) T
  obtain ⟨hdraws, -, hrun, hwell⟩ := search_object (acq := "ei") (by decide) T
  obtain ⟨u, res, hres, -⟩ := C153_total (num_init := 2) rfl hbo ha hrun hwell hdraws (fun k => k)
    (target := fun _ x => .ok (.fin (bump x))) (fun _ x _ => ⟨_, rfl⟩) (by norm_num) none 0 0 []
  obtain ⟨-, -, -, -, -, hgood, hsuits, -, hX, hgap⟩ := search_runs (acq := "ei") (by decide) T
  refine ⟨T, bo, u, res, hbo, hres, ?_⟩
  refine hT _ _ _ _ _ _ _ _ _ _ _ _ _ 2 none [fun _ => 0, fun _ => 10] _ _ _ hbo ha rfl rfl le_rfl hgood
    (fun _ => .inl rfl) hsuits (fun _ _ _ => rfl) hdraws (by norm_num) hX
    ⟨fun _ => 10, by simp, fun _ => 0, by simp, hgap.ge⟩ ?_ hres
  show (T : ℤ) ≤ T + 1
  omega

/-- `C153_stuck` at work, on `exp (-|z|² / 2) - 2` over `[0, 10]²` from `(0, 0)`, where the function is
highest. -/
example {acq : String} (hacq : acq = "pi" ∨ acq = "pure_exploit") (T : ℕ) : ∃ bo u res,
    objectOf ⟨false, false⟩ (searchArgs acq T) = .ok (bo, {}) ∧
    roundRun (.gp bo) (roundArgs (searchArgs acq T) 1 none) ⟨fun _ => lowRoutines, fun _ => exForest.forest⟩
      (fun k => k) (fun _ x => .ok (.fin (bump x - 2))) lowRoutines.draws ⟨({}, 0), 0, []⟩ = (u, .ok res) ∧
    res.X.length = T + 2 ∧ ∀ z ∈ res.X, z = fun _ => 0 := by
  have hacq' : acq ∈ ALLOWED_BO_ACQ := by rcases hacq with rfl | rfl <;> decide
  obtain ⟨⟨bo, hbo⟩, ha⟩ := search_objectOf hacq' T
  obtain ⟨hdraws, -, hrun, hwell⟩ := search_object hacq' T
  obtain ⟨u, res, hres, hlen, -⟩ := C153_total (num_init := 1) rfl hbo ha hrun hwell hdraws (fun k => k)
    (target := fun _ x => .ok (.fin (bump x - 2))) (fun _ x _ => ⟨_, rfl⟩) (by norm_num) none 0 0 []
  have h0 : bump (fun _ => 0) = 1 := by norm_num [bump]
  refine ⟨bo, u, res, hbo, hres, ?_, ?_⟩
  · have : (res.X.length : ℤ) = 1 + (T + 1) := hlen
    omega
  · refine (C153_stuck (n := 1) (f := fun z => bump z - 2) hbo ha rfl hacq
      (show "se" ∈ baseNames by simp [baseNames])
      prior_level (H := {(1, fun _ => 1)}) ?_ ?_ ?_ (fun _ _ _ => rfl) hdraws (by norm_num) le_rfl
      (x := fun _ => 0) ?_ ?_ (fun _ => .inl rfl) hres).1
    · rintro s l h
      obtain ⟨rfl, rfl⟩ := Prod.mk.inj h
      simp
    · intro k method f x0 bounds jac v hv
      obtain rfl := Except.ok.inj hv
      exact ⟨1, fun _ => 1, rfl, .inl ⟨rfl, rfl⟩⟩
    · intro k
      refine ⟨fun f g hg hf x0 q hq => ?_, fun f g hg hf q hq => ?_, fun f g hg hf _ _ q hq => ?_⟩ <;>
      · obtain rfl := Except.ok.inj hq
        exact lowest_low hg hf
    · have hm : "sobol" ∈ ALLOWED_SAMPLING_METHOD := by decide
      have hm' : "sobol" ∈ ALLOWED_INITIALIZING_METHOD_BO := by decide
      simp [searchArgs, STR_INITIALIZING_METHOD_BO, getInitials, getSamples, pyAssert, hm, hm', bind,
        Except.bind, getSamplesQmc, lowRoutines, exBox, List.range_succ]
    · have he : Real.exp (-100) ≤ 1 / 100 := by
        rw [Real.exp_neg, inv_le_comm₀ (Real.exp_pos _) (by norm_num)]
        have := Real.add_one_le_exp (100 : ℝ)
        linarith
      have hp := Real.exp_pos (-100)
      have : 10 * Real.exp (-100) / (1 - Real.exp (-100)) < 1 := by
        rw [div_lt_one (by linarith)]
        linarith
      simp only [h0, lowLevel]
      linarith

/-- Zero samples: the target is called on both initial inputs before the exception. -/
example (bo : BOwGP 1) (o : RunOracles 1) (u : World 1 (ModelState × ℕ)) :
    ∃ u', roundInputs (.gp bo) { num_init := 2, num_iter := 3, num_samples_ao := 0 } o (fun k => k)
      (fun _ x => .ok (.fin (x 0))) [fun _ => 0, fun _ => 1] u = (u', .error .assertion) ∧
      u'.log = u.log ++ [fun _ => 0, fun _ => 1] := by
  obtain ⟨u', h1, h2, -⟩ := (C153_late (bo := bo) (a := { num_init := 2, num_iter := 3, num_samples_ao := 0 })
    (by decide) (.inl le_rfl) (by decide) (o := o) (clock := fun k => k)
    (target := fun _ x => .ok (.fin (x 0))) (X := [fun _ => 0, fun _ => 1]) (fun _ _ _ => ⟨_, rfl⟩) u).1
  exact ⟨u', h1, h2⟩

/-- No iterations, and an object of the Student-t process. -/
example (bo : BOwGP 1) (bo' : BoWTp.BOwTP 1) (o : RunOracles 1) (r : Draws 1) (u : World 1 (ModelState × ℕ)) :
    (∃ u' res, roundInputs (.gp bo) { num_init := 2, num_iter := -1 } o (fun k => k)
      (fun _ x => .ok (.fin (x 0))) [fun _ => 0, fun _ => 1] u = (u', .ok res) ∧
      res.X = [fun _ => 0, fun _ => 1]) ∧
    roundRun (.tp bo') { num_init := 2, num_iter := 5 } o (fun k => k) (fun _ x => .ok (.fin (x 0))) r u =
      (u, .error .assertion) := by
  obtain ⟨u', res, h1, h2, -⟩ := C153_none (bo := bo) (a := { num_init := 2, num_iter := -1 })
    (by decide) (by decide) (o := o) (clock := fun k => k)
    (target := fun _ x => .ok (.fin (x 0))) [fun _ => 0, fun _ => 1] (fun _ _ _ => ⟨_, rfl⟩) u
  exact ⟨⟨u', res, h1, h2⟩, C153_rejects.2 (.inl fun _ => by simp)⟩

end Verif.Props
