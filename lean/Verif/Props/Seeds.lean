import Verif.Lemmas.Seeds
import Verif.Props.Steps

/-! # C91, C92: what a seed makes reproducible -/

namespace Verif.Props

open Verif.Spec Verif.Lemmas Verif.BoCommon Verif.UtilsBo Verif.Constants Verif.BaseBo
open Verif.WrapperClass Verif.WrappersBo Verif.Seeds
open Verif.Covariance (Inputs)

variable {n d : ℕ}

/-! ### C91 -/

/-- C91. The part of a run that the seed does fix: two successful runs with the same seed (in
different processes, on different targets, with different clocks) start with the same `num_init`
rows. Missing: the rows after them, see `C91_violated` and `C91_run_partial`. -/
theorem C91_initials_partial {env : Installed} {a : Args d} {w : BayesianOptimization d}
    {st : ModelState} (hw : create env a = .ok (w, st)) (L : Library d) (E E' : Entropy d)
    (clock clock' : ℕ → ℝ) (target target' : ℕ → Point d → Py Flt) {num_init seed : ℤ}
    {u u' v v' : World d (ModelState × ℕ)} {r r' : LoopSt d}
    (h : Seeds.optimize w L E clock target num_init (some seed) u = (v, .ok r))
    (h' : Seeds.optimize w L E' clock' target' num_init (some seed) u' = (v', .ok r')) :
    r.X.take num_init.toNat = r'.X.take num_init.toNat ∧
      num_init.toNat ≤ r.X.length ∧ num_init.toNat ≤ r'.X.length := by
  obtain ⟨hn, X0, Q, e1, e2, -⟩ := optimize_starts h
  obtain ⟨-, X1, Q', e3, e4, -⟩ := optimize_starts h'
  simp only [getRandomState] at e1 e3
  rw [e1] at e3
  obtain rfl := Except.ok.inj e3
  have hlen : X0.length = num_init.toNat := by
    rw [C13_initials] at e1
    split at e1
    · next hm =>
      have hne : w.str_initial_method_bo ≠ "grid" := by
        rintro e
        rw [e] at hm
        revert hm
        decide
      obtain ⟨N, rfl⟩ := Int.eq_ofNat_of_zero_le hn.le
      simpa using (C14_count_partial _ _ _ hne N _ e1).1
    · cases e1
  rw [e2, e4, ← hlen]
  simp

/-- C91. When the steps draw no random numbers, the seed fixes the whole run: in two processes, with
different clocks, the run has the same rows and responses, evaluates the target at the same points in
the same order, leaves the same surrogate, and raises the same exception if there is one. Missing: the
configurations whose steps do draw random numbers, among them the default one
(`C91_violated`). -/
theorem C91_run_partial {env : Installed} {a : Args d} {w : BayesianOptimization d}
    {st : ModelState} (hw : create env a = .ok (w, st)) (ha : NoRandomSteps env a) (L : Library d)
    (E E' : Entropy d) (clock clock' : ℕ → ℝ) (target : ℕ → Point d → Py Flt) (num_init seed : ℤ)
    {u u' : World d (ModelState × ℕ)} (hm : u.model = u'.model) (hl : u.log = u'.log) :
    SameRun (Seeds.optimize w L E clock target num_init (some seed) u)
      (Seeds.optimize w L E' clock' target num_init (some seed) u') := by
  have h := sameEnv_of_noRandom hw ha L E E' clock clock' target
  obtain ⟨h1, h2, h3⟩ := optimize_rel h
    (fun n => getInitials w.model_bo.range_X (L.seeded seed) w.str_initial_method_bo n)
    w.num_iter.toNat num_init u u' hm hl
  refine ⟨h1, h2, ?_⟩
  revert h3
  simp only [Seeds.optimize, WrapperClass.optimize, getRandomState]
  rcases (classOptimize _ _ _ _ u).2 with e | r <;> rcases (classOptimize _ _ _ _ u').2 with e' | r'
  · rintro rfl
    rfl
  · exact False.elim
  · exact False.elim
  · rintro ⟨hX, hY⟩
    simp only [Except.map, hX, hY]

/-- The default configuration on `[0, 10]²`, one iteration. -/
noncomputable def seedArgs : Args 2 where
  range_X := exBox
  num_iter := 1

/-- Libraries: generators started with a seed give `1 / 2`, the optimisers return their start. -/
noncomputable def seedLibrary : Library 2 where
  seeded _ := exRoutines.draws
  fitHyps := exRoutines.fitHyps
  lbfgsb := exRoutines.lbfgsb
  direct := exRoutines.direct

/-- A process in which generators started without a seed give `c`. -/
noncomputable def seedEntropy (c : ℝ) : Entropy 2 where
  fresh _ := ⟨fun _ => c, fun _ => 0, fun _ _ => c, fun _ _ => c⟩
  cma _ := exRoutines.cma
  forest := exOracles.forest

private theorem seedArgs_runs {c : ℝ} (h0 : 0 ≤ c) (h1 : c ≤ 1) :
    Runnable seedArgs ∧ RunsWell seedArgs (runRoutines seedLibrary (seedEntropy c)) := by
  have hacq := exRoutines_acq exBox_le
  refine ⟨⟨by norm_num, fun _ => by decide, fun _ => prior_none 2, fun _ => .inl rfl⟩,
    ⟨fun _ _ => exRoutines_fit _, fun _ _ => exRoutines_fit _, fun k => ⟨hacq.1, hacq.2, hacq.3, ?_⟩,
      fun _ => exForest_ok⟩⟩
  exact ⟨fun _ => ⟨h0, h1⟩, fun _ _ => ⟨h0, h1⟩, fun _ _ => ⟨h0, h1⟩⟩

private theorem seedRun {c : ℝ} (hc : c = 0 ∨ c = 1) {w : BayesianOptimization 2}
    (hw : create ⟨false, false⟩ seedArgs = .ok (w, {})) (seed : ℤ) :
    ∃ v r, Seeds.optimize w seedLibrary (seedEntropy c) (fun k => k)
        (fun _ x => .ok (.fin (x 0 * x 1))) 2 (some seed) ⟨({}, 0), 0, []⟩ = (v, .ok r) ∧
      r.X = [fun _ => 5, fun _ => 5, fun _ => 10 * c] := by
  have h0 : 0 ≤ c ∧ c ≤ 1 := by rcases hc with rfl | rfl <;> norm_num
  obtain ⟨hr, ho⟩ := seedArgs_runs h0.1 h0.2
  obtain ⟨v, r, h, -⟩ := C72_run hw hr ho (exRoutines_acq exBox_le).draws (fun k => k)
    (target := fun _ x => .ok (.fin (x 0 * x 1))) (fun _ x _ => ⟨_, rfl⟩) (num_init := 2)
    (by norm_num) 0 0 []
  refine ⟨v, r, h, ?_⟩
  obtain ⟨-, X0, Q, e1, e2, e3, e4⟩ := optimize_starts h
  obtain ⟨-, hN, hs, hi, hsm, hns, hcase⟩ := C77_options hw
  obtain ⟨-, hmlm, hbo⟩ | h : (_ ∧ _ ∧ _) ∨ False := by
    rcases hcase with ⟨h, -⟩ | h | ⟨h, -⟩
    · exact absurd h (by decide)
    · exact .inl h
    · exact absurd h (by decide)
  swap
  · exact h.elim
  have hX0 : X0 = [fun _ => 5, fun _ => 5] := by
    rw [hi, hbo] at e1
    have hm : "sobol" ∈ ALLOWED_SAMPLING_METHOD := by decide
    have hm' : "sobol" ∈ ALLOWED_INITIALIZING_METHOD_BO := by decide
    simp [seedArgs, STR_INITIALIZING_METHOD_BO, getInitials, getSamples, pyAssert, hm, hm', bind,
      Except.bind, getSamplesQmc, Surrogate.range_X, exRoutines, exBox] at e1
    rw [← e1]
    norm_num
  subst hX0
  have hT : w.num_iter.toNat = 1 := by rw [hN]; rfl
  rw [hT] at e3
  obtain ⟨q, rfl⟩ := List.length_eq_one_iff.1 e3
  obtain ⟨s, t, Y, v', p, info, hstep, hnext⟩ := e4 0 q rfl
  simp only [List.take_zero, List.append_nil] at hstep hnext
  have hp : p = fun _ => 10 * c := by
    simp only [runEnv, step] at hstep
    split at hstep
    · cases (Prod.mk.inj hstep).2
    next Yr hY =>
    have h2 := (Prod.mk.inj hstep).2
    rw [C77_step hw, hbo] at h2
    obtain ⟨⟨p', i⟩, h3, h4⟩ := map_ok h2
    obtain ⟨rfl, -⟩ := Prod.mk.inj h4
    obtain ⟨-, -, -, -, -, -, -, Yt, st1, -, -, -, h5, -⟩ := gp_optimize_ok (pair_eta h3)
    obtain ⟨h6, h7⟩ := optimizeAcq_candidates h5
    simp only [candidates] at h6
    rw [if_pos (by rfl)] at h6
    obtain ⟨l, h8, h9⟩ := py_bind_ok h6
    obtain ⟨h10, h11⟩ := mapM_getElem h9
    obtain ⟨j, hj⟩ := List.mem_iff_getElem?.1 h7
    have hjl : j < l.length := by
      rw [← h10]
      exact (List.getElem?_eq_some_iff.1 hj).1
    have hx := h11 j _ _ (List.getElem?_eq_getElem hjl) hj
    have hx := Except.ok.inj hx
    have := sobol_const (c := c) (fun _ _ => rfl) h8 l[j] (List.getElem_mem hjl)
    rw [← hx, this]
    funext i
    show c * (10 - 0) + 0 = 10 * c
    ring
  subst hp
  have hfar : isRepeated (fun _ => 10 * c) [fun _ : Fin 2 => (5 : ℝ), fun _ => 5] = false := by
    rw [not_isRepeated_iff]
    intro e he
    have he : e = fun _ => 5 := by simpa using he
    subst he
    refine Real.le_sqrt_of_sq_le ?_
    rcases hc with rfl | rfl <;> norm_num [Fin.sum_univ_two]
  unfold getNextBestSample at hnext
  rw [hfar] at hnext
  simp only [Bool.false_eq_true, if_false] at hnext
  obtain rfl := Option.some.inj (Except.ok.inj hnext)
  exact e2

private theorem seedArgs_created : ∃ w, create ⟨false, false⟩ seedArgs = .ok (w, {}) := by
  have h3 : (0 : ℤ) < NUM_SAMPLES_AO := by norm_num [NUM_SAMPLES_AO]
  simp only [create, ownChecks, seedArgs, getModelBo, BoWGp.init, initBase, checkOptimizerMethodBo,
    pyAssert, exBox_le, h3, implies_true, if_true, bind, Except.bind, pure, Except.pure]
  exact ⟨_, rfl⟩

/-- C91 does not hold: an object with the default options, the same libraries with routines that
work, the same target, clock and initial state. Whatever the seed, the runs in two processes start
with the same two points, then go on to different ones. -/
theorem C91_violated : ∃ (w : BayesianOptimization 2) (L : Library 2) (E E' : Entropy 2)
    (target : ℕ → Point 2 → Py Flt),
    create ⟨false, false⟩ seedArgs = .ok (w, {}) ∧ Runnable seedArgs ∧
    RunsWell seedArgs (runRoutines L E) ∧ RunsWell seedArgs (runRoutines L E') ∧
    ∀ seed : ℤ, ∃ v v' r r',
      Seeds.optimize w L E (fun k => k) target 2 (some seed) ⟨({}, 0), 0, []⟩ = (v, .ok r) ∧
      Seeds.optimize w L E' (fun k => k) target 2 (some seed) ⟨({}, 0), 0, []⟩ = (v', .ok r') ∧
      r.X.take 2 = r'.X.take 2 ∧ r.X[2]? = some (fun _ => 0) ∧ r'.X[2]? = some (fun _ => 10) := by
  obtain ⟨w, hw⟩ := seedArgs_created
  refine ⟨w, seedLibrary, seedEntropy 0, seedEntropy 1, fun _ x => .ok (.fin (x 0 * x 1)), hw,
    (seedArgs_runs le_rfl zero_le_one).1, (seedArgs_runs le_rfl zero_le_one).2,
    (seedArgs_runs zero_le_one le_rfl).2, fun seed => ?_⟩
  obtain ⟨v, r, h, e⟩ := seedRun (.inl rfl) hw seed
  obtain ⟨v', r', h', e'⟩ := seedRun (.inr rfl) hw seed
  refine ⟨v, v', r, r', h, h', ?_, ?_, ?_⟩
  · rw [e, e']
    rfl
  · rw [e]
    simp
  · rw [e']
    simp

/-- `C91_run_partial` at work: candidates from a grid, two processes that differ in their unseeded
generators, a run that succeeds. -/
example : ∃ w v r, create ⟨false, false⟩ { seedArgs with str_sampling_method_ao := "grid" } =
      .ok (w, {}) ∧
    Seeds.optimize w seedLibrary (seedEntropy 0) (fun k => k) (fun _ x => .ok (.fin (x 0 * x 1))) 2
      (some 42) ⟨({}, 0), 0, []⟩ = (v, .ok r) ∧
    ∃ v' r', Seeds.optimize w seedLibrary (seedEntropy 1) (fun k => k ^ 2)
      (fun _ x => .ok (.fin (x 0 * x 1))) 2 (some 42) ⟨({}, 0), 3, []⟩ = (v', .ok r') ∧
      r'.X = r.X ∧ r'.Y = r.Y ∧ v'.log = v.log ∧ r.X.length = 3 := by
  obtain ⟨w, hw⟩ : ∃ w, create ⟨false, false⟩
      { seedArgs with str_sampling_method_ao := "grid" } = .ok (w, {}) := by
    have h3 : (0 : ℤ) < NUM_SAMPLES_AO := by norm_num [NUM_SAMPLES_AO]
    simp only [create, ownChecks, seedArgs, getModelBo, BoWGp.init, initBase,
      checkOptimizerMethodBo, pyAssert, exBox_le, h3, implies_true, if_true, bind, Except.bind, pure,
      Except.pure]
    exact ⟨_, rfl⟩
  obtain ⟨h1, h2⟩ := seedArgs_runs le_rfl zero_le_one
  obtain ⟨v, r, h, hl, -⟩ := C72_run hw ⟨h1.1, h1.2, h1.3, h1.4⟩ ⟨h2.1, h2.2, h2.3, h2.4⟩
    (exRoutines_acq exBox_le).draws (fun k => k)
    (target := fun _ x => .ok (.fin (x 0 * x 1))) (fun _ x _ => ⟨_, rfl⟩) (num_init := 2)
    (by norm_num) 0 0 []
  have hs := C91_run_partial hw ⟨by decide, .inr ⟨by decide, rfl⟩⟩ seedLibrary (seedEntropy 0)
    (seedEntropy 1) (fun k => k) (fun k => k ^ 2) (fun _ x => .ok (.fin (x 0 * x 1))) 2 42
    (u := ⟨({}, 0), 0, []⟩) (u' := ⟨({}, 0), 3, []⟩) rfl rfl
  have h' : Seeds.optimize w seedLibrary (seedEntropy 0) (fun k => k)
      (fun _ x => .ok (.fin (x 0 * x 1))) 2 (some 42) ⟨({}, 0), 0, []⟩ = (v, .ok r) := h
  rw [h'] at hs
  obtain ⟨-, hlog, hr⟩ := hs
  rcases ho : Seeds.optimize w seedLibrary (seedEntropy 1) (fun k => (k : ℝ) ^ 2)
      (fun _ x => .ok (.fin (x 0 * x 1))) 2 (some 42) ⟨({}, 0), 3, []⟩ with ⟨v', e | r'⟩ <;>
    rw [ho] at hlog hr
  · cases hr
  · obtain ⟨hX, hY⟩ := Prod.mk.inj (Except.ok.inj hr)
    refine ⟨w, v, r, hw, h', v', r', ho, hX.symm, hY.symm, hlog.symm, ?_⟩
    have : (2 : ℤ) + seedArgs.num_iter = 3 := rfl
    exact_mod_cast hl.trans this

/-! ### C92 -/

/-- C92. A seed given to `optimize` of a Gaussian process model fixes its result when the acquisition
function is maximised by L-BFGS-B or DIRECT: in two processes, and whatever the clocks, the call has the
same effect on the object, returns the same proposal, candidates, acquisition values, responses and
fitted kernel, or raises the same exception. Missing: CMA-ES, see `C92_violated`. -/
theorem C92_gp_partial (bo : BoWGp.BOwGP d)
    (hbo : bo.str_optimizer_method_bo ∈ ["L-BFGS-B", "DIRECT"]) (L : Library d) (E E' : Entropy d)
    (k k' : ℕ) (clock clock' : ℕ → ℝ) (X : Inputs n d) (Y : List ℝ) (sm : String) (ns : ℤ)
    (mlm : String) (seed : ℤ) (s : BoWGp.GpState) (t t' : ℕ) :
    (BoWGp.optimize bo (stepRoutines L E k (some seed)) clock X Y sm ns mlm (s, t)).1.1 =
      (BoWGp.optimize bo (stepRoutines L E' k' (some seed)) clock' X Y sm ns mlm (s, t')).1.1 ∧
    proposal (BoWGp.optimize bo (stepRoutines L E k (some seed)) clock X Y sm ns mlm (s, t)).2 =
      proposal
        (BoWGp.optimize bo (stepRoutines L E' k' (some seed)) clock' X Y sm ns mlm (s, t')).2 := by
  rw [gp_routines (bo := bo) (o := stepRoutines L E k (some seed))
    (o' := stepRoutines L E' k' (some seed)) rfl fun f => candidates_routines
      (o := stepRoutines L E k (some seed)) (o' := stepRoutines L E' k' (some seed)) rfl rfl (by
        simp only [List.mem_cons, List.not_mem_nil, or_false] at hbo
        rcases hbo with h | h
        · exact .inr ⟨h, fun _ => rfl⟩
        · exact .inl h) f ns]
  obtain ⟨h1, h2⟩ := gp_clock bo (stepRoutines L E' k' (some seed)) clock clock' X Y sm ns mlm s t t'
  refine ⟨h1, ?_⟩
  revert h2
  rcases (BoWGp.optimize bo _ clock X Y sm ns mlm (s, t)).2 with e | ⟨p, i⟩ <;>
    rcases (BoWGp.optimize bo _ clock' X Y sm ns mlm (s, t')).2 with e' | ⟨p', i'⟩
  · rintro rfl
    rfl
  · exact False.elim
  · exact False.elim
  · rintro ⟨a1, a2, a3, a4, a5, a6⟩
    simp only at a1 a2 a3 a4 a5 a6
    simp only [proposal, a1, a2, a3, a4, a5, a6]

/-- C92 for Student-t process models. -/
theorem C92_tp_partial (bo : BoWTp.BOwTP d)
    (hbo : bo.str_optimizer_method_bo ∈ ["L-BFGS-B", "DIRECT"]) (L : Library d) (E E' : Entropy d)
    (k k' : ℕ) (clock clock' : ℕ → ℝ) (X : Inputs n d) (Y : List ℝ) (sm : String) (ns : ℤ)
    (seed : ℤ) (s : BoWTp.TpState) (t t' : ℕ) :
    (BoWTp.optimize bo (stepRoutines L E k (some seed)) clock X Y sm ns (s, t)).1.1 =
      (BoWTp.optimize bo (stepRoutines L E' k' (some seed)) clock' X Y sm ns (s, t')).1.1 ∧
    proposal (BoWTp.optimize bo (stepRoutines L E k (some seed)) clock X Y sm ns (s, t)).2 =
      proposal
        (BoWTp.optimize bo (stepRoutines L E' k' (some seed)) clock' X Y sm ns (s, t')).2 := by
  rw [tp_routines (bo := bo) (o := stepRoutines L E k (some seed))
    (o' := stepRoutines L E' k' (some seed)) rfl fun f => candidates_routines
      (o := stepRoutines L E k (some seed)) (o' := stepRoutines L E' k' (some seed)) rfl rfl (by
        simp only [List.mem_cons, List.not_mem_nil, or_false] at hbo
        rcases hbo with h | h
        · exact .inr ⟨h, fun _ => rfl⟩
        · exact .inl h) f ns]
  obtain ⟨h1, h2⟩ := tp_clock bo (stepRoutines L E' k' (some seed)) clock clock' X Y sm ns s t t'
  refine ⟨h1, ?_⟩
  revert h2
  rcases (BoWTp.optimize bo _ clock X Y sm ns (s, t)).2 with e | ⟨p, i⟩ <;>
    rcases (BoWTp.optimize bo _ clock' X Y sm ns (s, t')).2 with e' | ⟨p', i'⟩
  · rintro rfl
    rfl
  · exact False.elim
  · exact False.elim
  · rintro ⟨a1, a2, a3, a4, a5, a6⟩
    simp only at a1 a2 a3 a4 a5 a6
    simp only [proposal, a1, a2, a3, a4, a5, a6]

/-- C92 for random forests: the seed fixes the candidates and the responses used. Missing: the trees,
which draw from the global generator, and with them the acquisition values and the proposal. -/
theorem C92_forest_partial (bo : BaseBO d) (L : Library d) (E E' : Entropy d) (k k' : ℕ)
    (clock clock' : ℕ → ℝ) (X : List (Point d)) (Y : List ℝ) (sm : String) (ns : ℤ) (seed : ℤ)
    {s s' r r' : Unit × ℕ} {p p' : Point d} {i i' : BoWTrees.DictInfoTrees d}
    (h : BoWTrees.optimize bo ⟨E.forest k, (stepRoutines L E k (some seed)).draws⟩ clock X Y sm ns s =
      (r, .ok (p, i)))
    (h' : BoWTrees.optimize bo ⟨E'.forest k', (stepRoutines L E' k' (some seed)).draws⟩ clock' X Y sm
      ns s' = (r', .ok (p', i'))) :
    i.next_points = i'.next_points ∧ i.Y_normalized = i'.Y_normalized ∧
      i.Y_original = i'.Y_original := by
  obtain ⟨-, -, -, a1, a2, -, -, a3, -⟩ := trees_optimize_ok (st := s.1) (t := s.2) h
  obtain ⟨-, -, -, b1, b2, -, -, b3, -⟩ := trees_optimize_ok (st := s'.1) (t := s'.2) h'
  simp only [stepRoutines, getRandomState] at a3 b3
  rw [a2] at b2
  rw [a3] at b3
  exact ⟨Except.ok.inj b3, Except.ok.inj b2, a1.trans b1.symm⟩

/-- The object of the examples with CMA-ES. -/
noncomputable def exBoCma : BoWGp.BOwGP 2 := { exBo with str_optimizer_method_bo := "CMA-ES" }

/-- A process in which CMA-ES ends at the point `(c, c)`. -/
noncomputable def cmaEntropy (c : ℝ) : Entropy 2 :=
  { seedEntropy 0 with cma := fun _ _ _ _ _ => .ok fun _ => c }

private theorem cma_init : BoWGp.init ⟨false, true⟩ exBox "matern52" "ei" true true none "BFGS"
    "CMA-ES" "ml" = .ok (exBoCma, {}) := by
  simp only [BoWGp.init, initBase, checkOptimizerMethodBo, pyAssert, exBox_le, implies_true, if_true,
    bind, Except.bind, pure, Except.pure]
  rfl

private theorem cma_step {c : ℝ} (h0 : 0 ≤ c) (h1 : c ≤ 10) (seed : ℤ) :
    AcqOptimizes (stepRoutines seedLibrary (cmaEntropy c) 0 (some seed)) exBox ∧
    ∃ r p info, BoWGp.optimize exBoCma (stepRoutines seedLibrary (cmaEntropy c) 0 (some seed))
      (fun k => k) (.vec ![![1, 2], ![3, 4], ![5, 5]] : Inputs 3 2) [3, 1, 7] "sobol" 4 "regular"
        ({}, 0) = (r, .ok (p, info)) ∧ p = fun _ => c := by
  have hacq := exRoutines_acq exBox_le
  have ha : AcqOptimizes (stepRoutines seedLibrary (cmaEntropy c) 0 (some seed)) exBox :=
    ⟨hacq.1, hacq.2, fun _ _ _ _ _ => ⟨fun _ => c, fun _ => ⟨h0, h1⟩, rfl⟩, hacq.draws⟩
  refine ⟨ha, ?_⟩
  obtain ⟨r, ps, e, -⟩ := C71_gp cma_init (by norm_num) (by decide) (prior_none 2) (.inl rfl)
    (fun k => k) 0 [{ exCall "regular" with
      routines := stepRoutines seedLibrary (cmaEntropy c) 0 (some seed) }] (by
      have := exCall_valid (FitVector (scaleCount true 2)) (mlm := "regular") (by simp)
      simp only [List.mem_singleton, forall_eq]
      exact ⟨this.1, this.2, this.3, this.4, this.5, exRoutines_fit _, ha⟩)
  unfold gpCalls at e
  obtain ⟨⟨p, info⟩, r, e, -⟩ := OptM.bind_ok e
  refine ⟨r, p, info, e, ?_⟩
  obtain ⟨-, -, -, -, -, -, -, Yt, st1, -, -, -, h5, -⟩ := gp_optimize_ok e
  obtain ⟨h6, h7⟩ := optimizeAcq_candidates h5
  simp only [candidates] at h6
  rw [if_neg (by decide), if_neg (by decide), if_pos (by rfl)] at h6
  obtain ⟨l, -, h6⟩ := py_bind_ok h6
  rw [if_neg (by decide)] at h6
  obtain ⟨x, -, h6⟩ := py_bind_ok h6
  obtain ⟨q, hq, h6⟩ := py_bind_ok h6
  rw [← Except.ok.inj h6, List.mem_singleton] at h7
  rw [h7]
  exact (Except.ok.inj hq).symm

/-- C92 does not hold for CMA-ES: whatever the seed, two processes with the same libraries, whose
routines work, propose different points for the same data. -/
theorem C92_violated : ∃ (bo : BoWGp.BOwGP 2) (L : Library 2) (E E' : Entropy 2),
    BoWGp.init ⟨false, true⟩ exBox "matern52" "ei" true true none "BFGS" "CMA-ES" "ml" =
      .ok (bo, {}) ∧
    ∀ seed : ℤ, AcqOptimizes (stepRoutines L E 0 (some seed)) exBox ∧
      AcqOptimizes (stepRoutines L E' 0 (some seed)) exBox ∧
      ∃ r r' info info', BoWGp.optimize bo (stepRoutines L E 0 (some seed)) (fun k => k)
          (.vec ![![1, 2], ![3, 4], ![5, 5]] : Inputs 3 2) [3, 1, 7] "sobol" 4 "regular" ({}, 0) =
            (r, .ok (fun _ => 2, info)) ∧
        BoWGp.optimize bo (stepRoutines L E' 0 (some seed)) (fun k => k)
          (.vec ![![1, 2], ![3, 4], ![5, 5]] : Inputs 3 2) [3, 1, 7] "sobol" 4 "regular" ({}, 0) =
            (r', .ok (fun _ => 8, info')) := by
  refine ⟨exBoCma, seedLibrary, cmaEntropy 2, cmaEntropy 8, cma_init, fun seed => ?_⟩
  obtain ⟨a, r, p, info, e, rfl⟩ := cma_step (c := 2) (by norm_num) (by norm_num) seed
  obtain ⟨a', r', p', info', e', rfl⟩ := cma_step (c := 8) (by norm_num) (by norm_num) seed
  exact ⟨a, a', r, r', info, info', e, e'⟩

/-- `C92_gp_partial` and `C92_tp_partial` at work: both calls succeed. -/
example (E E' : Entropy 2) (seed : ℤ) : ∃ r p info r' info',
    BoWGp.optimize exBo (stepRoutines seedLibrary E 3 (some seed)) (fun k => k)
      (.vec ![![1, 2], ![3, 4], ![5, 5]] : Inputs 3 2) [3, 1, 7] "sobol" 4 "combined" ({}, 0) =
        (r, .ok (p, info)) ∧
    BoWGp.optimize exBo (stepRoutines seedLibrary E' 7 (some seed)) (fun k => 2 * k)
      (.vec ![![1, 2], ![3, 4], ![5, 5]] : Inputs 3 2) [3, 1, 7] "sobol" 4 "combined" ({}, 5) =
        (r', .ok (p, info')) := by
  obtain ⟨r, p, info, e⟩ := exStep (mlm := "combined") (by simp)
  rw [gp_routines (bo := exBo) (o := exRoutines) (o' := stepRoutines seedLibrary E 3 (some seed)) rfl
    fun f => candidates_routines rfl rfl (.inr ⟨rfl, fun _ => rfl⟩) f 4] at e
  obtain ⟨-, h⟩ := C92_gp_partial exBo (by simp [exBo]) seedLibrary E E' 3 7 (fun k => k)
    (fun k => 2 * k) (.vec ![![1, 2], ![3, 4], ![5, 5]] : Inputs 3 2) [3, 1, 7] "sobol" 4 "combined"
    seed {} 0 5
  rw [e] at h
  rcases ho : BoWGp.optimize exBo (stepRoutines seedLibrary E' 7 (some seed)) (fun k => 2 * k)
      (.vec ![![1, 2], ![3, 4], ![5, 5]] : Inputs 3 2) [3, 1, 7] "sobol" 4 "combined" ({}, 5) with
    ⟨r', e' | ⟨p', info'⟩⟩ <;> rw [ho] at h
  · cases h
  · obtain ⟨rfl, -⟩ := Prod.mk.inj (Except.ok.inj h)
    exact ⟨r, p, info, r', info', e, rfl⟩

end Verif.Props
