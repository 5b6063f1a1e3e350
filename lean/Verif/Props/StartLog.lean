import Verif.Lemmas.StartLog

/-! C117: what the log at the start of a run says. -/

namespace Verif.Props

open Verif.Spec Verif.Lemmas Verif.BoCommon Verif.UtilsBo Verif.Constants Verif.BaseBo
open Verif.WrapperClass Verif.StartLog Verif.UtilsLogger
open Verif.BoWGp (BOwGP)

variable {d : ℕ}

/-- C117. Every object that can be constructed can print its information (the attributes that are read
exist), and the log reports on each setting that concerns the surrogate exactly once, with the value in
use, on no setting that does not concern it, and on nothing else but the search space. -/
theorem C117_reports {env : Installed} {a : Args d} {debug : Bool} {w : Attrs d}
    (h : createAttrs env a debug = .ok w) (num_init : ℤ) (seed : Option ℤ) :
    ∃ log r, printInfo w num_init seed = .ok log ∧
      getStrArray (.d2 (List.ofFn fun i => [.float (.fin (a.range_X i).1),
        .float (.fin (a.range_X i).2)])) = .ok r ∧ "range_X:\n" ++ r ∈ log ∧
      (∀ s ∈ settings env a debug num_init seed, reports log s.name =
        if a.str_surrogate ∈ s.concerns then [s.name ++ ": " ++ s.text] else []) ∧
      log.length = 3 + ((settings env a debug num_init seed).filter
        fun s => a.str_surrogate ∈ s.concerns).length := by
  obtain ⟨r, hr, hlog⟩ := printInfo_ok h num_init seed
  refine ⟨_, r, hlog, hr, by simp, ?_, by simp; omega⟩
  obtain ⟨-, hcase⟩ := attrs_ok h
  have hcase : a.str_surrogate = "rf" ∨ a.str_surrogate = "gp" ∨ a.str_surrogate = "tp" := by
    rcases hcase with ⟨e, -⟩ | ⟨e, -⟩ | ⟨e, -⟩ <;> simp [e]
  have hcol : ∀ s ∈ settings env a debug num_init seed, ':' ∉ s.name.toList := by
    simp only [settings, List.forall_mem_cons, List.not_mem_nil, false_imp_iff, implies_true,
      and_true]
    decide
  have hnd : ((settings env a debug num_init seed).map Setting.name).Nodup := by
    simp only [settings, List.map_cons, List.map_nil]
    decide
  intro s hs
  have hk := hcol s hs
  simp only [reports, List.filter_cons, List.filter_append, List.filter_nil, rule_reports hk,
    range_reports hk, List.filter_map, List.cons_append]
  simp only [Bool.false_eq_true, if_false, List.append_nil]
  generalize settings env a debug num_init seed = S at *
  rw [List.filter_filter]
  have e1 : (S.filter fun t => ((fun l : String =>
      (s.name.toList ++ [':', ' ']).isPrefixOf l.toList) ∘ fun t : Setting => line t.name t.text) t &&
      decide (a.str_surrogate ∈ t.concerns)) =
      S.filter fun t => decide (t = s) && decide (a.str_surrogate ∈ s.concerns) := by
    refine List.filter_congr fun t ht => ?_
    rw [Function.comp_apply, line_reports hk (hcol t ht)]
    by_cases hts : t = s
    · subst hts; simp
    · have : s.name ≠ t.name := fun hn => hts (List.inj_on_of_nodup_map hnd ht hs hn.symm)
      simp [hts, this]
  rw [e1]
  by_cases hc : a.str_surrogate ∈ s.concerns
  · simp only [hc, decide_true, Bool.and_true, if_true]
    have hS : S.Nodup := List.Nodup.of_map _ hnd
    have : S.filter (fun t => decide (t = s)) = [s] := by
      have h1 := List.filter_eq (l := S) s
      rw [List.count_eq_one_of_mem hS hs] at h1
      simpa using h1
    rw [this]
    rfl
  · simp [hc]

/-- C117. The log leaves nothing open: of two constructed objects with the same search space and prior
mean that print the same messages, the surrogate, all options that have an effect, the number of
initial points and the seed are the same. -/
theorem C117_complete {env env' : Installed} {a a' : Args d} {debug debug' : Bool} {w w' : Attrs d}
    (h : createAttrs env a debug = .ok w) (h' : createAttrs env' a' debug' = .ok w')
    {num_init num_init' : ℤ} {seed seed' : Option ℤ}
    (hlog : printInfo w num_init seed = printInfo w' num_init' seed')
    (hr : a.range_X = a'.range_X) (hp : a.prior_mu = a'.prior_mu) :
    create env a = create env' a' ∧ num_init = num_init' ∧ seed = seed' ∧ debug = debug' := by
  obtain ⟨log, _, hl, -, -, hrep, -⟩ := C117_reports h num_init seed
  obtain ⟨log', _, hl', -, -, hrep', -⟩ := C117_reports h' num_init' seed'
  obtain rfl : log = log' := Except.ok.inj (hl.symm.trans (hlog.trans hl'))
  have key : ∀ (name text text' : String) (c : List String),
      ⟨name, text, c⟩ ∈ settings env a debug num_init seed →
      ⟨name, text', c⟩ ∈ settings env' a' debug' num_init' seed' →
      a.str_surrogate ∈ c → a'.str_surrogate ∈ c → text = text' := by
    intro name text text' c hs hs' hc hc'
    have e1 := hrep _ hs
    have e2 := hrep' _ hs'
    rw [if_pos hc] at e1
    rw [if_pos hc'] at e2
    have := (List.cons.inj (e1.symm.trans e2)).1
    exact line_inj this
  obtain ⟨⟨⟨w0, st⟩, hw⟩, hcase⟩ := attrs_ok h
  obtain ⟨⟨⟨w0', st'⟩, hw'⟩, hcase'⟩ := attrs_ok h'
  have hs : a.str_surrogate ∈ ["gp", "tp", "rf"] := by
    rcases hcase with ⟨e, -⟩ | ⟨e, -⟩ | ⟨e, -⟩ <;> simp [e]
  have hs' : a'.str_surrogate ∈ ["gp", "tp", "rf"] := by
    rcases hcase' with ⟨e, -⟩ | ⟨e, -⟩ | ⟨e, -⟩ <;> simp [e]
  have k1 : num_init = num_init' := Int.repr_injective
    (key "num_init" (toString num_init) (toString num_init') _ (by simp [settings])
      (by simp [settings]) hs hs')
  have k2 : a.num_iter = a'.num_iter := Int.repr_injective
    (key "num_iter" (toString a.num_iter) (toString a'.num_iter) _ (by simp [settings])
      (by simp [settings]) hs hs')
  have k3 : a.num_samples_ao = a'.num_samples_ao := Int.repr_injective
    (key "num_samples_ao" (toString a.num_samples_ao) (toString a'.num_samples_ao) _
      (by simp [settings]) (by simp [settings]) hs hs')
  have k4 : seed = seed' := strSeed_inj (by
    rw [strSeed_eq, strSeed_eq]
    exact key "seed" _ _ ["gp", "tp", "rf"] (by simp [settings]) (by simp [settings]) hs hs')
  have k5 : debug = debug' := strBool_inj (by
    rw [strBool_eq, strBool_eq]
    exact key "debug" _ _ ["gp", "tp", "rf"] (by simp [settings]) (by simp [settings]) hs hs')
  have k6 : a.normalize_Y = a'.normalize_Y := strBool_inj (by
    rw [strBool_eq, strBool_eq]
    exact key "normalize_Y" _ _ ["gp", "tp", "rf"] (by simp [settings]) (by simp [settings]) hs hs')
  have k7 : a.str_surrogate = a'.str_surrogate :=
    key "str_surrogate" _ _ ["gp", "tp", "rf"] (by simp [settings]) (by simp [settings]) hs hs'
  have k8 : a.str_acq = a'.str_acq :=
    key "str_acq" _ _ ["gp", "tp", "rf"] (by simp [settings]) (by simp [settings]) hs hs'
  have k9 : a.str_initial_method_bo = a'.str_initial_method_bo :=
    key "str_initial_method_bo" _ _ ["gp", "tp", "rf"] (by simp [settings]) (by simp [settings]) hs hs'
  have k10 : a.str_sampling_method_ao = a'.str_sampling_method_ao :=
    key "str_sampling_method_ao" _ _ ["gp", "tp", "rf"] (by simp [settings]) (by simp [settings]) hs
      hs'
  have k11 : usedOptimizer env d a.str_optimizer_method_bo =
      usedOptimizer env' d a'.str_optimizer_method_bo :=
    key "str_optimizer_method_bo" _ _ ["gp", "tp", "rf"] (by simp [settings]) (by simp [settings]) hs
      hs'
  refine ⟨?_, k1, k4, k5⟩
  obtain ⟨rfl, b1, b2, b3, b4, b5, b6⟩ := C77_options hw
  obtain ⟨rfl, c1, c2, c3, c4, c5, c6⟩ := C77_options hw'
  obtain ⟨-, -, -, -, -, -, -, _, -, hm⟩ := create_ok hw
  obtain ⟨-, -, -, -, -, -, -, _, -, hm'⟩ := create_ok hw'
  have mlm : w0.str_mlm_method = if a.str_surrogate = "gp" then some a.str_mlm_method else none := by
    rcases hm with ⟨e, m, -⟩ | ⟨e, m, -⟩ | ⟨e, m, -⟩ <;> rw [m, e] <;> rfl
  have mlm' : w0'.str_mlm_method =
      if a'.str_surrogate = "gp" then some a'.str_mlm_method else none := by
    rcases hm' with ⟨e, m, -⟩ | ⟨e, m, -⟩ | ⟨e, m, -⟩ <;> rw [m, e] <;> rfl
  rw [hw, hw']
  obtain ⟨x1, x2, x3, x4, x5, x6, x7⟩ := w0
  obtain ⟨y1, y2, y3, y4, y5, y6, y7⟩ := w0'
  simp only at b1 b2 b3 b4 b5 b6 c1 c2 c3 c4 c5 c6 mlm mlm'
  rw [b1, b2, b3, b4, b5, mlm, c1, c2, c3, c4, c5, mlm', k2, k3, k7, k9, k10]
  rw [k7] at hs b6
  rcases b6 with ⟨e, f⟩ | ⟨e, -, f⟩ | ⟨e, f⟩ <;>
    rcases c6 with ⟨e', f'⟩ | ⟨e', -, f'⟩ | ⟨e', f'⟩ <;>
    first
    | exact absurd (e.symm.trans e') (by decide)
    | skip
  · rw [f, f', hr, k8, k11, k6, e]
    rfl
  · have m1 : a.str_mlm_method = a'.str_mlm_method :=
      key "str_mlm_method" _ _ ["gp"] (by simp [settings]) (by simp [settings]) (by simp [k7, e])
        (by simp [e])
    have m2 : a.str_cov = a'.str_cov :=
      key "str_cov" _ _ ["gp", "tp"] (by simp [settings]) (by simp [settings]) (by simp [k7, e])
        (by simp [e])
    have m3 : a.use_ard = a'.use_ard := strBool_inj (by
      rw [strBool_eq, strBool_eq]
      exact key "use_ard" _ _ ["gp", "tp"] (by simp [settings]) (by simp [settings])
        (by simp [k7, e]) (by simp [e]))
    have m4 : a.str_optimizer_method_gp = a'.str_optimizer_method_gp :=
      key "str_optimizer_method_gp" _ _ ["gp"] (by simp [settings]) (by simp [settings])
        (by simp [k7, e]) (by simp [e])
    have m5 : a.str_modelselection_method = a'.str_modelselection_method :=
      key "str_modelselection_method" _ _ ["gp"] (by simp [settings]) (by simp [settings])
        (by simp [k7, e]) (by simp [e])
    rw [f, f', hr, hp, k8, k11, k6, m1, m2, m3, m4, m5]
  · have m2 : a.str_cov = a'.str_cov :=
      key "str_cov" _ _ ["gp", "tp"] (by simp [settings]) (by simp [settings]) (by simp [k7, e])
        (by simp [e])
    have m3 : a.use_ard = a'.use_ard := strBool_inj (by
      rw [strBool_eq, strBool_eq]
      exact key "use_ard" _ _ ["gp", "tp"] (by simp [settings]) (by simp [settings])
        (by simp [k7, e]) (by simp [e]))
    have m4 : a.str_optimizer_method_tp = a'.str_optimizer_method_tp :=
      key "str_optimizer_method_tp" _ _ ["tp"] (by simp [settings]) (by simp [settings])
        (by simp [k7, e]) (by simp [e])
    rw [f, f', hr, hp, k8, k11, k6, m2, m3, m4, e]
    rfl

/-- C117. Of the search space the log shows every bound up to a thousandth. -/
theorem C117_range {env env' : Installed} {a a' : Args d} {debug debug' : Bool} {w w' : Attrs d}
    (h : createAttrs env a debug = .ok w) (h' : createAttrs env' a' debug' = .ok w')
    {num_init num_init' : ℤ} {seed seed' : Option ℤ}
    (hlog : printInfo w num_init seed = printInfo w' num_init' seed') (i : Fin d) :
    |(a.range_X i).1 - (a'.range_X i).1| ≤ 1 / 1000 ∧
    |(a.range_X i).2 - (a'.range_X i).2| ≤ 1 / 1000 := by
  obtain ⟨r, hr, hl⟩ := printInfo_ok h num_init seed
  obtain ⟨r', hr', hl'⟩ := printInfo_ok h' num_init' seed'
  have e := Except.ok.inj (hl.symm.trans (hlog.trans hl'))
  have e1 := (List.cons.inj (List.cons.inj e).2).1
  have e2 : r = r' := by
    have := congrArg String.toList e1
    simp only [String.toList_append, List.append_cancel_left_eq] at this
    exact String.toList_injective this
  exact near_of_array (hr.trans ((congrArg _ e2).trans hr'.symm)) i

/-- C117 is violated by the function `run_single_round`: its log says nothing about `use_ard` and
`normalize_Y`, so that accepted models that differ in them print the same messages. -/
theorem C117_round_violated (env : Installed) (B : Bounds d) (hB : ∀ i, (B i).1 ≤ (B i).2) :
    ∃ bo bo' bo'' : BOwGP d,
      (∃ st, BoWGp.init env B STR_COV STR_BO_ACQ true true none STR_OPTIMIZER_METHOD_GP
        STR_OPTIMIZER_METHOD_AO STR_MODELSELECTION_METHOD = .ok (bo, st)) ∧
      (∃ st, BoWGp.init env B STR_COV STR_BO_ACQ true false none STR_OPTIMIZER_METHOD_GP
        STR_OPTIMIZER_METHOD_AO STR_MODELSELECTION_METHOD = .ok (bo', st)) ∧
      (∃ st, BoWGp.init env B STR_COV STR_BO_ACQ false true none STR_OPTIMIZER_METHOD_GP
        STR_OPTIMIZER_METHOD_AO STR_MODELSELECTION_METHOD = .ok (bo'', st)) ∧
      bo.use_ard ≠ bo'.use_ard ∧ bo.normalize_Y ≠ bo''.normalize_Y ∧
      ∀ a, roundInfo bo a = roundInfo bo' a ∧ roundInfo bo a = roundInfo bo'' a := by
  have hi : ∀ nY ard : Bool, BoWGp.init env B STR_COV STR_BO_ACQ nY ard none STR_OPTIMIZER_METHOD_GP
        STR_OPTIMIZER_METHOD_AO STR_MODELSELECTION_METHOD =
      .ok (⟨⟨B, "gp", "ei", "L-BFGS-B", nY⟩, "matern52", ard, none, "BFGS", "ml"⟩, {}) := by
    intro nY ard
    have h1 : STR_OPTIMIZER_METHOD_AO ∈ ALLOWED_OPTIMIZER_METHOD_BO := by decide
    have h2 : STR_OPTIMIZER_METHOD_AO ∈
      ALLOWED_OPTIMIZER_METHOD_BO ++ ALLOWED_OPTIMIZER_METHOD_BO_TREES := by decide
    have h3 : STR_COV ∈ ALLOWED_COV := by decide
    have h4 : STR_BO_ACQ ∈ ALLOWED_BO_ACQ := by decide
    have h5 : STR_OPTIMIZER_METHOD_GP ∈ ALLOWED_OPTIMIZER_METHOD_GP := by decide
    have h6 : STR_MODELSELECTION_METHOD ∈ ALLOWED_MODELSELECTION_METHOD := by decide
    have h7 : "gp" ∈ ALLOWED_SURROGATE := by decide
    have h8 : "gp" ∈ ALLOWED_SURROGATE ++ ALLOWED_SURROGATE_TREES := by decide
    simp only [BoWGp.init, initBase, checkOptimizerMethodBo, assert_true hB, assert_true h1,
      assert_true h2, assert_true h3, assert_true h4, assert_true h5, assert_true h6,
      assert_true h7, assert_true h8, bind, Except.bind]
    rfl
  exact ⟨_, _, _, ⟨_, hi true true⟩, ⟨_, hi true false⟩, ⟨_, hi false true⟩, by simp, by simp,
    fun a => ⟨rfl, rfl⟩⟩

/-- C117 for `run_single_round`: everything else is in its log. Models with the same prior mean, search
space, `use_ard` and `normalize_Y` that print the same messages are the same, and are called with the
same arguments. -/
theorem C117_round_partial {bo bo' : BOwGP d} {a a' : RoundArgs} {log : List String}
    (h : roundInfo bo a = .ok log) (h' : roundInfo bo' a' = .ok log)
    (h1 : bo.range_X = bo'.range_X) (h2 : bo.prior_mu = bo'.prior_mu)
    (h3 : bo.use_ard = bo'.use_ard) (h4 : bo.normalize_Y = bo'.normalize_Y)
    (h5 : bo.str_surrogate = bo'.str_surrogate) : bo = bo' ∧ a = a' := by
  unfold roundInfo at h h'
  obtain ⟨_, -, h⟩ := py_bind_ok h
  obtain ⟨_, -, h⟩ := py_bind_ok h
  obtain ⟨_, -, h⟩ := py_bind_ok h
  obtain ⟨_, -, h'⟩ := py_bind_ok h'
  obtain ⟨_, -, h'⟩ := py_bind_ok h'
  obtain ⟨_, -, h'⟩ := py_bind_ok h'
  have e := (Except.ok.inj h).trans (Except.ok.inj h').symm
  simp only [List.cons.injEq, and_true] at e
  obtain ⟨-, e1, e2, e3, e4, e5, e6, e7, e8, e9, e10, e11, e12⟩ := e
  obtain ⟨⟨b1, b2, b3, b4, b5⟩, b6, b7, b8, b9, b10⟩ := bo
  obtain ⟨⟨c1, c2, c3, c4, c5⟩, c6, c7, c8, c9, c10⟩ := bo'
  obtain ⟨x1, x2, x3, x4, x5, x6, x7⟩ := a
  obtain ⟨y1, y2, y3, y4, y5, y6, y7⟩ := a'
  simp only at *
  rw [h1, h2, h3, h4, h5, line_inj e1, line_inj e2, line_inj e3, line_inj e4, line_inj e5,
    Int.repr_injective (line_inj e6), Int.repr_injective (line_inj e7), line_inj e8, line_inj e9,
    Int.repr_injective (line_inj e10), line_inj e11, strSeed_inj (line_inj e12)]
  exact ⟨rfl, rfl⟩

/-- C117 at work: a random forest on the unit interval, with three iterations. The log has the seed and
the surrogate, and no covariance function. -/
example : ∃ w log, createAttrs ⟨true, true⟩ (⟨fun _ => (0, 1), 3, "rf", "eq", "ei", true, true, none,
      "sobol", "sobol", "BFGS", "SLSQP", "random_search", "regular", "ml", 100⟩ : Args 1) false = .ok w ∧
    printInfo w 5 (some 42) = .ok log ∧ reports log "seed" = ["seed: 42"] ∧
    reports log "str_surrogate" = ["str_surrogate: rf"] ∧ reports log "str_cov" = [] ∧
    log.length = 14 := by
  set a : Args 1 := ⟨fun _ => (0, 1), 3, "rf", "eq", "ei", true, true, none,
    "sobol", "sobol", "BFGS", "SLSQP", "random_search", "regular", "ml", 100⟩ with ha
  have hB : ∀ i, (a.range_X i).1 ≤ (a.range_X i).2 := fun _ => zero_le_one
  have h : ∃ w, createAttrs ⟨true, true⟩ a false = .ok w := by
    simp only [createAttrs, ownChecks, getModelBo, BoWTrees.init, initBase, checkOptimizerMethodBo,
      assert_true hB]
    simp [ha, pyAssert, ALLOWED_SURROGATE, ALLOWED_SURROGATE_TREES, ALLOWED_COV, ALLOWED_COV_BASE,
      ALLOWED_BO_ACQ, ALLOWED_INITIALIZING_METHOD_BO, ALLOWED_SAMPLING_METHOD,
      ALLOWED_OPTIMIZER_METHOD_GP, ALLOWED_OPTIMIZER_METHOD_TP, ALLOWED_OPTIMIZER_METHOD_BO,
      ALLOWED_OPTIMIZER_METHOD_BO_TREES, ALLOWED_MLM_METHOD, ALLOWED_MODELSELECTION_METHOD, bind,
      Except.bind, pure, Except.pure]
  obtain ⟨w, h⟩ := h
  obtain ⟨log, -, h1, -, -, h2, h3⟩ := C117_reports h 5 (some 42)
  refine ⟨w, log, h, h1, h2 ⟨"seed", "42", ["gp", "tp", "rf"]⟩ (by simp [settings]; decide),
    h2 ⟨"str_surrogate", "rf", ["gp", "tp", "rf"]⟩ (by simp [settings, ha]),
    h2 ⟨"str_cov", "eq", ["gp", "tp"]⟩ (by simp [settings, ha]), h3.trans ?_⟩
  simp [settings, ha]

end Verif.Props
