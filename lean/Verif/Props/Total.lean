import Verif.Lemmas.StepTotalOthers
import Verif.Props.Propose

/-! # C71: correct calls on an accepted object never raise -/

namespace Verif.Props

open Verif.Spec Verif.Lemmas Verif.BoCommon Verif.UtilsBo Verif.Constants Verif.BaseBo
open Verif.Covariance (Inputs)

variable {n d : ℕ}

/-- The proposals of several calls of `optimize`, one after the other, on one object. -/
noncomputable def gpCalls (bo : BoWGp.BOwGP d) (clock : ℕ → ℝ) :
    List (StepCall d) → OptM BoWGp.GpState (List (Point d))
  | [] => pure []
  | c :: cs => do
    let r ← BoWGp.optimize bo c.routines clock (.vec c.X) c.Y c.sampling c.samples c.mlm
    let rs ← gpCalls bo clock cs
    return r.1 :: rs

/-- The same for a Student-t process model. -/
noncomputable def tpCalls (bo : BoWTp.BOwTP d) (clock : ℕ → ℝ) :
    List (StepCall d) → OptM BoWTp.TpState (List (Point d))
  | [] => pure []
  | c :: cs => do
    let r ← BoWTp.optimize bo c.routines clock (.vec c.X) c.Y c.sampling c.samples
    let rs ← tpCalls bo clock cs
    return r.1 :: rs

private theorem sampling_ok {sm : String}
    (h : sm ∈ ["grid", "uniform", "gaussian", "sobol", "halton"]) :
    sm ∈ ALLOWED_SAMPLING_METHOD := by
  simp only [List.mem_cons, List.not_mem_nil, or_false] at h
  rcases h with rfl | rfl | rfl | rfl | rfl <;> decide

private theorem gpCalls_total (hd : 0 < d) {bo : BoWGp.BOwGP d} (hb : bo.str_cov ∈ baseNames)
    (hacq : bo.str_acq ∈ ALLOWED_BO_ACQ) (hB : ∀ i, (bo.range_X i).1 ≤ (bo.range_X i).2)
    (hbo : bo.str_optimizer_method_bo ∈ ALLOWED_OPTIMIZER_METHOD_BO)
    (hprior : PriorTotal bo.prior_mu)
    (hm : bo.str_optimizer_method_gp ∈ ALLOWED_OPTIMIZER_METHOD_GP)
    (hms : bo.str_modelselection_method ∈ ALLOWED_MODELSELECTION_METHOD)
    (hard : bo.str_modelselection_method = "ml" ∨ bo.use_ard = true ∨ d = 1) (clock : ℕ → ℝ) :
    ∀ (calls : List (StepCall d)),
      (∀ c ∈ calls, c.Valid bo.range_X (FitVector (scaleCount bo.use_ard d))) →
      ∀ st, GoodState bo.str_cov bo.use_ard d st → ∀ t, ∃ r ps,
        gpCalls bo clock calls (st, t) = (r, .ok ps) ∧ ps.length = calls.length ∧
        ∀ p ∈ ps, InBox bo.range_X p
  | [], _, st, _, t => ⟨_, [], rfl, rfl, by simp⟩
  | c :: cs, hc, st, hst, t => by
    have h := hc c (by simp)
    obtain ⟨st', p, info, e, hst'⟩ := gp_optimize_total hd hb hacq hB hbo h.nonempty c.X
      h.lengths.symm hprior hm hms hard h.fit h.acq clock (sampling_ok h.sampling) h.samples
      (mlm := c.mlm) (by simpa [ALLOWED_MLM_METHOD] using h.mlm) hst t
    obtain ⟨-, -, -, -, -, -, -, _, _, -, -, -, -, hp, -⟩ := gp_optimize_ok e
    obtain ⟨r, ps, e2, hl, hps⟩ := gpCalls_total hd hb hacq hB hbo hprior hm hms hard clock cs
      (fun c h => hc c (by simp [h])) st' hst' (t + 6)
    refine ⟨r, p :: ps, ?_, by simp [hl], ?_⟩
    · unfold gpCalls
      rw [OptM.bind_of_ok e, OptM.bind_of_ok e2]
      rfl
    · simpa using ⟨hp, hps⟩

/-- C71 for Gaussian processes: whatever names, bounds and prior mean the constructor accepts (the
covariance being one on points), any number of valid calls of `optimize` in a row — in any of the
three fitting modes, mixed at will, with data sets of any sizes — all return a point of the box.
Leave-one-out model selection needs one lengthscale per coordinate (see C59). -/
theorem C71_gp {env : Installed} {B : Bounds d} {cov acq : String} {nY ard : Bool}
    {prior : Gp.PriorMu d} {mg mb ms : String} {bo : BoWGp.BOwGP d} {st : BoWGp.GpState}
    (hinit : BoWGp.init env B cov acq nY ard prior mg mb ms = .ok (bo, st))
    (hd : 0 < d) (hcov : cov ∈ baseNames) (hprior : PriorTotal prior)
    (hms : ms = "ml" ∨ ard = true ∨ d = 1) (clock : ℕ → ℝ) (t : ℕ) (calls : List (StepCall d))
    (hcalls : ∀ c ∈ calls, c.Valid B (FitVector (scaleCount ard d))) :
    ∃ r ps, gpCalls bo clock calls (st, t) = (r, .ok ps) ∧ ps.length = calls.length ∧
      ∀ p ∈ ps, InBox B p := by
  obtain ⟨rfl, rfl, rfl, rfl, rfl, rfl, rfl, rfl, -, hB, ha, hg, hm, hbo⟩ := gp_init_ok hinit
  exact gpCalls_total hd hcov ha hB hbo hprior hg hm hms clock calls hcalls {}
    ⟨by simp, by simp⟩ t

/-- C71 for Student-t processes. -/
theorem C71_tp {env : Installed} {B : Bounds d} {cov acq : String} {nY ard : Bool}
    {prior : Gp.PriorMu d} {mt mb : String} {bo : BoWTp.BOwTP d} {st : BoWTp.TpState}
    (hinit : BoWTp.init env B cov acq nY ard prior mt mb = .ok (bo, st))
    (hd : 0 < d) (hcov : cov ∈ baseNames) (hprior : PriorTotal prior) (clock : ℕ → ℝ) (t : ℕ)
    (calls : List (StepCall d))
    (hcalls : ∀ c ∈ calls, c.Valid B (FitVectorT (scaleCount ard d))) :
    ∃ r ps, tpCalls bo clock calls (st, t) = (r, .ok ps) ∧ ps.length = calls.length ∧
      ∀ p ∈ ps, InBox B p := by
  obtain ⟨rfl, rfl, rfl, rfl, rfl, rfl, -, hB, ha, hm, hbo⟩ := tp_init_ok hinit
  clear hinit
  induction calls generalizing st t with
  | nil => exact ⟨_, [], rfl, rfl, by simp⟩
  | cons c cs ih =>
    have h := hcalls c (by simp)
    obtain ⟨st', p, info, e⟩ := tp_optimize_total hd hcov ha hB hbo h.nonempty c.X
      h.lengths.symm hprior hm h.fit h.acq clock (sampling_ok h.sampling) h.samples st t
    obtain ⟨-, -, -, -, -, -, _, _, -, -, -, -, -, hp, -⟩ := tp_optimize_ok e
    obtain ⟨r, ps, e2, hl, hps⟩ := ih (st := st') (t := t + 6) fun c h => hcalls c (by simp [h])
    refine ⟨r, p :: ps, ?_, by simp [hl], ?_⟩
    · unfold tpCalls
      rw [OptM.bind_of_ok e, OptM.bind_of_ok e2]
      rfl
    · simpa using ⟨hp, hps⟩

/-- C71 for random forests (whose object never changes, so one call says it all). -/
theorem C71_trees {σ : Type} {env : Installed} {B : Bounds d} {sur acq : String} {nY : Bool}
    {mb : String} {bo : BaseBO d} (hinit : BoWTrees.init env B sur acq nY mb = .ok bo)
    (hd : 0 < d) {o : BoWTrees.TreesOracles d} (hf : ForestRndOk o.forest true)
    (hdr : UnitDraws o.draws) {X : List (Point d)} {Y : List ℝ} (hX : X ≠ [])
    (hY : X.length = Y.length) {sm : String}
    (hsm : sm ∈ ["grid", "uniform", "gaussian", "sobol", "halton"]) {ns : ℤ} (hns : 0 < ns)
    (clock : ℕ → ℝ) (st : σ) (t : ℕ) :
    ∃ r p info, BoWTrees.optimize bo o clock X Y sm ns (st, t) = (r, .ok (p, info)) ∧
      InBox B p := by
  obtain ⟨rfl, rfl, hsur, -, hB, ha⟩ := trees_init_ok hinit
  obtain ⟨p, info, h⟩ := trees_optimize_total hd hsur ha hB hX hY hf hdr clock (sampling_ok hsm)
    hns st t
  obtain ⟨-, -, -, -, -, -, -, -, hb, -, ⟨i, -, hi⟩, -⟩ := trees_optimize_ok h
  refine ⟨_, p, info, h, hb p ?_⟩
  unfold pyIndex at hi
  split at hi
  · next hq => exact (Except.ok.inj hi) ▸ List.mem_of_getElem? hq
  · cases hi

/-! A concrete case: three observations in two dimensions, minimisers that stay where they start,
generators that always draw a half. -/

/-- Routines that return their start. -/
noncomputable def exRoutines : Oracles 2 where
  fitHyps _ _ x0 _ _ := .ok x0
  lbfgsb _ x0 _ := .ok x0
  direct _ B := .ok fun i => (B i).1
  cma _ x0 _ _ := .ok x0
  draws := ⟨fun _ => 1 / 2, fun k => 100 * k, fun _ _ => 1 / 2, fun _ _ => 1⟩

theorem exRoutines_fit (P : List Flt → Prop) : Minimizes exRoutines.fitHyps P :=
  fun _ _ x0 _ _ h _ => ⟨x0, h, rfl⟩

theorem exRoutines_acq {B : Bounds 2} (hB : ∀ i, (B i).1 ≤ (B i).2) : AcqOptimizes exRoutines B where
  lbfgsb _ x0 h _ := ⟨x0, h, rfl⟩
  direct _ _ := ⟨fun i => (B i).1, fun i => ⟨le_rfl, hB i⟩, rfl⟩
  cma _ x0 _ h _ := ⟨x0, h, rfl⟩
  draws := by
    simp only [UnitDraws, exRoutines]
    norm_num

/-- The square `[0, 10]²`. -/
def exBox : Bounds 2 := fun _ => (0, 10)

theorem exBox_le (i : Fin 2) : (exBox i).1 ≤ (exBox i).2 := by norm_num [exBox]

/-- A call with three observations. -/
noncomputable def exCall (mlm : String) : StepCall 2 where
  n := 3
  X := ![![1, 2], ![3, 4], ![5, 5]]
  Y := [3, 1, 7]
  routines := exRoutines
  sampling := "sobol"
  samples := 4
  mlm := mlm

theorem exCall_valid (P : List Flt → Prop) {mlm : String}
    (h : mlm ∈ ["regular", "combined", "converged"]) : (exCall mlm).Valid exBox P :=
  ⟨by simp [exCall], rfl, by simp [exCall], by norm_num [exCall], h, exRoutines_fit P,
    exRoutines_acq exBox_le⟩

theorem prior_none (d : ℕ) : PriorTotal (none : Gp.PriorMu d) := fun _ _ => ⟨_, rfl⟩

/-- The object of the examples. -/
noncomputable def exBo : BoWGp.BOwGP 2 where
  range_X := exBox
  str_surrogate := "gp"
  str_acq := "ei"
  str_optimizer_method_bo := "L-BFGS-B"
  normalize_Y := true
  str_cov := "matern52"
  use_ard := true
  prior_mu := none
  str_optimizer_method_gp := "BFGS"
  str_modelselection_method := "ml"

theorem exBo_init : BoWGp.init ⟨false, false⟩ exBox "matern52" "ei" true true none "BFGS" "L-BFGS-B"
    "ml" = .ok (exBo, {}) := by
  have h := exBox_le
  simp only [BoWGp.init, initBase, checkOptimizerMethodBo, pyAssert, exBox_le, implies_true, if_true,
    bind, Except.bind, pure, Except.pure]
  rfl

/-- C71 (and C60) at work: five calls in mixed modes. -/
example : ∃ r ps, gpCalls exBo (fun k => k) [exCall "regular", exCall "converged",
    exCall "combined", exCall "converged", exCall "converged"] ({}, 0) = (r, .ok ps) ∧
    ps.length = 5 ∧ ∀ p ∈ ps, InBox exBox p := by
  refine C71_gp exBo_init (by norm_num) (by decide) (prior_none 2) (.inl rfl) _ 0 _ ?_
  intro c hc
  simp only [List.mem_cons, List.not_mem_nil, or_false] at hc
  rcases hc with rfl | rfl | rfl | rfl | rfl <;> exact exCall_valid _ (by simp)

/-- A successful step of the Gaussian process model, as C60_gp asks for. -/
theorem exStep {mlm : String} (h : mlm ∈ ["regular", "combined", "converged"]) :
    ∃ r p info, BoWGp.optimize exBo exRoutines (fun k => k)
      (.vec ![![1, 2], ![3, 4], ![5, 5]] : Inputs 3 2) [3, 1, 7] "sobol" 4 mlm ({}, 0) =
        (r, .ok (p, info)) := by
  obtain ⟨r, ps, e, -⟩ := C71_gp exBo_init (by norm_num) (by decide) (prior_none 2) (.inl rfl)
    (fun k => k) 0 [exCall mlm] (by simpa using exCall_valid _ h)
  unfold gpCalls at e
  obtain ⟨⟨p, info⟩, r, e, -⟩ := OptM.bind_ok e
  exact ⟨r, p, info, e⟩

/-- The Student-t process model of the examples. -/
noncomputable def exBoT : BoWTp.BOwTP 2 where
  range_X := exBox
  str_surrogate := "tp"
  str_acq := "aei"
  str_optimizer_method_bo := "L-BFGS-B"
  normalize_Y := true
  str_cov := "matern32"
  use_ard := false
  prior_mu := none
  str_optimizer_method_tp := "SLSQP"

theorem exBoT_init : BoWTp.init ⟨false, false⟩ exBox "matern32" "aei" true false none "SLSQP"
    "DIRECT" = .ok (exBoT, {}) := by
  have h := exBox_le
  simp only [BoWTp.init, initBase, checkOptimizerMethodBo, pyAssert, exBox_le, implies_true, if_true,
    bind, Except.bind, pure, Except.pure]
  rfl

/-- A successful step of the Student-t process model, as C60_tp asks for. -/
theorem exStepT : ∃ r p info, BoWTp.optimize exBoT exRoutines (fun k => k)
      (.vec ![![1, 2], ![3, 4], ![5, 5]] : Inputs 3 2) [3, 1, 7] "sobol" 4 ({}, 0) =
        (r, .ok (p, info)) := by
  obtain ⟨r, ps, e, -⟩ := C71_tp exBoT_init (by norm_num) (by decide) (prior_none 2)
    (fun k => k) 0 [exCall "regular"] (by simpa using exCall_valid _ (by simp))
  unfold tpCalls at e
  obtain ⟨⟨p, info⟩, r, e, -⟩ := OptM.bind_ok e
  exact ⟨r, p, info, e⟩

/-- The random forest model of the examples. -/
noncomputable def exBoF : BaseBO 2 where
  range_X := exBox
  str_surrogate := "rf"
  str_acq := "ucb"
  str_optimizer_method_bo := "random_search"
  normalize_Y := true

theorem exBoF_init : BoWTrees.init ⟨false, false⟩ exBox "rf" "ucb" true "random_search" =
    .ok exBoF := by
  have h := exBox_le
  simp only [BoWTrees.init, initBase, checkOptimizerMethodBo, pyAssert, exBox_le, implies_true,
    if_true, bind, Except.bind, pure, Except.pure]
  rfl

/-- Bootstrap samples of the first row only and the first split. -/
noncomputable def exForest : BoWTrees.TreesOracles 2 :=
  ⟨⟨fun _ _ k => List.replicate k 0, fun _ _ => firstRnd 2⟩, exRoutines.draws⟩

theorem exForest_ok : ForestRndOk exForest.forest true :=
  ⟨fun _ => ⟨by simp [exForest], fun n k hn _ i hi => by
    rw [(List.mem_replicate.1 hi).2]; exact hn, by simp⟩, fun _ _ => firstRnd_ok 2⟩

/-- A successful step of the random forest model, as C60_trees asks for. -/
theorem exStepF : ∃ r p info, BoWTrees.optimize (σ := Unit) exBoF exForest (fun k => k)
      [![1, 2], ![3, 4], ![5, 5]] [3, 1, 7] "uniform" 4 ((), 0) = (r, .ok (p, info)) ∧
      InBox exBox p :=
  C71_trees exBoF_init (by norm_num) exForest_ok (exRoutines_acq exBox_le).draws (by simp) rfl
    (by simp) (by norm_num) _ _ _

/-- C60 applied to those steps: the proposal is one of the candidates. -/
example : ∃ r p info, BoWGp.optimize exBo exRoutines (fun k => k)
      (.vec ![![1, 2], ![3, 4], ![5, 5]] : Inputs 3 2) [3, 1, 7] "sobol" 4 "regular" ({}, 0) =
        (r, .ok (p, info)) ∧ p ∈ info.next_points := by
  obtain ⟨r, p, info, e⟩ := exStep (mlm := "regular") (by simp)
  obtain ⟨_, _, _, _, k, -, -, -, -, hk, -⟩ := C60_gp e
  exact ⟨r, p, info, e, List.mem_of_getElem? hk.1⟩

end Verif.Props
