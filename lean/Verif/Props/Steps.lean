import Verif.Lemmas.WrapperTotal
import Verif.Props.Run
import Verif.Props.Sampling
import Verif.Props.Total

/-! The runs of C06-C12 with the surrogates of the package, and C72: a run of a documented
configuration does not raise. -/

namespace Verif.Props

open Verif.Spec Verif.BoCommon Verif.UtilsBo Verif.Constants Verif.BaseBo Verif.WrapperClass
open Verif.WrappersBo Verif.Lemmas

variable {d : ℕ}

/-! ### The hypotheses of C07, C09 and C11 hold for every object of the class -/

/-- The steps of every object propose points of the search space of its surrogate only. -/
theorem C07_steps (w : BayesianOptimization d) (o : RunOracles d) (clock : ℕ → ℝ)
    (target : ℕ → Point d → Py Flt) :
    StepInBox w.model_bo.range_X (runEnv w o clock target) := by
  intro s t X Y r p i h
  obtain ⟨-, -, ok⟩ := step_ok h
  exact ⟨ok.point, ok.points⟩

/-- C07. Every row of a run of an object, and every point the target is called on, lies in the
search space given to the constructor. -/
theorem C07_object {env : Installed} {a : Args d} {w : BayesianOptimization d} {st : ModelState}
    (hw : create env a = .ok (w, st)) (o : RunOracles d) (clock : ℕ → ℝ)
    (target : ℕ → Point d → Py Flt) (T : ℕ) (X : List (Point d)) (Y : List Flt)
    (u u' : World d (ModelState × ℕ)) (r : LoopSt d) (hX : ∀ x ∈ X, InBox a.range_X x)
    (h : optimizeWithAllInitialInformation (runEnv w o clock target) T X Y u = (u', .ok r)) :
    (∀ x ∈ r.X, InBox a.range_X x) ∧ ∃ Q, u'.log = u.log ++ Q ∧ ∀ x ∈ Q, InBox a.range_X x := by
  have hs := C07_steps w o clock target
  rw [range_created hw] at hs
  exact C07_in_bounds _ _ hs T X Y u u' r hX h

/-- The steps of every object do not decide by the clock. -/
theorem C09_steps (w : BayesianOptimization d) (o : RunOracles d) (clock : ℕ → ℝ)
    (target : ℕ → Point d → Py Flt) : ClockFree (runEnv w o clock target) := by
  intro s t t' X Y
  simp only [runEnv, step]
  cases hY : finites Y with
  | error e => exact ⟨rfl, rfl⟩
  | ok Yr =>
    obtain ⟨h1, h2⟩ := single_clock w o clock clock s.2 X Yr s.1 t t'
    refine ⟨by simp only [h1], ?_⟩
    rcases e1 : (optimizeSingleIteration w o clock s.2 X Yr (s.1, t)).2 with e | ⟨p, i⟩ <;>
      rcases e2 : (optimizeSingleIteration w o clock s.2 X Yr (s.1, t')).2 with e' | ⟨p', i'⟩ <;>
      rw [e1, e2] at h2
    · exact congrArg Except.error h2
    · exact h2.elim
    · exact h2.elim
    · obtain ⟨a, b, c⟩ := h2
      simp only at a b c
      simp only [untimed, a, b, c]

/-- C09. The clock of the machine has no influence on the rows: two runs that differ in the clock
alone propose the same points step by step. -/
theorem C09_any_clock (w : BayesianOptimization d) (o : RunOracles d) (clock clock' : ℕ → ℝ)
    (target : ℕ → Point d → Py Flt) (s : ModelState × ℕ) (t t' : ℕ) (X : List (Point d))
    (Y : List Flt) :
    ((runEnv w o clock target).step s t X Y).1.1 = ((runEnv w o clock' target).step s t' X Y).1.1 ∧
    untimed ((runEnv w o clock target).step s t X Y).2 =
      untimed ((runEnv w o clock' target).step s t' X Y).2 := by
  simp only [runEnv, step]
  cases hY : finites Y with
  | error e => exact ⟨rfl, rfl⟩
  | ok Yr =>
    obtain ⟨h1, h2⟩ := single_clock w o clock clock' s.2 X Yr s.1 t t'
    refine ⟨by simp only [h1], ?_⟩
    rcases e1 : (optimizeSingleIteration w o clock s.2 X Yr (s.1, t)).2 with e | ⟨p, i⟩ <;>
      rcases e2 : (optimizeSingleIteration w o clock' s.2 X Yr (s.1, t')).2 with e' | ⟨p', i'⟩ <;>
      rw [e1, e2] at h2
    · exact congrArg Except.error h2
    · exact h2.elim
    · exact h2.elim
    · obtain ⟨a, b, c⟩ := h2
      simp only at a b c
      simp only [untimed, a, b, c]

/-- C09. Resuming a run of an object gives the rows of one long run. -/
theorem C09_object (w : BayesianOptimization d) (o : RunOracles d) (clock : ℕ → ℝ)
    (target : ℕ → Point d → Py Flt) (T S : ℕ) (X : List (Point d)) (Y : List Flt)
    (u u1 u2 : World d (ModelState × ℕ)) (r1 r2 : LoopSt d)
    (h1 : optimizeWithAllInitialInformation (runEnv w o clock target) T X Y u = (u1, .ok r1))
    (h2 : optimizeWithAllInitialInformation (runEnv w o clock target) S r1.X r1.Y u1 =
      (u2, .ok r2)) :
    ∃ u3 r3, optimizeWithAllInitialInformation (runEnv w o clock target) (T + S) X Y u =
        (u3, .ok r3) ∧
      r3.X = r2.X ∧ r3.Y = r2.Y ∧ u3.model = u2.model ∧ u3.log = u2.log :=
  C09_resume _ (C09_steps w o clock target) T S X Y u u1 u2 r1 r2 h1 h2

/-- The times a step of an object reports are differences of clock readings made during it. -/
theorem C11_steps (w : BayesianOptimization d) (o : RunOracles d) (clock : ℕ → ℝ)
    (target : ℕ → Point d → Py Flt) : TimedByClock (runEnv w o clock target) := by
  intro s t X Y s' t' p i h
  obtain ⟨ht, -, ok⟩ := step_ok h
  simp only at ht
  exact ⟨t + 1, t + 2, t + 3, t + 4, by omega, by omega, by omega, by omega, by omega,
    ok.surrogate, ok.acq⟩

/-- C11. The times of a run of an object with a clock that does not go backwards. -/
theorem C11_object (w : BayesianOptimization d) (o : RunOracles d) (clock : ℕ → ℝ)
    (hc : Monotone clock) (target : ℕ → Point d → Py Flt) (T : ℕ) (X : List (Point d))
    (Y : List Flt) (u u' : World d (ModelState × ℕ)) (r : LoopSt d)
    (h : optimizeWithAllInitialInformation (runEnv w o clock target) T X Y u = (u', .ok r)) :
    (∀ (i : ℕ) a b c, r.time_all[i]? = some a → r.time_surrogate[i]? = some b →
      r.time_acq[i]? = some c → 0 ≤ b ∧ 0 ≤ c ∧ b + c ≤ a) ∧
    r.time_all.sum ≤ clock u'.tick - clock u.tick :=
  C11_times _ (C11_steps w o clock target) hc T X Y u u' r h

/-! ### C72 -/

/-- C72. A whole run of an accepted configuration, in which the options fit together, does not
raise when the routines work and the target has a finite value in the search space. It returns
`num_init` initial rows and one row per iteration, all in the search space; the target is called
on exactly these rows, in order, and the responses are its values. -/
theorem C72_run {env : Installed} {a : Args d} {w : BayesianOptimization d} {st : ModelState}
    (hw : create env a = .ok (w, st)) (hr : Runnable a) {o : RunOracles d} (ho : RunsWell a o)
    {r : Draws d} (hd : UnitDraws r) (clock : ℕ → ℝ) {target : ℕ → Point d → Py Flt}
    (ht : ∀ k x, InBox a.range_X x → ∃ y : ℝ, target k x = .ok (.fin y)) {num_init : ℤ}
    (hn : 0 < num_init) (k t : ℕ) (log : List (Point d)) :
    ∃ u res, optimize w o clock target r num_init ⟨(st, k), t, log⟩ = (u, .ok res) ∧
      (res.X.length : ℤ) = num_init + a.num_iter ∧ res.Y.length = res.X.length ∧
      (∀ x ∈ res.X, InBox a.range_X x) ∧ u.log = log ++ res.X ∧
      (∃ X0, getInitials a.range_X r a.str_initial_method_bo num_init = .ok X0 ∧
        X0 = res.X.take num_init.toNat) ∧
      ∀ (i : ℕ) x y, res.X[i]? = some x → res.Y[i]? = some y → target (log.length + i) x = .ok y := by
  obtain ⟨hck, rfl, e1, -, e3, -⟩ := create_ok hw
  obtain ⟨c1, -, c3, -, -, c6⟩ := own_checked hck
  have hinv : RunInv a (({} : ModelState), k) := fun _ => ⟨by simp, by simp⟩
  obtain ⟨m, rfl⟩ := Int.eq_ofNat_of_zero_le hn.le
  obtain ⟨N, hN⟩ := Int.eq_ofNat_of_zero_le c1.le
  have hm : 0 < m := by simpa using hn
  have c3' : a.str_initial_method_bo = "uniform" ∨ a.str_initial_method_bo = "gaussian" ∨
      a.str_initial_method_bo = "sobol" ∨ a.str_initial_method_bo = "halton" := by
    simp only [ALLOWED_INITIALIZING_METHOD_BO, List.mem_cons, List.not_mem_nil, or_false] at c3
    tauto
  obtain ⟨X0, hX0⟩ := (C13_succeeds_iff hr.dim a.range_X c6 r a.str_initial_method_bo m).2
    (.inr c3')
  have hI : getInitials a.range_X r a.str_initial_method_bo m = .ok X0 := by
    rw [C13_initials, if_pos c3', hX0]
  have hne : a.str_initial_method_bo ≠ "grid" := by
    rcases c3' with h | h | h | h <;> rw [h] <;> decide
  have hlen : X0.length = m := (C14_count_partial _ _ _ hne _ _ hX0).1
  have hX0ne : X0 ≠ [] := by
    rintro rfl
    simp at hlen
    omega
  have hbox := C13_in_box a.range_X c6 r hd _ _ _ hX0
  obtain ⟨u, res, hrun⟩ := inputs_total (step_total hw hr ho clock target) ht N
    (w := ⟨(({} : ModelState), k), t + 1, log⟩) hinv hX0ne hbox
  obtain ⟨Q, h1, h2, h3, h4, -, -, -, h8⟩ := C11_initial_inputs _ _ _ _ _ _ hrun
  have hall : ∀ x ∈ res.X, InBox a.range_X x := by
    have hs := C07_steps w o clock target
    rw [range_created hw] at hs
    obtain ⟨w1, ts, Y, g1, -⟩ := initials_total (env := runEnv w o clock target) ht X0
      ⟨(({} : ModelState), k), t + 1, log⟩ hbox
    simp only [optimizeWithInitialInputs, bind_apply, g1] at hrun
    rcases hr2 : optimizeWithAllInitialInformation (runEnv w o clock target) N X0
      (Y.map .fin) w1 with ⟨w2, e | r1⟩
    · rw [hr2] at hrun; simp at hrun
    · rw [hr2] at hrun
      simp only [pure_apply, Prod.mk.injEq, Except.ok.injEq] at hrun
      obtain ⟨-, rfl⟩ := hrun
      exact (C07_in_bounds _ _ hs N X0 _ _ _ _ hbox hr2).1
  refine ⟨{ u with tick := u.tick + 1 }, res, ?_, ?_, ?_, hall, h3, ⟨X0, hI, ?_⟩, h8⟩
  · have hn' : (m : ℤ) > 0 := hn
    have e4 : w.num_iter.toNat = N := by rw [e1, hN]; rfl
    simp [optimize, classOptimize, bind_apply, RunM.lift, pyAssert, hm, now, pure_apply, e3, e4,
      range_created hw, hI, hrun]
  · rw [h1, List.length_append, hlen, h2, hN]
    push_cast
    rfl
  · rw [h4, h1, List.length_append, h2]
  · rw [h1]
    simp [hlen]

/-- The configuration of the example: the defaults on `[0, 10]²`, three iterations. -/
noncomputable def exArgs (surrogate optimizer : String) : Args 2 where
  range_X := exBox
  num_iter := 3
  str_surrogate := surrogate
  str_optimizer_method_bo := optimizer

/-- The routines of the example in every step. -/
noncomputable def exOracles : RunOracles 2 := ⟨fun _ => exRoutines, fun _ => exForest.forest⟩

theorem exArgs_runs (surrogate optimizer : String) :
    Runnable (exArgs surrogate optimizer) ∧ RunsWell (exArgs surrogate optimizer) exOracles := by
  refine ⟨⟨by norm_num, fun _ => ?_, fun _ => prior_none 2, fun _ => .inl rfl⟩,
    ⟨fun _ _ => exRoutines_fit _, fun _ _ => exRoutines_fit _,
      fun _ => exRoutines_acq exBox_le, fun _ => exForest_ok⟩⟩
  show STR_COV ∈ _
  decide

/-- C72 (and with it C07, C09, C11) at work: an object of each kind is accepted, and its run of
two initial points and three iterations succeeds. -/
example (c : String × String)
    (hc : c ∈ [("gp", "L-BFGS-B"), ("tp", "DIRECT"), ("rf", "random_search")]) :
    ∃ w u res, create ⟨false, false⟩ (exArgs c.1 c.2) = .ok (w, {}) ∧
      optimize w exOracles (fun k => k) (fun _ x => .ok (.fin (x 0 * x 1))) exRoutines.draws 2
        ⟨({}, 0), 0, []⟩ = (u, .ok res) ∧ res.X.length = 5 := by
  obtain ⟨w, hw⟩ : ∃ w, create ⟨false, false⟩ (exArgs c.1 c.2) = .ok (w, {}) := by
    have h := exBox_le
    have h3 : (0 : ℤ) < NUM_SAMPLES_AO := by norm_num [NUM_SAMPLES_AO]
    simp only [List.mem_cons, List.not_mem_nil, or_false] at hc
    rcases hc with rfl | rfl | rfl
    all_goals
      simp only [create, ownChecks, exArgs, getModelBo, BoWGp.init, BoWTp.init, BoWTrees.init,
        initBase, checkOptimizerMethodBo, pyAssert, exBox_le, h3, implies_true, if_true, bind,
        Except.bind, pure, Except.pure]
      exact ⟨_, rfl⟩
  obtain ⟨h1, h2⟩ := exArgs_runs c.1 c.2
  obtain ⟨u, res, h, hl, -⟩ := C72_run hw h1 h2 (exRoutines_acq exBox_le).draws (fun k => k)
    (target := fun _ x => .ok (.fin (x 0 * x 1))) (fun _ x _ => ⟨_, rfl⟩) (num_init := 2)
    (by norm_num) 0 0 []
  refine ⟨w, u, res, hw, h, ?_⟩
  have : (exArgs c.1 c.2).num_iter = 3 := rfl
  rw [this] at hl
  exact_mod_cast hl

end Verif.Props
