import Verif.Lemmas.RunSim
import Verif.Props.WrapperOptions
import Verif.Spec.Seeds

/-! Which of the routines a step depends on. -/

namespace Verif.Lemmas

open Verif.Spec Verif.BoCommon Verif.UtilsBo Verif.Constants Verif.BaseBo Verif.WrapperClass Verif.WrappersBo

variable {d : ℕ}

theorem candidates_routines {bo : BaseBO d} {o o' : Oracles d} (h1 : o.lbfgsb = o'.lbfgsb)
    (h2 : o.direct = o'.direct) {sm : String}
    (h : bo.str_optimizer_method_bo = "DIRECT" ∨ bo.str_optimizer_method_bo = "L-BFGS-B" ∧
      ∀ n, getSamples bo.range_X o.draws sm n = getSamples bo.range_X o'.draws sm n)
    (f : Point d → Py Flt) (ns : ℤ) : candidates bo o f sm ns = candidates bo o' f sm ns := by
  unfold candidates
  rcases h with h | ⟨h, hs⟩
  · simp [h, h2]
  · simp [h, h1, hs]

theorem gp_routines {n : ℕ} {bo : BoWGp.BOwGP d} {o o' : Oracles d} (h0 : o.fitHyps = o'.fitHyps)
    {sm : String} {ns : ℤ}
    (h : ∀ f, candidates bo.toBaseBO o f sm ns = candidates bo.toBaseBO o' f sm ns)
    (c : ℕ → ℝ) (X : Covariance.Inputs n d) (Y : List ℝ) (mlm : String) :
    BoWGp.optimize bo o c X Y sm ns mlm = BoWGp.optimize bo o' c X Y sm ns mlm := by
  have e1 : ∀ Yt, BoWGp.fitSurrogate bo o X Yt mlm = BoWGp.fitSurrogate bo o' X Yt mlm := by
    intro Yt
    simp only [BoWGp.fitSurrogate, h0]
  have e2 : ∀ f, optimizeAcq bo.toBaseBO o f sm ns = optimizeAcq bo.toBaseBO o' f sm ns := by
    intro f
    simp only [optimizeAcq, h]
  simp only [BoWGp.optimize, e1, e2]

theorem tp_routines {n : ℕ} {bo : BoWTp.BOwTP d} {o o' : Oracles d} (h0 : o.fitHyps = o'.fitHyps)
    {sm : String} {ns : ℤ}
    (h : ∀ f, candidates bo.toBaseBO o f sm ns = candidates bo.toBaseBO o' f sm ns)
    (c : ℕ → ℝ) (X : Covariance.Inputs n d) (Y : List ℝ) :
    BoWTp.optimize bo o c X Y sm ns = BoWTp.optimize bo o' c X Y sm ns := by
  have e2 : ∀ f, optimizeAcq bo.toBaseBO o f sm ns = optimizeAcq bo.toBaseBO o' f sm ns := by
    intro f
    simp only [optimizeAcq, h]
  simp only [BoWTp.optimize, h0, e2]

/-- A grid needs no random numbers. -/
theorem grid_draws (B : Bounds d) (r r' : Draws d) (n : ℤ) :
    getSamples B r "grid" n = getSamples B r' "grid" n := by
  simp only [getSamples, if_true]

/-- Two accepted runs with the same library whose steps draw no random numbers. -/
theorem sameEnv_of_noRandom {env : UtilsBo.Installed} {a : Args d} {w : BayesianOptimization d}
    {st : ModelState} (hw : create env a = .ok (w, st)) (ha : NoRandomSteps env a)
    (L : Seeds.Library d) (E E' : Seeds.Entropy d) (c c' : ℕ → ℝ)
    (target : ℕ → Point d → Py Flt) :
    SameEnv (runEnv w (Seeds.runRoutines L E) c target)
      (runEnv w (Seeds.runRoutines L E') c' target) := by
  have key : ∀ k X Y, optimizeSingleIteration w (Seeds.runRoutines L E) c k X Y =
      optimizeSingleIteration w (Seeds.runRoutines L E') c k X Y := by
    intro k X Y
    obtain ⟨-, -, h3, -, h5, h6, h7⟩ := Props.C77_options hw
    obtain ⟨ha1, ha2⟩ := ha
    have cand : ∀ (base : BaseBO d), base.str_optimizer_method_bo =
        usedOptimizer env d a.str_optimizer_method_bo → ∀ f,
        candidates base ((Seeds.runRoutines L E).routines k) f a.str_sampling_method_ao
          a.num_samples_ao = candidates base ((Seeds.runRoutines L E').routines k) f
          a.str_sampling_method_ao a.num_samples_ao := by
      intro base hb f
      refine candidates_routines (o := (Seeds.runRoutines L E).routines k)
        (o' := (Seeds.runRoutines L E').routines k) rfl rfl ?_ f _
      rw [hb]
      rcases ha2 with h | ⟨h, hg⟩
      · exact .inl h
      · exact .inr ⟨h, fun n => by rw [hg]; exact grid_draws _ _ _ _⟩
    have model : ∀ mlm, modelOptimize w.model_bo (Seeds.runRoutines L E) c k X Y
        a.str_sampling_method_ao a.num_samples_ao mlm =
        modelOptimize w.model_bo (Seeds.runRoutines L E') c k X Y
        a.str_sampling_method_ao a.num_samples_ao mlm := by
      intro mlm
      funext s
      rcases h7 with ⟨e, -⟩ | ⟨-, -, e1⟩ | ⟨-, e1⟩
      · rw [e] at ha1
        simp at ha1
      · obtain ⟨bo, hbo, hm⟩ : ∃ bo, w.model_bo = .gp bo ∧ bo.str_optimizer_method_bo =
          usedOptimizer env d a.str_optimizer_method_bo := ⟨_, e1, rfl⟩
        rw [hbo]
        simp only [modelOptimize, gp_routines (bo := bo)
          (o := (Seeds.runRoutines L E).routines k)
          (o' := (Seeds.runRoutines L E').routines k) rfl (cand bo.toBaseBO hm)]
      · obtain ⟨bo, hbo, hm⟩ : ∃ bo, w.model_bo = .tp bo ∧ bo.str_optimizer_method_bo =
          usedOptimizer env d a.str_optimizer_method_bo := ⟨_, e1, rfl⟩
        rw [hbo]
        simp only [modelOptimize, tp_routines (bo := bo)
          (o := (Seeds.runRoutines L E).routines k)
          (o' := (Seeds.runRoutines L E').routines k) rfl (cand bo.toBaseBO hm)]
    simp only [optimizeSingleIteration, h5, h6, model]
  have main : ∀ s t t' X Y,
      ((runEnv w (Seeds.runRoutines L E) c target).step s t X Y).1.1 =
        ((runEnv w (Seeds.runRoutines L E') c' target).step s t' X Y).1.1 ∧
      OutRel SameButTimes ((runEnv w (Seeds.runRoutines L E) c target).step s t X Y).2
        ((runEnv w (Seeds.runRoutines L E') c' target).step s t' X Y).2 := by
    intro s t t' X Y
    simp only [runEnv, step]
    cases hY : finites Y with
    | error e => exact ⟨rfl, rfl⟩
    | ok Yr =>
      obtain ⟨h1, h2⟩ := single_clock w (Seeds.runRoutines L E') c c' s.2 X Yr s.1 t t'
      simp only [key]
      exact ⟨by rw [h1], h2⟩
  exact ⟨rfl, fun s t t' X Y => (main s t t' X Y).1, fun s t t' X Y => (main s t t' X Y).2⟩

/-- A successful run starts with the initial points; every later row comes from a step. -/
theorem optimize_starts {σ : Type} {env : Env d σ} {initials : ℤ → Py (List (Point d))} {T : ℕ}
    {num_init : ℤ} {u u' : World d σ} {r : LoopSt d}
    (h : classOptimize env initials T num_init u = (u', .ok r)) :
    0 < num_init ∧ ∃ X0 Q, initials num_init = .ok X0 ∧ r.X = X0 ++ Q ∧ Q.length = T ∧
      ∀ (i : ℕ) q, Q[i]? = some q → ∃ s t Y v p info,
        env.step s t (X0 ++ Q.take i) Y = (v, .ok (p, info)) ∧
        getNextBestSample p (X0 ++ Q.take i) info.next_points info.acquisitions =
          .ok (some q) := by
  unfold classOptimize at h
  rw [bind_apply] at h
  by_cases hn : num_init > 0
  · refine ⟨hn, ?_⟩
    simp only [RunM.lift, pyAssert, hn, if_true, bind_apply, now, pure_apply] at h
    cases hX : initials num_init with
    | error e =>
      rw [hX] at h
      cases (Prod.mk.inj h).2
    | ok X0 =>
      rw [hX] at h
      simp only at h
      rcases hr : optimizeWithInitialInputs env T X0
        { u with tick := u.tick + 1 } with ⟨u1, e | r1⟩
      · rw [hr] at h
        cases (Prod.mk.inj h).2
      · rw [hr] at h
        simp only [Prod.mk.injEq, Except.ok.injEq] at h
        obtain ⟨-, rfl⟩ := h
        unfold optimizeWithInitialInputs at hr
        rw [bind_apply] at hr
        rcases hi : classInitials env X0 { u with tick := u.tick + 1 } with ⟨u2, e | ⟨Y, ts⟩⟩
        · rw [hi] at hr
          cases (Prod.mk.inj hr).2
        · rw [hi] at hr
          simp only [bind_apply] at hr
          rcases ho : optimizeWithAllInitialInformation env T X0 Y u2 with ⟨u3, e | r2⟩
          · rw [ho] at hr
            cases (Prod.mk.inj hr).2
          · rw [ho] at hr
            simp only [pure_apply, Prod.mk.injEq, Except.ok.injEq] at hr
            obtain ⟨-, rfl⟩ := hr
            obtain ⟨-, u4, hl, -⟩ := run_ok env T X0 Y _ _ _ ho
            obtain ⟨Q, R, tr⟩ := classLoop_trace env T _ _ _ _ hl
            refine ⟨X0, Q, rfl, tr.X, tr.lenQ, fun i q hq => ?_⟩
            obtain ⟨wi, s', t', p, info, y, -, -, h1, h2, -⟩ := tr.iter i q hq
            exact ⟨_, _, _, _, p, info, h1, h2⟩
  · simp only [RunM.lift, pyAssert, hn, if_false] at h
    cases (Prod.mk.inj h).2

/-- The proposal of a successful search is one of its candidates. -/
theorem optimizeAcq_candidates {bo : BaseBO d} {o : Oracles d} {f : Point d → Py Flt} {sm : String}
    {ns : ℤ} {p : Point d} {pts : List (Point d)}
    (h : optimizeAcq bo o f sm ns = .ok (p, pts)) :
    candidates bo o f sm ns = .ok pts ∧ p ∈ pts := by
  obtain ⟨g, -, k, hk⟩ := optimizeAcq_ok h
  obtain ⟨hk, -⟩ := hk
  refine ⟨?_, ?_⟩
  · unfold optimizeAcq at h
    obtain ⟨pts', h1, h⟩ := py_bind_ok h
    obtain ⟨_, -, h⟩ := py_bind_ok h
    obtain ⟨_, -, h⟩ := py_bind_ok h
    obtain ⟨_, -, h⟩ := py_bind_ok h
    rw [h1, (Prod.mk.inj (Except.ok.inj h)).2]
  · obtain ⟨q, hq, e⟩ := List.mem_map.1 (List.mem_of_getElem? hk)
    exact (Prod.mk.inj e).1 ▸ hq

/-- The rows of a Sobol' sequence that is constant. -/
theorem sobol_const {B : Bounds d} {r : Draws d} {c : ℝ} (hc : ∀ k j, r.sobol k j = c) {n : ℤ}
    {pts : List (Point d)} (h : getSamples B r "sobol" n = .ok pts) :
    ∀ p ∈ pts, p = fun j => c * ((B j).2 - (B j).1) + (B j).1 := by
  have hm : "sobol" ∈ ALLOWED_SAMPLING_METHOD := by decide
  simp only [getSamples, pyAssert, hm, if_true, bind, Except.bind, getSamplesQmc, hc] at h
  by_cases hn : n < 0
  · simp [hn] at h
  · simp [hn] at h
    intro p hp
    rw [← h] at hp
    exact List.eq_of_mem_replicate hp

end Verif.Lemmas
