import Verif.Spec.Wrapper
import Verif.Lemmas.WrapperClass
import Verif.Props.Steps
import Verif.Props.Units

/-! C76, C77: units over a whole run, and what becomes of the options. -/

namespace Verif.Props

open Verif.Spec Verif.Lemmas Verif.BoCommon Verif.UtilsBo Verif.Constants Verif.BaseBo
open Verif.WrapperClass Verif.WrappersBo Verif.Covariance

variable {d : ℕ}

private theorem base_eq {env : Installed} {B : Bounds d} {sur acq mb : String} {nY : Bool}
    {b : BaseBO d} (h : initBase env B sur acq mb nY = .ok b) :
    b = ⟨B, sur, acq, usedOptimizer env d mb, nY⟩ := by
  unfold initBase at h
  obtain ⟨_, -, h⟩ := py_bind_ok h
  obtain ⟨_, -, h⟩ := py_bind_ok h
  obtain ⟨_, -, h⟩ := py_bind_ok h
  obtain ⟨_, -, h⟩ := py_bind_ok h
  obtain ⟨m', hm, h⟩ := py_bind_ok h
  obtain rfl := Except.ok.inj h
  rw [(used_optimizer hm).1]

/-- C77. An accepted object has exactly the options it was given, and so has the surrogate in it; the
acquisition optimiser is the one asked for unless that one cannot run. -/
theorem C77_options {env : Installed} {a : Args d} {w : BayesianOptimization d} {st : ModelState}
    (h : create env a = .ok (w, st)) :
    st = {} ∧ w.num_iter = a.num_iter ∧ w.str_surrogate = a.str_surrogate ∧
    w.str_initial_method_bo = a.str_initial_method_bo ∧
    w.str_sampling_method_ao = a.str_sampling_method_ao ∧ w.num_samples_ao = a.num_samples_ao ∧
    let base : BaseBO d := ⟨a.range_X, a.str_surrogate, a.str_acq,
      usedOptimizer env d a.str_optimizer_method_bo, a.normalize_Y⟩
    (a.str_surrogate = "rf" ∧ w.model_bo = .trees base ∨
     a.str_surrogate = "gp" ∧ w.str_mlm_method = some a.str_mlm_method ∧ w.model_bo = .gp
       ⟨base, a.str_cov, a.use_ard, a.prior_mu, a.str_optimizer_method_gp,
         a.str_modelselection_method⟩ ∨
     a.str_surrogate = "tp" ∧ w.model_bo = .tp
       ⟨base, a.str_cov, a.use_ard, a.prior_mu, a.str_optimizer_method_tp⟩) := by
  obtain ⟨-, h1, h2, h3, h4, h5, h6, m, hm, hcase⟩ := create_ok h
  obtain ⟨rfl, hm'⟩ := used_optimizer hm
  refine ⟨h1, h2, h3, h4, h5, h6, ?_⟩
  rcases hcase with ⟨e, -, bo, e1, hb⟩ | ⟨e, e0, bo, e1, hb⟩ | ⟨e, -, bo, e1, hb⟩
  · refine .inl ⟨e, e1.trans ?_⟩
    unfold BoWTrees.init at hb
    obtain ⟨_, -, hb⟩ := py_bind_ok hb
    obtain ⟨_, -, hb⟩ := py_bind_ok hb
    obtain ⟨_, -, hb⟩ := py_bind_ok hb
    obtain ⟨_, -, hb⟩ := py_bind_ok hb
    rw [base_eq hb, hm', e]
  · refine .inr (.inl ⟨e, e0, e1.trans ?_⟩)
    unfold BoWGp.init at hb
    iterate 7 obtain ⟨_, -, hb⟩ := py_bind_ok hb
    obtain ⟨b, hb1, hb⟩ := py_bind_ok hb
    obtain ⟨rfl, -⟩ := Prod.mk.inj (Except.ok.inj hb)
    rw [base_eq hb1, hm', e]
  · refine .inr (.inr ⟨e, e1.trans ?_⟩)
    unfold BoWTp.init at hb
    iterate 6 obtain ⟨_, -, hb⟩ := py_bind_ok hb
    obtain ⟨b, hb1, hb⟩ := py_bind_ok hb
    obtain ⟨rfl, -⟩ := Prod.mk.inj (Except.ok.inj hb)
    rw [base_eq hb1, hm', e]

/-- C77. A step of an accepted object is a call of `optimize` of its surrogate with the sampling
method, the number of samples and (for a Gaussian process) the fitting mode it was given. -/
theorem C77_step {env : Installed} {a : Args d} {w : BayesianOptimization d} {st : ModelState}
    (h : create env a = .ok (w, st)) (o : RunOracles d) (clock : ℕ → ℝ) (k : ℕ)
    (X : List (Point d)) (Y : List ℝ) (s : ModelState × ℕ) :
    (optimizeSingleIteration w o clock k X Y s).2 =
      match w.model_bo with
      | .gp bo => (BoWGp.optimize bo (o.routines k) clock (.vec X.get) Y a.str_sampling_method_ao
          a.num_samples_ao a.str_mlm_method (s.1.gp, s.2)).2.map fun r => (r.1, info r.2)
      | .tp bo => (BoWTp.optimize bo (o.routines k) clock (.vec X.get) Y a.str_sampling_method_ao
          a.num_samples_ao (s.1.tp, s.2)).2.map fun r => (r.1, info r.2)
      | .trees bo => (BoWTrees.optimize bo ⟨o.forest k, (o.routines k).draws⟩ clock X Y
          a.str_sampling_method_ao a.num_samples_ao s).2.map fun r => (r.1, infoTrees r.2) := by
  obtain ⟨-, -, h3, -, h5, h6, h7⟩ := C77_options h
  rcases h7 with ⟨e, e1⟩ | ⟨e, e0, e1⟩ | ⟨e, e1⟩
  · simp only [optimizeSingleIteration, h3, e, h5, h6, e1]
    rfl
  · simp only [optimizeSingleIteration, h3, e, h5, h6, e1, e0]
    rfl
  · simp only [optimizeSingleIteration, h3, e, h5, h6, e1]
    rfl

/-! ### C76 -/

private theorem finites_unit (a b : ℝ) : ∀ Y : List Flt,
    finites (Y.map (inUnit a b)) = (finites Y).map (List.map fun y => a * y + b)
  | [] => rfl
  | .fin y :: t => by
    rw [List.map_cons, inUnit, finites, finites_unit a b t, finites]
    cases finites t <;> rfl
  | .pinf :: t => rfl
  | .ninf :: t => rfl
  | .nan :: t => rfl

private theorem step_unit {env : Installed} {a : Args d} {w : BayesianOptimization d}
    {st : ModelState} (hw : create env a = .ok (w, st)) (hN : Normalizes a) (o : RunOracles d)
    (clock : ℕ → ℝ) {α β : ℝ} (hα : 0 < α) (s : ModelState × ℕ) (t : ℕ) (X : List (Point d))
    (Y : List Flt) (hY : ∃ x ∈ Y, ∃ y ∈ Y, x ≠ y) :
    step w o clock s t X (Y.map (inUnit α β)) = step w o clock s t X Y := by
  unfold step
  rw [finites_unit]
  cases hf : finites Y with
  | error e => rfl
  | ok Yr =>
    have hY' : ∃ x ∈ Yr, ∃ y ∈ Yr, x ≠ y := by
      obtain rfl := finites_ok hf
      obtain ⟨x, hx, y, hy, hxy⟩ := hY
      obtain ⟨x', hx', rfl⟩ := List.mem_map.1 hx
      obtain ⟨y', hy', rfl⟩ := List.mem_map.1 hy
      exact ⟨x', hx', y', hy', fun e => hxy (by rw [e])⟩
    suffices hh : optimizeSingleIteration w o clock s.2 X (Yr.map fun y => α * y + β) (s.1, t) =
        optimizeSingleIteration w o clock s.2 X Yr (s.1, t) by
      simp only [Except.map, hh]
    obtain ⟨-, -, h3, -, -, -, h7⟩ := C77_options hw
    rcases h7 with ⟨e, e1⟩ | ⟨e, e0, e1⟩ | ⟨e, e1⟩
    · have hs : ∀ Z, optimizeSingleIteration w o clock s.2 X Z (s.1, t) = modelOptimize
          (.trees ⟨a.range_X, a.str_surrogate, a.str_acq,
            usedOptimizer env d a.str_optimizer_method_bo, a.normalize_Y⟩) o clock s.2 X Z
          w.str_sampling_method_ao w.num_samples_ao none (s.1, t) := fun Z => by
        simp only [optimizeSingleIteration, h3, e, e1]
        rfl
      rw [hs, hs]
      unfold modelOptimize
      simp only [Option.isSome_none, Bool.false_eq_true, if_false]
      rw [C61_trees ⟨_, _, _, _, _⟩ hN.1 _ _ _ _ hY' α β hα]
      rcases (BoWTrees.optimize _ _ _ _ _ _ _ _).2 with er | r <;> rfl
    · have hs : ∀ Z, optimizeSingleIteration w o clock s.2 X Z (s.1, t) = modelOptimize
          (.gp ⟨⟨a.range_X, a.str_surrogate, a.str_acq,
            usedOptimizer env d a.str_optimizer_method_bo, a.normalize_Y⟩, a.str_cov, a.use_ard,
            a.prior_mu, a.str_optimizer_method_gp, a.str_modelselection_method⟩) o clock s.2 X Z
          w.str_sampling_method_ao w.num_samples_ao (some a.str_mlm_method) (s.1, t) := fun Z => by
        simp only [optimizeSingleIteration, h3, e, e1, e0]
        rfl
      rw [hs, hs]
      unfold modelOptimize
      simp only [Option.getD_some]
      rw [C61_gp ⟨⟨_, _, _, _, _⟩, _, _, _, _, _⟩ hN.1 _ _ _ _ hY' α β hα _ _ _ (hN.2 e)]
      rcases (BoWGp.optimize _ _ _ _ _ _ _ _ _).2 with er | r <;> rfl
    · have hs : ∀ Z, optimizeSingleIteration w o clock s.2 X Z (s.1, t) = modelOptimize
          (.tp ⟨⟨a.range_X, a.str_surrogate, a.str_acq,
            usedOptimizer env d a.str_optimizer_method_bo, a.normalize_Y⟩, a.str_cov, a.use_ard,
            a.prior_mu, a.str_optimizer_method_tp⟩) o clock s.2 X Z
          w.str_sampling_method_ao w.num_samples_ao none (s.1, t) := fun Z => by
        simp only [optimizeSingleIteration, h3, e, e1]
        rfl
      rw [hs, hs]
      unfold modelOptimize
      simp only [Option.isSome_none, Bool.false_eq_true, if_false]
      rw [C61_tp ⟨⟨_, _, _, _, _⟩, _, _, _, _⟩ hN.1 _ _ _ _ hY' α β hα]
      rcases (BoWTp.optimize _ _ _ _ _ _ _ _).2 with er | r <;> rfl

/-- The same surroundings with the responses of the target in another unit. -/
private noncomputable abbrev unitEnv {σ : Type} (α β : ℝ) (env : Env d σ) : Env d σ :=
  { env with target := fun k x => (env.target k x).map (inUnit α β) }

private noncomputable abbrev inUnits (α β : ℝ) (s : LoopSt d) : LoopSt d :=
  { s with Y := s.Y.map (inUnit α β) }

/-- `m'` does what `m` does, with another outcome. -/
private def Follows {σ A A' : Type} (f : A → A') (m' : RunM d σ A') (m : RunM d σ A) : Prop :=
  ∀ u, m' u = ((m u).1, (m u).2.map f)

private theorem follows_self {σ A : Type} (m : RunM d σ A) : Follows id m m := fun u => by
  rcases m u with ⟨_, _ | _⟩ <;> rfl

private theorem follows_bind {σ A A' B B' : Type} {f : A → A'} {g : B → B'} {m' : RunM d σ A'}
    {m : RunM d σ A} {k' : A' → RunM d σ B'} {k : A → RunM d σ B} (h : Follows f m' m)
    (hk : ∀ a, (∃ u u', m u = (u', .ok a)) → Follows g (k' (f a)) (k a)) :
    Follows g (m' >>= k') (m >>= k) := fun u => by
  simp only [bind, h u]
  rcases hm : m u with ⟨u', e | a⟩
  · rfl
  · exact hk a ⟨u, u', hm⟩ u'

private theorem follows_pure {σ A A' : Type} (f : A → A') (a : A) :
    Follows f (pure (f a) : RunM d σ A') (pure a) := fun _ => rfl

private theorem iteration_unit {σ : Type} {env : Env d σ} {α β : ℝ}
    (hs : ∀ s t X Y, (∃ x ∈ Y, ∃ y ∈ Y, x ≠ y) →
      env.step s t X (Y.map (inUnit α β)) = env.step s t X Y)
    (st : LoopSt d) (hY : ∃ x ∈ st.Y, ∃ y ∈ st.Y, x ≠ y) :
    Follows (inUnits α β) (classIteration (unitEnv α β env) (inUnits α β st))
      (classIteration env st) := by
  unfold classIteration
  refine follows_bind (f := id) (follows_self _) fun t0 _ => ?_
  refine follows_bind (f := id) (fun u => ?_) fun pi _ => ?_
  · simp only [callStep, hs _ _ _ _ hY]
    rcases (env.step u.model u.tick st.X st.Y).2 with _ | _ <;> rfl
  refine follows_bind (f := id) (follows_self _) fun q _ => ?_
  refine follows_bind (f := id) (follows_self _) fun Xq _ => ?_
  refine follows_bind (f := id) (follows_self _) fun t1 _ => ?_
  refine follows_bind (f := inUnit α β) (fun u => rfl) fun y _ => ?_
  refine follows_bind (f := id) (follows_self _) fun t2 _ => ?_
  refine follows_bind (f := id) (follows_self _) fun t3 _ => ?_
  intro u
  simp only [pure, Except.map, inUnits, List.map_append, List.map_cons, List.map_nil, id_eq]

private theorem iteration_Y {σ : Type} {env : Env d σ} {st st' : LoopSt d} {u u' : World d σ}
    (h : classIteration env st u = (u', .ok st')) : ∃ y, st'.Y = st.Y ++ [y] := by
  rcases classIteration_cases env u st with ⟨_, _, _, _, _, _, _, y, h1, h2⟩ | ⟨_, _, h1, -⟩
  · rw [h] at h1
    obtain ⟨-, h1⟩ := Prod.mk.inj h1
    obtain rfl := Except.ok.inj h1
    exact ⟨y, by rw [h2.state]⟩
  · rw [h] at h1
    cases (Prod.mk.inj h1).2

private theorem loop_unit {σ : Type} {env : Env d σ} {α β : ℝ}
    (hs : ∀ s t X Y, (∃ x ∈ Y, ∃ y ∈ Y, x ≠ y) →
      env.step s t X (Y.map (inUnit α β)) = env.step s t X Y) :
    ∀ (n : ℕ) (st : LoopSt d), (∃ x ∈ st.Y, ∃ y ∈ st.Y, x ≠ y) →
    Follows (inUnits α β) (classLoop (unitEnv α β env) n (inUnits α β st)) (classLoop env n st)
  | 0, st, _ => follows_pure _ _
  | n + 1, st, hY => by
    refine follows_bind (iteration_unit hs st hY) fun st' ⟨u, u', hu⟩ => loop_unit hs n st' ?_
    obtain ⟨y, hy⟩ := iteration_Y hu
    obtain ⟨x, hx, z, hz, hxz⟩ := hY
    exact ⟨x, by simp [hy, hx], z, by simp [hy, hz], hxz⟩

private theorem initials_unit {σ : Type} (env : Env d σ) (α β : ℝ) :
    ∀ (X : List (Point d)), Follows (fun r => (r.1.map (inUnit α β), r.2))
      (classInitials (unitEnv α β env) X) (classInitials env X)
  | [] => follows_pure _ _
  | x :: X => by
    refine follows_bind (f := id) (follows_self _) fun t0 _ => ?_
    refine follows_bind (f := inUnit α β) (fun u => rfl) fun y _ => ?_
    refine follows_bind (f := id) (follows_self _) fun t2 _ => ?_
    refine follows_bind (initials_unit env α β X) fun r _ => ?_
    exact follows_pure _ _

/-- C76. A whole run from given data does the same in another unit of the response: the same calls,
the same proposals and times, the responses in the other unit, and the same exception if there is
one. -/
theorem C76_data {env : Installed} {args : Args d} {w : BayesianOptimization d} {st : ModelState}
    (hw : create env args = .ok (w, st)) (hN : Normalizes args) (o : RunOracles d) (clock : ℕ → ℝ)
    (target : ℕ → Point d → Py Flt) {a b : ℝ} (ha : 0 < a) (T : ℕ) (X : List (Point d))
    (Y : List Flt) (hY : ∃ x ∈ Y, ∃ y ∈ Y, x ≠ y) (u : World d (ModelState × ℕ)) :
    optimizeWithAllInitialInformation
        (runEnv w o clock fun k x => (target k x).map (inUnit a b)) T X (Y.map (inUnit a b)) u =
      ((optimizeWithAllInitialInformation (runEnv w o clock target) T X Y u).1,
        (optimizeWithAllInitialInformation (runEnv w o clock target) T X Y u).2.map fun s =>
          { s with Y := s.Y.map (inUnit a b) }) := by
  refine follows_bind (f := id) (g := inUnits a b) ?_ (fun _ _ => ?_) u
  · rw [List.length_map]
    exact follows_self _
  refine follows_bind (f := id) (follows_self _) fun _ _ => ?_
  refine follows_bind (f := inUnits a b) (loop_unit (env := runEnv w o clock target)
    (fun s t X Y hY => step_unit hw hN o clock ha s t X Y hY) T ⟨X, Y, [], [], []⟩ hY) fun s _ => ?_
  refine follows_bind (f := id) (follows_self _) fun _ _ => ?_
  exact follows_pure _ _

private theorem loop_Y {σ : Type} {env : Env d σ} :
    ∀ (n : ℕ) {st st' : LoopSt d} {u u' : World d σ}, classLoop env n st u = (u', .ok st') →
      st.Y <+: st'.Y
  | 0, st, st', u, u', h => by
    obtain ⟨-, h⟩ := Prod.mk.inj h
    rw [Except.ok.inj h]
  | n + 1, st, st', u, u', h => by
    rw [classLoop, bind_apply] at h
    rcases hc : classIteration env st u with ⟨u1, e | st1⟩
    · rw [hc] at h
      cases (Prod.mk.inj h).2
    · rw [hc] at h
      obtain ⟨y, hy⟩ := iteration_Y hc
      exact (hy ▸ List.prefix_append _ _ : st.Y <+: st1.Y).trans (loop_Y n h)

private theorem initials_length {σ : Type} {env : Env d σ} :
    ∀ {X : List (Point d)} {u u' : World d σ} {Y : List Flt} {ts : List ℝ},
      classInitials env X u = (u', .ok (Y, ts)) → Y.length = X.length
  | [], u, u', Y, ts, h => by
    obtain ⟨-, h⟩ := Prod.mk.inj h
    obtain ⟨rfl, -⟩ := Prod.mk.inj (Except.ok.inj h)
    rfl
  | x :: X, u, u', Y, ts, h => by
    simp only [classInitials, bind_apply, now, callTarget] at h
    rcases hy : env.target u.log.length x with e | y
    · rw [hy] at h
      cases (Prod.mk.inj h).2
    · rw [hy] at h
      simp only at h
      rcases hc : classInitials env X _ with ⟨u1, e | ⟨Y1, ts1⟩⟩
      · rw [hc] at h
        cases (Prod.mk.inj h).2
      · rw [hc] at h
        obtain ⟨-, h⟩ := Prod.mk.inj h
        obtain ⟨rfl, -⟩ := Prod.mk.inj (Except.ok.inj h)
        rw [List.length_cons, List.length_cons, initials_length hc]

/-- C76. So does a run of the object itself, if its initial responses are not all the same. -/
theorem C76_run {env : Installed} {args : Args d} {w : BayesianOptimization d} {st : ModelState}
    (hw : create env args = .ok (w, st)) (hN : Normalizes args) (o : RunOracles d) (clock : ℕ → ℝ)
    (target : ℕ → Point d → Py Flt) {a b : ℝ} (ha : 0 < a) (r : Draws d) (num_init : ℤ)
    {u u' : World d (ModelState × ℕ)} {s : LoopSt d} {X0 : List (Point d)}
    (h : optimize w o clock target r num_init u = (u', .ok s))
    (hX : getInitials args.range_X r args.str_initial_method_bo num_init = .ok X0)
    (hY : ∃ x ∈ s.Y.take X0.length, ∃ y ∈ s.Y.take X0.length, x ≠ y) :
    optimize w o clock (fun k x => (target k x).map (inUnit a b)) r num_init u =
      (u', .ok { s with Y := s.Y.map (inUnit a b) }) := by
  obtain ⟨-, -, -, hi, -, -, h7⟩ := C77_options hw
  have hB : w.model_bo.range_X = args.range_X := by
    rcases h7 with ⟨-, e⟩ | ⟨-, -, e⟩ | ⟨-, e⟩ <;> rw [e] <;> rfl
  have e0 : (runEnv w o clock fun k x => (target k x).map (inUnit a b)) =
    unitEnv a b (runEnv w o clock target) := rfl
  simp only [optimize, classOptimize, optimizeWithInitialInputs, bind_apply, RunM.lift, hB, hi, hX,
    now, pure_apply] at h ⊢
  rcases hn : pyAssert (num_init > 0) with e | _
  · rw [hn] at h
    cases (Prod.mk.inj h).2
  rw [hn] at h
  simp only at h ⊢
  rw [e0, initials_unit (runEnv w o clock target) a b X0]
  rcases hc : classInitials (runEnv w o clock target) X0 { u with tick := u.tick + 1 } with
    ⟨u1, e | ⟨Y0, ts⟩⟩
  · rw [hc] at h
    cases (Prod.mk.inj h).2
  rw [hc] at h
  simp only [Except.map] at h ⊢
  rcases hr : optimizeWithAllInitialInformation (runEnv w o clock target) w.num_iter.toNat X0 Y0 u1
    with ⟨u2, e | s0⟩
  · rw [hr] at h
    cases (Prod.mk.inj h).2
  rw [hr] at h
  obtain ⟨hu, h⟩ := Prod.mk.inj h
  obtain rfl := Except.ok.inj h
  have hp : Y0 <+: s0.Y := by
    simp only [optimizeWithAllInitialInformation, bind_apply, RunM.lift, now, pure_apply] at hr
    rcases ha : pyAssert (X0.length = Y0.length) with e | _
    · rw [ha] at hr
      cases (Prod.mk.inj hr).2
    rw [ha] at hr
    simp only at hr
    rcases hl : classLoop (runEnv w o clock target) w.num_iter.toNat ⟨X0, Y0, [], [], []⟩
      { u1 with tick := u1.tick + 1 } with ⟨u3, e | s3⟩
    · rw [hl] at hr
      cases (Prod.mk.inj hr).2
    rw [hl] at hr
    obtain ⟨-, hr⟩ := Prod.mk.inj hr
    obtain rfl := Except.ok.inj hr
    exact loop_Y _ hl
  have ht : s0.Y.take X0.length = Y0 := by
    rw [← initials_length hc]
    exact (List.prefix_iff_eq_take.1 hp).symm
  simp only [ht] at hY
  rw [← e0, C76_data hw hN o clock target ha _ X0 Y0 hY, hr, ← hu]
  rfl

/-- C76, the boundary: equal responses are not normalised at all, so in another unit the surrogates
are trained on other numbers (zero is the prior mean by default, in every unit). -/
theorem C76_constant {Y : List ℝ} (hY : ∀ x ∈ Y, ∀ y ∈ Y, x = y) {clock : ℕ → ℝ} {sm : String}
    {ns : ℤ} {p : Point d} :
    (∀ {n : ℕ} {bo : BoWGp.BOwGP d} {o : Oracles d} {X : Inputs n d} {mlm : String}
      {s r : BoWGp.GpState × ℕ} {i : DictInfo n d},
      BoWGp.optimize bo o clock X Y sm ns mlm s = (r, .ok (p, i)) → i.Y_normalized = Y) ∧
    (∀ {n : ℕ} {bo : BoWTp.BOwTP d} {o : Oracles d} {X : Inputs n d} {s r : BoWTp.TpState × ℕ}
      {i : DictInfo n d},
      BoWTp.optimize bo o clock X Y sm ns s = (r, .ok (p, i)) → i.Y_normalized = Y) ∧
    ∀ {σ : Type} {bo : BaseBO d} {o : BoWTrees.TreesOracles d} {X : List (Point d)} {s r : σ × ℕ}
      {i : BoWTrees.DictInfoTrees d},
      BoWTrees.optimize bo o clock X Y sm ns s = (r, .ok (p, i)) → i.Y_normalized = Y := by
  have key : ∀ {q : Prop} [Decidable q] {Z : List ℝ},
      (if q then normalizeMinMax Y else .ok Y) = .ok Z → Z = Y := by
    intro q _ Z h
    split_ifs at h
    · rcases Y with _ | ⟨y, t⟩
      · cases h
      · have hM : npMax (y :: t) = .ok y := npMax_ok.2 ⟨by simp, fun x hx => (hY x hx y (by simp)).le⟩
        have hm : npMin (y :: t) = .ok y := npMin_ok.2 ⟨by simp, fun x hx => (hY x hx y (by simp)).ge⟩
        simp only [normalizeMinMax, hM, hm, bind, Except.bind, pure, Except.pure, ne_eq, not_true,
          if_false, if_true] at h
        exact (Except.ok.inj h).symm
    · exact (Except.ok.inj h).symm
  refine ⟨fun h => ?_, fun h => ?_, fun h => ?_⟩
  · obtain ⟨-, -, -, -, -, -, h, -⟩ := gp_optimize_ok h
    exact key h
  · obtain ⟨-, -, -, -, -, h, -⟩ := tp_optimize_ok h
    exact key h
  · obtain ⟨-, -, -, -, h, -⟩ := trees_optimize_ok h
    exact key h

/-- C76 and C77 at work: an object of each kind, a run in which the `k`-th evaluation gives `k`, and
the same run in degrees Fahrenheit. -/
example (c : String × String)
    (hc : c ∈ [("gp", "L-BFGS-B"), ("tp", "DIRECT"), ("rf", "random_search")]) :
    ∃ w u res, create ⟨false, false⟩ (exArgs c.1 c.2) = .ok (w, {}) ∧
      optimize w exOracles (fun k => k) (fun k _ => .ok (.fin k)) exRoutines.draws 2
        ⟨({}, 0), 0, []⟩ = (u, .ok res) ∧ res.Y.length = 5 ∧
      optimize w exOracles (fun k => k) (fun k _ => .ok (.fin (9 / 5 * k + 32))) exRoutines.draws 2
        ⟨({}, 0), 0, []⟩ = (u, .ok { res with Y := res.Y.map (inUnit (9 / 5) 32) }) := by
  obtain ⟨w, hw⟩ : ∃ w, create ⟨false, false⟩ (exArgs c.1 c.2) = .ok (w, {}) := by
    have h := exBox_le
    have h3 : (0 : ℤ) < NUM_SAMPLES_AO := by norm_num [NUM_SAMPLES_AO]
    simp only [List.mem_cons, List.not_mem_nil, or_false] at hc
    rcases hc with rfl | rfl | rfl
    all_goals
      simp only [create, ownChecks, exArgs, getModelBo, BoWGp.init, BoWTp.init, BoWTrees.init,
        initBase, checkOptimizerMethodBo, pyAssert, exBox_le, h3, implies_true, if_true, bind,
        Except.bind, pure, Except.pure]
      exact ⟨_, rfl⟩
  obtain ⟨h1, h2⟩ := exArgs_runs c.1 c.2
  obtain ⟨u, res, h, hl, hl', -, -, ⟨X0, hX0, hX0'⟩, ht⟩ :=
    C72_run hw h1 h2 (exRoutines_acq exBox_le).draws (fun k => k)
      (target := fun k _ => .ok (.fin k)) (fun k _ _ => ⟨k, rfl⟩) (num_init := 2)
      (by norm_num) 0 0 []
  have h5 : res.X.length = 5 := by
    have : (exArgs c.1 c.2).num_iter = 3 := rfl
    rw [this] at hl
    exact_mod_cast hl
  have hlen : X0.length = 2 := by
    rw [hX0', List.length_take, h5]
    rfl
  have hy : ∀ i : ℕ, i < 5 → res.Y[i]? = some (.fin i) := by
    intro i hi
    have h6 : res.X[i]? = some (res.X[i]'(by omega)) := List.getElem?_eq_getElem _
    have h7 : res.Y[i]? = some (res.Y[i]'(by omega)) := List.getElem?_eq_getElem _
    have := ht i _ _ h6 h7
    simp only [List.length_nil, zero_add, Except.ok.injEq] at this
    rw [h7, ← this]
  have hm : ∀ i : ℕ, i < 2 → Flt.fin i ∈ res.Y.take X0.length := by
    intro i hi
    rw [hlen]
    have := hy i (by omega)
    exact List.mem_of_getElem? (i := i) (by rw [List.getElem?_take, if_pos hi, this])
  refine ⟨w, u, res, hw, h, hl'.trans h5, ?_⟩
  exact C76_run hw ⟨rfl, fun _ => by show STR_MLM_METHOD ≠ _; decide⟩ exOracles _ _
    (a := 9 / 5) (b := 32) (by norm_num) _ 2 h hX0 ⟨.fin (0 : ℕ), hm 0 (by omega), .fin (1 : ℕ),
      hm 1 (by omega), by simp⟩

end Verif.Props
