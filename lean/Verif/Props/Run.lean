import Verif.Lemmas.WrappersBo
import Verif.Lemmas.Flt
import Verif.Props.Selection
import Verif.Spec.Run
import Verif.Spec.Curves

/-! C06-C12: what a run of Bayesian optimisation does, for every surrogate step, every target
(also noisy or failing ones) and every clock. -/

namespace Verif.Props

open Verif.Spec Verif.UtilsBo Verif.WrappersBo

variable {d : ℕ} {σ : Type}

/-! ### C06 -/

/-- C06. A run that returns keeps the given rows, appends one row per iteration, evaluates the
target once per appended row, in order, and records exactly those values. -/
theorem C06_keeps_data (env : Env d σ) (T : ℕ) (X : List (Point d)) (Y : List Flt)
    (w w' : World d σ) (r : LoopSt d)
    (h : optimizeWithAllInitialInformation env T X Y w = (w', .ok r)) :
    X.length = Y.length ∧ ∃ Q R, Q.length = T ∧ R.length = T ∧ r.X = X ++ Q ∧ r.Y = Y ++ R ∧
      w'.log = w.log ++ Q ∧
      ∀ (i : ℕ) q y, Q[i]? = some q → R[i]? = some y → env.target (w.log.length + i) q = .ok y := by
  obtain ⟨hl, w1, h1, rfl⟩ := run_ok env T X Y w w' r h
  obtain ⟨Q, R, tr⟩ := classLoop_trace env T _ _ _ _ h1
  refine ⟨hl, Q, R, tr.lenQ, tr.lenR, tr.X, tr.Y, tr.log, ?_⟩
  intro i q y hq hy
  obtain ⟨_, _, _, _, _, y', _, hy', _, _, ht⟩ := tr.iter i q hq
  rw [hy] at hy'
  obtain rfl := Option.some.inj hy'
  exact ht

/-- C06. For a deterministic target the recorded responses are the target values of the
recorded points. -/
theorem C06_deterministic (env : Env d σ) (f : Point d → Flt) (hf : ∀ k x, env.target k x = .ok (f x))
    (T : ℕ) (X : List (Point d)) (w w' : World d σ) (r : LoopSt d)
    (h : optimizeWithAllInitialInformation env T X (X.map f) w = (w', .ok r)) :
    r.X.length = X.length + T ∧ X <+: r.X ∧ r.Y = r.X.map f := by
  obtain ⟨_, Q, R, hQ, hR, hX, hY, _, ht⟩ := C06_keeps_data env T X _ w w' r h
  refine ⟨by simp [hX, hQ], by simp [hX], ?_⟩
  have : R = Q.map f := by
    apply List.ext_getElem?
    intro i
    rw [List.getElem?_map]
    by_cases hi : i < T
    · have e1 : Q[i]? = some Q[i] := List.getElem?_eq_getElem (by omega)
      have e2 : R[i]? = some R[i] := List.getElem?_eq_getElem (by omega)
      have := ht i _ _ e1 e2
      rw [hf, Except.ok.injEq] at this
      rw [e1, e2, Option.map_some, this]
    · rw [List.getElem?_eq_none (by omega), List.getElem?_eq_none (by omega)]; rfl
  rw [hX, hY, this, List.map_append]

/-- C06. Each appended point is decided from a surrogate step on all data gathered before it:
it is the proposed point, or, if that lies within 1e-8 of a row already present, the one
`get_next_best_acquisition` picks among the candidates of the step. -/
theorem C06_each_query (env : Env d σ) (T : ℕ) (X : List (Point d)) (Y : List Flt)
    (w w' : World d σ) (r : LoopSt d)
    (h : optimizeWithAllInitialInformation env T X Y w = (w', .ok r))
    (i : ℕ) (q : Point d) (hi : r.X[X.length + i]? = some q) :
    ∃ s t r' p info, env.step s t (r.X.take (X.length + i)) (r.Y.take (X.length + i)) =
        (r', .ok (p, info)) ∧
      ((FarFrom 1e-8 (r.X.take (X.length + i)) p ∧ q = p) ∨
       (¬ FarFrom 1e-8 (r.X.take (X.length + i)) p ∧
        getNextBestAcquisition info.next_points info.acquisitions
          (r.X.take (X.length + i)) = .ok (some q))) := by
  obtain ⟨hl, w1, h1, rfl⟩ := run_ok env T X Y w w' r h
  obtain ⟨Q, R, tr⟩ := classLoop_trace env T _ _ _ _ h1
  have hX : r.X = X ++ Q := tr.X
  have hY : r.Y = Y ++ R := tr.Y
  rw [hX, List.getElem?_append_right (by omega), Nat.add_sub_cancel_left] at hi
  obtain ⟨wi, s', t', p, info, y, _, _, hs, hc, _⟩ := tr.iter i q hi
  have e1 : r.X.take (X.length + i) = X ++ Q.take i := by rw [hX, List.take_length_add_append]
  have e2 : r.Y.take (X.length + i) = Y ++ R.take i := by
    rw [hY, hl, List.take_length_add_append]
  refine ⟨wi.model, wi.tick + 1, (s', t'), p, info, by rw [e1, e2]; exact hs, ?_⟩
  rw [e1]
  unfold getNextBestSample at hc
  cases hr : isRepeated p (X ++ Q.take i) with
  | false =>
    left
    rw [hr] at hc
    simp only [Bool.false_eq_true, if_false, Except.ok.injEq, Option.some.injEq] at hc
    exact ⟨(not_isRepeated_iff _ _).1 hr, hc.symm⟩
  | true =>
    right
    rw [hr] at hc
    refine ⟨fun hf => ?_, by simpa using hc⟩
    rw [(not_isRepeated_iff _ _).2 hf] at hr
    cases hr

/-! ### C07 -/

/-- C07. If the surrogate only proposes points of the search space and the initial rows lie in
it, every row of the result, and every point the target was called on, lies in it.
(`StepInBox` is proved for the three surrogates of the package in `Props/Steps.lean`.) -/
theorem C07_in_bounds (env : Env d σ) (B : Bounds d) (hB : StepInBox B env) (T : ℕ)
    (X : List (Point d)) (Y : List Flt) (w w' : World d σ) (r : LoopSt d)
    (hX : ∀ x ∈ X, InBox B x)
    (h : optimizeWithAllInitialInformation env T X Y w = (w', .ok r)) :
    (∀ x ∈ r.X, InBox B x) ∧ ∃ Q, w'.log = w.log ++ Q ∧ ∀ x ∈ Q, InBox B x := by
  obtain ⟨_, Q, R, hQ, _, hXr, _, hlog, _⟩ := C06_keeps_data env T X Y w w' r h
  have key : ∀ (i : ℕ) x, r.X[i]? = some x → InBox B x := by
    intro i
    induction i using Nat.strong_induction_on with
    | _ i ih =>
      intro x hx
      by_cases hi : i < X.length
      · rw [hXr, List.getElem?_append_left hi] at hx
        exact hX x (List.mem_iff_getElem?.2 ⟨i, hx⟩)
      · obtain ⟨k, rfl⟩ := Nat.exists_eq_add_of_le (Nat.le_of_not_lt hi)
        obtain ⟨s, t, r', p, info, hs, hq⟩ := C06_each_query env T X Y w w' r h k x hx
        obtain ⟨hp, hps⟩ := hB _ _ _ _ _ _ _ hs
        rcases hq with ⟨_, rfl⟩ | ⟨_, hq⟩
        · exact hp
        · rcases C05_result_origin _ _ _ _ hq with ⟨hm, _⟩ | ⟨_, hlast⟩
          · exact hps _ hm
          · have hm := List.mem_of_getLast? hlast
            obtain ⟨j, hj⟩ := List.mem_iff_getElem?.1 hm
            rw [List.getElem?_take] at hj
            split at hj
            · exact ih j (by omega) x hj
            · cases hj
  have hall : ∀ x ∈ r.X, InBox B x := by
    intro x hx
    obtain ⟨i, hi⟩ := List.mem_iff_getElem?.1 hx
    exact key i x hi
  exact ⟨hall, Q, hlog, fun x hx => hall x (by rw [hXr]; simp [hx])⟩

/-! ### C08 -/

/-- C08. An appended row keeps a distance of at least 1e-8 from every earlier row; otherwise
every candidate of that iteration was closer than 1e-8 to an earlier row, and the appended
row repeats the last one. -/
theorem C08_no_repeats (env : Env d σ) (T : ℕ) (X : List (Point d)) (Y : List Flt)
    (w w' : World d σ) (r : LoopSt d)
    (h : optimizeWithAllInitialInformation env T X Y w = (w', .ok r))
    (i : ℕ) (q : Point d) (hi : r.X[X.length + i]? = some q) :
    (∀ (j : ℕ) x, j < X.length + i → r.X[j]? = some x →
      1e-8 ≤ Real.sqrt (∑ k, (q k - x k) ^ 2)) ∨
    (∃ s t r' p info, env.step s t (r.X.take (X.length + i)) (r.Y.take (X.length + i)) =
        (r', .ok (p, info)) ∧
      (∀ c ∈ p :: info.next_points, ∃ (j : ℕ) (x : Point d), j < X.length + i ∧
        r.X[j]? = some x ∧ Real.sqrt (∑ k, (c k - x k) ^ 2) < 1e-8) ∧
      0 < X.length + i ∧ r.X[X.length + i - 1]? = some q) := by
  obtain ⟨s, t, r', p, info, hs, hq⟩ := C06_each_query env T X Y w w' r h i q hi
  have far : ∀ c, FarFrom 1e-8 (r.X.take (X.length + i)) c →
      ∀ (j : ℕ) x, j < X.length + i → r.X[j]? = some x →
        1e-8 ≤ Real.sqrt (∑ k, (c k - x k) ^ 2) := by
    intro c hc j x hj hx
    apply hc x
    apply List.mem_iff_getElem?.2 ⟨j, ?_⟩
    rw [List.getElem?_take, if_pos hj, hx]
  have near : ∀ c, ¬ FarFrom 1e-8 (r.X.take (X.length + i)) c →
      ∃ (j : ℕ) (x : Point d), j < X.length + i ∧ r.X[j]? = some x ∧
        Real.sqrt (∑ k, (c k - x k) ^ 2) < 1e-8 := by
    intro c hc
    simp only [FarFrom, not_forall, not_le] at hc
    obtain ⟨x, hx, hlt⟩ := hc
    obtain ⟨j, hj⟩ := List.mem_iff_getElem?.1 hx
    rw [List.getElem?_take] at hj
    split at hj
    · exact ⟨j, x, by assumption, hj, hlt⟩
    · cases hj
  rcases hq with ⟨hf, rfl⟩ | ⟨hn, hq⟩
  · exact Or.inl (far _ hf)
  · rcases C05_result_origin _ _ _ _ hq with ⟨_, hf⟩ | ⟨hall, hlast⟩
    · exact Or.inl (far _ hf)
    · right
      refine ⟨s, t, r', p, info, hs, ?_, ?_⟩
      · intro c hc
        rcases List.mem_cons.1 hc with rfl | hc
        · exact near _ hn
        · exact near _ (hall c hc)
      · have hlen : X.length + i < r.X.length := by
          rw [List.getElem?_eq_some_iff] at hi
          exact hi.1
        rw [List.getLast?_eq_getElem?, List.length_take, Nat.min_eq_left hlen.le,
          List.getElem?_take] at hlast
        split at hlast
        · exact ⟨by omega, hlast⟩
        · cases hlast

/-! ### C09 -/

/-- C09. A longer run from the same start repeats the shorter one: same rows, same responses,
same evaluations, and only then continues. If the shorter run raises, so does the longer. -/
theorem C09_prefix (env : Env d σ) (T S : ℕ) (X : List (Point d)) (Y : List Flt)
    (w w2 : World d σ) (r2 : LoopSt d)
    (h : optimizeWithAllInitialInformation env (T + S) X Y w = (w2, .ok r2)) :
    ∃ w1 r1, optimizeWithAllInitialInformation env T X Y w = (w1, .ok r1) ∧
      r1.X <+: r2.X ∧ r1.Y <+: r2.Y ∧ w1.log <+: w2.log ∧
      r1.X.length = X.length + T ∧ r2.X.length = X.length + T + S := by
  obtain ⟨hl, w3, h3, rfl⟩ := run_ok env (T + S) X Y w w2 r2 h
  rw [classLoop_add] at h3
  rcases h1 : classLoop env T { X := X, Y := Y } { w with tick := w.tick + 1 } with ⟨w1, e | r1⟩
  · rw [h1] at h3; simp at h3
  · rw [h1] at h3
    simp only at h3
    obtain ⟨Q, R, tr⟩ := classLoop_trace env S _ _ _ _ h3
    obtain ⟨Q', R', tr'⟩ := classLoop_trace env T _ _ _ _ h1
    refine ⟨{ w1 with tick := w1.tick + 1 }, r1, ?_, ?_, ?_, ?_, ?_, ?_⟩
    · simp [optimizeWithAllInitialInformation, bind_apply, RunM.lift, pyAssert, hl, now,
        pure_apply, h1]
    · rw [tr.X]; simp
    · rw [tr.Y]; simp
    · rw [tr.log]; simp
    · rw [tr'.X]; simp [tr'.lenQ]
    · rw [tr.X, tr'.X]; simp [tr'.lenQ, tr.lenQ, Nat.add_assoc]

/-- C09. The best response recorded does not get worse with a larger budget. -/
theorem C09_best_monotone (env : Env d σ) (T S : ℕ) (X : List (Point d)) (Y : List Flt)
    (w w1 w2 : World d σ) (r1 r2 : LoopSt d) (m1 m2 : Flt)
    (h1 : optimizeWithAllInitialInformation env T X Y w = (w1, .ok r1))
    (h2 : optimizeWithAllInitialInformation env (T + S) X Y w = (w2, .ok r2))
    (b1 : BestSoFar r1.Y m1) (b2 : BestSoFar r2.Y m2) : m2 ≤ m1 := by
  obtain ⟨w1', r1', h1', _, hY, _⟩ := C09_prefix env T S X Y w w2 r2 h2
  rw [h1] at h1'
  simp only [Prod.mk.injEq, Except.ok.injEq] at h1'
  obtain ⟨_, rfl⟩ := h1'
  rcases b1.2.2 with hm | rfl
  · rcases b2.2.1 m1 (hY.subset hm) with hn | hle
    · exact absurd hn b1.1
    · exact hle
  · have := b2.1
    cases m2 <;> first | trivial | exact absurd rfl this

private def Sim (a b : World d σ × Py (LoopSt d)) : Prop :=
  a.1.model = b.1.model ∧ a.1.log = b.1.log ∧
    match a.2, b.2 with
    | .ok x, .ok y => x.X = y.X ∧ x.Y = y.Y
    | .error e, .error e' => e = e'
    | _, _ => False

private theorem iter_sim (env : Env d σ) (hc : ClockFree env) (w w' : World d σ)
    (st st' : LoopSt d) (hm : w.model = w'.model) (hlog : w.log = w'.log)
    (hX : st.X = st'.X) (hY : st.Y = st'.Y) :
    Sim (classIteration env st w) (classIteration env st' w') := by
  have hs := hc w.model (w.tick + 1) (w'.tick + 1) st.X st.Y
  rw [hm, hX, hY] at hs
  rcases h1 : env.step w'.model (w.tick + 1) st'.X st'.Y with ⟨⟨s1, t1⟩, e1 | ⟨p1, i1⟩⟩ <;>
  rcases h2 : env.step w'.model (w'.tick + 1) st'.X st'.Y with ⟨⟨s2, t2⟩, e2 | ⟨p2, i2⟩⟩ <;>
  rw [h1, h2] at hs <;> simp only [untimed, reduceCtorEq, and_false, Except.error.injEq,
    Except.ok.injEq, Prod.mk.injEq] at hs
  · obtain ⟨rfl, rfl⟩ := hs
    simp [Sim, classIteration, bind_apply, now, callStep, hm, hX, hY, h1, h2, hlog]
  · obtain ⟨rfl, rfl, hp, ha⟩ := hs
    rcases hg : getNextBestSample p1 st'.X i2.next_points i2.acquisitions with e | _ | q
    · simp [Sim, classIteration, bind_apply, now, callStep, hm, hX, hY, h1, h2, hlog, hp, ha,
        RunM.lift, hg]
    · by_cases hd : d = 1 <;>
        simp [Sim, classIteration, bind_apply, now, callStep, hm, hX, hY, h1, h2, hlog, hp, ha,
          RunM.lift, hg, vstackRow, hd]
    · rcases ht : env.target w'.log.length q with e | y <;>
        simp [Sim, classIteration, bind_apply, now, callStep, hm, hX, hY, h1, h2, hlog, hp, ha,
          RunM.lift, hg, vstackRow, callTarget, ht, pure_apply]

private theorem loop_sim (env : Env d σ) (hc : ClockFree env) (n : ℕ) (w w' : World d σ)
    (st st' : LoopSt d) (hm : w.model = w'.model) (hlog : w.log = w'.log)
    (hX : st.X = st'.X) (hY : st.Y = st'.Y) :
    Sim (classLoop env n st w) (classLoop env n st' w') := by
  induction n generalizing w w' st st' with
  | zero => simp [Sim, classLoop, pure_apply, hm, hlog, hX, hY]
  | succ n ih =>
    have := iter_sim env hc w w' st st' hm hlog hX hY
    rw [classLoop, classLoop, bind_apply, bind_apply]
    rcases h1 : classIteration env st w with ⟨w1, e1 | r1⟩ <;>
    rcases h2 : classIteration env st' w' with ⟨w2, e2 | r2⟩ <;>
    rw [h1, h2] at this <;> simp only [Sim, and_false] at this
    · obtain ⟨a, b, rfl⟩ := this
      exact ⟨a, b, rfl⟩
    · exact ih _ _ _ _ this.1 this.2.1 this.2.2.1 this.2.2.2

/-- C09. Stopping after `T` iterations and calling the run again, with the data obtained and
the same model object, for `S` more iterations gives the rows, responses, model state and
evaluations of one run of `T + S` iterations. (The two runs read the clock at other moments,
so the model step must not decide by the clock.) -/
theorem C09_resume (env : Env d σ) (hc : ClockFree env) (T S : ℕ) (X : List (Point d))
    (Y : List Flt) (w w1 w2 : World d σ) (r1 r2 : LoopSt d)
    (h1 : optimizeWithAllInitialInformation env T X Y w = (w1, .ok r1))
    (h2 : optimizeWithAllInitialInformation env S r1.X r1.Y w1 = (w2, .ok r2)) :
    ∃ w3 r3, optimizeWithAllInitialInformation env (T + S) X Y w = (w3, .ok r3) ∧
      r3.X = r2.X ∧ r3.Y = r2.Y ∧ w3.model = w2.model ∧ w3.log = w2.log := by
  obtain ⟨hl, u1, g1, rfl⟩ := run_ok env T X Y w w1 r1 h1
  obtain ⟨_, u2, g2, rfl⟩ := run_ok env S r1.X r1.Y _ w2 r2 h2
  have hsim := loop_sim env hc S u1 { u1 with tick := u1.tick + 1 + 1 } r1
    { X := r1.X, Y := r1.Y } rfl rfl rfl rfl
  have hg2 : classLoop env S { X := r1.X, Y := r1.Y } { u1 with tick := u1.tick + 1 + 1 } =
      (u2, .ok r2) := g2
  rw [hg2] at hsim
  rcases h3 : classLoop env S r1 u1 with ⟨u3, e3 | r3⟩
  · rw [h3] at hsim; simp [Sim] at hsim
  · rw [h3] at hsim
    obtain ⟨hm, hlog, hX, hY⟩ := hsim
    refine ⟨{ u3 with tick := u3.tick + 1 }, r3, ?_, hX, hY, hm, hlog⟩
    have : classLoop env (T + S) { X := X, Y := Y } { w with tick := w.tick + 1 } =
        (u3, .ok r3) := by
      rw [classLoop_add, g1]
      exact h3
    simp [optimizeWithAllInitialInformation, bind_apply, RunM.lift, pyAssert, hl, now,
      pure_apply, this]

/-! ### C10 -/

/-- C10. When a run raises `e`, there is a first failing iteration `k` (counted from 0): the
`k` iterations before it completed, and either the surrogate step or the choice of the next
point raised `e` (`None` as next point counts: `np.vstack` refuses it) and the target was
called on the `k` completed rows only, or the target itself raised `e` on the point just
chosen. -/
theorem C10_failing_iteration (env : Env d σ) (T : ℕ) (X : List (Point d)) (Y : List Flt)
    (hl : X.length = Y.length) (w w' : World d σ) (e : PyErr)
    (h : optimizeWithAllInitialInformation env T X Y w = (w', .error e)) :
    ∃ k < T, ∃ w1 r1 Q R, optimizeWithAllInitialInformation env k X Y w = (w1, .ok r1) ∧
      r1.X = X ++ Q ∧ r1.Y = Y ++ R ∧ Q.length = k ∧ w1.log = w.log ++ Q ∧
      ∃ s t r', (env.step s t r1.X r1.Y = (r', .error e) ∧ w'.log = w.log ++ Q) ∨
        ∃ p info, env.step s t r1.X r1.Y = (r', .ok (p, info)) ∧
          ((w'.log = w.log ++ Q ∧ ¬ FarFrom 1e-8 r1.X p ∧
            (getNextBestAcquisition info.next_points info.acquisitions r1.X = .error e ∨
              (getNextBestAcquisition info.next_points info.acquisitions r1.X = .ok none ∧
                e = if d = 1 then .outOfModel else .value))) ∨
           (∃ q, w'.log = w.log ++ Q ++ [q] ∧ env.target (w.log.length + k) q = .error e)) := by
  rcases run_err env T X Y w w' e h with ⟨hne, _⟩ | ⟨_, h1⟩
  · exact absurd hl hne
  · obtain ⟨k, hk, u1, st1, h2, h3⟩ := classLoop_err env T _ _ _ _ h1
    obtain ⟨Q, R, tr⟩ := classLoop_trace env k _ _ _ _ h2
    have hrep : ∀ (p : Point d) (info : Info d) e', getNextBestSample p st1.X info.next_points info.acquisitions = e' →
        (e' = .error e ∨ e' = .ok none) → ¬ FarFrom 1e-8 st1.X p ∧
        getNextBestAcquisition info.next_points info.acquisitions st1.X = e' := by
      intro p info e' he he'
      unfold getNextBestSample at he
      cases hr : isRepeated p st1.X with
      | false => rw [hr] at he; rcases he' with rfl | rfl <;> simp at he
      | true =>
        rw [hr] at he
        refine ⟨fun hf => ?_, by simpa using he⟩
        rw [(not_isRepeated_iff _ _).2 hf] at hr
        cases hr
    refine ⟨k, hk, { u1 with tick := u1.tick + 1 }, st1, Q, R, ?_, tr.X, tr.Y, tr.lenQ, tr.log,
      u1.model, u1.tick + 1, ?_⟩
    · simp [optimizeWithAllInitialInformation, bind_apply, RunM.lift, pyAssert, hl, now,
        pure_apply, h2]
    · have hlog : u1.log = w.log ++ Q := tr.log
      rcases h3 with ⟨s', t', hs, rfl⟩ | ⟨s', t', p, info, hs, hc, rfl⟩ |
        ⟨s', t', p, info, hs, hc, he, rfl⟩ | ⟨s', t', p, info, q, hs, hc, ht, rfl⟩
      · exact ⟨(s', t'), Or.inl ⟨hs, hlog⟩⟩
      · obtain ⟨a, b⟩ := hrep p info _ hc (Or.inl rfl)
        exact ⟨(s', t'), Or.inr ⟨p, info, hs, Or.inl ⟨hlog, a, Or.inl b⟩⟩⟩
      · obtain ⟨a, b⟩ := hrep p info _ hc (Or.inr rfl)
        exact ⟨(s', t'), Or.inr ⟨p, info, hs, Or.inl ⟨hlog, a, Or.inr ⟨b, he⟩⟩⟩⟩
      · refine ⟨(s', t'), Or.inr ⟨p, info, hs, Or.inr ⟨q, by simp [hlog], ?_⟩⟩⟩
        rw [hlog, List.length_append, tr.lenQ] at ht
        exact ht

/-! ### C11 -/

private theorem initials_ok (env : Env d σ) (X : List (Point d)) (w w' : World d σ)
    (Y : List Flt) (ts : List ℝ) (h : classInitials env X w = (w', .ok (Y, ts))) :
    Y.length = X.length ∧ ts.length = X.length ∧ w'.log = w.log ++ X ∧ w'.model = w.model ∧
      w'.tick = w.tick + 2 * X.length ∧
      (∀ (i : ℕ) x y, X[i]? = some x → Y[i]? = some y →
        env.target (w.log.length + i) x = .ok y) ∧
      (∀ (i : ℕ) t, ts[i]? = some t →
        t = env.clock (w.tick + 2 * i + 1) - env.clock (w.tick + 2 * i)) := by
  induction X generalizing w Y ts with
  | nil =>
    simp only [classInitials, pure_apply, Prod.mk.injEq, Except.ok.injEq] at h
    obtain ⟨rfl, rfl, rfl⟩ := h
    simp
  | cons x X ih =>
    rcases ht : env.target w.log.length x with e | y
    · simp [classInitials, bind_apply, now, callTarget, ht] at h
    · simp only [classInitials, bind_apply, now, callTarget, ht] at h
      rcases hr : classInitials env X
        { model := w.model, tick := w.tick + 1 + 1, log := w.log ++ [x] } with
        ⟨w1, e | ⟨Y1, ts1⟩⟩
      · rw [hr] at h; simp at h
      · rw [hr] at h
        simp only [pure_apply, Prod.mk.injEq, Except.ok.injEq] at h
        obtain ⟨rfl, rfl, rfl⟩ := h
        obtain ⟨a, b, c, c', c'', e, f⟩ := ih _ _ _ hr
        refine ⟨by simp [a], by simp [b], by simp [c], c', by simp [c'']; omega, ?_, ?_⟩
        · intro i x' y' hx hy
          cases i with
          | zero =>
            simp only [List.getElem?_cons_zero, Option.some.injEq] at hx hy
            subst hx hy; simpa using ht
          | succ i =>
            simp only [List.getElem?_cons_succ] at hx hy
            have := e i x' y' hx hy
            simp only [List.length_append, List.length_singleton] at this
            rwa [Nat.add_assoc, Nat.add_comm 1 i] at this
        · intro i t hi
          cases i with
          | zero =>
            simp only [List.getElem?_cons_zero, Option.some.injEq] at hi
            rw [← hi]; simp
          | succ i =>
            simp only [List.getElem?_cons_succ] at hi
            rw [f i t hi]
            congr 2 <;> ring

private theorem loop_times_len (env : Env d σ) (n : ℕ) (st : LoopSt d) (w w' : World d σ)
    (st' : LoopSt d) (h : classLoop env n st w = (w', .ok st')) :
    st'.time_all.length = st.time_all.length + n ∧
    st'.time_surrogate.length = st.time_surrogate.length + n ∧
    st'.time_acq.length = st.time_acq.length + n := by
  induction n generalizing w' st' with
  | zero =>
    simp only [classLoop, pure_apply, Prod.mk.injEq, Except.ok.injEq] at h
    obtain ⟨_, rfl⟩ := h
    simp
  | succ n ih =>
    rw [classLoop_succ_last] at h
    rcases hn : classLoop env n st w with ⟨w1, e | st1⟩
    · rw [hn] at h; simp at h
    · rw [hn] at h
      simp only at h
      obtain ⟨a, b, c⟩ := ih w1 st1 hn
      rcases classIteration_cases env w1 st1 with ⟨w2, st2, s', t', p, q, info, y, h2, h3⟩ |
        ⟨w2, e, h2, _⟩
      · rw [h2] at h
        simp only [Prod.mk.injEq, Except.ok.injEq] at h
        obtain ⟨rfl, rfl⟩ := h
        rw [h3.state]
        simp [a, b, c]; omega
      · rw [h2] at h; simp at h

/-- C11. `optimize_with_all_initial_information`: every time vector has one entry per
iteration. -/
theorem C11_lengths (env : Env d σ) (T : ℕ) (X : List (Point d)) (Y : List Flt)
    (w w' : World d σ) (r : LoopSt d)
    (h : optimizeWithAllInitialInformation env T X Y w = (w', .ok r)) :
    r.time_all.length = T ∧ r.time_surrogate.length = T ∧ r.time_acq.length = T := by
  obtain ⟨_, w1, h1, rfl⟩ := run_ok env T X Y w w' r h
  simpa using loop_times_len env T _ _ _ _ h1

private theorem initial_inputs_ok (env : Env d σ) (T : ℕ) (X : List (Point d))
    (w w' : World d σ) (r : LoopSt d)
    (h : optimizeWithInitialInputs env T X w = (w', .ok r)) :
    ∃ w1 Y ts r1, classInitials env X w = (w1, .ok (Y, ts)) ∧
      optimizeWithAllInitialInformation env T X Y w1 = (w', .ok r1) ∧
      r = { r1 with time_all := ts ++ r1.time_all } := by
  rcases hi : classInitials env X w with ⟨w1, e | ⟨Y, ts⟩⟩
  · simp [optimizeWithInitialInputs, bind_apply, hi] at h
  · simp only [optimizeWithInitialInputs, bind_apply, hi] at h
    rcases hr : optimizeWithAllInitialInformation env T X Y w1 with ⟨w2, e | r1⟩
    · rw [hr] at h; simp at h
    · rw [hr] at h
      simp only [pure_apply, Prod.mk.injEq, Except.ok.injEq] at h
      obtain ⟨rfl, rfl⟩ := h
      exact ⟨w1, Y, ts, r1, rfl, hr, rfl⟩

/-- C11. `optimize_with_initial_inputs`: the target is called on the given rows in order and
then on the `T` appended rows, the responses are its values, `time_all` has an entry per row,
the other two an entry per iteration. -/
theorem C11_initial_inputs (env : Env d σ) (T : ℕ) (X : List (Point d)) (w w' : World d σ)
    (r : LoopSt d) (h : optimizeWithInitialInputs env T X w = (w', .ok r)) :
    ∃ Q, r.X = X ++ Q ∧ Q.length = T ∧ w'.log = w.log ++ r.X ∧
      r.Y.length = X.length + T ∧ r.time_all.length = X.length + T ∧
      r.time_surrogate.length = T ∧ r.time_acq.length = T ∧
      ∀ (i : ℕ) x y, r.X[i]? = some x → r.Y[i]? = some y →
        env.target (w.log.length + i) x = .ok y := by
  obtain ⟨w1, Y, ts, r1, hi, hr, rfl⟩ := initial_inputs_ok env T X w w' r h
  obtain ⟨a, b, c, _, _, e, _⟩ := initials_ok env X w w1 Y ts hi
  obtain ⟨hl, Q, R, hQ, hR, hX, hY, hlog, ht⟩ := C06_keeps_data env T X Y w1 w' r1 hr
  obtain ⟨l1, l2, l3⟩ := C11_lengths env T X Y w1 w' r1 hr
  refine ⟨Q, hX, hQ, by simp [hlog, c, hX], by simp [hY, a, hR], by simp [b, l1], l2, l3, ?_⟩
  intro i x y hx hy
  simp only at hx hy
  rw [hX] at hx
  rw [hY] at hy
  by_cases hi' : i < X.length
  · rw [List.getElem?_append_left hi'] at hx
    rw [List.getElem?_append_left (by omega)] at hy
    exact e i x y hx hy
  · obtain ⟨k, rfl⟩ := Nat.exists_eq_add_of_le (Nat.le_of_not_lt hi')
    rw [List.getElem?_append_right (by omega), Nat.add_sub_cancel_left] at hx
    rw [List.getElem?_append_right (by omega), a, Nat.add_sub_cancel_left] at hy
    have := ht k x y hx hy
    rwa [c, List.length_append, Nat.add_assoc] at this

private theorem loop_times (env : Env d σ) (hT : TimedByClock env) (hm : Monotone env.clock)
    (n : ℕ) (st : LoopSt d) (w w' : World d σ) (st' : LoopSt d)
    (h0 : st.time_all = [] ∧ st.time_surrogate = [] ∧ st.time_acq = [])
    (h : classLoop env n st w = (w', .ok st')) :
    w.tick ≤ w'.tick ∧ st'.time_all.sum ≤ env.clock w'.tick - env.clock w.tick ∧
    ∀ (i : ℕ) a b c, st'.time_all[i]? = some a → st'.time_surrogate[i]? = some b →
      st'.time_acq[i]? = some c → 0 ≤ b ∧ 0 ≤ c ∧ b + c ≤ a := by
  induction n generalizing w' st' with
  | zero =>
    simp only [classLoop, pure_apply, Prod.mk.injEq, Except.ok.injEq] at h
    obtain ⟨rfl, rfl⟩ := h
    simp [h0.1]
  | succ n ih =>
    rw [classLoop_succ_last] at h
    rcases hn : classLoop env n st w with ⟨w1, e | st1⟩
    · rw [hn] at h; simp at h
    · have hlen := loop_times_len env n st w w1 st1 hn
      rw [h0.1, h0.2.1, h0.2.2] at hlen
      simp only [List.length_nil, Nat.zero_add] at hlen
      obtain ⟨l1, l2, l3⟩ := hlen
      rw [hn] at h
      simp only at h
      obtain ⟨i1, i2, i3⟩ := ih w1 st1 hn
      rcases classIteration_cases env w1 st1 with ⟨w2, st2, s', t', p, q, info, y, h2, h3⟩ |
        ⟨w2, e, h2, _⟩
      · rw [h2] at h
        simp only [Prod.mk.injEq, Except.ok.injEq] at h
        obtain ⟨rfl, rfl⟩ := h
        obtain ⟨a, b, c, e, q1, q2, q3, q4, q5, q6, q7⟩ := hT _ _ _ _ _ _ _ _ h3.step
        rw [h3.state, h3.world]
        refine ⟨by simp only; omega, ?_, ?_⟩
        · simp only [List.sum_append, List.sum_singleton]
          have := hm (show t' + 2 ≤ t' + 3 by omega)
          linarith
        · intro i ta tb tc ha hb hc'
          simp only at ha hb hc'
          by_cases hi : i < n
          · rw [List.getElem?_append_left (by omega)] at ha hb hc'
            exact i3 i ta tb tc ha hb hc'
          · rw [List.getElem?_append_right (by omega)] at ha hb hc'
            rw [l1] at ha
            rw [l2] at hb
            rw [l3] at hc'
            rcases hin : i - n with _ | k
            · rw [hin] at ha hb hc'
              simp only [List.getElem?_cons_zero, Option.some.injEq] at ha hb hc'
              rw [← ha, ← hb, ← hc', q6, q7]
              have m1 := hm (show w1.tick ≤ a by omega)
              have m2 := hm q2
              have m3 := hm q3
              have m4 := hm q4
              have m5 := hm (show e ≤ t' + 2 by omega)
              refine ⟨by linarith, by linarith, by linarith⟩
            · rw [hin] at ha
              simp at ha
      · rw [h2] at h; simp at h

/-- C11. With a clock that does not run backwards and a surrogate that measures its times by
that clock, every reported time is non-negative, an iteration takes at least its surrogate
time plus its acquisition time, and the iterations together take no longer than the run. -/
theorem C11_times (env : Env d σ) (hT : TimedByClock env) (hm : Monotone env.clock)
    (T : ℕ) (X : List (Point d)) (Y : List Flt) (w w' : World d σ) (r : LoopSt d)
    (h : optimizeWithAllInitialInformation env T X Y w = (w', .ok r)) :
    (∀ (i : ℕ) a b c, r.time_all[i]? = some a → r.time_surrogate[i]? = some b →
      r.time_acq[i]? = some c → 0 ≤ b ∧ 0 ≤ c ∧ b + c ≤ a) ∧
    r.time_all.sum ≤ env.clock w'.tick - env.clock w.tick := by
  obtain ⟨_, w1, h1, rfl⟩ := run_ok env T X Y w w' r h
  obtain ⟨_, a, b⟩ := loop_times env hT hm T { X := X, Y := Y } _ _ _ ⟨rfl, rfl, rfl⟩ h1
  refine ⟨b, ?_⟩
  have m1 := hm (show w.tick ≤ w.tick + 1 by omega)
  have m2 := hm (show w1.tick ≤ w1.tick + 1 by omega)
  simp only at a ⊢
  linarith

/-- C11. In `optimize_with_initial_inputs` the first entries of `time_all` are the evaluation
times of the initial rows, in order. -/
theorem C11_initial_times (env : Env d σ) (T : ℕ) (X : List (Point d)) (w w' : World d σ)
    (r : LoopSt d) (h : optimizeWithInitialInputs env T X w = (w', .ok r)) (i : ℕ)
    (hi : i < X.length) :
    r.time_all[i]? = some (env.clock (w.tick + 2 * i + 1) - env.clock (w.tick + 2 * i)) := by
  obtain ⟨w1, Y, ts, r1, hin, hr, rfl⟩ := initial_inputs_ok env T X w w' r h
  obtain ⟨_, b, _, _, _, _, f⟩ := initials_ok env X w w1 Y ts hin
  have e : ts[i]? = some ts[i] := List.getElem?_eq_getElem (by omega)
  simp only
  rw [List.getElem?_append_left (by omega), e, f i _ e]

/-! ### C12 -/

private theorem body_eq (env : Env d σ) (acc : RunM d σ (LoopSt d)) :
    functionBody env acc = acc >>= classIteration env := by
  funext w
  rw [bind_apply]
  unfold functionBody
  rcases acc w with ⟨w1, e | st⟩
  · rfl
  · rcases hs : env.step w1.model (w1.tick + 1) st.X st.Y with ⟨⟨s', t'⟩, e | ⟨p, info⟩⟩
    · simp [classIteration, bind_apply, now, callStep, hs]
    · have hg : (if (npWhere (fun x : Point d =>
            norm2 (fun i => p i - x i) < Constants.TOLERANCE_DUPLICATED_ACQ) st.X).length > 0 then
          getNextBestAcquisition info.next_points info.acquisitions st.X
        else .ok (some p)) = getNextBestSample p st.X info.next_points info.acquisitions := by
        simp [getNextBestSample, isRepeated]
      simp only [hs, hg]
      rcases hc : getNextBestSample p st.X info.next_points info.acquisitions with e | _ | q
      · simp [classIteration, bind_apply, now, callStep, hs, RunM.lift, hc]
      · by_cases h1 : d = 1 <;>
          simp [classIteration, bind_apply, now, callStep, hs, RunM.lift, hc, vstackRow, h1]
      · rcases ht : env.target w1.log.length q with e | y <;>
          simp [classIteration, bind_apply, now, callStep, hs, RunM.lift, hc, vstackRow,
            callTarget, ht, pure_apply]

private theorem fold_eq (env : Env d σ) (n : ℕ) (st : LoopSt d) :
    (List.range n).foldl (fun acc _ => functionBody env acc) (pure st) = classLoop env n st := by
  induction n with
  | zero => rfl
  | succ n ih =>
    rw [List.range_succ, List.foldl_append, ih]
    funext w
    simp only [List.foldl_cons, List.foldl_nil]
    rw [body_eq, classLoop_succ_last, bind_apply]
    rcases classLoop env n st w with ⟨w1, e | a⟩ <;> rfl

/-- C12. The function-style API and the class-style API make the same run: same rows,
responses and times, same effects, same errors. -/
theorem C12_same_run (env : Env d σ) (T : ℕ) (X : List (Point d)) (Y : List Flt) :
    runSingleRoundWithAllInitialInformation env X Y T =
      optimizeWithAllInitialInformation env T X Y := by
  simp only [runSingleRoundWithAllInitialInformation, optimizeWithAllInitialInformation,
    Int.toNat_natCast, fold_eq]

private theorem initials_fold (env : Env d σ) (X : List (Point d)) (m : RunM d σ (List Flt × List ℝ))
    (w : World d σ) :
    X.foldl (fun acc elem => do
      let (Y, times) ← acc
      let t0 ← now env
      let y ← callTarget env elem
      let t1 ← now env
      return (Y ++ [y], times ++ [t1 - t0])) m w =
    (do let a ← m
        let b ← classInitials env X
        return (a.1 ++ b.1, a.2 ++ b.2)) w := by
  induction X generalizing m w with
  | nil =>
    simp only [List.foldl_nil, classInitials, bind_apply, pure_apply, List.append_nil]
    rcases m w with ⟨w1, e | a⟩ <;> rfl
  | cons x X ih =>
    rw [List.foldl_cons, ih]
    simp only [classInitials, bind_apply]
    rcases m w with ⟨w1, e | a⟩
    · rfl
    · simp only [now, callTarget]
      rcases env.target w1.log.length x with e | y
      · rfl
      · simp only [pure_apply]
        rcases classInitials env X
          { model := w1.model, tick := w1.tick + 1 + 1, log := w1.log ++ [x] } with ⟨w2, e | b⟩
        · rfl
        · simp

private theorem initials_eq (env : Env d σ) (X : List (Point d)) :
    functionInitials env X = classInitials env X := by
  funext w
  rw [functionInitials, initials_fold]
  simp only [bind_apply, pure_apply, List.nil_append]
  rcases classInitials env X w with ⟨w1, e | ⟨a, b⟩⟩ <;> rfl

/-- C12. The same for runs from initial inputs and for whole rounds (with at least one
initial point; the class API refuses less). -/
theorem C12_same_round (env : Env d σ) (T : ℕ) :
    (∀ X : List (Point d), runSingleRoundWithInitialInputs env X T =
      optimizeWithInitialInputs env T X) ∧
    ∀ (initials : ℤ → Py (List (Point d))) (n : ℤ), 0 < n →
      runSingleRound env initials n T = classOptimize env initials T n := by
  have h1 : ∀ X : List (Point d), runSingleRoundWithInitialInputs env X T =
      optimizeWithInitialInputs env T X := by
    intro X
    simp only [runSingleRoundWithInitialInputs, optimizeWithInitialInputs, initials_eq,
      C12_same_run]
  refine ⟨h1, ?_⟩
  intro initials n hn
  funext w
  simp only [runSingleRound, classOptimize, bind_apply, RunM.lift, pyAssert, hn, gt_iff_lt,
    if_true, h1]

/-! ### Concrete runs meeting the hypotheses -/

/-- A surrogate that proposes the number of rows seen so far, on the line; the target is the
square; the clock ticks in seconds. -/
private noncomputable def exEnv : Env 1 Unit where
  clock k := k
  target _ x := .ok (.fin (x 0 ^ 2))
  step _ t X _ := (((), t + 6), .ok (fun _ => (X.length : ℝ),
    { next_points := [fun _ => (X.length : ℝ)], acquisitions := [.fin 0],
      time_surrogate := ((t + 2 : ℕ) : ℝ) - ((t + 1 : ℕ) : ℝ),
      time_acq := ((t + 4 : ℕ) : ℝ) - ((t + 3 : ℕ) : ℝ) }))

private theorem exEnv_run : ∃ w' r,
    optimizeWithAllInitialInformation exEnv 2 [fun _ => 0] [.fin 0] ⟨(), 0, []⟩ = (w', .ok r) ∧
      r.X = [fun _ => 0, fun _ => 1, fun _ => 2] ∧ r.Y = [.fin 0, .fin 1, .fin 4] := by
  have h1 : isRepeated (fun _ => 1 : Point 1) [fun _ => 0] = false := by
    rw [not_isRepeated_iff]
    intro e he
    simp only [List.mem_singleton] at he
    subst he
    norm_num
  have h2 : isRepeated (fun _ => 2 : Point 1) [fun _ => 0, fun _ => 1] = false := by
    rw [not_isRepeated_iff]
    intro e he
    simp only [List.mem_cons, List.not_mem_nil, or_false] at he
    rcases he with rfl | rfl <;> norm_num
    exact Real.le_sqrt_of_sq_le (by norm_num)
  apply Exists.intro
  apply Exists.intro
  apply And.intro
  · simp [optimizeWithAllInitialInformation, classLoop, classIteration, bind_apply, pure_apply,
      RunM.lift, pyAssert, now, callStep, callTarget, exEnv, getNextBestSample, vstackRow, h1, h2]
    exact ⟨rfl, rfl⟩
  · norm_num

/-- C06, C08, C09, C11: the hypothesis "the run returns" is met by a run of two iterations. -/
example : ∃ w' r, optimizeWithAllInitialInformation exEnv 2 [fun _ => 0] [.fin 0] ⟨(), 0, []⟩ =
    (w', .ok r) := by
  obtain ⟨w', r, h, _⟩ := exEnv_run
  exact ⟨w', r, h⟩

/-- C07: the environment proposes only points of a box, if the box is the half-line from 0 as
far as the run goes; here a constant surrogate in `[0, 1]`. -/
example : StepInBox (fun _ => (0, 1) : Bounds 1)
    ({ exEnv with step := fun _ t _ _ => (((), t), .ok (fun _ => 1 / 2,
        { next_points := [fun _ => 1 / 3], acquisitions := [.fin 0],
          time_surrogate := 0, time_acq := 0 })) } : Env 1 Unit) := by
  intro s t X Y r p info h
  simp only [Prod.mk.injEq, Except.ok.injEq] at h
  obtain ⟨_, rfl, rfl⟩ := h
  constructor
  · intro i; norm_num
  · intro q hq
    simp only [List.mem_singleton] at hq
    subst hq
    intro i; norm_num

/-- C09 (resume): the example surrogate does not decide by the clock. -/
example : ClockFree exEnv := by
  intro s t t' X Y
  exact ⟨rfl, rfl⟩

/-- C11: the example surrogate measures its times by the clock, which is monotone. -/
example : TimedByClock exEnv ∧ Monotone exEnv.clock := by
  constructor
  · intro s t X Y s' t' p info h
    simp only [exEnv, Prod.mk.injEq, Except.ok.injEq] at h
    obtain ⟨⟨_, rfl⟩, rfl, rfl⟩ := h
    exact ⟨t + 1, t + 2, t + 3, t + 4, by omega, by omega, by omega, by omega, by omega, rfl, rfl⟩
  · intro a b hab
    simpa [exEnv] using hab

/-- C10: a target that raises on its second call. -/
example : ∃ w', optimizeWithAllInitialInformation
    ({ exEnv with target := fun k x => if k = 1 then .error .value else .ok (.fin (x 0)) } :
      Env 1 Unit) 2 [fun _ => 0] [.fin 0] ⟨(), 0, []⟩ = (w', .error .value) := by
  have h1 : isRepeated (fun _ => 1 : Point 1) [fun _ => 0] = false := by
    rw [not_isRepeated_iff]
    intro e he
    simp only [List.mem_singleton] at he
    subst he
    norm_num
  have h2 : isRepeated (fun _ => 2 : Point 1) [fun _ => 0, fun _ => 1] = false := by
    rw [not_isRepeated_iff]
    intro e he
    simp only [List.mem_cons, List.not_mem_nil, or_false] at he
    rcases he with rfl | rfl <;> norm_num
    exact Real.le_sqrt_of_sq_le (by norm_num)
  apply Exists.intro
  simp [optimizeWithAllInitialInformation, classLoop, classIteration, bind_apply, pure_apply,
    RunM.lift, pyAssert, now, callStep, callTarget, exEnv, getNextBestSample, vstackRow, h1, h2]
  rfl

end Verif.Props
