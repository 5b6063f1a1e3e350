import Verif.Model.WrappersBo
import Verif.Lemmas.Selection

/-! Helper lemmas about the optimisation loop. -/

namespace Verif.WrappersBo

open Verif.Spec Verif.UtilsBo Verif.Constants

variable {d : ℕ} {σ : Type}

theorem bind_apply {α β : Type} (m : RunM d σ α) (f : α → RunM d σ β) (w : World d σ) :
    (m >>= f) w = match m w with
      | (w', .ok a) => f a w'
      | (w', .error e) => (w', .error e) := rfl

theorem pure_apply {α : Type} (a : α) (w : World d σ) :
    (pure a : RunM d σ α) w = (w, .ok a) := rfl

/-- One completed iteration. -/
structure IterOk (env : Env d σ) (w : World d σ) (st : LoopSt d) (w' : World d σ)
    (st' : LoopSt d) (s' : σ) (t' : ℕ) (p q : Point d) (info : Info d) (y : Flt) : Prop where
  step : env.step w.model (w.tick + 1) st.X st.Y = ((s', t'), .ok (p, info))
  choice : getNextBestSample p st.X info.next_points info.acquisitions = .ok (some q)
  target : env.target w.log.length q = .ok y
  world : w' = { model := s', tick := t' + 3, log := w.log ++ [q] }
  state : st' = {
    X := st.X ++ [q]
    Y := st.Y ++ [y]
    time_all := st.time_all ++ [env.clock (t' + 2) - env.clock w.tick]
    time_surrogate := st.time_surrogate ++ [info.time_surrogate]
    time_acq := st.time_acq ++ [info.time_acq] }

/-- One iteration that raises: in the model step or the choice of the point (no evaluation),
or in the target (one evaluation). -/
def IterErr (env : Env d σ) (w : World d σ) (st : LoopSt d) (w' : World d σ) (e : PyErr) : Prop :=
  (∃ s' t', env.step w.model (w.tick + 1) st.X st.Y = ((s', t'), .error e) ∧
    w' = { model := s', tick := t', log := w.log }) ∨
  (∃ s' t' p info, env.step w.model (w.tick + 1) st.X st.Y = ((s', t'), .ok (p, info)) ∧
    getNextBestSample p st.X info.next_points info.acquisitions = .error e ∧
    w' = { model := s', tick := t', log := w.log }) ∨
  (∃ s' t' p info, env.step w.model (w.tick + 1) st.X st.Y = ((s', t'), .ok (p, info)) ∧
    getNextBestSample p st.X info.next_points info.acquisitions = .ok none ∧
    e = (if d = 1 then .outOfModel else .value) ∧
    w' = { model := s', tick := t', log := w.log }) ∨
  (∃ s' t' p info q, env.step w.model (w.tick + 1) st.X st.Y = ((s', t'), .ok (p, info)) ∧
    getNextBestSample p st.X info.next_points info.acquisitions = .ok (some q) ∧
    env.target w.log.length q = .error e ∧
    w' = { model := s', tick := t' + 1, log := w.log ++ [q] })

theorem classIteration_cases (env : Env d σ) (w : World d σ) (st : LoopSt d) :
    (∃ w' st' s' t' p q info y, classIteration env st w = (w', .ok st') ∧
      IterOk env w st w' st' s' t' p q info y) ∨
    (∃ w' e, classIteration env st w = (w', .error e) ∧ IterErr env w st w' e) := by
  rcases hs : env.step w.model (w.tick + 1) st.X st.Y with ⟨⟨s', t'⟩, e | ⟨p, info⟩⟩
  · right
    refine ⟨_, e, ?_, Or.inl ⟨s', t', hs, rfl⟩⟩
    simp [classIteration, bind_apply, now, callStep, hs]
  · rcases hc : getNextBestSample p st.X info.next_points info.acquisitions with e | _ | q
    · right
      refine ⟨_, e, ?_, Or.inr (Or.inl ⟨s', t', p, info, hs, hc, rfl⟩)⟩
      simp [classIteration, bind_apply, now, callStep, hs, RunM.lift, hc]
    · right
      refine ⟨_, if d = 1 then .outOfModel else .value, ?_,
        Or.inr (Or.inr (Or.inl ⟨s', t', p, info, hs, hc, rfl, rfl⟩))⟩
      by_cases h1 : d = 1 <;>
        simp [classIteration, bind_apply, now, callStep, hs, RunM.lift, hc, vstackRow, h1]
    · rcases ht : env.target w.log.length q with e | y
      · right
        refine ⟨_, e, ?_,
          Or.inr (Or.inr (Or.inr ⟨s', t', p, info, q, hs, hc, ht, rfl⟩))⟩
        simp [classIteration, bind_apply, now, callStep, hs, RunM.lift, hc, vstackRow,
          callTarget, ht]
      · left
        refine ⟨_, _, s', t', p, q, info, y, ?_, hs, hc, ht, rfl, rfl⟩
        simp [classIteration, bind_apply, now, callStep, hs, RunM.lift, hc, vstackRow,
          callTarget, ht, pure_apply]

theorem classLoop_succ_last (env : Env d σ) (n : ℕ) (st : LoopSt d) (w : World d σ) :
    classLoop env (n + 1) st w = match classLoop env n st w with
      | (w', .ok st') => classIteration env st' w'
      | (w', .error e) => (w', .error e) := by
  induction n generalizing st w with
  | zero =>
    simp only [classLoop, bind_apply, pure_apply]
    rcases classIteration env st w with ⟨w', e | st'⟩ <;> rfl
  | succ n ih =>
    rw [classLoop, bind_apply]
    conv_rhs => rw [classLoop, bind_apply]
    rcases classIteration env st w with ⟨w', e | st'⟩
    · rfl
    · exact ih st' w'

theorem classLoop_add (env : Env d σ) (m n : ℕ) (st : LoopSt d) (w : World d σ) :
    classLoop env (m + n) st w = match classLoop env m st w with
      | (w', .ok st') => classLoop env n st' w'
      | (w', .error e) => (w', .error e) := by
  induction m generalizing st w with
  | zero => simp [classLoop, pure_apply]
  | succ m ih =>
    rw [Nat.succ_add, classLoop, bind_apply]
    conv_rhs => rw [classLoop, bind_apply]
    rcases classIteration env st w with ⟨w', e | st'⟩
    · rfl
    · exact ih st' w'

/-- A completed loop as a sequence of completed iterations: `ws` and `sts` are the worlds
and loop variables before each iteration. -/
theorem classLoop_ok (env : Env d σ) (n : ℕ) (st : LoopSt d) (w w' : World d σ) (st' : LoopSt d)
    (h : classLoop env n st w = (w', .ok st')) :
    ∃ (ws : ℕ → World d σ) (sts : ℕ → LoopSt d), ws 0 = w ∧ sts 0 = st ∧ ws n = w' ∧ sts n = st' ∧
      ∀ i < n, ∃ s' t' p q info y, IterOk env (ws i) (sts i) (ws (i + 1)) (sts (i + 1))
        s' t' p q info y := by
  induction n generalizing w' st' with
  | zero =>
    simp only [classLoop, pure_apply, Prod.mk.injEq, Except.ok.injEq] at h
    exact ⟨fun _ => w, fun _ => st, rfl, rfl, h.1, h.2, by simp⟩
  | succ n ih =>
    rw [classLoop_succ_last] at h
    rcases hn : classLoop env n st w with ⟨w1, e | st1⟩
    · rw [hn] at h; simp at h
    · rw [hn] at h
      simp only at h
      obtain ⟨ws, sts, h0, h0', h1, h1', hi⟩ := ih w1 st1 hn
      rcases classIteration_cases env w1 st1 with ⟨w2, st2, s', t', p, q, info, y, h2, h3⟩ |
        ⟨w2, e, h2, _⟩
      · rw [h2] at h
        simp only [Prod.mk.injEq, Except.ok.injEq] at h
        obtain ⟨rfl, rfl⟩ := h
        refine ⟨fun i => if i ≤ n then ws i else w2, fun i => if i ≤ n then sts i else st2,
          by simpa using h0, by simpa using h0', by simp, by simp, ?_⟩
        intro i hi'
        rcases Nat.lt_succ_iff_lt_or_eq.1 hi' with hlt | rfl
        · simpa [hlt.le, Nat.succ_le_of_lt hlt] using hi i hlt
        · refine ⟨s', t', p, q, info, y, ?_⟩
          simpa [h1, h1'] using h3
      · rw [h2] at h; simp at h

/-- A loop that raises has a first failing iteration. -/
theorem classLoop_err (env : Env d σ) (n : ℕ) (st : LoopSt d) (w w' : World d σ) (e : PyErr)
    (h : classLoop env n st w = (w', .error e)) :
    ∃ k < n, ∃ w1 st1, classLoop env k st w = (w1, .ok st1) ∧ IterErr env w1 st1 w' e := by
  induction n generalizing w' e with
  | zero => simp [classLoop, pure_apply] at h
  | succ n ih =>
    rw [classLoop_succ_last] at h
    rcases hn : classLoop env n st w with ⟨w1, e1 | st1⟩
    · rw [hn] at h
      simp only [Prod.mk.injEq, Except.error.injEq] at h
      obtain ⟨rfl, rfl⟩ := h
      obtain ⟨k, hk, w2, st2, h2, h3⟩ := ih w1 e1 hn
      exact ⟨k, by omega, w2, st2, h2, h3⟩
    · rw [hn] at h
      simp only at h
      rcases classIteration_cases env w1 st1 with ⟨w2, st2, s', t', p, q, info, y, h2, h3⟩ |
        ⟨w2, e2, h2, h3⟩
      · rw [h2] at h; simp at h
      · rw [h2] at h
        simp only [Prod.mk.injEq, Except.error.injEq] at h
        obtain ⟨rfl, rfl⟩ := h
        exact ⟨n, by omega, w1, st1, hn, h3⟩

/-- Everything a completed loop determines. -/
structure LoopTrace (env : Env d σ) (n : ℕ) (st : LoopSt d) (w w' : World d σ) (st' : LoopSt d)
    (Q : List (Point d)) (R : List Flt) : Prop where
  lenQ : Q.length = n
  lenR : R.length = n
  X : st'.X = st.X ++ Q
  Y : st'.Y = st.Y ++ R
  log : w'.log = w.log ++ Q
  iter : ∀ (i : ℕ) (q : Point d), Q[i]? = some q → ∃ (wi : World d σ) (s' : σ) (t' : ℕ)
    (p : Point d) (info : Info d) (y : Flt),
    wi.log = w.log ++ Q.take i ∧ R[i]? = some y ∧
    env.step wi.model (wi.tick + 1) (st.X ++ Q.take i) (st.Y ++ R.take i) =
      ((s', t'), .ok (p, info)) ∧
    getNextBestSample p (st.X ++ Q.take i) info.next_points info.acquisitions = .ok (some q) ∧
    env.target (w.log.length + i) q = .ok y

theorem classLoop_trace (env : Env d σ) (n : ℕ) (st : LoopSt d) (w w' : World d σ)
    (st' : LoopSt d) (h : classLoop env n st w = (w', .ok st')) :
    ∃ Q R, LoopTrace env n st w w' st' Q R := by
  induction n generalizing w' st' with
  | zero =>
    simp only [classLoop, pure_apply, Prod.mk.injEq, Except.ok.injEq] at h
    obtain ⟨rfl, rfl⟩ := h
    exact ⟨[], [], rfl, rfl, by simp, by simp, by simp, by simp⟩
  | succ n ih =>
    rw [classLoop_succ_last] at h
    rcases hn : classLoop env n st w with ⟨w1, e | st1⟩
    · rw [hn] at h; simp at h
    · rw [hn] at h
      simp only at h
      obtain ⟨Q, R, tr⟩ := ih w1 st1 hn
      rcases classIteration_cases env w1 st1 with ⟨w2, st2, s', t', p, q, info, y, h2, h3⟩ |
        ⟨w2, e, h2, _⟩
      · rw [h2] at h
        simp only [Prod.mk.injEq, Except.ok.injEq] at h
        obtain ⟨rfl, rfl⟩ := h
        refine ⟨Q ++ [q], R ++ [y], by simp [tr.lenQ], by simp [tr.lenR], ?_, ?_, ?_, ?_⟩
        · rw [h3.state]; simp [tr.X]
        · rw [h3.state]; simp [tr.Y]
        · rw [h3.world]; simp [tr.log]
        · intro i q' hq'
          rcases lt_trichotomy i n with hi | hi | hi
          · rw [List.getElem?_append_left (by rw [tr.lenQ]; exact hi)] at hq'
            obtain ⟨wi, s1, t1, p1, info1, y1, a1, a2, a3, a4, a5⟩ := tr.iter i q' hq'
            have hQ := tr.lenQ
            have hR := tr.lenR
            refine ⟨wi, s1, t1, p1, info1, y1, ?_, ?_, ?_, ?_, a5⟩
            · rw [List.take_append_of_le_length (by omega)]; exact a1
            · rw [List.getElem?_append_left (by omega)]; exact a2
            · rw [List.take_append_of_le_length (by omega),
                List.take_append_of_le_length (by omega)]; exact a3
            · rw [List.take_append_of_le_length (by omega)]; exact a4
          · subst hi
            rw [List.getElem?_append_right (by rw [tr.lenQ]), tr.lenQ] at hq'
            simp only [Nat.sub_self, List.getElem?_cons_zero, Option.some.injEq] at hq'
            subst hq'
            have e1 : (Q ++ [q]).take i = Q := by rw [← tr.lenQ]; simp
            have e2 : (R ++ [y]).take i = R := by rw [← tr.lenR]; simp
            refine ⟨w1, s', t', p, info, y, ?_, ?_, ?_, ?_, ?_⟩
            · rw [e1, tr.log]
            · rw [List.getElem?_append_right (by rw [tr.lenR]), tr.lenR]; simp
            · rw [e1, e2, ← tr.X, ← tr.Y]; exact h3.step
            · rw [e1, ← tr.X]; exact h3.choice
            · have := h3.target
              rwa [tr.log, List.length_append, tr.lenQ] at this
          · rw [List.getElem?_eq_none (by simp [tr.lenQ]; omega)] at hq'
            simp at hq'
      · rw [h2] at h; simp at h

/-- A completed run on given data is a completed loop. -/
theorem run_ok (env : Env d σ) (n : ℕ) (X : List (Point d)) (Y : List Flt) (w w' : World d σ)
    (st' : LoopSt d)
    (h : optimizeWithAllInitialInformation env n X Y w = (w', .ok st')) :
    X.length = Y.length ∧ ∃ w1,
      classLoop env n { X := X, Y := Y } { w with tick := w.tick + 1 } = (w1, .ok st') ∧
      w' = { w1 with tick := w1.tick + 1 } := by
  by_cases hl : X.length = Y.length
  · refine ⟨hl, ?_⟩
    simp only [optimizeWithAllInitialInformation, bind_apply, RunM.lift, pyAssert, hl, if_true,
      now, pure_apply] at h
    rcases hc : classLoop env n { X := X, Y := Y } { w with tick := w.tick + 1 } with ⟨w1, e | st1⟩
    · rw [hc] at h; simp at h
    · rw [hc] at h
      simp only [Prod.mk.injEq, Except.ok.injEq] at h
      exact ⟨w1, by rw [h.2], h.1.symm⟩
  · simp [optimizeWithAllInitialInformation, bind_apply, RunM.lift, pyAssert, hl] at h

/-- A run that raises: unequal lengths, or a loop that raises. -/
theorem run_err (env : Env d σ) (n : ℕ) (X : List (Point d)) (Y : List Flt) (w w' : World d σ)
    (e : PyErr)
    (h : optimizeWithAllInitialInformation env n X Y w = (w', .error e)) :
    (X.length ≠ Y.length ∧ e = .assertion ∧ w' = w) ∨ (X.length = Y.length ∧
      classLoop env n { X := X, Y := Y } { w with tick := w.tick + 1 } = (w', .error e)) := by
  by_cases hl : X.length = Y.length
  · right
    refine ⟨hl, ?_⟩
    simp only [optimizeWithAllInitialInformation, bind_apply, RunM.lift, pyAssert, hl, if_true,
      now, pure_apply] at h
    rcases hc : classLoop env n { X := X, Y := Y } { w with tick := w.tick + 1 } with ⟨w1, e1 | st1⟩
    · rw [hc] at h
      simpa using h
    · rw [hc] at h; simp at h
  · left
    simp only [optimizeWithAllInitialInformation, bind_apply, RunM.lift, pyAssert, hl, if_false,
      Prod.mk.injEq, Except.error.injEq] at h
    exact ⟨hl, h.2.symm, h.1.symm⟩

theorem not_isRepeated_iff (p : Point d) (X : List (Point d)) :
    isRepeated p X = false ↔ FarFrom 1e-8 X p := by
  simp only [isRepeated, gt_iff_lt, decide_eq_false_iff_not, not_lt, Nat.le_zero,
    List.length_eq_zero_iff, List.eq_nil_iff_forall_not_mem, mem_npWhere]
  constructor
  · intro h e he
    obtain ⟨i, hi⟩ := List.mem_iff_getElem?.1 he
    by_contra hc
    exact h i ⟨e, hi, by simpa [norm2, TOLERANCE_DUPLICATED_ACQ] using hc⟩
  · rintro h i ⟨e, hi, hlt⟩
    have := h e (List.mem_iff_getElem?.2 ⟨i, hi⟩)
    simp only [norm2, TOLERANCE_DUPLICATED_ACQ] at hlt
    linarith

end Verif.WrappersBo
