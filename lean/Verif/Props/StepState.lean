import Verif.Lemmas.StepState
import Verif.Spec.StepState
import Verif.Props.Total

/-! # C22, C23: what the fitting modes do to one object -/

namespace Verif.Props

open Verif.Spec Verif.Lemmas Verif.BoCommon Verif.UtilsBo Verif.Constants Verif.BaseBo
open Verif.UtilsCovariance
open Verif.Covariance (Inputs)

variable {n d : ℕ}

/-! ## C22 -/

/-- One call of `optimize`. -/
noncomputable def gpCall (bo : BoWGp.BOwGP d) (clock : ℕ → ℝ) (c : AnyCall d) :
    OptM BoWGp.GpState (Point d × DictInfo c.n d) :=
  BoWGp.optimize bo c.routines clock c.X c.Y c.sampling c.samples c.mlm

/-- Any number of calls in a row on one object, each with its own arguments and routines; an
exception is caught and the next call made. The object in the end, and what each call returned. -/
noncomputable def gpRun (bo : BoWGp.BOwGP d) (clock : ℕ → ℝ) :
    List (AnyCall d) → BoWGp.GpState × ℕ → (BoWGp.GpState × ℕ) × List (Py (Point d))
  | [], s => (s, [])
  | c :: cs, s =>
    let r := gpCall bo clock c s
    let rest := gpRun bo clock cs r.1
    (rest.1, r.2.map (·.1) :: rest.2)

/-- C22: the history grows by exactly one entry in a call that gets past kernel fitting (reads the
clock for the third time), the one it returns if it succeeds; any other call raises and leaves the
object as it was. In every mode, for every outcome. -/
theorem C22_history (bo : BoWGp.BOwGP d) (clock : ℕ → ℝ) (c : AnyCall d) (st : BoWGp.GpState)
    (t : ℕ) (r : BoWGp.GpState × ℕ) (out : Py (Point d × DictInfo c.n d))
    (h : gpCall bo clock c (st, t) = (r, out)) :
    (t + 3 ≤ r.2 → ∃ e, r.1.historical_hyps = st.historical_hyps ++ [e] ∧
      ∀ p info, out = .ok (p, info) → e = info.fit.map (·.2.2)) ∧
    (r.2 < t + 3 → r.1 = st ∧ ∃ e, out = .error e) := by
  unfold gpCall at h
  rcases gp_optimize_cases bo c.routines clock c.X c.Y c.sampling c.samples c.mlm st t with
    ⟨t', e, ht, h'⟩ | ⟨Y', Yt, f, st1, -, -, hf, h1, h2, h3⟩
  · rw [h] at h'
    obtain ⟨rfl, rfl⟩ := Prod.mk.inj h'
    exact ⟨fun h => absurd h (by simp only; omega), fun _ => ⟨rfl, e, rfl⟩⟩
  · rw [h] at h1 h2 h3
    refine ⟨fun _ => ⟨f.map (·.2.2), ?_, fun p info hi => by rw [h3 p info hi]⟩,
      fun h => absurd h (by simp only at h2; omega)⟩
    have hs : st1.historical_hyps = st.historical_hyps := by
      rcases fitSurrogate_cases bo c.routines c.X Yt c.mlm st (t + 2) with ⟨e, h⟩ |
        ⟨-, -, _, _, -, -, h⟩ | ⟨-, -, _, _, _, _, -, -, h⟩ | ⟨-, _, h⟩ <;> rw [hf] at h
      · cases (Prod.mk.inj h).2
      · rw [(Prod.mk.inj (Prod.mk.inj h).1).1]
      · rw [(Prod.mk.inj (Prod.mk.inj h).1).1]
      · rw [(Prod.mk.inj (Prod.mk.inj h).1).1]
    simp only at h1
    rw [h1, hs]

/-- C22: the flag that allows the search is only ever cleared, by a call in the 'converged' mode,
and exactly when the vector of hyperparameters it fitted lies within 5 % of the last stored one. -/
theorem C22_verdict (bo : BoWGp.BOwGP d) (clock : ℕ → ℝ) (c : AnyCall d) (st : BoWGp.GpState)
    (t : ℕ) (r : BoWGp.GpState × ℕ) (out : Py (Point d × DictInfo c.n d))
    (h : gpCall bo clock c (st, t) = (r, out)) :
    (r.1.is_optimize_hyps = true → st.is_optimize_hyps = true) ∧
    (st.is_optimize_hyps = true → (r.1.is_optimize_hyps = false ↔
      c.mlm = "converged" ∧ t + 3 ≤ r.2 ∧ ∃ prev cur v w,
        st.historical_hyps.getLast? = some (some prev) ∧
        r.1.historical_hyps = st.historical_hyps ++ [some cur] ∧
        convertHyps bo.str_cov prev true FIX_GP_NOISE = .ok (v.map Flt.fin) ∧
        convertHyps bo.str_cov cur true FIX_GP_NOISE = .ok (w.map Flt.fin) ∧ Near v w)) := by
  unfold gpCall at h
  rcases gp_optimize_cases bo c.routines clock c.X c.Y c.sampling c.samples c.mlm st t with
    ⟨t', e, ht, h'⟩ | ⟨Y', Yt, f, st1, -, -, hf, h1, h2, h3⟩
  · rw [h] at h'
    obtain ⟨rfl, rfl⟩ := Prod.mk.inj h'
    refine ⟨id, fun hs => ⟨fun hc => ?_, fun hc => absurd hc.2.1 (by simp only; omega)⟩⟩
    simp only at hc
    rw [hs] at hc
    cases hc
  · rw [h] at h1 h2 h3
    simp only at h1 h2
    rcases fitSurrogate_cases bo c.routines c.X Yt c.mlm st (t + 2) with ⟨e, h⟩ |
        ⟨a1, a2, fit, conv, a3, a4, h⟩ | ⟨a1, a2, _, _, _, _, -, -, h⟩ | ⟨a1, _, h⟩ <;> rw [hf] at h
    · cases (Prod.mk.inj h).2
    · have e1 := (Prod.mk.inj (Prod.mk.inj h).1).1
      obtain rfl := Except.ok.inj (Prod.mk.inj h).2
      subst e1
      rw [h1]
      refine ⟨fun _ => a2, fun _ => ?_⟩
      simp only [Option.map_some, List.append_cancel_left_eq, List.cons.injEq, Option.some.injEq,
        and_true, a1, true_and, h2, Bool.not_eq_false']
      constructor
      · rintro rfl
        obtain ⟨prev, v, w, b1, b2, b3, b4⟩ := (checkHistory_true _ _ _ _ _ a4).1 rfl
        exact ⟨prev, _, v, w, b1, rfl, b2, b3, b4⟩
      · rintro ⟨prev, cur, v, w, b1, rfl, b2, b3, b4⟩
        exact (checkHistory_true _ _ _ _ _ a4).2 ⟨prev, v, w, b1, b2, b3, b4⟩
    · have e1 := (Prod.mk.inj (Prod.mk.inj h).1).1
      subst e1
      rw [h1]
      exact ⟨id, fun hs => by rw [a2] at hs; cases hs⟩
    · have e1 := (Prod.mk.inj (Prod.mk.inj h).1).1
      subst e1
      rw [h1]
      refine ⟨id, fun hs => ⟨fun hc => ?_, fun hc => absurd hc.1 a1⟩⟩
      simp only at hc
      rw [hs] at hc
      cases hc

private theorem bind_congr' {σ α β : Type} {m m' : OptM σ α} {f f' : α → OptM σ β} {s : σ × ℕ}
    (h : m s = m' s) (hf : ∀ a s1, m s = (s1, .ok a) → f a s1 = f' a s1) :
    (m >>= f) s = (m' >>= f') s := by
  rcases hm : m s with ⟨s1, e | a⟩
  · rw [OptM.bind_of_error hm, OptM.bind_of_error (h ▸ hm)]
  · rw [OptM.bind_of_ok hm, OptM.bind_of_ok (h ▸ hm)]
    exact hf a s1 hm

/-- With the flag cleared a call in the 'converged' mode does not use the minimiser. -/
private theorem no_search (bo : BoWGp.BOwGP d) (clock : ℕ → ℝ) (o : Oracles d) (m : Gp.Minimize)
    (X : Inputs n d) (Y : List ℝ) (sm : String) (ns : ℤ) (st : BoWGp.GpState)
    (hst : st.is_optimize_hyps = false) (t : ℕ) :
    BoWGp.optimize bo { o with fitHyps := m } clock X Y sm ns "converged" (st, t) =
      BoWGp.optimize bo o clock X Y sm ns "converged" (st, t) := by
  unfold BoWGp.optimize
  refine bind_congr' rfl fun _ s1 h => ?_
  obtain ⟨-, rfl⟩ := lift_ok h
  refine bind_congr' rfl fun _ s1 h => ?_
  obtain ⟨-, rfl⟩ := lift_ok h
  refine bind_congr' rfl fun _ s1 h => ?_
  obtain ⟨-, rfl⟩ := lift_ok h
  refine bind_congr' rfl fun _ s1 h => ?_
  obtain ⟨-, rfl⟩ := lift_ok h
  refine bind_congr' rfl fun _ s1 h => ?_
  obtain ⟨-, rfl⟩ := lift_ok h
  refine bind_congr' rfl fun _ s1 h => ?_
  obtain ⟨-, rfl⟩ := now_ok h
  refine bind_congr' rfl fun _ s1 h => ?_
  obtain ⟨-, rfl⟩ := lift_ok h
  refine bind_congr' rfl fun _ s1 h => ?_
  obtain ⟨-, rfl⟩ := lift_ok h
  refine bind_congr' rfl fun _ s1 h => ?_
  obtain ⟨-, rfl⟩ := now_ok h
  refine bind_congr' ?_ fun _ s1 h => ?_
  · unfold BoWGp.fitSurrogate
    simp only [String.reduceEq, if_false, if_true]
    refine bind_congr' rfl fun s s1 h => ?_
    obtain ⟨rfl, h2⟩ := Prod.mk.inj h
    obtain rfl := Except.ok.inj h2
    simp only [hst, Bool.false_eq_true, if_false]
  · rfl

/-- C22: once a fit has been judged converged (the flag is cleared), no later call in the
'converged' mode searches hyperparameters again, whatever calls in whatever modes, failed or not,
come in between: its effect and outcome are the same for every minimiser. If it gets past the fit,
the last stored hyperparameters are stored again, and the kernel it uses is the one of those
hyperparameters on the new inputs. -/
theorem C22_search_stops (bo : BoWGp.BOwGP d) (clock : ℕ → ℝ) (between : List (AnyCall d))
    (c : AnyCall d) (hc : c.mlm = "converged") (s0 s : BoWGp.GpState × ℕ)
    (hs0 : s0.1.is_optimize_hyps = false) (hs : (gpRun bo clock between s0).1 = s) :
    s.1.is_optimize_hyps = false ∧
    (∀ m : Gp.Minimize,
      gpCall bo clock (c.withFit m) s =
        gpCall bo clock c s) ∧
    ∀ r out, gpCall bo clock c s = (r, out) →
      s.2 + 3 ≤ r.2 → ∃ h K P w, s.1.historical_hyps.getLast? = some (some h) ∧
        r.1.historical_hyps = s.1.historical_hyps ++ [some h] ∧
        Covariance.getKernelInverse c.X h bo.str_cov (fix_noise := FIX_GP_NOISE) = .ok (K, P, w) ∧
        ∀ p info, out = .ok (p, info) → info.fit = some (K, P, h) := by
  have hflag : s.1.is_optimize_hyps = false := by
    induction between generalizing s0 with
    | nil =>
      subst hs
      exact hs0
    | cons c' cs ih =>
      refine ih _ ?_ hs
      by_contra hcon
      rw [Bool.not_eq_false] at hcon
      have := (C22_verdict bo clock c' s0.1 s0.2 _ _ rfl).1 hcon
      rw [hs0] at this
      cases this
  clear hs
  obtain ⟨st, t⟩ := s
  refine ⟨hflag, fun m => ?_, fun r out h ht => ?_⟩
  · simp only [gpCall, AnyCall.withFit, hc]
    exact no_search bo clock c.routines m c.X c.Y c.sampling c.samples st hflag t
  · unfold gpCall at h
    rcases gp_optimize_cases bo c.routines clock c.X c.Y c.sampling c.samples c.mlm st t with
      ⟨t', e, ht', h'⟩ | ⟨Y', Yt, f, st1, -, -, hf, h1, h2, h3⟩
    · rw [h] at h'
      obtain ⟨rfl, rfl⟩ := Prod.mk.inj h'
      simp only at ht
      omega
    · rw [h] at h1 h2 h3
      simp only at h1 h2
      rcases fitSurrogate_cases bo c.routines c.X Yt c.mlm st (t + 2) with ⟨e, h⟩ |
        ⟨-, a2, _, _, -, -, h⟩ | ⟨-, -, hh, K, P, w, a3, a4, h⟩ | ⟨a1, _, h⟩
      · rw [hf] at h
        cases (Prod.mk.inj h).2
      · simp only at hflag
        rw [hflag] at a2
        cases a2
      · rw [hf] at h
        have e1 := (Prod.mk.inj (Prod.mk.inj h).1).1
        obtain rfl := Except.ok.inj (Prod.mk.inj h).2
        subst e1
        exact ⟨hh, K, P, w, a3, by rw [h1]; rfl, a4, h3⟩
      · exact absurd hc a1

private theorem run_cons {bo : BoWGp.BOwGP d} {clock : ℕ → ℝ} {c : AnyCall d}
    {s r : BoWGp.GpState × ℕ} {out : Py (Point d × DictInfo c.n d)}
    (h : gpCall bo clock c s = (r, out)) (cs : List (AnyCall d)) : gpRun bo clock (c :: cs) s =
      ((gpRun bo clock cs r).1, out.map (·.1) :: (gpRun bo clock cs r).2) := by
  simp only [gpRun, h]

/-- C22 over a whole run in the 'converged' mode after convergence: nothing depends on the
minimisers, the history only repeats its last entry, once per call that got past the fit. -/
theorem C22_run (bo : BoWGp.BOwGP d) (clock : ℕ → ℝ) (calls : List (AnyCall d))
    (hc : ∀ c ∈ calls, c.mlm = "converged") (s : BoWGp.GpState × ℕ)
    (hs : s.1.is_optimize_hyps = false) :
    (∀ m : AnyCall d → Gp.Minimize, gpRun bo clock (calls.map fun c => c.withFit (m c)) s =
      gpRun bo clock calls s) ∧
    ∃ k ≤ calls.length, ∀ last, s.1.historical_hyps.getLast? = some last →
      (gpRun bo clock calls s).1.1.historical_hyps =
        s.1.historical_hyps ++ List.replicate k last := by
  induction calls generalizing s with
  | nil => exact ⟨fun _ => rfl, 0, le_rfl, by simp [gpRun]⟩
  | cons c cs ih =>
    obtain ⟨-, h2, h3⟩ := C22_search_stops bo clock [] c (hc c (by simp)) s s hs rfl
    have hflag := (C22_search_stops bo clock [c] c (hc c (by simp)) s _ hs rfl).1
    rcases hr : gpCall bo clock c s with ⟨r, out⟩
    have hrun := run_cons hr
    have hflag : r.1.is_optimize_hyps = false := by
      rw [hrun] at hflag
      exact hflag
    obtain ⟨i1, k, hk, i2⟩ := ih (fun c h => hc c (by simp [h])) r hflag
    constructor
    · intro m
      have e : gpCall bo clock (c.withFit (m c)) s = (r, out) := (h2 (m c)).trans hr
      rw [hrun, List.map_cons, run_cons e, i1 m]
      rfl
    · rw [hrun]
      by_cases ht : s.2 + 3 ≤ r.2
      · obtain ⟨h, K, P, w, g1, g2, -⟩ := h3 _ _ hr ht
        refine ⟨k + 1, by simpa using hk, fun last hl => ?_⟩
        rw [g1, Option.some.injEq] at hl
        subst hl
        refine (i2 (some h) (by rw [g2]; simp)).trans ?_
        rw [g2, List.replicate_succ, List.append_assoc]
        rfl
      · refine ⟨k, by simp; omega, fun last hl => ?_⟩
        have hh := ((C22_history bo clock c s.1 s.2 _ _ hr).2 (by omega)).1
        rw [← hh]
        exact i2 last (by rw [hh]; exact hl)

private theorem near_self {v : List ℝ} (h : ∃ x ∈ v, x ≠ 0) : Near v v := by
  refine ⟨rfl, ?_⟩
  have h0 : (List.zipWith (fun a b => (b - a) ^ 2) v v).sum = 0 := by
    refine List.sum_eq_zero fun x hx => ?_
    rw [List.zipWith_self] at hx
    obtain ⟨a, -, rfl⟩ := List.mem_map.1 hx
    simp
  have h1 : 0 < (v.map (· ^ 2)).sum := by
    obtain ⟨x, hx, hx0⟩ := h
    have hle := List.single_le_sum (l := v.map (· ^ 2)) (fun y hy => by
      obtain ⟨a, -, rfl⟩ := List.mem_map.1 hy
      positivity) (x ^ 2) (List.mem_map.2 ⟨x, hx, rfl⟩)
    have : 0 < x ^ 2 := by positivity
    linarith
  rw [h0]
  positivity

/-- A call of the examples as an arbitrary call. -/
noncomputable def exAny (mlm : String) : AnyCall 2 :=
  ⟨3, .vec ![![1, 2], ![3, 4], ![5, 5]], [3, 1, 7], exRoutines, "sobol", 4, mlm⟩

/-- C22 at work: the second of two equal calls finds the same hyperparameters and clears the flag;
the third does not search. -/
example : ∃ r1 r2 : BoWGp.GpState × ℕ,
    (gpCall exBo (fun k => k) (exAny "converged") ({}, 0)).1 = r1 ∧
    r1.1.is_optimize_hyps = true ∧ r1.1.historical_hyps.length = 1 ∧
    (gpCall exBo (fun k => k) (exAny "converged") r1).1 = r2 ∧
    r2.1.is_optimize_hyps = false ∧ r2.1.historical_hyps.length = 2 ∧
    ∀ m, gpCall exBo (fun k => k) ((exAny "converged").withFit m) r2 =
      gpCall exBo (fun k => k) (exAny "converged") r2 := by
  have step : ∀ st, GoodState exBo.str_cov exBo.use_ard 2 st → ∀ t, ∃ st' p info,
      gpCall exBo (fun k => k) (exAny "converged") (st, t) = ((st', t + 6), .ok (p, info)) ∧
      GoodState exBo.str_cov exBo.use_ard 2 st' := fun st hst t =>
    gp_optimize_total (by norm_num) (by decide) (by decide) exBox_le (by decide) (n := 3)
      (by norm_num) _ rfl (prior_none 2) (by decide) (by decide) (.inl rfl) (exRoutines_fit _)
      (exRoutines_acq exBox_le) _ (by decide) (by norm_num [exAny]) (by decide) hst t
  obtain ⟨st1, p1, i1, e1, g1⟩ := step {} ⟨by simp, by simp⟩ 0
  obtain ⟨st2, p2, i2, e2, g2⟩ := step st1 g1 6
  obtain ⟨h1, b1, -⟩ := (C22_history exBo _ _ _ _ _ _ e1).1 (by simp)
  obtain ⟨h2, b2, -⟩ := (C22_history exBo _ _ _ _ _ _ e2).1 (by simp)
  have v1 := (C22_verdict exBo _ _ _ _ _ _ e1).2 rfl
  have f1 : st1.is_optimize_hyps = true := by
    rw [← Bool.not_eq_false]
    intro hc
    obtain ⟨-, -, _, _, _, _, hn, -⟩ := v1.1 hc
    cases hn
  have v2 := (C22_verdict exBo _ _ _ _ _ _ e2).2 f1
  simp only [List.nil_append] at b1 b2 v2
  -- both fits are the same
  have hh : h1 = h2 := by
    rcases gp_optimize_cases exBo exRoutines (fun k => k)
        (.vec ![![1, 2], ![3, 4], ![5, 5]] : Inputs 3 2) [3, 1, 7] "sobol" 4 "converged" {} 0 with
      ⟨t', e, ht, h'⟩ | ⟨Y1, Yt1, f1', s1, c1, c2, c3, c4, -, -⟩
    · cases (Prod.mk.inj (h'.symm.trans e1)).2
    rcases gp_optimize_cases exBo exRoutines (fun k => k)
        (.vec ![![1, 2], ![3, 4], ![5, 5]] : Inputs 3 2) [3, 1, 7] "sobol" 4 "converged" st1 6 with
      ⟨t', e, ht, h'⟩ | ⟨Y2, Yt2, f2', s2, d1, d2, d3, d4, -, -⟩
    · cases (Prod.mk.inj (h'.symm.trans e2)).2
    rw [c1] at d1
    obtain rfl := Except.ok.inj d1
    rw [c2] at d2
    obtain rfl := Except.ok.inj d2
    have c4' := (congrArg (fun r => r.1.1) e1).symm.trans c4
    have d4' := (congrArg (fun r => r.1.1) e2).symm.trans d4
    simp only at c4' d4'
    rcases fitSurrogate_cases exBo exRoutines (.vec ![![1, 2], ![3, 4], ![5, 5]] : Inputs 3 2) Yt1
      "converged" {} (0 + 2) with ⟨e, h⟩ | ⟨-, -, fa, _, a3, -, h⟩ | ⟨-, ha, -⟩ | ⟨ha, -⟩
    · rw [c3] at h; cases (Prod.mk.inj h).2
    · rw [c3] at h
      obtain rfl := Except.ok.inj (Prod.mk.inj h).2
      obtain rfl := (Prod.mk.inj (Prod.mk.inj h).1).1
      rcases fitSurrogate_cases exBo exRoutines (.vec ![![1, 2], ![3, 4], ![5, 5]] : Inputs 3 2) Yt1
        "converged" st1 (6 + 2) with ⟨e, h⟩ | ⟨-, -, fb, _, a3', -, h⟩ | ⟨-, ha, -⟩ | ⟨ha, -⟩
      · rw [d3] at h; cases (Prod.mk.inj h).2
      · rw [d3] at h
        obtain rfl := Except.ok.inj (Prod.mk.inj h).2
        obtain rfl := (Prod.mk.inj (Prod.mk.inj h).1).1
        rw [a3] at a3'
        obtain rfl := Except.ok.inj a3'
        rw [c4'] at b1
        rw [d4'] at b2
        simp only [List.nil_append, List.cons.injEq, and_true, List.append_cancel_left_eq] at b1 b2
        rw [← b1, ← b2]
      · rw [f1] at ha; cases ha
      · exact absurd rfl ha
    · cases ha
    · exact absurd rfl ha
  subst hh
  obtain ⟨h, rfl, v, s, l, ⟨a, as, rfl, -, ha, -⟩, hv, -⟩ := g1.hist h1 (by rw [b1]; simp)
  have f2 : st2.is_optimize_hyps = false := v2.2 ⟨rfl, by simp, h, h, a :: as, a :: as,
    by rw [b1]; rfl, b2, hv, hv, near_self ⟨a, by simp, ha⟩⟩
  refine ⟨_, _, rfl, ?_, ?_, rfl, ?_, ?_, fun m => ?_⟩
  · rw [e1]; exact f1
  · rw [e1]; simp [b1]
  · rw [e1, e2]; exact f2
  · rw [e1, e2]; simp [b1, b2]
  · rw [e1]
    exact (C22_search_stops exBo (fun k => k) [] (exAny "converged") rfl _ _
      (by rw [e2]; exact f2) rfl).2.1 m

/-! ## C23 -/

/-- C23: of the two fits the one with the smaller value is kept, the one of BFGS on a tie (or if
the other value is NaN); a fit whose value is NaN or `+inf` is never kept, and with two such fits
there is nothing; no value of the two lies below the one kept. -/
theorem C23_choice (get : String → Py (Fit n)) (nll : Fit n → Py Flt) (f1 f2 : Fit n)
    (y1 y2 : Flt) (h1 : get "BFGS" = .ok f1) (h2 : get "Nelder-Mead" = .ok f2)
    (v1 : nll f1 = .ok y1) (v2 : nll f2 = .ok y2) :
    ∃ r, BoWGp.combinedFit get nll = .ok r ∧
      (r = none ↔ ¬ Usable y1 ∧ ¬ Usable y2) ∧
      (Usable y1 ∧ ¬ y2 < y1 → r = some f1) ∧
      (Usable y2 ∧ (y2 < y1 ∨ ¬ Usable y1) → r = some f2) ∧
      ∀ f, r = some f → ∃ y, nll f = .ok y ∧ Usable y ∧ ¬ y1 < y ∧ ¬ y2 < y := by
  have hu : ∀ y : Flt, y < Flt.pinf ↔ Usable y := fun y => by
    rw [Flt.lt_pinf_iff]
    rfl
  have hirr : ∀ y : Flt, ¬ y < y := fun y => by
    cases y with
    | fin x => exact lt_irrefl x
    | _ => exact id
  have hbelow : ∀ a b : Flt, a < b → Usable a := fun a b h => by
    cases a <;> cases b <;> first | exact h.elim | exact ⟨by simp, by simp⟩
  have hasym : ∀ a b : Flt, a < b → ¬ b < a := fun a b h => by
    cases a <;> cases b <;> first | exact h.elim | exact id | exact lt_asymm (α := ℝ) h
  have hnot : ∀ a b : Flt, ¬ Usable a → Usable b → ¬ a < b := fun a b h _ hab => h (hbelow a b hab)
  simp only [BoWGp.combinedFit, List.foldlM_cons, List.foldlM_nil, h1, h2, v1, v2, bind,
    Except.bind, pure, Except.pure]
  by_cases u1 : Usable y1
  · by_cases hlt : y2 < y1
    · have u2 := hbelow _ _ hlt
      refine ⟨some f2, by simp only [(hu y1).2 u1, hlt, if_true], ?_⟩
      simp only [u1, u2, hlt]
      simp only [not_true_eq_false, reduceCtorEq, and_self, and_false, Option.some.injEq, true_or,
        false_imp_iff, true_and, imp_self]
      rintro f rfl
      exact ⟨y2, v2, u2, hasym _ _ hlt, hirr _⟩
    · refine ⟨some f1, by simp only [(hu y1).2 u1, hlt, if_true, if_false], ?_⟩
      simp only [u1, hlt]
      simp only [not_true_eq_false, reduceCtorEq, not_false_eq_true, and_self, false_and, or_self,
        and_false, Option.some.injEq, false_imp_iff, true_and, imp_self]
      rintro f rfl
      exact ⟨y1, v1, u1, hirr _, hlt⟩
  · by_cases u2 : Usable y2
    · refine ⟨some f2, by
        simp only [mt (hu y1).1 u1, (hu y2).2 u2, if_true, if_false], ?_⟩
      simp only [u1, u2]
      simp only [not_true_eq_false, reduceCtorEq, not_false_eq_true, and_false, Option.some.injEq,
        false_and, or_true, and_self, true_imp_iff, false_imp_iff, true_and]
      rintro f rfl
      exact ⟨y2, v2, u2, hnot _ _ u1 u2, hirr _⟩
    · refine ⟨none, by
        simp only [mt (hu y1).1 u1, mt (hu y2).1 u2, if_false], ?_⟩
      simp [u1, u2]

/-- C23: a successful call in the 'combined' mode fitted the kernel with BFGS and with Nelder-Mead,
computed the negative log marginal likelihood of both, and used the fit of BFGS unless the value of
Nelder-Mead was smaller. -/
theorem C23_call {bo : BoWGp.BOwGP d} {o : Oracles d} {clock : ℕ → ℝ} {X : Inputs n d}
    {Y : List ℝ} {sm : String} {ns : ℤ} {s r : BoWGp.GpState × ℕ} {p : Point d}
    {info : DictInfo n d}
    (h : BoWGp.optimize bo o clock X Y sm ns "combined" s = (r, .ok (p, info))) :
    ∃ Yt μ f1 f2 w1 w2 y1 y2, List.ofFn Yt = info.Y_normalized ∧
      Gp.getPriorMu bo.prior_mu X = .ok μ ∧
      Gp.getOptimizedKernel o.fitHyps X Yt bo.prior_mu bo.str_cov "BFGS"
        bo.str_modelselection_method bo.use_ard = .ok f1 ∧
      Gp.getOptimizedKernel o.fitHyps X Yt bo.prior_mu bo.str_cov "Nelder-Mead"
        bo.str_modelselection_method bo.use_ard = .ok f2 ∧
      convertHyps bo.str_cov f1.2.2 true true = .ok w1 ∧
      convertHyps bo.str_cov f2.2.2 true true = .ok w2 ∧
      (∃ g, Gp.negLogMl X Yt w1 bo.str_cov μ bo.use_ard true true false = .ok (y1, g)) ∧
      (∃ g, Gp.negLogMl X Yt w2 bo.str_cov μ bo.use_ard true true false = .ok (y2, g)) ∧
      info.fit = some (if y2 < y1 then f2 else f1) ∧
      r.1.historical_hyps = s.1.historical_hyps ++ [some (if y2 < y1 then f2 else f1).2.2] := by
  obtain ⟨st, t⟩ := s
  obtain ⟨-, -, -, -, -, -, -, Yt, st1, hc, hf, hr, -⟩ := gp_optimize_ok h
  have hY := (column_ok hc).2
  unfold BoWGp.fitSurrogate at hf
  simp only [String.reduceEq, if_false, if_true] at hf
  obtain ⟨μ, s1, a, hf⟩ := OptM.bind_ok hf
  obtain ⟨a1, rfl⟩ := lift_ok a
  obtain ⟨hcf, e⟩ := lift_ok hf
  obtain ⟨rfl, -⟩ := Prod.mk.inj e
  have hk : ∀ {get : String → Py (Fit n)} {nll : Fit n → Py Flt} {r},
      BoWGp.combinedFit get nll = .ok r → ∃ f1 f2 y1 y2, get "BFGS" = .ok f1 ∧
        get "Nelder-Mead" = .ok f2 ∧ nll f1 = .ok y1 ∧ nll f2 = .ok y2 := by
    intro get nll r h
    simp only [BoWGp.combinedFit, List.foldlM_cons, List.foldlM_nil] at h
    obtain ⟨b, h, -⟩ := py_bind_ok h
    obtain ⟨b, h, h'⟩ := py_bind_ok h
    obtain ⟨f1, e1, h⟩ := py_bind_ok h
    obtain ⟨y1, e2, -⟩ := py_bind_ok h
    obtain ⟨b, h, -⟩ := py_bind_ok h'
    obtain ⟨f2, e3, h⟩ := py_bind_ok h
    obtain ⟨y2, e4, -⟩ := py_bind_ok h
    exact ⟨f1, f2, y1, y2, e1, e3, e2, e4⟩
  obtain ⟨f1, f2, v1, v2, e1, e2, e3, e4⟩ := hk hcf
  have hv1 := e3
  have hv2 := e4
  obtain ⟨w1, c1, e3⟩ := py_bind_ok e3
  obtain ⟨⟨y1, g1⟩, c2, e3⟩ := py_bind_ok e3
  obtain rfl := Except.ok.inj e3
  obtain ⟨w2, c3, e4⟩ := py_bind_ok e4
  obtain ⟨⟨y2, g2⟩, c4, e4⟩ := py_bind_ok e4
  obtain rfl := Except.ok.inj e4
  rw [combinedFit_values e1 e2 hv1 hv2] at hcf
  have hfit := (Except.ok.inj hcf).symm
  have hi : (if Flt.fin y2 < Flt.fin y1 then f2 else f1) = if y2 < y1 then f2 else f1 := by
    have : Flt.fin y2 < Flt.fin y1 ↔ y2 < y1 := Iff.rfl
    simp only [this]
  rw [hi] at hfit
  refine ⟨Yt, μ, f1, f2, w1, w2, y1, y2, hY, a1, e1, e2, c1, c3, ⟨g1, c2⟩, ⟨g2, c4⟩, hfit, ?_⟩
  rw [hr]
  simp only [hfit, Option.map_some]

/-- C23: without a fit (both values NaN or `+inf`) the call fails, whatever the optimiser of the
acquisition function does: a call that returns has a fit. -/
theorem C23_no_fit_fails {bo : BoWGp.BOwGP d} {o : Oracles d} {clock : ℕ → ℝ} {X : Inputs n d}
    {Y : List ℝ} {sm : String} {ns : ℤ} {mlm : String} {s r : BoWGp.GpState × ℕ} {p : Point d}
    {info : DictInfo n d}
    (h : BoWGp.optimize bo o clock X Y sm ns mlm s = (r, .ok (p, info))) : info.fit ≠ none := by
  obtain ⟨-, -, -, -, -, -, -, Yt, st1, -, -, -, -, -, -, hq, -⟩ := gp_optimize_ok h
  intro hn
  rw [hn] at hq
  cases hq

/-- The values of C23 with a tie, with NaN and without a usable one. -/
example (f1 f2 : Fit 3) : BoWGp.combinedFit (fun m => .ok (if m = "BFGS" then f1 else f2))
    (fun _ => .ok (.fin 1)) = .ok (some f1) := by
  obtain ⟨r, h, -, h1, -⟩ := C23_choice (fun m => .ok (if m = "BFGS" then f1 else f2))
    (fun _ => .ok (.fin 1)) f1 f2 (.fin 1) (.fin 1) (by simp) (by simp) rfl rfl
  rw [h, h1 ⟨⟨by simp, by simp⟩, lt_irrefl (1 : ℝ)⟩]

/-- C23_call at work. -/
example : ∃ r p info, BoWGp.optimize exBo exRoutines (fun k => k)
      (.vec ![![1, 2], ![3, 4], ![5, 5]] : Inputs 3 2) [3, 1, 7] "sobol" 4 "combined" ({}, 0) =
        (r, .ok (p, info)) ∧ info.fit ≠ none := by
  obtain ⟨r, p, info, e⟩ := exStep (mlm := "combined") (by simp)
  exact ⟨r, p, info, e, C23_no_fit_fails e⟩

end Verif.Props
