import Verif.Lemmas.WrapperSteps
import Verif.Lemmas.StepTotalOthers
import Verif.Props.Selection

/-! A run of a correctly configured object does not raise. -/

namespace Verif.Lemmas

open Verif.Spec Verif.BoCommon Verif.UtilsBo Verif.Constants Verif.BaseBo Verif.WrapperClass
open Verif.WrappersBo

variable {d : ℕ}

/-- With finite acquisition values, one per candidate, the choice of the next point works. -/
theorem nextBest_total {points : List (Point d)} {acqs : List Flt} {ev : List (Point d)}
    (hl : points.length = acqs.length) (hf : ∀ v ∈ acqs, ∃ x : ℝ, v = .fin x) (hev : ev ≠ []) :
    ∃ q, getNextBestAcquisition points acqs ev = .ok (some q) := by
  by_cases h : ∃ p ∈ points, FarFrom 1e-8 ev p
  · rcases Props.C05_next_best points acqs ev hl h with ⟨i, p, v, h1, -⟩ | ⟨-, h2⟩
    · exact ⟨p, h1⟩
    · obtain ⟨p, hp, hfar⟩ := h
      obtain ⟨i, hi⟩ := List.mem_iff_getElem?.1 hp
      have hi' : i < points.length := (List.getElem?_eq_some_iff.1 hi).1
      have hv : acqs[i]? = some acqs[i] := List.getElem?_eq_getElem (by omega)
      have hm : (p, acqs[i]) ∈ List.zip points acqs :=
        List.mem_iff_getElem?.2 ⟨i, by simp [List.getElem?_zip_eq_some, hi, hv]⟩
      obtain ⟨x, hx⟩ := hf _ (List.mem_of_getElem? hv)
      rcases h2 _ _ hm hfar with e | e <;> rw [hx] at e <;> cases e
  · push Not at h
    rw [Props.C05_exhausted points acqs ev hl h]
    cases hq : ev.getLast? with
    | none => exact (hev (List.getLast?_eq_none_iff.1 hq)).elim
    | some q => exact ⟨q, rfl⟩

/-- What a step of the run promises, for a state satisfying `Inv`. -/
def StepTotal {σ : Type} (env : Env d σ) (B : Bounds d) (Inv : σ → Prop) : Prop :=
  ∀ s t X (Y : List ℝ), Inv s → X ≠ [] → X.length = Y.length →
    ∃ s' t' p i, env.step s t X (Y.map .fin) = ((s', t'), .ok (p, i)) ∧ Inv s' ∧ InBox B p ∧
      (∀ q ∈ i.next_points, InBox B q) ∧ i.next_points.length = i.acquisitions.length ∧
      ∀ v ∈ i.acquisitions, ∃ x : ℝ, v = .fin x

/-- A target with a finite value everywhere in the box. -/
def TargetTotal (target : ℕ → Point d → Py Flt) (B : Bounds d) : Prop :=
  ∀ k x, InBox B x → ∃ y : ℝ, target k x = .ok (.fin y)

theorem loop_total {σ : Type} {env : Env d σ} {B : Bounds d} {Inv : σ → Prop}
    (hs : StepTotal env B Inv) (ht : TargetTotal env.target B) (n : ℕ) :
    ∀ (st : LoopSt d) (w : World d σ) (Y : List ℝ), Inv w.model → st.X ≠ [] →
      (∀ x ∈ st.X, InBox B x) → st.Y = Y.map .fin → st.X.length = Y.length →
      ∃ w' st', classLoop env n st w = (w', .ok st') := by
  induction n with
  | zero => exact fun st w Y _ _ _ _ _ => ⟨w, st, rfl⟩
  | succ n ih =>
    intro st w Y hi hX hB hY hl
    obtain ⟨s', t', p, i, e, hi', hp, hps, hlen, hfin⟩ := hs w.model (w.tick + 1) st.X Y hi hX hl
    rw [← hY] at e
    obtain ⟨q, hq, hqB⟩ : ∃ q, getNextBestSample p st.X i.next_points i.acquisitions = .ok (some q) ∧
        InBox B q := by
      unfold getNextBestSample
      split
      · obtain ⟨q, hq⟩ := nextBest_total hlen hfin hX
        refine ⟨q, hq, ?_⟩
        rcases Props.C05_result_origin _ _ _ _ hq with ⟨hm, -⟩ | ⟨-, hlast⟩
        · exact hps _ hm
        · exact hB _ (List.mem_of_getLast? hlast)
      · exact ⟨p, rfl, hp⟩
    obtain ⟨y, hy⟩ := ht w.log.length q hqB
    rcases classIteration_cases env w st with ⟨w1, st1, s1, t1, p1, q1, i1, y1, h1, h2⟩ |
      ⟨w1, e1, h1, h2⟩
    · have he := h2.step
      rw [e] at he
      obtain ⟨he1, he2⟩ := Prod.mk.inj he
      obtain ⟨rfl, rfl⟩ := Prod.mk.inj he1
      obtain ⟨rfl, rfl⟩ := Prod.mk.inj (Except.ok.inj he2)
      have hc := h2.choice
      rw [hq] at hc
      obtain rfl := Option.some.inj (Except.ok.inj hc)
      have htg := h2.target
      rw [hy] at htg
      obtain rfl := Except.ok.inj htg
      obtain ⟨w', st', h⟩ := ih st1 w1 (Y ++ [y]) (by rw [h2.world]; exact hi')
        (by rw [h2.state]; simp) (by
          rw [h2.state]
          intro x hx
          rcases List.mem_append.1 hx with hx | hx
          · exact hB x hx
          · rw [List.mem_singleton.1 hx]; exact hqB)
        (by rw [h2.state]; simp [hY]) (by rw [h2.state]; simp [hl])
      refine ⟨w', st', ?_⟩
      rw [classLoop, bind_apply, h1]
      exact h
    · exfalso
      rcases h2 with ⟨_, _, he, -⟩ | ⟨_, _, _, _, he, hc, -⟩ | ⟨_, _, _, _, he, hc, -⟩ |
        ⟨_, _, _, _, _, he, hc, htg, -⟩ <;> rw [e] at he
      · cases he
      all_goals
        obtain ⟨he1, he2⟩ := Prod.mk.inj he
        obtain ⟨rfl, rfl⟩ := Prod.mk.inj (Except.ok.inj he2)
        rw [hq] at hc
      · cases hc
      · cases hc
      · obtain rfl := Option.some.inj (Except.ok.inj hc)
        rw [hy] at htg
        cases htg

theorem initials_total {σ : Type} {env : Env d σ} {B : Bounds d} (ht : TargetTotal env.target B) :
    ∀ (X : List (Point d)) (w : World d σ), (∀ x ∈ X, InBox B x) →
      ∃ w' ts, ∃ Y : List ℝ, classInitials env X w = (w', .ok (Y.map .fin, ts)) ∧
        Y.length = X.length ∧ w'.model = w.model := by
  intro X
  induction X with
  | nil => exact fun w _ => ⟨w, [], [], rfl, rfl, rfl⟩
  | cons x X ih =>
    intro w hX
    obtain ⟨y, hy⟩ := ht w.log.length x (hX x (by simp))
    obtain ⟨w', ts, Y, h1, h2, h3⟩ := ih
      ⟨w.model, w.tick + 1 + 1, w.log ++ [x]⟩ fun q hq => hX q (by simp [hq])
    refine ⟨w', (env.clock (w.tick + 1) - env.clock w.tick) :: ts, y :: Y, ?_, by simp [h2], h3⟩
    simp [classInitials, bind_apply, now, callTarget, hy, h1, pure_apply]

theorem run_total {σ : Type} {env : Env d σ} {B : Bounds d} {Inv : σ → Prop}
    (hs : StepTotal env B Inv) (ht : TargetTotal env.target B) (n : ℕ) {X : List (Point d)}
    {Y : List ℝ} {w : World d σ} (hi : Inv w.model) (hX : X ≠ []) (hB : ∀ x ∈ X, InBox B x)
    (hl : X.length = Y.length) :
    ∃ w' st', optimizeWithAllInitialInformation env n X (Y.map .fin) w = (w', .ok st') := by
  obtain ⟨w', st', h⟩ := loop_total hs ht n { X := X, Y := Y.map .fin }
    { w with tick := w.tick + 1 } Y hi hX hB rfl hl
  exact ⟨{ w' with tick := w'.tick + 1 }, st', by
    simp [optimizeWithAllInitialInformation, bind_apply, RunM.lift, pyAssert, hl, now,
      pure_apply, h]⟩

theorem inputs_total {σ : Type} {env : Env d σ} {B : Bounds d} {Inv : σ → Prop}
    (hs : StepTotal env B Inv) (ht : TargetTotal env.target B) (n : ℕ) {X : List (Point d)}
    {w : World d σ} (hi : Inv w.model) (hX : X ≠ []) (hB : ∀ x ∈ X, InBox B x) :
    ∃ w' st', optimizeWithInitialInputs env n X w = (w', .ok st') := by
  obtain ⟨w1, ts, Y, h1, h2, h3⟩ := initials_total ht X w hB
  obtain ⟨w', st', h⟩ := run_total hs ht n (w := w1) (by rw [h3]; exact hi) hX hB h2.symm
  exact ⟨w', _, by simp [optimizeWithInitialInputs, bind_apply, h1, h, pure_apply]; rfl⟩

/-! ### The steps of an accepted object -/

/-- What the state must satisfy: usable hyperparameters for a Gaussian process. -/
def RunInv (a : Args d) (s : ModelState × ℕ) : Prop :=
  a.str_surrogate = "gp" → GoodState a.str_cov a.use_ard d s.1.gp

theorem own_checked {a : Args d} (h : ownChecks a = .ok ()) :
    a.num_iter > 0 ∧ a.num_samples_ao > 0 ∧
      a.str_initial_method_bo ∈ ALLOWED_INITIALIZING_METHOD_BO ∧
      a.str_sampling_method_ao ∈ ALLOWED_SAMPLING_METHOD ∧ a.str_mlm_method ∈ ALLOWED_MLM_METHOD ∧
      ∀ i, (a.range_X i).1 ≤ (a.range_X i).2 := by
  unfold ownChecks at h
  obtain ⟨_, a0, h⟩ := py_bind_ok h
  obtain ⟨_, a1, h⟩ := py_bind_ok h
  obtain ⟨_, a2, h⟩ := py_bind_ok h
  obtain ⟨_, -, h⟩ := py_bind_ok h
  obtain ⟨_, -, h⟩ := py_bind_ok h
  obtain ⟨_, -, h⟩ := py_bind_ok h
  obtain ⟨_, a3, h⟩ := py_bind_ok h
  obtain ⟨_, a4, h⟩ := py_bind_ok h
  obtain ⟨_, -, h⟩ := py_bind_ok h
  obtain ⟨_, -, h⟩ := py_bind_ok h
  obtain ⟨_, -, h⟩ := py_bind_ok h
  obtain ⟨_, a5, h⟩ := py_bind_ok h
  exact ⟨pyAssert_ok a1, pyAssert_ok a2, pyAssert_ok a3, pyAssert_ok a4, pyAssert_ok a5,
    pyAssert_ok a0⟩

theorem range_created {env : Installed} {a : Args d} {w : BayesianOptimization d} {st : ModelState}
    (h : create env a = .ok (w, st)) : w.model_bo.range_X = a.range_X := by
  obtain ⟨-, -, -, -, -, -, -, m', -, hc⟩ := create_ok h
  rcases hc with ⟨-, -, bo, hm, hi⟩ | ⟨-, -, bo, hm, hi⟩ | ⟨-, -, bo, hm, hi⟩ <;> rw [hm]
  · exact (trees_init_ok hi).1
  · exact (gp_init_ok hi).2.1
  · exact (tp_init_ok hi).1

theorem single_total {env : Installed} {a : Args d} {w : BayesianOptimization d} {st : ModelState}
    (h : create env a = .ok (w, st)) (hr : Runnable a) {o : RunOracles d} (ho : RunsWell a o)
    (clock : ℕ → ℝ) (k : ℕ) {X : List (Point d)} {Y : List ℝ} (hX : X ≠ [])
    (hl : X.length = Y.length) (s : ModelState) (t : ℕ) (hs : RunInv a (s, k)) :
    ∃ s' t' p i, optimizeSingleIteration w o clock k X Y (s, t) = ((s', t'), .ok (p, i)) ∧
      RunInv a (s', k + 1) := by
  obtain ⟨hck, -, -, e2, -, e4, e5, m', -, hc⟩ := create_ok h
  obtain ⟨-, c2, -, c4, c5, c6⟩ := own_checked hck
  have hn : X.length ≠ 0 := fun h0 => hX (List.length_eq_zero_iff.1 h0)
  unfold optimizeSingleIteration
  rw [e2, e4, e5]
  rcases hc with ⟨hsur, -, bo, hm, hi⟩ | ⟨hsur, hmlm, bo, hm, hi⟩ | ⟨hsur, -, bo, hm, hi⟩
  · obtain ⟨r1, r2, r3, -, r5, r6⟩ := trees_init_ok hi
    obtain ⟨p, i, hp⟩ := trees_optimize_total (o := ⟨o.forest k, (o.routines k).draws⟩) hr.dim r3
      (r2 ▸ r6) (r1 ▸ r5) hX hl (ho.forest k) (ho.acq k).draws clock c4 c2 s t
    refine ⟨s, t + 6, p, infoTrees i, ?_, fun hg => by rw [hsur] at hg; exact absurd hg (by decide)⟩
    rw [if_pos (by rw [hsur]; decide), hm]
    simp [modelOptimize, hp, Except.map]
  · obtain ⟨-, r1, r2, r3, r4, r5, r6, r7, -, r9, r10, r11, r12, r13⟩ := gp_init_ok hi
    have hne : a.str_surrogate ≠ "rf" := by rw [hsur]; decide
    have hst := hs hsur
    rw [← r3, ← r4] at hst
    obtain ⟨s', p, i, hp, hg⟩ := gp_optimize_total (o := o.routines k) hr.dim
      (r3.symm ▸ hr.cov hne) (r2 ▸ r10) (r1 ▸ r9) r13 hn X.get hl (r5.symm ▸ hr.prior hne)
      (r6 ▸ r11) (r7 ▸ r12) (by rw [r7, r4]; exact hr.selection hsur)
      (r4.symm ▸ ho.gp hsur k) (r1.symm ▸ ho.acq k) clock c4 c2 c5 hst t
    rw [r3, r4] at hg
    refine ⟨{ s with gp := s' }, t + 6, p, info i, ?_, fun _ => hg⟩
    rw [if_neg (by rw [hsur]; decide), if_pos hsur, hm, hmlm]
    simp [modelOptimize, hp, Except.map]
  · obtain ⟨r1, r2, r3, r4, r5, r6, -, r8, r9, r10, r11⟩ := tp_init_ok hi
    have hne : a.str_surrogate ≠ "rf" := by rw [hsur]; decide
    obtain ⟨s', p, i, hp⟩ := tp_optimize_total (o := o.routines k) hr.dim
      (r3.symm ▸ hr.cov hne) (r2 ▸ r9) (r1 ▸ r8) r11 hn X.get hl (r5.symm ▸ hr.prior hne)
      (r6 ▸ r10) (r4.symm ▸ ho.tp hsur k) (r1.symm ▸ ho.acq k) clock c4 c2 s.tp t
    refine ⟨{ s with tp := s' }, t + 6, p, info i, ?_,
      fun hg => by rw [hsur] at hg; exact absurd hg (by decide)⟩
    rw [if_neg (by rw [hsur]; decide), if_neg (by rw [hsur]; decide), if_pos hsur, hm]
    simp [modelOptimize, hp, Except.map]

theorem step_total {env : Installed} {a : Args d} {w : BayesianOptimization d} {st : ModelState}
    (h : create env a = .ok (w, st)) (hr : Runnable a) {o : RunOracles d} (ho : RunsWell a o)
    (clock : ℕ → ℝ) (target : ℕ → Point d → Py Flt) :
    StepTotal (runEnv w o clock target) a.range_X (RunInv a) := by
  intro s t X Y hs hX hl
  obtain ⟨s', t', p, i, e, hi⟩ := single_total h hr ho clock s.2 hX hl s.1 t hs
  have hstep : (runEnv w o clock target).step s t X (Y.map .fin) =
      (((s', s.2 + 1), t'), .ok (p, i)) := by
    simp only [runEnv, step, finites_map, e]
  refine ⟨(s', s.2 + 1), t', p, i, hstep, hi, ?_⟩
  obtain ⟨-, -, ok⟩ := step_ok hstep
  rw [← range_created h]
  exact ⟨ok.point, ok.points, ok.lengths, ok.finite⟩

end Verif.Lemmas
