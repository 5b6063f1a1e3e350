import Verif.Lemmas.FrameSteps
import Verif.Lemmas.StepTrace
import Verif.Lemmas.WrappersBo
import Verif.Props.Selection

/-! A whole run in another frame of the search space. -/

namespace Verif.Lemmas

open Verif.Spec Verif.UtilsBo Verif.BaseBo
open Verif.BoCommon Verif.Constants Verif.Gp Verif.WrapperClass Verif.WrappersBo

variable {d : ℕ} {F : Frame d} {S : Set (Point d)}

theorem npWhere_map {α β : Type} (f : α → β) {p' : β → Prop} {p : α → Prop} (l : List α)
    (h : ∀ x ∈ l, p' (f x) ↔ p x) : npWhere p' (l.map f) = npWhere p l := by
  classical
  unfold npWhere
  rw [List.zipIdx_map, List.filter_map, List.map_map]
  have : ∀ q ∈ l.zipIdx, ((fun q : β × ℕ => decide (p' q.1)) ∘ Prod.map f id) q =
      decide (p q.1) := by
    rintro ⟨x, k⟩ hq
    simp only [Function.comp_apply, Prod.map_apply, id_eq]
    exact decide_eq_decide.2 (h x (List.fst_mem_of_mem_zipIdx hq))
  refine Eq.trans ?_ (congrArg (List.map Prod.snd) (List.filter_congr this))
  rfl

theorem npDelete_map {α β : Type} (f : α → β) (l : List α) (inds : List ℕ) :
    npDelete (l.map f) inds = (npDelete l inds).map f := by
  unfold npDelete
  rw [List.zipIdx_map, List.filter_map, List.map_map, List.map_map]
  rfl

theorem npDelete_sub {α : Type} {l : List α} {inds : List ℕ} {x : α} (h : x ∈ npDelete l inds) :
    x ∈ l := by
  unfold npDelete at h
  obtain ⟨⟨y, k⟩, hq, rfl⟩ := List.mem_map.1 h
  exact List.fst_mem_of_mem_zipIdx (List.mem_filter.1 hq).1

theorem frame_close (hR : F.Resolves S) {x y : Point d} (hx : x ∈ S) (hy : y ∈ S) :
    norm2 (fun i => F.pt x i - F.pt y i) < TOLERANCE_DUPLICATED_ACQ ↔
      norm2 (fun i => x i - y i) < TOLERANCE_DUPLICATED_ACQ := hR x hx y hy

theorem frame_deleteSame (hR : F.Resolves S) (st : List (Point d) × List Flt)
    (hst : ∀ p ∈ st.1, p ∈ S) {c : Point d} (hc : c ∈ S) :
    deleteSame (st.1.map F.pt, st.2) (F.pt c) =
      ((deleteSame st c).1.map F.pt, (deleteSame st c).2) := by
  unfold deleteSame
  simp only
  rw [npWhere_map F.pt st.1 (p := fun p : Point d =>
      norm2 (fun i => p i - c i) < TOLERANCE_DUPLICATED_ACQ)
      (fun x hx => frame_close hR (hst x hx) hc), npDelete_map]

theorem frame_deleteLoop (hR : F.Resolves S) : ∀ (E : List (Point d)) (st : List (Point d) × List Flt),
    (∀ p ∈ st.1, p ∈ S) → (∀ p ∈ E, p ∈ S) →
    (E.map F.pt).foldl deleteSame (st.1.map F.pt, st.2) =
        ((E.foldl deleteSame st).1.map F.pt, (E.foldl deleteSame st).2) ∧
      ∀ p ∈ (E.foldl deleteSame st).1, p ∈ S
  | [], st, h, _ => ⟨rfl, h⟩
  | c :: E, st, h, hE => by
    simp only [List.map_cons, List.foldl_cons]
    rw [frame_deleteSame hR st h (hE c (by simp))]
    refine frame_deleteLoop hR E (deleteSame st c) (fun p hp => ?_) fun p hp => hE p (by simp [hp])
    exact h p (npDelete_sub hp)

theorem frame_best (f : Point d → Point d) : ∀ (l : List (Point d × Flt)) (st : Flt × Option (Point d)),
    (l.map fun pa => (f pa.1, pa.2)).foldl (fun (st : Flt × Option (Point d)) pa =>
        if pa.2 < st.1 then (pa.2, some pa.1) else st) (st.1, st.2.map f) =
      ((l.foldl (fun (st : Flt × Option (Point d)) pa =>
        if pa.2 < st.1 then (pa.2, some pa.1) else st) st).1,
       (l.foldl (fun (st : Flt × Option (Point d)) pa =>
        if pa.2 < st.1 then (pa.2, some pa.1) else st) st).2.map f)
  | [], st => rfl
  | pa :: l, st => by
    simp only [List.map_cons, List.foldl_cons]
    split_ifs
    · exact frame_best f l (pa.2, some pa.1)
    · exact frame_best f l st

theorem frame_nextBest (hR : F.Resolves S) {pts E : List (Point d)} (acq : List Flt)
    (hp : ∀ p ∈ pts, p ∈ S) (hE : ∀ p ∈ E, p ∈ S) :
    getNextBestAcquisition (pts.map F.pt) acq (E.map F.pt) =
      (getNextBestAcquisition pts acq E).map (Option.map F.pt) := by
  obtain ⟨h1, -⟩ := frame_deleteLoop hR E (pts, acq) hp hE
  simp only [getNextBestAcquisition, List.length_map]
  rw [h1]
  rcases pyAssert (pts.length = acq.length) with e | _
  · rfl
  simp only [bind, Except.bind, List.length_map]
  rcases E.foldl deleteSame (pts, acq) with ⟨pts', acq'⟩
  simp only
  split_ifs
  · have hz : List.zip (pts'.map F.pt) acq' = (List.zip pts' acq').map fun pa => (F.pt pa.1, pa.2) := by
      rw [List.zip_map_left]
      rfl
    have h2 := frame_best F.pt (List.zip pts' acq') (Flt.pinf, none)
    rw [Option.map_none] at h2
    rw [hz, h2]
    rfl
  · simp only [pyLast, List.getLast?_map]
    rcases E.getLast? with _ | p <;> rfl

theorem frame_nextSample (hR : F.Resolves S) {p : Point d} {X pts : List (Point d)}
    (acq : List Flt) (hp : p ∈ S) (hpts : ∀ p ∈ pts, p ∈ S) (hX : ∀ p ∈ X, p ∈ S) :
    getNextBestSample (F.pt p) (X.map F.pt) (pts.map F.pt) acq =
      (getNextBestSample p X pts acq).map (Option.map F.pt) := by
  have h1 : isRepeated (F.pt p) (X.map F.pt) = isRepeated p X := by
    unfold isRepeated
    rw [npWhere_map F.pt X (p := fun x : Point d =>
      norm2 (fun i => p i - x i) < TOLERANCE_DUPLICATED_ACQ)
      (fun x hx => frame_close hR hp (hX x hx))]
  simp only [getNextBestSample, h1, frame_nextBest hR acq hpts hX]
  split_ifs <;> rfl

/-- The second surroundings are the first ones in the new coordinates, and the steps stay in `S`. -/
structure MovedEnv {σ : Type} (F : Frame d) (S : Set (Point d)) (env' env : Env d σ) : Prop where
  clock : env'.clock = env.clock
  target : ∀ k x, env'.target k (F.pt x) = env.target k x
  step : ∀ s t X Y, env'.step s t (X.map F.pt) Y =
    ((env.step s t X Y).1, (env.step s t X Y).2.map fun r => (F.pt r.1, F.info r.2))
  closed : ∀ s t X Y s' p i, env.step s t X Y = (s', .ok (p, i)) →
    p ∈ S ∧ ∀ q ∈ i.next_points, q ∈ S

/-- `m'` does in the new coordinates what `m` does in the old ones. -/
def Moves {σ A A' : Type} (F : Frame d) (f : A → A') (m' : RunM d σ A') (m : RunM d σ A) : Prop :=
  ∀ u, m' (F.world u) = (F.world (m u).1, (m u).2.map f)

theorem moves_bind {σ A A' B B' : Type} {f : A → A'} {g : B → B'} {m' : RunM d σ A'}
    {m : RunM d σ A} {k' : A' → RunM d σ B'} {k : A → RunM d σ B} (h : Moves F f m' m)
    (hk : ∀ a, (∃ u u', m u = (u', .ok a)) → Moves F g (k' (f a)) (k a)) :
    Moves F g (m' >>= k') (m >>= k) := fun u => by
  simp only [bind, h u]
  rcases hm : m u with ⟨u', e | a⟩
  · rfl
  · exact hk a ⟨u, u', hm⟩ u'

theorem moves_pure {σ A A' : Type} (f : A → A') (a : A) :
    Moves F f (pure (f a) : RunM d σ A') (pure a) := fun _ => rfl

theorem moves_lift {σ A A' : Type} {f : A → A'} {p' : Py A'} {p : Py A} (h : p' = p.map f) :
    Moves F f (RunM.lift p' : RunM d σ A') (RunM.lift p) := fun u => by rw [h]; rfl

theorem moves_lift_self {σ A : Type} (p : Py A) :
    Moves F id (RunM.lift p : RunM d σ A) (RunM.lift p) := moves_lift (by cases p <;> rfl)

theorem moves_now {σ : Type} {env' env : Env d σ} (h : MovedEnv F S env' env) :
    Moves F id (now env') (now env) := fun u => by
  simp only [now, h.clock]
  rfl

theorem moves_target {σ : Type} {env' env : Env d σ} (h : MovedEnv F S env' env) (x : Point d) :
    Moves F id (callTarget env' (F.pt x)) (callTarget env x) := fun u => by
  simp only [callTarget, Frame.world, List.length_map, h.target, List.map_append, List.map_cons,
    List.map_nil]
  rcases env.target u.log.length x with e | y <;> rfl

theorem moves_step {σ : Type} {env' env : Env d σ} (h : MovedEnv F S env' env)
    (X : List (Point d)) (Y : List Flt) :
    Moves F (fun r => (F.pt r.1, F.info r.2)) (callStep env' (X.map F.pt) Y) (callStep env X Y) :=
  fun u => by
  simp only [callStep, Frame.world, h.step]

theorem frame_vstack (X : List (Point d)) (q : Option (Point d)) :
    vstackRow (X.map F.pt) (q.map F.pt) =
      (vstackRow X q).map fun r => (r.1.map F.pt, F.pt r.2) := by
  rcases q with _ | q
  · simp only [vstackRow, Option.map_none]
    split_ifs <;> rfl
  · simp only [vstackRow, Option.map_some, Except.map, List.map_append, List.map_cons, List.map_nil]

theorem moves_iteration {σ : Type} {env' env : Env d σ} (hR : F.Resolves S)
    (h : MovedEnv F S env' env) (st : LoopSt d) (hX : ∀ x ∈ st.X, x ∈ S) :
    Moves F F.loop (classIteration env' (F.loop st)) (classIteration env st) := by
  unfold classIteration
  refine moves_bind (moves_now h) fun t0 _ => ?_
  refine moves_bind (moves_step h st.X st.Y) ?_
  rintro ⟨p, i⟩ ⟨u, u', hu⟩
  obtain ⟨hp, hi⟩ := h.closed u.model u.tick st.X st.Y (env.step u.model u.tick st.X st.Y).1 p i
    (Prod.ext rfl (Prod.mk.inj hu).2)
  refine moves_bind (f := Option.map F.pt)
    (moves_lift (frame_nextSample hR i.acquisitions hp hi hX)) fun q _ => ?_
  refine moves_bind (moves_lift (frame_vstack st.X q)) fun r _ => ?_
  refine moves_bind (moves_now h) fun t1 _ => ?_
  refine moves_bind (moves_target h r.2) fun y _ => ?_
  refine moves_bind (moves_now h) fun t2 _ => ?_
  refine moves_bind (moves_now h) fun t3 _ => ?_
  exact fun u => rfl

theorem iteration_closed {σ : Type} {env' env : Env d σ} (h : MovedEnv F S env' env)
    {st st' : LoopSt d} (hX : ∀ x ∈ st.X, x ∈ S) {u u' : World d σ}
    (hu : classIteration env st u = (u', .ok st')) : ∀ x ∈ st'.X, x ∈ S := by
  rcases classIteration_cases env u st with ⟨_, _, _, _, p, q, i, y, h1, h2⟩ | ⟨_, _, h1, -⟩
  swap
  · rw [hu] at h1
    cases (Prod.mk.inj h1).2
  rw [hu] at h1
  obtain rfl := Except.ok.inj (Prod.mk.inj h1).2
  obtain ⟨hp, hi⟩ := h.closed _ _ _ _ _ _ _ h2.step
  have hqS : q ∈ S := by
    have hq := h2.choice
    unfold getNextBestSample at hq
    split_ifs at hq
    · rcases Props.C05_result_origin _ _ _ _ hq with ⟨hq, -⟩ | ⟨-, hq⟩
      · exact hi q hq
      · exact hX q (List.mem_of_getLast? hq)
    · obtain rfl := Option.some.inj (Except.ok.inj hq)
      exact hp
  intro x hx
  rw [h2.state] at hx
  rcases List.mem_append.1 hx with hx | hx
  · exact hX x hx
  · rw [List.mem_singleton.1 hx]
    exact hqS

theorem moves_loop {σ : Type} {env' env : Env d σ} (hR : F.Resolves S)
    (h : MovedEnv F S env' env) : ∀ (n : ℕ) (st : LoopSt d), (∀ x ∈ st.X, x ∈ S) →
    Moves F F.loop (classLoop env' n (F.loop st)) (classLoop env n st)
  | 0, st, _ => moves_pure _ _
  | n + 1, st, hX => moves_bind (moves_iteration hR h st hX) fun st' ⟨_, _, hu⟩ =>
      moves_loop hR h n st' (iteration_closed h hX hu)

theorem moves_data {σ : Type} {env' env : Env d σ} (hR : F.Resolves S)
    (h : MovedEnv F S env' env) (n : ℕ) (X : List (Point d)) (Y : List Flt)
    (hX : ∀ x ∈ X, x ∈ S) :
    Moves F F.loop (optimizeWithAllInitialInformation env' n (X.map F.pt) Y)
      (optimizeWithAllInitialInformation env n X Y) := by
  unfold optimizeWithAllInitialInformation
  rw [List.length_map]
  refine moves_bind (moves_lift_self _) fun _ _ => ?_
  refine moves_bind (moves_now h) fun _ _ => ?_
  refine moves_bind (moves_loop hR h n ⟨X, Y, [], [], []⟩ hX) fun s _ => ?_
  refine moves_bind (moves_now h) fun _ _ => ?_
  exact moves_pure _ _

theorem moves_initials {σ : Type} {env' env : Env d σ} (h : MovedEnv F S env' env) :
    ∀ X : List (Point d), Moves F id (classInitials env' (X.map F.pt)) (classInitials env X)
  | [] => moves_pure id _
  | x :: X => by
    refine moves_bind (moves_now h) fun t0 _ => ?_
    refine moves_bind (moves_target h x) fun y _ => ?_
    refine moves_bind (moves_now h) fun t1 _ => ?_
    refine moves_bind (moves_initials h X) fun r _ => ?_
    exact moves_pure id _

theorem moves_inputs {σ : Type} {env' env : Env d σ} (hR : F.Resolves S)
    (h : MovedEnv F S env' env) (n : ℕ) (X : List (Point d)) (hX : ∀ x ∈ X, x ∈ S) :
    Moves F F.loop (optimizeWithInitialInputs env' n (X.map F.pt))
      (optimizeWithInitialInputs env n X) := by
  unfold optimizeWithInitialInputs
  refine moves_bind (moves_initials h X) fun r _ => ?_
  refine moves_bind (moves_data hR h n X r.1 hX) fun s _ => ?_
  exact fun u => rfl

theorem moves_optimize {σ : Type} {env' env : Env d σ} (hR : F.Resolves S)
    (h : MovedEnv F S env' env) {i' i : ℤ → Py (List (Point d))}
    (hi : ∀ k, i' k = (i k).map (List.map F.pt)) (n : ℕ) (num_init : ℤ)
    (hX : ∀ X, i num_init = .ok X → ∀ x ∈ X, x ∈ S) :
    Moves F F.loop (classOptimize env' i' n num_init) (classOptimize env i n num_init) := by
  unfold classOptimize
  refine moves_bind (moves_lift_self _) fun _ _ => ?_
  refine moves_bind (moves_now h) fun _ _ => ?_
  refine moves_bind (moves_lift (hi num_init)) ?_
  rintro X ⟨_, _, hu⟩
  refine moves_bind (moves_inputs hR h n X (hX X (Prod.mk.inj hu).2)) fun s _ => ?_
  refine moves_bind (moves_now h) fun _ _ => ?_
  exact moves_pure _ _

/-! ### The object -/

theorem frame_zero (F : Frame 0) : F.pt = id := funext fun x => funext fun i => i.elim0

theorem frame_modelOptimize {F : Frame d} (m : Surrogate d)
    (hF : F.IsShift ∨ ∃ bo, m = .trees bo) (o : RunOracles d)
    (ho : ∀ k, ForestRndOk (o.forest k) true) (clock : ℕ → ℝ) (k : ℕ) (X : List (Point d))
    (Y : List ℝ) (sm : String) (ns : ℤ) (mlm : Option String) :
    Echoes (fun r => (F.pt r.1, F.info r.2))
      (modelOptimize (F.surrogate m) (F.runOracles o) clock k (X.map F.pt) Y sm ns mlm)
      (modelOptimize m o clock k X Y sm ns mlm) := by
  intro s
  rcases m with bo | bo | bo
  · have hF' : F.IsShift := by
      rcases hF with h | ⟨bo', h⟩
      · exact h
      · cases h
    refine (vec_map (fun (k' : ℕ) (Z : Covariance.Inputs k' d) =>
      ((({ s.1 with gp := (BoWGp.optimize (frameGp F bo) (F.oracles (o.routines k)) clock Z Y sm ns
            (mlm.getD STR_MLM_METHOD) (s.1.gp, s.2)).1.1 } : ModelState),
        (BoWGp.optimize (frameGp F bo) (F.oracles (o.routines k)) clock Z Y sm ns
            (mlm.getD STR_MLM_METHOD) (s.1.gp, s.2)).1.2),
       (BoWGp.optimize (frameGp F bo) (F.oracles (o.routines k)) clock Z Y sm ns
            (mlm.getD STR_MLM_METHOD) (s.1.gp, s.2)).2.map
         fun a => (a.1, WrapperClass.info a.2))) F.pt X).trans ?_
    simp only [gp_step_moved hF' bo (o.routines k) clock (.vec X.get) Y sm ns
      (mlm.getD STR_MLM_METHOD) (s.1.gp, s.2)]
    simp only [modelOptimize]
    rcases (BoWGp.optimize bo (o.routines k) clock (.vec X.get) Y sm ns
      (mlm.getD STR_MLM_METHOD) (s.1.gp, s.2)).2 with e | r <;> rfl
  · have hF' : F.IsShift := by
      rcases hF with h | ⟨bo', h⟩
      · exact h
      · cases h
    rcases mlm with _ | mlm
    swap
    · rfl
    refine (vec_map (fun (k' : ℕ) (Z : Covariance.Inputs k' d) =>
      ((({ s.1 with tp := (BoWTp.optimize (frameTp F bo) (F.oracles (o.routines k)) clock Z Y sm ns
        (s.1.tp, s.2)).1.1 } : ModelState),
        (BoWTp.optimize (frameTp F bo) (F.oracles (o.routines k)) clock Z Y sm ns
        (s.1.tp, s.2)).1.2),
       (BoWTp.optimize (frameTp F bo) (F.oracles (o.routines k)) clock Z Y sm ns
        (s.1.tp, s.2)).2.map
         fun a => (a.1, WrapperClass.info a.2))) F.pt X).trans ?_
    simp only [tp_step_moved hF' bo (o.routines k) clock (.vec X.get) Y sm ns (s.1.tp, s.2)]
    simp only [modelOptimize, Option.isSome_none, Bool.false_eq_true, if_false]
    rcases (BoWTp.optimize bo (o.routines k) clock (.vec X.get) Y sm ns (s.1.tp, s.2)).2
      with e | r <;> rfl
  · rcases mlm with _ | mlm
    swap
    · rfl
    rcases Nat.eq_zero_or_pos d with rfl | hd
    · have h1 : F.bounds = id := funext fun B => funext fun i => i.elim0
      have h2 : ∀ i : Info 0, F.info i = i := fun i => by
        simp only [Frame.info, frame_zero, List.map_id]
      simp only [modelOptimize, Frame.surrogate, h1, frame_zero, List.map_id, id_eq, h2,
        Option.isSome_none, Bool.false_eq_true, if_false, Frame.runOracles, Frame.oracles]
      rcases (BoWTrees.optimize bo ⟨o.forest k, (o.routines k).draws⟩ clock X Y sm ns s).2
        with e | r <;> rfl
    · exact trees_step_moved F hd bo (ho k) (o.routines k).draws clock X Y sm ns s

theorem frame_step {F : Frame d} (w : BayesianOptimization d)
    (hF : F.IsShift ∨ ∃ bo, w.model_bo = .trees bo) (o : RunOracles d)
    (ho : ∀ k, ForestRndOk (o.forest k) true) (clock : ℕ → ℝ) (s : ModelState × ℕ) (t : ℕ)
    (X : List (Point d)) (Y : List Flt) :
    step (F.object w) (F.runOracles o) clock s t (X.map F.pt) Y =
      ((step w o clock s t X Y).1,
        (step w o clock s t X Y).2.map fun r => (F.pt r.1, F.info r.2)) := by
  have h1 : ∀ Y, Echoes (fun r => (F.pt r.1, F.info r.2))
      (optimizeSingleIteration (F.object w) (F.runOracles o) clock s.2 (X.map F.pt) Y)
      (optimizeSingleIteration w o clock s.2 X Y) := by
    intro Y
    unfold optimizeSingleIteration
    change Echoes _ (if w.str_surrogate ∈ ALLOWED_SURROGATE_TREES then _ else
      if w.str_surrogate = "gp" then _ else if w.str_surrogate = "tp" then _ else _) _
    by_cases h1 : w.str_surrogate ∈ ALLOWED_SURROGATE_TREES
    · rw [if_pos h1, if_pos h1]
      exact frame_modelOptimize _ hF o ho clock _ X Y _ _ _
    rw [if_neg h1, if_neg h1]
    by_cases h2 : w.str_surrogate = "gp"
    · rw [if_pos h2, if_pos h2]
      exact frame_modelOptimize _ hF o ho clock _ X Y _ _ _
    rw [if_neg h2, if_neg h2]
    by_cases h3 : w.str_surrogate = "tp"
    · rw [if_pos h3, if_pos h3]
      exact frame_modelOptimize _ hF o ho clock _ X Y _ _ _
    rw [if_neg h3, if_neg h3]
    exact fun _ => rfl
  unfold step
  rcases finites Y with e | Y
  · rfl
  · simp only [h1 Y (s.1, t)]

theorem frame_range (F : Frame d) (m : Surrogate d) :
    (F.surrogate m).range_X = F.bounds m.range_X := by
  cases m <;> rfl

end Verif.Lemmas
