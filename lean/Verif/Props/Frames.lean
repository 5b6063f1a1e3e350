import Verif.Lemmas.FrameCreate
import Verif.Lemmas.Seeds
import Verif.Props.Steps
import Verif.Props.WrapperOptions

/-! C107 and C108: the same problem with another origin or other units of the search space. -/

namespace Verif.Props

open Verif.Spec Verif.Lemmas Verif.BoCommon Verif.UtilsBo Verif.Constants Verif.BaseBo
open Verif.WrapperClass Verif.WrappersBo

variable {d : ℕ}

/-! ### C107 -/

private theorem shift_resolves {F : Frame d} (hF : F.IsShift) : F.Resolves Set.univ := by
  intro x _ y _
  simp only [shift_pt hF, add_sub_add_right_eq_sub]

private theorem moved_env {F : Frame d} {w : BayesianOptimization d}
    (hF : F.IsShift ∨ ∃ bo, w.model_bo = .trees bo) {o : RunOracles d}
    (ho : ∀ k, ForestRndOk (o.forest k) true) (clock : ℕ → ℝ) (target : ℕ → Point d → Py Flt)
    {S : Set (Point d)}
    (hS : ∀ s t X Y s' p i, step w o clock s t X Y = (s', .ok (p, i)) →
      p ∈ S ∧ ∀ q ∈ i.next_points, q ∈ S) :
    MovedEnv F S (runEnv (F.object w) (F.runOracles o) clock (F.target target))
      (runEnv w o clock target) where
  clock := rfl
  target k x := by simp only [runEnv, Frame.target, frame_inv_pt]
  step s t X Y := frame_step w hF o ho clock s t X Y
  closed := hS

private theorem moved_initials (F : Frame d) (B : Bounds d) (r : Draws d) (m : String) (n : ℤ) :
    getInitials (F.bounds B) r m n = (getInitials B r m n).map (List.map F.pt) := by
  simp only [getInitials, frame_samples]
  rcases pyAssert (m ∈ ALLOWED_INITIALIZING_METHOD_BO) with e | _ <;> rfl

/-- C107, the constructor: it accepts the arguments of the moved problem exactly when it accepts
those of the original one, with the same exception if not, and makes the moved object. -/
theorem C107_create (F : Frame d) (env : Installed) (a : Args d) :
    create env (F.args a) = (create env a).map fun r => (F.object r.1, r.2) := by
  unfold create
  rw [frame_ownChecks]
  rcases ownChecks a with e | _
  · rfl
  change (checkOptimizerMethodBo env a.str_optimizer_method_bo d >>= fun m =>
    getModelBo env (F.args a) m >>= _) = (checkOptimizerMethodBo env a.str_optimizer_method_bo d >>=
      fun m => getModelBo env a m >>= _).map _
  rcases checkOptimizerMethodBo env a.str_optimizer_method_bo d with e | m
  · rfl
  change (getModelBo env (F.args a) m >>= _) = (getModelBo env a m >>= _).map _
  rw [frame_getModelBo]
  rcases getModelBo env a m with e | r <;> rfl

/-- C107, one step: from the moved data the moved object proposes the moved points with the same
acquisition values, changes in the same way, reads the clock as often, and raises the same
exception if there is one. -/
theorem C107_step {F : Frame d} (hF : F.IsShift) (w : BayesianOptimization d) (o : RunOracles d)
    (ho : ∀ k, ForestRndOk (o.forest k) true) (clock : ℕ → ℝ) (s : ModelState × ℕ) (t : ℕ)
    (X : List (Point d)) (Y : List Flt) :
    step (F.object w) (F.runOracles o) clock s t (X.map F.pt) Y =
      ((step w o clock s t X Y).1,
        (step w o clock s t X Y).2.map fun r => (F.pt r.1, F.info r.2)) :=
  frame_step w (.inl hF) o ho clock s t X Y

/-- C107, a run from given data. -/
theorem C107_data {F : Frame d} (hF : F.IsShift) (w : BayesianOptimization d) (o : RunOracles d)
    (ho : ∀ k, ForestRndOk (o.forest k) true) (clock : ℕ → ℝ) (target : ℕ → Point d → Py Flt)
    (T : ℕ) (X : List (Point d)) (Y : List Flt) (u : World d (ModelState × ℕ)) :
    optimizeWithAllInitialInformation
        (runEnv (F.object w) (F.runOracles o) clock (F.target target)) T (X.map F.pt) Y
        (F.world u) =
      (F.world (optimizeWithAllInitialInformation (runEnv w o clock target) T X Y u).1,
        (optimizeWithAllInitialInformation (runEnv w o clock target) T X Y u).2.map F.loop) :=
  moves_data (shift_resolves hF) (moved_env (.inl hF) ho clock target fun _ _ _ _ _ _ _ _ =>
    ⟨trivial, fun _ _ => trivial⟩) T X Y (fun _ _ => trivial) u

/-- C107. A whole run of the object: with the origin of the search space moved, it calls the target
on the moved points in the same order, gets the same responses, reports the same times, and ends with
the same exception if it ends with one. -/
theorem C107_run {F : Frame d} (hF : F.IsShift) (w : BayesianOptimization d) (o : RunOracles d)
    (ho : ∀ k, ForestRndOk (o.forest k) true) (clock : ℕ → ℝ) (target : ℕ → Point d → Py Flt)
    (r : Draws d) (num_init : ℤ) (u : World d (ModelState × ℕ)) :
    optimize (F.object w) (F.runOracles o) clock (F.target target) r num_init (F.world u) =
      (F.world (optimize w o clock target r num_init u).1,
        (optimize w o clock target r num_init u).2.map F.loop) := by
  refine moves_optimize (S := Set.univ) (shift_resolves hF) (moved_env (.inl hF) ho clock target
    fun _ _ _ _ _ _ _ _ => ⟨trivial, fun _ _ => trivial⟩) (fun k => ?_) _ _
    (fun _ _ _ _ => trivial) u
  rw [show (F.object w).model_bo = F.surrogate w.model_bo from rfl, frame_range]
  exact moved_initials F _ _ _ _

/-! ### C108 -/

private theorem trees_closed {w : BayesianOptimization d} {bo : BaseBO d}
    (hw : w.model_bo = .trees bo) {o : RunOracles d} {clock : ℕ → ℝ} {S : Set (Point d)}
    (hS : ∀ k pts, getSamples bo.range_X (o.routines k).draws w.str_sampling_method_ao
      w.num_samples_ao = .ok pts → ∀ p ∈ pts, p ∈ S)
    {s : ModelState × ℕ} {t : ℕ} {X : List (Point d)} {Y : List Flt}
    {s' : (ModelState × ℕ) × ℕ} {p : Point d} {i : Info d}
    (h : step w o clock s t X Y = (s', .ok (p, i))) : p ∈ S ∧ ∀ q ∈ i.next_points, q ∈ S := by
  have key : ∀ Y mlm, (modelOptimize w.model_bo o clock s.2 X Y w.str_sampling_method_ao
      w.num_samples_ao mlm (s.1, t)).2 = .ok (p, i) → p ∈ S ∧ ∀ q ∈ i.next_points, q ∈ S := by
    intro Y mlm h
    rw [hw] at h
    unfold modelOptimize at h
    rcases mlm with _ | mlm
    swap
    · cases h
    simp only [Option.isSome_none, Bool.false_eq_true, if_false] at h
    rcases hr : BoWTrees.optimize bo ⟨o.forest s.2, (o.routines s.2).draws⟩ clock X Y
      w.str_sampling_method_ao w.num_samples_ao (s.1, t) with ⟨r, e | ⟨p', i'⟩⟩
    · rw [hr] at h
      cases h
    · rw [hr] at h
      obtain ⟨rfl, rfl⟩ := Prod.mk.inj (Except.ok.inj h)
      obtain ⟨-, -, -, -, -, -, -, h1, -, -, ⟨j, -, h2⟩, -⟩ := trees_optimize_ok hr
      have h3 := hS s.2 _ h1
      refine ⟨h3 _ ?_, h3⟩
      unfold pyIndex at h2
      split at h2
      · next a ha =>
        obtain rfl := Except.ok.inj h2
        exact List.mem_of_getElem? ha
      · cases h2
  unfold step at h
  rcases hf : finites Y with e | Z
  · rw [hf] at h
    cases (Prod.mk.inj h).2
  · rw [hf] at h
    replace h : (optimizeSingleIteration w o clock s.2 X Z (s.1, t)).2 = .ok (p, i) :=
      (Prod.mk.inj h).2
    unfold optimizeSingleIteration at h
    split_ifs at h
    · exact key _ _ h
    · exact key _ _ h
    · exact key _ _ h
    · cases h

/-- C108. With a random forest, a run does not depend on the units (and origins) of the
coordinates.
Proved only where the initial points and the candidates of all steps lie in a set `S` in which the
same pairs of points are closer than the fixed tolerance `1e-8` in both frames; otherwise see
`C108_violated`. -/
theorem C108_run_partial {F : Frame d} {w : BayesianOptimization d} {bo : BaseBO d}
    (hw : w.model_bo = .trees bo) {o : RunOracles d} (ho : ∀ k, ForestRndOk (o.forest k) true)
    {S : Set (Point d)} (hR : F.Resolves S)
    (hS : ∀ k pts, getSamples bo.range_X (o.routines k).draws w.str_sampling_method_ao
      w.num_samples_ao = .ok pts → ∀ p ∈ pts, p ∈ S)
    (clock : ℕ → ℝ) (target : ℕ → Point d → Py Flt) (r : Draws d) (num_init : ℤ)
    (hI : ∀ X, getInitials bo.range_X r w.str_initial_method_bo num_init = .ok X →
      ∀ x ∈ X, x ∈ S) (u : World d (ModelState × ℕ)) :
    optimize (F.object w) (F.runOracles o) clock (F.target target) r num_init (F.world u) =
      (F.world (optimize w o clock target r num_init u).1,
        (optimize w o clock target r num_init u).2.map F.loop) := by
  refine moves_optimize hR (moved_env (.inr ⟨bo, hw⟩) ho clock target
    fun s t X Y s' p i h => trees_closed hw hS h) (fun k => ?_) _ _ (fun X hX => ?_) u
  · rw [show (F.object w).model_bo = F.surrogate w.model_bo from rfl, frame_range]
    exact moved_initials F _ _ _ _
  · rw [hw] at hX
    exact hI X hX

/-- C108, one step of a random forest needs no such set: from the data in the other units it proposes
the candidate in the other units, with the same acquisition values. -/
theorem C108_step {F : Frame d} {w : BayesianOptimization d} {bo : BaseBO d}
    (hw : w.model_bo = .trees bo) {o : RunOracles d} (ho : ∀ k, ForestRndOk (o.forest k) true)
    (clock : ℕ → ℝ) (s : ModelState × ℕ) (t : ℕ) (X : List (Point d)) (Y : List Flt) :
    step (F.object w) (F.runOracles o) clock s t (X.map F.pt) Y =
      ((step w o clock s t X Y).1,
        (step w o clock s t X Y).2.map fun r => (F.pt r.1, F.info r.2)) :=
  frame_step w (.inr ⟨bo, hw⟩) o ho clock s t X Y

private theorem repeats {B : Bounds d}
    (hB : ∀ x y, InBox B x → InBox B y → Real.sqrt (∑ i, (x i - y i) ^ 2) < 1e-8)
    {X pts : List (Point d)} {acq : List Flt} {p q : Point d} (hp : InBox B p)
    (hpts : ∀ x ∈ pts, InBox B x) (hX : ∀ x ∈ X, InBox B x) (hne : X ≠ [])
    (h : getNextBestSample p X pts acq = .ok (some q)) : X.getLast? = some q := by
  have far : ∀ x, InBox B x → ¬ FarFrom 1e-8 X x := fun x hx hf => by
    obtain ⟨y, hy⟩ := List.exists_mem_of_ne_nil X hne
    exact absurd (hB x y hx (hX y hy)) (not_lt.2 (hf y hy))
  unfold getNextBestSample at h
  have hr : isRepeated p X = true := by
    by_contra hr
    exact far p hp ((not_isRepeated_iff p X).1 (by simpa using hr))
  rw [if_pos hr] at h
  rcases C05_result_origin _ _ _ _ h with ⟨h1, h2⟩ | ⟨-, h⟩
  · exact absurd h2 (far q (hpts q h1))
  · exact h

private theorem tiny {w : BayesianOptimization d}
    (hB : ∀ x y, InBox w.model_bo.range_X x → InBox w.model_bo.range_X y →
      Real.sqrt (∑ i, (x i - y i) ^ 2) < 1e-8)
    {o : RunOracles d} {clock : ℕ → ℝ} {target : ℕ → Point d → Py Flt} {r : Draws d}
    {num_init : ℤ} {u u' : World d (ModelState × ℕ)} {res : LoopSt d}
    (h : optimize w o clock target r num_init u = (u', .ok res))
    (hI : ∀ X, getInitials w.model_bo.range_X r w.str_initial_method_bo num_init = .ok X →
      X ≠ [] ∧ ∀ x ∈ X, InBox w.model_bo.range_X x) :
    ∃ X0 x, getInitials w.model_bo.range_X r w.str_initial_method_bo num_init = .ok X0 ∧
      X0.getLast? = some x ∧ res.X = X0 ++ List.replicate w.num_iter.toNat x := by
  obtain ⟨-, X0, Q, h1, h2, h3, h4⟩ := optimize_starts h
  obtain ⟨hne, hX0⟩ := hI X0 h1
  obtain ⟨x, hx⟩ : ∃ x, X0.getLast? = some x := by
    cases hl : X0.getLast? with
    | none => exact absurd (List.getLast?_eq_none_iff.1 hl) hne
    | some x => exact ⟨x, rfl⟩
  have hxB := hX0 x (List.mem_of_getLast? hx)
  have key : ∀ i ≤ Q.length, Q.take i = List.replicate i x := by
    intro i
    induction i with
    | zero => simp
    | succ i ih =>
      intro hi
      have ih := ih (by omega)
      have hq : Q[i]? = some Q[i] := List.getElem?_eq_getElem (by omega)
      obtain ⟨s, t, Y, v, p, info, e1, e2⟩ := h4 i _ hq
      obtain ⟨b1, b2⟩ := C07_steps w o clock target _ _ _ _ _ _ _ e1
      rw [ih] at e2
      have hl := repeats hB b1 b2 (fun y hy => by
        rcases List.mem_append.1 hy with hy | hy
        · exact hX0 y hy
        · rw [List.eq_of_mem_replicate hy]
          exact hxB) (by simp [hne]) e2
      have hl' : (X0 ++ List.replicate i x).getLast? = some x := by
        rw [List.getLast?_append, hx]
        cases i with
        | zero => rfl
        | succ i => simp [List.getLast?_replicate]
      rw [hl'] at hl
      rw [List.take_add_one, ih, hq, ← Option.some.inj hl, List.replicate_succ']
      rfl
  refine ⟨X0, x, h1, hx, ?_⟩
  rw [h2, ← h3, ← key Q.length le_rfl, List.take_length]

/-- C108, what the fixed tolerance does (with every surrogate): if the search space is smaller than
the tolerance, a run evaluates its last initial point again in every iteration. -/
theorem C108_tiny {env : Installed} {a : Args d} {w : BayesianOptimization d} {st : ModelState}
    (hw : create env a = .ok (w, st))
    (hB : ∀ x y, InBox a.range_X x → InBox a.range_X y →
      Real.sqrt (∑ i, (x i - y i) ^ 2) < 1e-8)
    {o : RunOracles d} {clock : ℕ → ℝ} {target : ℕ → Point d → Py Flt} {r : Draws d}
    (hd : UnitDraws r) {num_init : ℤ} {u u' : World d (ModelState × ℕ)} {res : LoopSt d}
    (h : optimize w o clock target r num_init u = (u', .ok res)) :
    ∃ X0 x, getInitials a.range_X r a.str_initial_method_bo num_init = .ok X0 ∧
      X0.getLast? = some x ∧ res.X = X0 ++ List.replicate a.num_iter.toNat x := by
  obtain ⟨hck, -, e1, -, e3, -⟩ := create_ok hw
  obtain ⟨c1, -, c3, -, -, c6⟩ := own_checked hck
  have hn : 0 < num_init := (optimize_starts h).1
  have hR := range_created hw
  rw [← hR, ← e3, ← e1]
  refine tiny (by rw [hR]; exact hB) h fun X0 hX0 => ?_
  rw [hR, e3] at hX0
  rw [hR]
  have c3' : a.str_initial_method_bo ∈ ALLOWED_INITIALIZING_METHOD_BO := c3
  have hne : a.str_initial_method_bo ≠ "grid" := by
    simp only [ALLOWED_INITIALIZING_METHOD_BO, List.mem_cons, List.not_mem_nil, or_false] at c3'
    rcases c3' with h | h | h | h <;> rw [h] <;> decide
  unfold getInitials at hX0
  rw [assert_ok c3'] at hX0
  obtain ⟨m, rfl⟩ := Int.eq_ofNat_of_zero_le hn.le
  replace hX0 : getSamples a.range_X r a.str_initial_method_bo m = .ok X0 := hX0
  have hlen := (C14_count_partial _ _ _ hne _ _ hX0).1
  refine ⟨?_, C13_in_box a.range_X c6 r hd _ _ _ hX0⟩
  rintro rfl
  simp at hlen
  omega

/-! ### Examples -/

/-- The origin of the square elsewhere. -/
noncomputable def exShift : Frame 2 := ⟨fun _ => 1, ![3, -1], fun _ => by norm_num⟩

/-- Other units of both coordinates. -/
noncomputable def exUnits : Frame 2 := ⟨![2, 1 / 2], ![0, 7], by
  intro i; fin_cases i <;> norm_num⟩

/-- Units so large that the square is smaller than the tolerance. -/
noncomputable def exTiny : Frame 2 := ⟨fun _ => 1e-10, fun _ => 0, fun _ => by norm_num⟩

/-- Draws that put every initial point in the corner of the search space. -/
noncomputable def exCorner : Draws 2 :=
  ⟨fun _ => 0, fun _ => 0, fun _ _ => 0, fun _ _ => 0⟩

private theorem exCorner_unit : UnitDraws exCorner := by
  simp [UnitDraws, exCorner]

private theorem exCreated (c : String × String)
    (hc : c ∈ [("gp", "L-BFGS-B"), ("tp", "DIRECT"), ("rf", "random_search")]) :
    ∃ w, create ⟨false, false⟩ (exArgs c.1 c.2) = .ok (w, {}) := by
  have h := exBox_le
  have h3 : (0 : ℤ) < NUM_SAMPLES_AO := by norm_num [NUM_SAMPLES_AO]
  simp only [List.mem_cons, List.not_mem_nil, or_false] at hc
  rcases hc with rfl | rfl | rfl
  all_goals
    simp only [create, ownChecks, exArgs, getModelBo, BoWGp.init, BoWTp.init, BoWTrees.init,
      initBase, checkOptimizerMethodBo, pyAssert, exBox_le, h3, implies_true, if_true, bind,
      Except.bind, pure, Except.pure]
    exact ⟨_, rfl⟩

private theorem exRun (c : String × String) {w : BayesianOptimization 2}
    (hw : create ⟨false, false⟩ (exArgs c.1 c.2) = .ok (w, {})) :
    ∃ u res, optimize w exOracles (fun k => k) (fun _ x => .ok (.fin (x 0 * x 1))) exCorner 2
      ⟨({}, 0), 0, []⟩ = (u, .ok res) ∧ res.X.length = 5 := by
  obtain ⟨h1, h2⟩ := exArgs_runs c.1 c.2
  obtain ⟨u, res, h, hl, -⟩ := C72_run hw h1 h2 exCorner_unit (fun k => k)
    (target := fun _ x => .ok (.fin (x 0 * x 1))) (fun _ x _ => ⟨_, rfl⟩) (num_init := 2)
    (by norm_num) 0 0 []
  refine ⟨u, res, h, ?_⟩
  have : (exArgs c.1 c.2).num_iter = 3 := rfl
  rw [this] at hl
  exact_mod_cast hl

/-- C107 at work: an object of each kind for the square moved by `(3, -1)` is accepted, its run
succeeds, and it evaluates the five points of the run on the original square moved by `(3, -1)`. -/
example (c : String × String)
    (hc : c ∈ [("gp", "L-BFGS-B"), ("tp", "DIRECT"), ("rf", "random_search")]) :
    ∃ w w' u u' res res', create ⟨false, false⟩ (exArgs c.1 c.2) = .ok (w, {}) ∧
      create ⟨false, false⟩ (exShift.args (exArgs c.1 c.2)) = .ok (w', {}) ∧
      optimize w exOracles (fun k => k) (fun _ x => .ok (.fin (x 0 * x 1))) exCorner 2
        ⟨({}, 0), 0, []⟩ = (u, .ok res) ∧
      optimize w' (exShift.runOracles exOracles) (fun k => k)
        (exShift.target fun _ x => .ok (.fin (x 0 * x 1))) exCorner 2
        ⟨({}, 0), 0, []⟩ = (u', .ok res') ∧
      res.X.length = 5 ∧ res'.X = res.X.map (fun x i => x i + ![3, -1] i) ∧ res'.Y = res.Y := by
  obtain ⟨w, hw⟩ := exCreated c hc
  obtain ⟨u, res, h, hl⟩ := exRun c hw
  have hF : exShift.IsShift := fun _ => rfl
  have h' := C107_run hF w exOracles (fun _ => exForest_ok) (fun k => k)
    (fun _ x => .ok (.fin (x 0 * x 1))) exCorner 2 ⟨({}, 0), 0, []⟩
  rw [h] at h'
  refine ⟨w, exShift.object w, u, _, res, _, hw, ?_, h, h', hl, ?_, rfl⟩
  · rw [C107_create, hw]
    rfl
  · refine List.map_congr_left fun x _ => funext fun i => ?_
    simp [exShift, Frame.pt]

private theorem exCandidates {w : BayesianOptimization 2} {bo : BaseBO 2}
    (hw : create ⟨false, false⟩ (exArgs "rf" "random_search") = .ok (w, {}))
    (hbo : w.model_bo = .trees bo) (k : ℕ) (pts : List (Point 2))
    (h : getSamples bo.range_X (exOracles.routines k).draws w.str_sampling_method_ao
      w.num_samples_ao = .ok pts) : ∀ p ∈ pts, p = fun _ => 5 := by
  obtain ⟨-, -, -, -, hsm, -⟩ := C77_options hw
  have hR := range_created hw
  rw [hbo] at hR
  replace hR : bo.range_X = exBox := hR
  have hm : "sobol" ∈ ALLOWED_SAMPLING_METHOD := by decide
  have hs : w.str_sampling_method_ao = "sobol" := hsm
  rw [hR, hs] at h
  unfold getSamples at h
  rw [assert_ok hm] at h
  replace h : getSamplesQmc exBox exRoutines.draws.sobol w.num_samples_ao = .ok pts := h
  unfold getSamplesQmc at h
  split_ifs at h
  obtain rfl := Except.ok.inj h
  intro p hp
  obtain ⟨i, -, rfl⟩ := List.mem_map.1 hp
  funext j
  norm_num [exRoutines, exBox]

private theorem exInitials {w : BayesianOptimization 2} {bo : BaseBO 2}
    (hw : create ⟨false, false⟩ (exArgs "rf" "random_search") = .ok (w, {}))
    (hbo : w.model_bo = .trees bo) :
    getInitials bo.range_X exCorner w.str_initial_method_bo 2 = .ok [fun _ => 0, fun _ => 0] := by
  obtain ⟨-, -, -, hi, -⟩ := C77_options hw
  have hR := range_created hw
  rw [hbo] at hR
  replace hR : bo.range_X = exBox := hR
  have hm : "sobol" ∈ ALLOWED_SAMPLING_METHOD := by decide
  have hm' : "sobol" ∈ ALLOWED_INITIALIZING_METHOD_BO := by decide
  have hs : w.str_initial_method_bo = "sobol" := hi
  rw [hR, hs]
  simp [getInitials, getSamples, assert_ok hm, assert_ok hm', bind, Except.bind, getSamplesQmc,
    exCorner, exBox]

private theorem exTrees {w : BayesianOptimization 2}
    (hw : create ⟨false, false⟩ (exArgs "rf" "random_search") = .ok (w, {})) :
    ∃ bo, w.model_bo = .trees bo := by
  obtain ⟨-, -, -, -, -, -, hcase⟩ := C77_options hw
  rcases hcase with ⟨-, h⟩ | ⟨h, -⟩ | ⟨h, -⟩
  · exact ⟨_, h⟩
  · exact absurd h (by decide)
  · exact absurd h (by decide)

/-- C108 at work: the run of five points in other units of both coordinates. -/
example : ∃ w u u' res res', create ⟨false, false⟩ (exArgs "rf" "random_search") = .ok (w, {}) ∧
      optimize w exOracles (fun k => k) (fun _ x => .ok (.fin (x 0 * x 1))) exCorner 2
        ⟨({}, 0), 0, []⟩ = (u, .ok res) ∧
      optimize (exUnits.object w) (exUnits.runOracles exOracles) (fun k => k)
        (exUnits.target fun _ x => .ok (.fin (x 0 * x 1))) exCorner 2
        ⟨({}, 0), 0, []⟩ = (u', .ok res') ∧
      res.X.length = 5 ∧ res'.X = res.X.map (fun x => ![2 * x 0, 1 / 2 * x 1 + 7]) ∧
      res'.Y = res.Y := by
  obtain ⟨w, hw⟩ := exCreated ("rf", "random_search") (by simp)
  obtain ⟨u, res, h, hl⟩ := exRun _ hw
  obtain ⟨bo, hbo⟩ := exTrees hw
  have hS : exUnits.Resolves {fun _ => 0, fun _ => 5} := by
    have h1 : ¬ Real.sqrt (2 * 5 * (2 * 5) + 1 / 2 * 5 * (1 / 2 * 5)) < 1e-8 := by
      rw [not_lt]
      refine Real.le_sqrt_of_sq_le ?_
      norm_num
    have h2 : ¬ Real.sqrt (5 * 5 + 5 * 5) < 1e-8 := by
      rw [not_lt]
      refine Real.le_sqrt_of_sq_le ?_
      norm_num
    intro x hx y hy
    rcases hx with rfl | rfl <;> rcases hy with rfl | rfl
    · simp [exUnits, Frame.pt]
    · refine ⟨fun h => absurd ?_ h1, fun h => absurd ?_ h2⟩
      · convert h using 3
        norm_num [exUnits, Frame.pt, Fin.sum_univ_two]
      · convert h using 3
        norm_num [Fin.sum_univ_two]
    · refine ⟨fun h => absurd ?_ h1, fun h => absurd ?_ h2⟩
      · convert h using 3
        norm_num [exUnits, Frame.pt, Fin.sum_univ_two]
      · convert h using 3
        norm_num [Fin.sum_univ_two]
    · simp [exUnits, Frame.pt]
  have h' := C108_run_partial hbo (o := exOracles) (fun _ => exForest_ok) hS
    (fun k pts hp p hm => .inr (exCandidates hw hbo k pts hp p hm)) (fun k => k)
    (fun _ x => .ok (.fin (x 0 * x 1))) exCorner 2 (by
      rw [exInitials hw hbo]
      rintro X hX x hx
      obtain rfl := Except.ok.inj hX
      left
      simpa using hx) ⟨({}, 0), 0, []⟩
  rw [h] at h'
  refine ⟨w, u, _, res, _, hw, h, h', hl, ?_, rfl⟩
  refine List.map_congr_left fun x _ => funext fun i => ?_
  fin_cases i <;> simp [exUnits, Frame.pt]

/-- C108 fails: with units `10¹⁰` times as large, a run of a random forest no longer looks at any
candidate, whereas in the original units its first query is the candidate `(5, 5)`. -/
theorem C108_violated : ∃ w u u' res res',
    create ⟨false, false⟩ (exArgs "rf" "random_search") = .ok (w, {}) ∧
      optimize w exOracles (fun k => k) (fun _ x => .ok (.fin (x 0 * x 1))) exCorner 2
        ⟨({}, 0), 0, []⟩ = (u, .ok res) ∧
      optimize (exTiny.object w) (exTiny.runOracles exOracles) (fun k => k)
        (exTiny.target fun _ x => .ok (.fin (x 0 * x 1))) exCorner 2
        ⟨({}, 0), 0, []⟩ = (u', .ok res') ∧
      res.X[2]? = some (fun _ => 5) ∧ res'.X = List.replicate 5 (fun _ => 0) := by
  obtain ⟨w, hw⟩ := exCreated ("rf", "random_search") (by simp)
  obtain ⟨u, res, h, hl⟩ := exRun _ hw
  obtain ⟨bo, hbo⟩ := exTrees hw
  have hw' : create ⟨false, false⟩ (exTiny.args (exArgs "rf" "random_search")) =
      .ok (exTiny.object w, {}) := by
    rw [C107_create, hw]
    rfl
  have hX0 := exInitials hw hbo
  have hB : ∀ i, exTiny.bounds exBox i = (0, 1e-9) := by
    intro i
    norm_num [exTiny, Frame.bounds, exBox]
  have hacq := exRoutines_acq exBox_le
  have hwell : RunsWell (exTiny.args (exArgs "rf" "random_search"))
      (exTiny.runOracles exOracles) := by
    have hle : ∀ i, (exTiny.bounds exBox i).1 ≤ (exTiny.bounds exBox i).2 := by
      intro i
      rw [hB]
      norm_num
    have hpt : ∀ x, exTiny.pt (exTiny.inv x) = x := by
      intro x
      funext i
      simp only [exTiny, Frame.pt, Frame.inv]
      ring
    refine ⟨fun _ _ => exRoutines_fit _, fun _ _ => exRoutines_fit _,
      fun _ => ⟨fun _ x0 h0 _ => ⟨x0, h0, ?_⟩, fun _ _ => ⟨fun i => (exTiny.bounds exBox i).1,
        fun i => ⟨le_rfl, hle i⟩, ?_⟩, fun _ x0 _ h0 _ => ⟨x0, h0, ?_⟩, hacq.draws⟩,
      fun _ => exForest_ok⟩
    · exact congrArg Except.ok (hpt x0)
    · refine congrArg Except.ok (funext fun i => ?_)
      show exTiny.s i * (exTiny.boundsInv (exTiny.bounds exBox) i).1 + exTiny.t i = _
      rw [frame_boundsInv]
      rfl
    · exact congrArg Except.ok (hpt x0)
  obtain ⟨u', res', h', -⟩ := C72_run hw' ⟨by norm_num, fun h => absurd h (by decide),
    fun h => absurd h (by decide), fun _ => .inl rfl⟩ hwell exCorner_unit (fun k => k)
    (target := exTiny.target fun _ x => .ok (.fin (x 0 * x 1))) (fun _ x _ => ⟨_, rfl⟩)
    (num_init := 2) (by norm_num) 0 0 []
  refine ⟨w, u, u', res, res', hw, h, h', ?_, ?_⟩
  · obtain ⟨-, X0, Q, e1, e2, e3, e4⟩ := optimize_starts h
    rw [hbo] at e1
    rw [show getInitials (Surrogate.trees bo).range_X exCorner w.str_initial_method_bo 2 = _ from hX0]
      at e1
    obtain rfl := Except.ok.inj e1
    have hQ : 0 < Q.length := by
      rw [e2] at hl
      simp at hl
      omega
    obtain ⟨s, t, Y, v', p, info, hstep, hnext⟩ := e4 0 _ (List.getElem?_eq_getElem hQ)
    have hp : p = fun _ => 5 := (trees_closed hbo (exCandidates hw hbo) hstep).1
    subst hp
    have hfar : isRepeated (fun _ => 5) ([fun _ : Fin 2 => (0 : ℝ), fun _ => 0] ++ Q.take 0) =
        false := by
      rw [not_isRepeated_iff]
      intro e he
      have he : e = fun _ => 0 := by simpa using he
      subst he
      refine Real.le_sqrt_of_sq_le ?_
      norm_num [Fin.sum_univ_two]
    unfold getNextBestSample at hnext
    rw [hfar] at hnext
    simp only [Bool.false_eq_true, if_false] at hnext
    have hq := Option.some.inj (Except.ok.inj hnext)
    rw [e2, hq]
    simp [List.getElem?_eq_getElem hQ]
  · obtain ⟨X0, x, g1, g2, g3⟩ := C108_tiny hw' (fun x y hx hy => by
      have hd : ∀ i, (x i - y i) ^ 2 ≤ 1e-18 := by
        intro i
        obtain ⟨a1, a2⟩ := hx i
        obtain ⟨b1, b2⟩ := hy i
        change (exTiny.bounds exBox i).1 ≤ _ at a1 b1
        change _ ≤ (exTiny.bounds exBox i).2 at a2 b2
        rw [hB] at a1 a2 b1 b2
        simp only at a1 a2 b1 b2
        have h1 : |x i - y i| ≤ 1e-9 := abs_le.2 ⟨by linarith, by linarith⟩
        calc (x i - y i) ^ 2 = |x i - y i| ^ 2 := (sq_abs _).symm
          _ ≤ (1e-9) ^ 2 := pow_le_pow_left₀ (abs_nonneg _) h1 2
          _ = 1e-18 := by norm_num
      rw [Fin.sum_univ_two, Real.sqrt_lt' (by norm_num)]
      have := hd 0
      have := hd 1
      norm_num at *
      linarith) exCorner_unit h'
    have : getInitials (exTiny.bounds exBox) exCorner w.str_initial_method_bo 2 =
        .ok [fun _ => 0, fun _ => 0] := by
      have hb : bo.range_X = exBox := by
        have := range_created hw
        rw [hbo] at this
        exact this
      rw [moved_initials, ← hb, hX0]
      have : exTiny.pt (fun _ => 0) = fun _ => 0 := by
        funext i
        simp [exTiny, Frame.pt]
      simp [this, Except.map]
    have e : X0 = [fun _ => 0, fun _ => 0] := Except.ok.inj (g1.symm.trans (by
      obtain ⟨-, -, -, hi, -⟩ := C77_options hw
      rw [hi] at this
      exact this))
    subst e
    obtain rfl := Option.some.inj g2
    rw [g3]
    rfl

end Verif.Props
