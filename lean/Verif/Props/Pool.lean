import Verif.Lemmas.Pool
import Verif.Props.Trees
import Verif.Props.Total

/-! C109: prediction in parallel processes. -/

namespace Verif.Props

open Verif.Spec Verif.Lemmas Verif.Pool Verif.Trees Verif.Constants

variable {α β : Type} {d : ℕ}

/-- C109, the pool. However many processes it has and however they interleave: when `starmap`
returns, it returns what calling the function on one argument after the other returns, in the order
of the arguments; and when it raises, the function raises that exception on one of the arguments. -/
theorem C109_starmap {W : ℕ} (hW : 0 < W) {l : List α} (hl : l ≠ []) {f : α → Py β} {n : ℕ}
    {s : St α β} (h : Run W f n (start W l) s) (hs : Finished s) :
    (∀ v, s.job.value = .ok v → ∃ ys, l.mapM f = .ok ys ∧ v = ys.map some) ∧
    ∀ e, s.job.value = .error e → ∃ x ∈ l, f x = .error e := by
  have hl' := List.length_pos_iff.2 hl
  obtain ⟨h1, h2⟩ := pool_result hW hl' h hs
  refine ⟨h1, fun e he => ?_⟩
  obtain ⟨t, ht, hte⟩ := h2 e he
  obtain ⟨x, hx, hxe⟩ := mapM_error hte
  rw [((start_tasks hW hl').1 ht).2] at hx
  exact ⟨x, List.mem_of_mem_drop (List.mem_of_mem_take hx), hxe⟩

/-- C109, no deadlock and no livelock: an execution has at most three actions per argument, and
one that cannot go on has collected everything. -/
theorem C109_ends {W : ℕ} (hW : 0 < W) {l : List α} (hl : l ≠ []) {f : α → Py β} {n : ℕ}
    {s : St α β} (h : Run W f n (start W l) s) :
    n ≤ 3 * l.length ∧ ((¬ ∃ s', Step W f s s') → Finished s) ∧
      ∃ m s', Run W f m s s' ∧ Finished s' := by
  have hl' := List.length_pos_iff.2 hl
  have hc := chunksize_pos hl' hW
  have hall : ∀ t ∈ (start W l : St α β).tasks, t.2 =
      (l.drop (t.1 * chunksize l.length W)).take (chunksize l.length W) ∧
        t.1 * chunksize l.length W < l.length := fun t ht => ((start_tasks hW hl').1 ht).symm
  have hfin : ∀ {m : ℕ} {s : St α β}, Run W f m (start W l) s → poolWork s = 0 → Finished s := by
    intro m s h h0
    obtain ⟨res, done, h1, h2, -, h4, -⟩ := poolInv_run hc hall h (poolInv_start hW hl' f)
    have hlen := h2.length_eq
    have hres := congrArg List.length h1
    simp only [poolWork] at h0
    simp only [List.length_append, List.length_map] at hlen hres
    simp only [Finished]
    omega
  have hlen : (start W l : St α β).tasks.length ≤ l.length := by
    simp only [start, List.length_map, List.length_zipIdx]
    by_contra hlt
    have h1 := getTasks_getElem? hc l.length l
    rw [if_neg (by have := Nat.le_mul_of_pos_right l.length hc; omega),
      List.getElem?_eq_none_iff] at h1
    omega
  refine ⟨?_, fun hstuck => ?_, ?_⟩
  · have := poolWork_run h
    have e : poolWork (start W l : St α β) = 3 * (start W l : St α β).tasks.length := by
      simp [poolWork, start]
    omega
  · refine hfin h ?_
    by_contra h0
    exact hstuck (pool_progress hW (Nat.pos_of_ne_zero h0))
  · have : ∀ (k : ℕ) (s : St α β) (n : ℕ), Run W f n (start W l) s → poolWork s = k →
        ∃ m s', Run W f m s s' ∧ Finished s' := by
      intro k
      induction k with
      | zero => exact fun s n h h0 => ⟨0, s, .nil s, hfin h h0⟩
      | succ k ih =>
        intro s n h hk
        obtain ⟨s', hs'⟩ := pool_progress hW (f := f) (s := s) (by omega)
        have := poolWork_step hs'
        obtain ⟨m, s'', h1, h2⟩ := ih s' (n + 1) (run_snoc h hs') (by omega)
        exact ⟨m + 1, s'', .cons hs' h1, h2⟩
    exact this _ s n h rfl

private theorem somes {γ : Type} {g : Option γ → Py γ} (hg : ∀ r, g (some r) = .ok r) :
    ∀ ys : List γ, (ys.map some).mapM g = .ok ys
  | [] => rfl
  | y :: ys => by
    rw [List.map_cons, List.mapM_cons, somes hg ys, hg]
    rfl

private theorem parts_ne {X : List (Point d)} (hX : ¬ X.length ≤ NUM_DATA_PER_SPLIT_TREES) :
    (arraySplit X ⌈(X.length : ℚ) / NUM_DATA_PER_SPLIT_TREES⌉₊).flatten = X ∧
      arraySplit X ⌈(X.length : ℚ) / NUM_DATA_PER_SPLIT_TREES⌉₊ ≠ [] := by
  have hpos : 0 < X.length := by omega
  have hk : 0 < ⌈(X.length : ℚ) / NUM_DATA_PER_SPLIT_TREES⌉₊ := by
    rw [Nat.ceil_pos]
    simp only [NUM_DATA_PER_SPLIT_TREES]
    have : (0 : ℚ) < X.length := by exact_mod_cast hpos
    positivity
  have h1 : (arraySplit X ⌈(X.length : ℚ) / NUM_DATA_PER_SPLIT_TREES⌉₊).flatten = X :=
    flatten_cutSizes _ _ (arraySplitSizes_sum hk)
  refine ⟨h1, fun h => ?_⟩
  rw [h] at h1
  rw [← h1] at hpos
  simp at hpos

/-- C109. However many processes compute the predictions of a forest and however they interleave:
what `predict_by_trees` returns is the predictions row by row; and if it raises an exception, the
prediction of one of the rows raises it. -/
theorem C109_predict {W : ℕ} (hW : 0 < W) {X : List (Point d)} {trees : List (Tree d)}
    {out : Py (List ℝ × List ℝ)} (h : PredictsTo W X trees out) :
    (∀ p, out = .ok p → ∃ preds, X.mapM (fun x => predictByTreesOne x trees) = .ok preds ∧
      p = (preds.map (·.1), preds.map (·.2))) ∧
    ∀ e, out = .error e → ∃ x ∈ X, predictByTreesOne x trees = .error e := by
  have hunit : ∀ (Xs : List (Point d)) e, unitPredictByTrees Xs trees = .error e →
      ∃ x ∈ Xs, predictByTreesOne x trees = .error e := by
    intro Xs e he
    unfold unitPredictByTrees at he
    rcases hm : Xs.mapM (fun bx => predictByTreesOne bx trees) with e' | v
    · rw [hm] at he
      obtain rfl := Except.error.inj he
      exact mapM_error hm
    · rw [hm] at he
      cases he
  have hseq := C52_rowwise X trees
  unfold PredictsTo at h
  unfold predictByTrees at hseq
  by_cases hX : X.length ≤ NUM_DATA_PER_SPLIT_TREES
  · rw [if_pos hX] at h
    subst h
    refine ⟨fun p hp => ?_, fun e he => hunit X e he⟩
    unfold unitPredictByTrees at hp
    obtain ⟨preds, h1, h2⟩ := py_bind_ok hp
    exact ⟨preds, h1, (Except.ok.inj h2).symm⟩
  · simp only [if_neg hX] at h hseq
    obtain ⟨hflat, hne⟩ := parts_ne hX
    obtain ⟨n, s, hrun, hs, rfl⟩ := h
    obtain ⟨h1, h2⟩ := C109_starmap hW hne hrun hs
    rcases hv : s.job.value with e' | v
    · refine ⟨fun p hp => ?_, fun e he => ?_⟩
      · cases hp
      · obtain rfl := Except.error.inj he
        obtain ⟨Xs, hXs, hXe⟩ := h2 _ hv
        obtain ⟨x, hx, hxe⟩ := hunit _ _ hXe
        refine ⟨x, ?_, hxe⟩
        rw [← hflat]
        exact List.mem_flatten.2 ⟨Xs, hXs, hx⟩
    · obtain ⟨ys, hys, rfl⟩ := h1 v hv
      rw [hys] at hseq
      have hb : ∀ {γ δ : Type} (a : γ) (g : γ → Py δ), ((.ok a : Py γ) >>= g) = g a :=
        fun _ _ => rfl
      rw [hb, somes fun _ => rfl, hb]
      rw [hb] at hseq
      refine ⟨fun p hp => ?_, fun e he => by cases he⟩
      rw [hseq] at hp
      obtain ⟨preds, h3, h4⟩ := py_bind_ok hp
      exact ⟨preds, h3, (Except.ok.inj h4).symm⟩

/-- C109, so with the model of one process: if that returns predictions, every execution with
processes ends with the same ones, and there is such an execution. -/
theorem C109_sequential {W : ℕ} (hW : 0 < W) {X : List (Point d)} {trees : List (Tree d)}
    {p : List ℝ × List ℝ} (hp : predictByTrees X trees = .ok p) (out : Py (List ℝ × List ℝ)) :
    PredictsTo W X trees out ↔ out = .ok p := by
  have hone : ∀ out, PredictsTo W X trees out → out = .ok p := by
    intro out h
    obtain ⟨h1, h2⟩ := C109_predict hW h
    rw [C52_rowwise] at hp
    obtain ⟨preds, h3, h4⟩ := py_bind_ok hp
    obtain rfl := Except.ok.inj h4
    rcases out with e | q
    · obtain ⟨x, hx, hxe⟩ := h2 e rfl
      obtain ⟨i, hi⟩ := List.mem_iff_getElem?.1 hx
      obtain ⟨g1, g2⟩ := mapM_getElem h3
      have hil : i < preds.length := by
        rw [g1]
        exact (List.getElem?_eq_some_iff.1 hi).1
      have := g2 i x _ hi (List.getElem?_eq_getElem hil)
      rw [hxe] at this
      cases this
    · obtain ⟨preds', h5, rfl⟩ := h1 q rfl
      rw [h3] at h5
      rw [Except.ok.inj h5]
  refine ⟨hone out, ?_⟩
  rintro rfl
  by_cases hX : X.length ≤ NUM_DATA_PER_SPLIT_TREES
  · unfold PredictsTo
    rw [if_pos hX]
    unfold predictByTrees at hp
    simp only [if_pos hX] at hp
    exact hp.symm
  · obtain ⟨-, hne⟩ := parts_ne hX
    obtain ⟨-, -, m, s, hm, hs⟩ := C109_ends hW hne
      (f := fun Xs => unitPredictByTrees Xs trees) (.nil _)
    have : ∃ out, PredictsTo W X trees out := by
      unfold PredictsTo
      simp only [if_neg hX]
      exact ⟨_, m, s, hm, hs, rfl⟩
    obtain ⟨out, ho⟩ := this
    rwa [hone out ho] at ho

/-- C109, for the forests that are grown: with any number of processes and every interleaving the
predictions of all rows are returned, the same as from one process. -/
theorem C109_forest {W : ℕ} (hW : 0 < W) {rnd : ForestRnd d} (hr : ForestRndOk rnd true)
    {X : List (Point d)} {Y : List ℝ} (hl : X.length = Y.length) (hX : X ≠ []) {nf : ℤ}
    (hn1 : 1 ≤ nf) (hnd : nf ≤ d) {num : ℕ} (hnum : 0 < num) {dm sm : ℤ} {trees : List (Tree d)}
    (ht : getRandomForest rnd X Y num dm sm nf = .ok trees) (Xs : List (Point d)) :
    ∃ p, predictByTrees Xs trees = .ok p ∧ p.1.length = Xs.length ∧ p.2.length = Xs.length ∧
      ∀ out, PredictsTo W Xs trees out ↔ out = .ok p := by
  obtain ⟨trees', h1, h2, hf⟩ := C53_random_forest hr hl hX hn1 hnd num dm sm
  rw [ht] at h1
  obtain rfl := Except.ok.inj h1
  have hne : trees ≠ [] := by
    rintro rfl
    simp at h2
    omega
  have hone : ∀ x, ∃ p, predictByTreesOne x trees = .ok p := by
    intro x
    choose L hL using fun t => exists_reaches x t
    exact ⟨_, predictByTreesOne_eq hne hf.root
      (fun t ht => ⟨(hL t).1, hf.leaves_ne t ht _ (hL t).2⟩) rfl⟩
  choose p hp using hone
  have e1 : Xs.mapM (fun x => predictByTreesOne x trees) = .ok (Xs.map p) :=
    mapM_ok _ _ _ fun x _ => hp x
  have e2 : predictByTrees Xs trees = .ok ((Xs.map p).map (·.1), (Xs.map p).map (·.2)) := by
    rw [C52_rowwise, e1]
    rfl
  exact ⟨_, e2, by simp, by simp, C109_sequential hW e2⟩

/-! ### Examples -/

/-- C109 at work: the predictions of a forest for any 250 points (three parts) with eight processes. -/
example (Xs : List (Point 2)) (hXs : Xs.length = 250) : ∃ trees : List (Tree 2), ∃ p,
    getRandomForest exForest.forest [![0, 0], ![1, 1], ![5, 5]] [3, 4, 9] 10 5 1 1 = .ok trees ∧
    predictByTrees Xs trees = .ok p ∧ p.1.length = 250 ∧
    (∀ out, PredictsTo 8 Xs trees out ↔ out = .ok p) ∧
    ∃ out, PredictsTo 8 Xs trees out := by
  obtain ⟨trees, ht, -⟩ := C53_random_forest exForest_ok
    (X := [![0, 0], ![1, 1], ![5, 5]]) (Y := [3, 4, 9]) (by simp) (by simp) (nf := 1)
    (by norm_num) (by norm_num) 10 5 1
  obtain ⟨p, h1, h2, -, h4⟩ := C109_forest (W := 8) (by norm_num) exForest_ok
    (X := [![0, 0], ![1, 1], ![5, 5]]) (Y := [3, 4, 9]) (by simp) (by simp) (nf := 1)
    (by norm_num) (by norm_num) (by norm_num) ht Xs
  exact ⟨trees, p, ht, h1, h2.trans hXs, h4, _, (h4 _).2 rfl⟩

/-- Which exception is raised does depend on the interleaving: two arguments on which the function
raises different exceptions, two processes, and two executions. -/
example :
    let f : ℕ → Py ℕ := fun k => if k = 0 then .error .value else .error .type
    (∃ s, Run 2 f 6 (start 2 [0, 1]) s ∧ Finished s ∧ s.job.value = .error .value) ∧
    ∃ s, Run 2 f 6 (start 2 [0, 1]) s ∧ Finished s ∧ s.job.value = .error .type := by
  intro f
  have hs : (start 2 [0, 1] : St ℕ ℕ) =
      ⟨[(0, [0]), (1, [1])], [], [], ⟨1, 2, .ok [none, none]⟩⟩ := by
    simp [start, chunksize, MapResult.init, getTasks]
  rw [hs]
  constructor
  · refine ⟨_, .cons (.get (by simp) rfl) (.cons (.get (by simp) rfl)
      (.cons (.put (a := []) rfl) (.cons (.put (a := []) rfl) (.cons (.collect rfl)
        (.cons (.collect rfl) (.nil _)))))), rfl, rfl⟩
  · refine ⟨_, .cons (.get (by simp) rfl) (.cons (.get (by simp) rfl)
      (.cons (.put (a := [(0, [0])]) rfl) (.cons (.put (a := []) rfl) (.cons (.collect rfl)
        (.cons (.collect rfl) (.nil _)))))), rfl, rfl⟩

/-- Results that arrive in the other order land in the right places. -/
example : ∃ s, Run 2 (fun k : ℕ => (.ok (10 * k) : Py ℕ)) 6 (start 2 [3, 4]) s ∧ Finished s ∧
    s.job.value = .ok [some 30, some 40] := by
  have hs : (start 2 [3, 4] : St ℕ ℕ) =
      ⟨[(0, [3]), (1, [4])], [], [], ⟨1, 2, .ok [none, none]⟩⟩ := by
    simp [start, chunksize, MapResult.init, getTasks]
  rw [hs]
  exact ⟨_, .cons (.get (by simp) rfl) (.cons (.get (by simp) rfl)
      (.cons (.put (a := [(0, [3])]) rfl) (.cons (.put (a := []) rfl) (.cons (.collect rfl)
        (.cons (.collect rfl) (.nil _)))))), rfl, rfl⟩

end Verif.Props
