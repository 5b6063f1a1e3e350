import Verif.Lemmas.Selection
import Mathlib.Tactic.NormNum

/-! # C03, C04, C05: choosing among candidates -/

namespace Verif.Props

open Verif.UtilsBo Verif.Spec

private theorem eval_loop {d : ℕ} (initials : List (Point d)) (f : Point d → Flt) :
    initials.foldl (fun (st : Flt × Option (Point d)) initial =>
      if f initial < st.1 then (f initial, some initial) else st) (Flt.pinf, none) =
    (initials.map (fun x => (x, f x))).foldl (fun (st : Flt × Option (Point d)) pa =>
      if True then (if pa.2 < st.1 then (pa.2, some pa.1) else st) else st) (Flt.pinf, none) := by
  rw [List.foldl_map]
  simp

private theorem evalM_loop {d : ℕ} (f : Point d → Py Flt) (g : Point d → Flt) :
    ∀ (initials : List (Point d)) (st : Flt × Option (Point d)),
    (∀ x ∈ initials, f x = .ok (g x)) →
    initials.foldlM (fun (st : Flt × Option (Point d)) initial => (do
      let acq_val ← f initial
      if acq_val < st.1 then return (acq_val, some initial) else return st : Py _)) st =
    .ok (initials.foldl (fun (st : Flt × Option (Point d)) initial =>
      if g initial < st.1 then (g initial, some initial) else st) st)
  | [], st, _ => rfl
  | x :: t, st, h => by
    have hx := h x (by simp)
    have ih := fun st => evalM_loop f g t st fun y hy => h y (by simp [hy])
    rw [List.foldlM_cons, List.foldl_cons, hx]
    by_cases hlt : g x < st.1
    · simp only [bind, Except.bind, if_pos hlt, pure, Except.pure]
      exact ih _
    · simp only [bind, Except.bind, if_neg hlt, pure, Except.pure]
      exact ih _

private theorem evalM_raises {d : ℕ} (f : Point d → Py Flt) (x : Point d) (e : PyErr)
    (hx : f x = .error e) (t : List (Point d)) :
    ∀ (s : List (Point d)) (st : Flt × Option (Point d)), (∀ y ∈ s, ∃ v, f y = .ok v) →
    (s ++ x :: t).foldlM (fun (st : Flt × Option (Point d)) initial => (do
      let acq_val ← f initial
      if acq_val < st.1 then return (acq_val, some initial) else return st : Py _)) st = .error e
  | [], st, _ => by
    simp only [List.nil_append, List.foldlM_cons, hx, bind, Except.bind]
  | y :: s, st, h => by
    obtain ⟨v, hv⟩ := h y (by simp)
    have ih := fun st => evalM_raises f x e hx t s st fun z hz => h z (by simp [hz])
    rw [List.cons_append, List.foldlM_cons, hv]
    by_cases hlt : v < st.1
    · simp only [bind, Except.bind, if_pos hlt, pure, Except.pure]
      exact ih _
    · simp only [bind, Except.bind, if_neg hlt, pure, Except.pure]
      exact ih _

/-- C03. If the objective has the values `g` on the rows, either the call returns the row which
is the first best one under `g`, or it raises `TypeError` and no row has a value below
`+inf`. -/
theorem C03_best_by_evaluation {d : ℕ} (initials : List (Point d)) (f : Point d → Py Flt)
    (g : Point d → Flt) (hf : ∀ x ∈ initials, f x = .ok (g x)) :
    (∃ i x, getBestAcquisitionByEvaluation initials f = .ok [x] ∧
      FirstBest (fun _ => True) (initials.map (fun x => (x, g x))) i x (g x)) ∨
    (getBestAcquisitionByEvaluation initials f = .error .type ∧
      ∀ x ∈ initials, ¬ g x < Flt.pinf) := by
  have h := selectLoop_spec (fun _ : Point d => True) (initials.map (fun x => (x, g x)))
  simp only [getBestAcquisitionByEvaluation]
  rw [evalM_loop f g initials _ hf, eval_loop]
  simp only [bind, Except.bind]
  rcases h with ⟨h1, h2⟩ | ⟨i, a, v, h1, h2⟩
  · right
    refine ⟨by rw [h1], ?_⟩
    intro x hx
    exact h2 x (g x) (List.mem_map.2 ⟨x, hx, rfl⟩) trivial
  · left
    have hv : v = g a := by
      have := List.mem_of_getElem? h2.1
      obtain ⟨y, _, hy⟩ := List.mem_map.1 this
      simp only [Prod.mk.injEq] at hy
      rw [← hy.1, hy.2]
    refine ⟨i, a, by rw [h1], ?_⟩
    rw [← hv]; exact h2

/-- C03. An exception of the objective is passed on: the one of the first row on which it
raises. -/
theorem C03_objective_raises {d : ℕ} (s t : List (Point d)) (x : Point d) (f : Point d → Py Flt)
    (hs : ∀ y ∈ s, ∃ v, f y = .ok v) (e : PyErr) (hx : f x = .error e) :
    getBestAcquisitionByEvaluation (s ++ x :: t) f = .error e := by
  unfold getBestAcquisitionByEvaluation
  rw [evalM_raises f x e hx t s _ hs]
  rfl

/-- C03. With an objective that does not raise, the call raises exactly when no row has a value
strictly below `+inf`. -/
theorem C03_fails_iff {d : ℕ} (initials : List (Point d)) (f : Point d → Py Flt)
    (g : Point d → Flt) (hf : ∀ x ∈ initials, f x = .ok (g x)) (e : PyErr) :
    getBestAcquisitionByEvaluation initials f = .error e ↔
      e = .type ∧ ∀ x ∈ initials, g x = Flt.nan ∨ g x = Flt.pinf := by
  have key : ∀ a : Flt, ¬ a < Flt.pinf ↔ (a = Flt.nan ∨ a = Flt.pinf) := by
    intro a; rw [Flt.lt_pinf_iff]; tauto
  rcases C03_best_by_evaluation initials f g hf with ⟨i, x, h1, h2⟩ | ⟨h1, h2⟩
  · rw [h1]
    constructor
    · intro h; simp at h
    · rintro ⟨_, h⟩
      have hx : x ∈ initials := by
        have := List.mem_of_getElem? h2.1
        obtain ⟨y, hy, hy'⟩ := List.mem_map.1 this
        simp only [Prod.mk.injEq] at hy'
        rw [← hy'.1]; exact hy
      exact absurd h2.2.2.1 ((key _).2 (h x hx))
  · rw [h1]
    constructor
    · intro h
      simp only [Except.error.injEq] at h
      exact ⟨h.symm, fun x hx => (key _).1 (h2 x hx)⟩
    · rintro ⟨rfl, _⟩; rfl

/-- A call that returns evaluated every row without an exception. -/
theorem evaluated_of_ok {d : ℕ} {initials : List (Point d)} {f : Point d → Py Flt}
    {r : List (Point d)} (h : getBestAcquisitionByEvaluation initials f = .ok r) :
    ∃ g : Point d → Flt, ∀ x ∈ initials, f x = .ok (g x) := by
  by_contra hne
  have hex : ∃ x ∈ initials, ∃ e, f x = .error e := by
    by_contra hall
    push Not at hall
    refine hne ⟨fun x => match f x with | .ok v => v | .error _ => .nan, fun x hx => ?_⟩
    cases hfx : f x with
    | ok v => simp only [hfx]
    | error e => exact absurd hfx (hall x hx e)
  obtain ⟨x, hx, e, he⟩ := hex
  have : ∃ s y t e, initials = s ++ y :: t ∧ (∀ z ∈ s, ∃ v, f z = .ok v) ∧ f y = .error e := by
    clear h hne
    induction initials with
    | nil => cases hx
    | cons a l ih =>
      cases ha : f a with
      | error e' => exact ⟨[], a, l, e', rfl, by simp, ha⟩
      | ok v =>
        rcases List.mem_cons.1 hx with rfl | hx
        · rw [ha] at he; cases he
        · obtain ⟨s, y, t, e', h1, h2, h3⟩ := ih hx
          refine ⟨a :: s, y, t, e', by rw [h1]; rfl, ?_, h3⟩
          intro z hz
          rcases List.mem_cons.1 hz with rfl | hz
          · exact ⟨v, ha⟩
          · exact h2 z hz
  obtain ⟨s, y, t, e', rfl, h2, h3⟩ := this
  rw [C03_objective_raises s t y f h2 e' h3] at h
  cases h

/-- Concrete case of C03: among the values `2, NaN, 1, 1` the third row is chosen; when the
objective raises on the second row, so does the call. -/
example : (∃ x : Point 1, getBestAcquisitionByEvaluation [![0], ![1], ![2], ![3]]
    (fun p => .ok (if p 0 = 0 then .fin 2 else if p 0 = 1 then .nan else .fin 1)) = .ok [x] ∧
      x = ![2]) ∧
    getBestAcquisitionByEvaluation [![0], ![1], ![2]]
      (fun p : Point 1 => if p 0 = 1 then .error .linalg else .ok (.fin 0)) = .error .linalg := by
  refine ⟨⟨![2], ?_, rfl⟩, C03_objective_raises [![0]] [![2]] ![1] _ ?_ _ (by simp)⟩
  · simp [getBestAcquisitionByEvaluation, bind, Except.bind, pure, Except.pure]
  · intro y hy
    simp only [List.mem_singleton] at hy
    subst hy
    exact ⟨.fin 0, by simp⟩

/-- C04. The returned pair is row `i` with its own response, where `i` is the first NaN
response if there is one and otherwise the first minimum. -/
theorem C04_best_by_history {d : ℕ} (X : List (Point d)) (Y : List Flt) (x : Point d) (y : Flt)
    (h : getBestAcquisitionByHistory X Y = .ok (x, y)) :
    ∃ i : ℕ, X[i]? = some x ∧ Y[i]? = some y ∧
      (FirstNanIdx Y i ∨ (FirstMinIdx Y i ∧ ∀ w ∈ Y, w ≠ Flt.nan)) := by
  by_cases hl : X.length = Y.length
  · cases hi : npArgmin Y with
    | error e => simp [getBestAcquisitionByHistory, pyAssert, hl, hi, bind, Except.bind] at h
    | ok i =>
      have hs := npArgmin_spec hi
      cases hX : X[i]? with
      | none =>
        simp [getBestAcquisitionByHistory, pyAssert, hl, hi, bind, Except.bind, pyIndex, hX] at h
      | some x' =>
        cases hY : Y[i]? with
        | none =>
          simp [getBestAcquisitionByHistory, pyAssert, hl, hi, bind, Except.bind, pyIndex, hX,
            hY] at h
        | some y' =>
          simp [getBestAcquisitionByHistory, pyAssert, hl, hi, bind, Except.bind, pyIndex, hX,
            hY, pure, Except.pure] at h
          exact ⟨i, by rw [hX, h.1], by rw [hY, h.2], hs⟩
  · simp [getBestAcquisitionByHistory, pyAssert, hl, bind, Except.bind] at h

/-- C04. The call succeeds exactly on non-empty histories of matching lengths. -/
theorem C04_succeeds_iff {d : ℕ} (X : List (Point d)) (Y : List Flt) :
    (∃ r, getBestAcquisitionByHistory X Y = .ok r) ↔ X.length = Y.length ∧ Y ≠ [] := by
  constructor
  · rintro ⟨⟨x, y⟩, h⟩
    obtain ⟨i, hX, hY, _⟩ := C04_best_by_history X Y x y h
    refine ⟨?_, ?_⟩
    · by_contra hl
      simp [getBestAcquisitionByHistory, pyAssert, hl, bind, Except.bind] at h
    · rintro rfl; simp at hY
  · rintro ⟨hl, hne⟩
    obtain ⟨i, hi⟩ := npArgmin_exists hne
    have hiY : i < Y.length := by
      rcases npArgmin_spec hi with h | ⟨⟨v, h, _⟩, _⟩
      · exact (List.getElem?_eq_some_iff.1 h.1).1
      · exact (List.getElem?_eq_some_iff.1 h).1
    have hiX : i < X.length := by omega
    refine ⟨(X[i], Y[i]), ?_⟩
    simp [getBestAcquisitionByHistory, pyAssert, hl, hi, bind, Except.bind, pyIndex, hiX, hiY,
      pure, Except.pure]

/-- C04. A history without NaN: the returned response is the smallest one. -/
theorem C04_is_minimum {d : ℕ} (X : List (Point d)) (Y : List Flt) (x : Point d) (y : Flt)
    (h : getBestAcquisitionByHistory X Y = .ok (x, y)) (hn : ∀ w ∈ Y, w ≠ Flt.nan) :
    ∀ w ∈ Y, y ≤ w := by
  obtain ⟨i, _, hY, hs⟩ := C04_best_by_history X Y x y h
  intro w hw
  obtain ⟨j, hj⟩ := List.mem_iff_getElem?.1 hw
  rcases hs with hs | ⟨⟨v, hv, hmin, _⟩, _⟩
  · rw [hs.1, Option.some.injEq] at hY
    exact absurd hY.symm (hn y (hY ▸ List.mem_of_getElem? hs.1))
  · rw [hv, Option.some.injEq] at hY
    rw [← hY]; exact hmin j w hj

/-- Concrete case of C04. -/
example : getBestAcquisitionByHistory [(![5] : Point 1), ![6], ![7]] [.fin 3, .fin 1, .fin 1]
    = .ok (![6], .fin 1) := by
  have h1 : ¬ ((1 : ℝ) < 1) := lt_irrefl _
  have h2 : ((1 : ℝ) < 3) := by norm_num
  simp [getBestAcquisitionByHistory, pyAssert, npArgmin, argminLoop, bind, Except.bind, pyIndex,
    pure, Except.pure, h2]

private theorem nextBest_eq {d : ℕ} (points : List (Point d)) (acqs : List Flt)
    (ev : List (Point d)) (hl : points.length = acqs.length) :
    getNextBestAcquisition points acqs ev =
      if 0 < (ev.foldl deleteSame (points, acqs)).1.length then
        .ok ((List.zip (ev.foldl deleteSame (points, acqs)).1
          (ev.foldl deleteSame (points, acqs)).2).foldl
          (fun (st : Flt × Option (Point d)) pa =>
            if pa.2 < st.1 then (pa.2, some pa.1) else st) (Flt.pinf, none)).2
      else (match ev.getLast? with
        | some a => .ok (some a)
        | none => .error .index) := by
  simp only [getNextBestAcquisition, pyAssert, hl, if_true, bind, Except.bind, pure, Except.pure,
    pyLast, gt_iff_lt]
  split_ifs
  · rfl
  · cases ev.getLast? <;> rfl

open Classical in
private theorem survivors_pos {d : ℕ} (points : List (Point d)) (acqs : List Flt)
    (ev : List (Point d)) (hl : points.length = acqs.length) :
    0 < (ev.foldl deleteSame (points, acqs)).1.length ↔ ∃ p ∈ points, FarFrom 1e-8 ev p := by
  obtain ⟨h1, h2⟩ := deleteAll_spec ev points acqs hl
  have hlen : (ev.foldl deleteSame (points, acqs)).1.length =
      ((List.zip points acqs).filter (fun pa => FarFrom 1e-8 ev pa.1)).length := by
    rw [← h2, List.length_zip, ← h1, Nat.min_self]
  rw [hlen, List.length_pos_iff_exists_mem]
  constructor
  · rintro ⟨⟨p, v⟩, hp⟩
    rw [List.mem_filter] at hp
    exact ⟨p, (List.of_mem_zip hp.1).1, by simpa using hp.2⟩
  · rintro ⟨p, hp, hf⟩
    obtain ⟨i, hi, rfl⟩ := List.mem_iff_getElem.1 hp
    refine ⟨(points[i], acqs[i]'(by omega)), ?_⟩
    rw [List.mem_filter]
    refine ⟨?_, by simpa using hf⟩
    rw [List.mem_iff_getElem?]
    exact ⟨i, by rw [List.getElem?_zip_eq_some]; simp [hi, (by omega : i < acqs.length)]⟩

/-- C05. When some candidate keeps the distance `1e-8` from every evaluated point, the result
is the first best one among such candidates; it is `None` exactly if none of them has a value
strictly below `+inf`. -/
theorem C05_next_best {d : ℕ} (points : List (Point d)) (acqs : List Flt) (ev : List (Point d))
    (hl : points.length = acqs.length) (hf : ∃ p ∈ points, FarFrom 1e-8 ev p) :
    (∃ i p v, getNextBestAcquisition points acqs ev = .ok (some p) ∧
      FirstBest (FarFrom 1e-8 ev) (List.zip points acqs) i p v) ∨
    (getNextBestAcquisition points acqs ev = .ok none ∧
      ∀ p v, (p, v) ∈ List.zip points acqs → FarFrom 1e-8 ev p → v = Flt.nan ∨ v = Flt.pinf) := by
  classical
  rw [nextBest_eq points acqs ev hl, if_pos ((survivors_pos points acqs ev hl).2 hf),
    (deleteAll_spec ev points acqs hl).2, List.foldl_filter]
  have h := selectLoop_spec (FarFrom 1e-8 ev) (List.zip points acqs)
  simp only [decide_eq_true_eq]
  rcases h with ⟨h1, h2⟩ | ⟨i, a, v, h1, h2⟩
  · right
    refine ⟨?_, ?_⟩
    · rw [h1]
    · intro p v hp hpf
      have := h2 p v hp hpf
      rw [Flt.lt_pinf_iff] at this
      tauto
  · left
    exact ⟨i, a, v, by rw [h1], h2⟩

/-- C05. When every candidate duplicates an evaluated point, the last evaluated point is
returned (and it is an error if there is none). -/
theorem C05_exhausted {d : ℕ} (points : List (Point d)) (acqs : List Flt) (ev : List (Point d))
    (hl : points.length = acqs.length) (hf : ∀ p ∈ points, ¬ FarFrom 1e-8 ev p) :
    getNextBestAcquisition points acqs ev =
      match ev.getLast? with
      | some p => .ok (some p)
      | none => .error .index := by
  have : ¬ (0 < (ev.foldl deleteSame (points, acqs)).1.length) := by
    rw [survivors_pos points acqs ev hl]
    push Not
    exact hf
  rw [nextBest_eq points acqs ev hl, if_neg this]

/-- C05. Any returned point is either an eligible candidate or, if there is none, the last
evaluated point. -/
theorem C05_result_origin {d : ℕ} (points : List (Point d)) (acqs : List Flt)
    (ev : List (Point d)) (p : Point d)
    (h : getNextBestAcquisition points acqs ev = .ok (some p)) :
    (p ∈ points ∧ FarFrom 1e-8 ev p) ∨
      ((∀ q ∈ points, ¬ FarFrom 1e-8 ev q) ∧ ev.getLast? = some p) := by
  have hl : points.length = acqs.length := by
    by_contra hl
    simp [getNextBestAcquisition, pyAssert, hl, bind, Except.bind] at h
  by_cases hf : ∃ p ∈ points, FarFrom 1e-8 ev p
  · left
    rcases C05_next_best points acqs ev hl hf with ⟨i, q, v, h1, h2⟩ | ⟨h1, _⟩
    · rw [h, Except.ok.injEq, Option.some.injEq] at h1
      subst h1
      exact ⟨(List.of_mem_zip (List.mem_of_getElem? h2.1)).1, h2.2.1⟩
    · rw [h] at h1; simp at h1
  · right
    push Not at hf
    refine ⟨hf, ?_⟩
    rw [C05_exhausted points acqs ev hl hf] at h
    cases hg : ev.getLast? with
    | none => simp [hg] at h
    | some q => simp [hg] at h; rw [h]

/-- C05. The call raises exactly on mismatched lengths or when there is nothing at all to
return (no candidates, no evaluated points). -/
theorem C05_fails_iff {d : ℕ} (points : List (Point d)) (acqs : List Flt)
    (ev : List (Point d)) (e : PyErr) :
    getNextBestAcquisition points acqs ev = .error e ↔
      (points.length ≠ acqs.length ∧ e = .assertion) ∨
      (points = [] ∧ acqs = [] ∧ ev = [] ∧ e = .index) := by
  by_cases hl : points.length = acqs.length
  · by_cases hf : ∃ p ∈ points, FarFrom 1e-8 ev p
    · have hne : points ≠ [] := by rintro rfl; simp at hf
      rcases C05_next_best points acqs ev hl hf with ⟨i, p, v, h1, _⟩ | ⟨h1, _⟩ <;>
        simp [h1, hl, hne]
    · push Not at hf
      rw [C05_exhausted points acqs ev hl hf]
      cases hg : ev.getLast? with
      | none =>
        have hev : ev = [] := List.getLast?_eq_none_iff.1 hg
        have hp : points = [] := by
          by_contra hne
          obtain ⟨p, hp⟩ := List.exists_mem_of_ne_nil _ hne
          exact hf p hp (by simp [hev, FarFrom])
        have ha : acqs = [] := by
          rw [← List.length_eq_zero_iff, ← hl, hp]; rfl
        simp [hev, hp, ha, eq_comm]
      | some q =>
        have : ev ≠ [] := by rintro rfl; simp at hg
        simp [hl, this]
  · have hne : ¬ (points = [] ∧ acqs = []) := by rintro ⟨rfl, rfl⟩; simp at hl
    simp only [getNextBestAcquisition, pyAssert, hl, if_false, bind, Except.bind,
      Except.error.injEq, ne_eq, not_false_eq_true, true_and]
    constructor
    · intro h; exact Or.inl h.symm
    · rintro (h | h)
      · exact h.symm
      · exact absurd ⟨h.1, h.2.1⟩ hne

/-- Concrete case of C05: the best candidate `0` was evaluated before, so `5` is next. -/
example : ∃ i v, getNextBestAcquisition [(![0] : Point 1), ![5]] [.fin 1, .fin 2] [![0]]
    = .ok (some ![5]) ∧
    FirstBest (FarFrom 1e-8 [![0]]) [((![0] : Point 1), Flt.fin 1), (![5], .fin 2)] i ![5] v := by
  have h0 : ¬ FarFrom 1e-8 [(![0] : Point 1)] ![0] := by
    simp [FarFrom]; norm_num
  have h5 : FarFrom 1e-8 [(![0] : Point 1)] ![5] := by
    simp [FarFrom]; norm_num
  rcases C05_next_best [(![0] : Point 1), ![5]] [.fin 1, .fin 2] [![0]] rfl
    ⟨![5], by simp, h5⟩ with ⟨i, p, v, h1, h2⟩ | ⟨_, h2⟩
  · have hp : p = ![5] := by
      have := List.mem_of_getElem? h2.1
      simp only [List.zip_cons_cons, List.mem_cons, Prod.mk.injEq, List.zip_nil_left,
        List.not_mem_nil, or_false] at this
      rcases this with h | h
      · exact absurd (h.1 ▸ h2.2.1) h0
      · exact h.1
    subst hp
    exact ⟨i, v, h1, h2⟩
  · have := h2 ![5] (.fin 2) (by simp) h5
    simp at this

end Verif.Props
