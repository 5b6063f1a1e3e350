import Verif.Spec.Figures
import Verif.Lemmas.Flt
import Verif.Lemmas.StepAcq
import Verif.Props.Curves

/-! C86, C87: figures of regression and of optimisation steps. -/

namespace Verif.Props

open Verif.Spec Verif.Lemmas Verif.UtilsPlotting Verif.UtilsCommon

theorem flatten_col (l : List ℝ) : flatten (col l) = l := by
  simp [flatten, col, ← List.flatMap_def, List.flatMap_singleton']

theorem col_flatten {a : Arr2 ℝ} (h : a.ncols = 1) : a = col (flatten a) := by
  obtain ⟨rows, k, wf⟩ := a
  subst h
  simp only [col, flatten, Arr2.mk.injEq, and_true]
  induction rows with
  | nil => rfl
  | cons r t ih =>
    obtain ⟨x, rfl⟩ := List.length_eq_one_iff.1 (wf r (by simp))
    simpa using ih fun r hr => wf r (by simp [hr])

theorem col_length (l : List ℝ) : (col l).rows.length = l.length := by simp [col]

private theorem assert_ok {p : Prop} [Decidable p] {u : Unit} (h : pyAssert p = .ok u) : p := by
  by_contra hn
  simp [pyAssert, hn] at h

private theorem view {l : List ℝ} {a b : ℝ} (ha : npMin l = .ok a) (hb : npMax l = .ok b)
    {ax : Axes} (h : ax.xlim = some (a, b)) (x : ℝ) :
    InView ax x ↔ ∃ a ∈ l, ∃ b ∈ l, a ≤ x ∧ x ≤ b := by
  constructor
  · rintro ⟨a', b', e, h1, h2⟩
    rw [h] at e
    simp only [Option.some.injEq, Prod.mk.injEq] at e
    obtain ⟨rfl, rfl⟩ := e
    exact ⟨a, (npMin_ok.1 ha).1, b, (npMax_ok.1 hb).1, h1, h2⟩
  · rintro ⟨a', h1, b', h2, h3, h4⟩
    exact ⟨a, b, h, ((npMin_ok.1 ha).2 a' h1).trans h3, h4.trans ((npMax_ok.1 hb).2 b' h2)⟩

private theorem stripes_line (x y : List ℝ) (c m : String) : stripes (finLine x y c m) = [] := rfl

private theorem zip_band (x y s : List ℝ) (c : ℝ) (colour : String) :
    stripes (band x y s c colour) = List.zipWith (fun a (p : ℝ × ℝ) =>
      (a, Flt.fin (p.1 - c * p.2), Flt.fin (p.1 + c * p.2))) x (y.zip s) := by
  simp only [stripes, band]
  induction x generalizing y s with
  | nil => simp
  | cons a x ih =>
    cases y with
    | nil => simp
    | cons b y =>
      cases s with
      | nil => simp
      | cons e s => simp [ih]

private theorem sample_artists {X : List ℝ} {colors : List String} {rows : List (List ℝ)}
    {artists : List Artist} (h : rows.mapM (fun Y => do
      let c ← pyIndex colors 0
      return finLine X Y c "None") = (Except.ok artists : Py (List Artist))) :
    artists.filterMap curve = rows.map (fun Y => X.zip (Y.map Flt.fin)) ∧
      artists.flatMap marks = [] ∧ artists.flatMap stripes = [] := by
  induction rows generalizing artists with
  | nil =>
    obtain rfl := Except.ok.inj h
    simp
  | cons r t ih =>
    rw [List.mapM_cons] at h
    obtain ⟨x, e1, h⟩ := py_bind_ok h
    obtain ⟨xs, e2, h⟩ := py_bind_ok h
    obtain ⟨c, e3, e1⟩ := py_bind_ok e1
    obtain rfl := Except.ok.inj e1
    obtain rfl := Except.ok.inj h
    obtain ⟨i1, i2, i3⟩ := ih e2
    simp only [List.flatMap_cons, i2, i3, List.map_cons, List.append_nil]
    refine ⟨?_, by simp [marks, finLine], by simp [stripes, finLine]⟩
    simp [curve, finLine, i1]

/-- C86: sampled functions. Every row of `Ys` is drawn as one curve over all inputs, nothing else is
drawn, and the view is the range of the inputs. -/
theorem C86_sample {X Ys : Arr2 ℝ} {o : PlotOptions} {colors : List String} {fig : Figure}
    (h : plotGpViaSample true X Ys o colors = .ok (some fig)) :
    ∃ ax, fig.axes = [ax] ∧ curves ax = Ys.rows.map (fun Y => (flatten X).zip (Y.map Flt.fin)) ∧
      (∀ Y ∈ Ys.rows, Y.length = (flatten X).length) ∧ marked ax = [] ∧ shaded ax = [] ∧
      ∀ x, InView ax x ↔ ∃ a ∈ flatten X, ∃ b ∈ flatten X, a ≤ x ∧ x ≤ b := by
  unfold plotGpViaSample at h
  obtain ⟨_, h1, h⟩ := py_bind_ok h
  obtain ⟨_, h2, h⟩ := py_bind_ok h
  have h1 := assert_ok h1
  have h2 := assert_ok h2
  simp only [Bool.not_true, Bool.false_eq_true, if_false] at h
  obtain ⟨artists, h3, h⟩ := py_bind_ok h
  obtain ⟨a, ha, h⟩ := py_bind_ok h
  obtain ⟨b, hb, h⟩ := py_bind_ok h
  obtain rfl := Option.some.inj (Except.ok.inj h)
  refine ⟨_, rfl, ?_, ?_, ?_, ?_, fun x => view ha hb rfl x⟩
  · exact (sample_artists h3).1
  · intro Y hY
    rw [Ys.wf Y hY, ← h2]
    conv_lhs => rw [col_flatten h1]
    simp [col_length]
  · exact (sample_artists h3).2.1
  · exact (sample_artists h3).2.2

/-- C86: regression. The curves are the true values (if given) and the mean over the test inputs;
the band reaches from `range_shade` deviations below the mean to as many above, at every test input;
the marked points are the training pairs, each once; and the view is the range of the test inputs. -/
theorem C86_distribution {X_train Y_train X_test mean_test std_test : Arr2 ℝ}
    {Y_test : Option (Arr2 ℝ)} {o : PlotOptions} {colors : List String} {fig : Figure}
    (h : plotGpViaDistribution true X_train Y_train X_test mean_test std_test Y_test o colors =
      .ok (some fig)) :
    ∃ xs ys xt m s ax, X_train = col xs ∧ Y_train = col ys ∧ X_test = col xt ∧ mean_test = col m ∧
      std_test = col s ∧ xs.length = ys.length ∧ xt.length = m.length ∧ m.length = s.length ∧
      fig.axes = [ax] ∧
      curves ax = (Y_test.toList.map fun y => xt.zip ((flatten y).map Flt.fin)) ++
        [xt.zip (m.map Flt.fin)] ∧
      (∀ y ∈ Y_test, ∃ yt, y = col yt ∧ xt.length = yt.length) ∧
      shaded ax = List.zipWith (fun a (p : ℝ × ℝ) => (a, Flt.fin (p.1 - o.range_shade * p.2),
        Flt.fin (p.1 + o.range_shade * p.2))) xt (m.zip s) ∧
      marked ax = xs.zip (ys.map Flt.fin) ∧
      ∀ x, InView ax x ↔ ∃ a ∈ xt, ∃ b ∈ xt, a ≤ x ∧ x ≤ b := by
  unfold plotGpViaDistribution at h
  obtain ⟨_, h1, h⟩ := py_bind_ok h
  obtain ⟨_, h2, h⟩ := py_bind_ok h
  obtain ⟨_, h3, h⟩ := py_bind_ok h
  obtain ⟨_, h4, h⟩ := py_bind_ok h
  obtain ⟨_, h5, h⟩ := py_bind_ok h
  obtain ⟨_, h6, h⟩ := py_bind_ok h
  have h1 := assert_ok h1
  have h2 := assert_ok h2
  have h3 := assert_ok h3
  have h4 := assert_ok h4
  have h5 := assert_ok h5
  have h6 := assert_ok h6
  rw [col_flatten (h1.1.trans h1.2), col_flatten h2] at h3
  rw [col_flatten h1.2, col_flatten h4, col_flatten h5] at h6
  simp only [col_length] at h3 h6
  simp only [Bool.not_true, Bool.false_eq_true, if_false] at h
  obtain ⟨truth, ht, hy, h⟩ : ∃ truth : List Artist, (truth.filterMap curve =
      (Y_test.toList.map fun y => (flatten X_test).zip ((flatten y).map Flt.fin)) ∧
      truth.flatMap stripes = [] ∧ truth.flatMap marks = []) ∧
      (∀ y ∈ Y_test, y.ncols = 1 ∧ X_test.rows.length = y.rows.length) ∧ (do
          let c2 ← pyIndex colors 2
          let c0 ← pyIndex colors 0
          let xlim_min ← npMin (flatten X_test)
          let xlim_max ← npMax (flatten X_test)
          return some (⟨[setAxConfig (truth ++
            [finLine (flatten X_test) (flatten mean_test) c2 "None",
              band (flatten X_test) (flatten mean_test) (flatten std_test) o.range_shade c2,
              finLine (flatten X_train) (flatten Y_train) c0 "x"])
              (some o.str_x_axis) o.str_y_axis (some xlim_min) (some xlim_max)], none,
            saveFigure o.path_save o.str_postfix "gp_",
            showFigure o.pause_figure o.time_pause⟩ : Figure)) =
        (Except.ok (some fig) : Py (Option Figure)) := by
    cases Y_test with
    | none => exact ⟨[], by simp, by simp, h⟩
    | some y =>
      dsimp only at h
      obtain ⟨_, e1, h⟩ := py_bind_ok h
      obtain ⟨_, e2, h⟩ := py_bind_ok h
      obtain ⟨c, -, h⟩ := py_bind_ok h
      refine ⟨[finLine (flatten X_test) (flatten y) c "None"],
        by simp [curve, stripes, marks, finLine], ?_, h⟩
      intro y' hy'
      obtain rfl := Option.some.inj hy'
      exact ⟨assert_ok e1, assert_ok e2⟩
  obtain ⟨c2, -, h⟩ := py_bind_ok h
  obtain ⟨c0, -, h⟩ := py_bind_ok h
  obtain ⟨a, ha, h⟩ := py_bind_ok h
  obtain ⟨b, hb, h⟩ := py_bind_ok h
  obtain rfl := Option.some.inj (Except.ok.inj h)
  refine ⟨flatten X_train, flatten Y_train, flatten X_test, flatten mean_test, flatten std_test,
    _, col_flatten (h1.1.trans h1.2), col_flatten h2, col_flatten h1.2, col_flatten h4,
    col_flatten h5, h3, h6.1, h6.2, rfl, ?_, ?_, ?_, ?_, fun x => view ha hb rfl x⟩
  · simp [curves, setAxConfig, ht.1, curve, finLine, band]
  · intro y hy'
    obtain ⟨e1, e2⟩ := hy y hy'
    rw [col_flatten h1.2, col_flatten e1] at e2
    simp only [col_length] at e2
    exact ⟨flatten y, col_flatten e1, e2⟩
  · simp only [shaded, setAxConfig, List.flatMap_append, ht.2.1, List.flatMap_cons, zip_band,
      stripes_line, List.flatMap_nil, List.nil_append, List.append_nil]
  · simp [marked, setAxConfig, ht.2.2, marks, finLine, band]

/-- The groups of pairs are the pairs of groups. -/
theorem boStepGroups_map {α β : Type} (f : α → β) (l : List α) (num_init : Option ℤ) :
    boStepGroups (l.map f) num_init =
      (boStepGroups l num_init).map (List.map (List.map f)) := by
  cases num_init with
  | none =>
    cases hl : l.getLast? <;>
      simp [boStepGroups, pyLast, hl, bind, Except.bind, pure, Except.pure, Except.map, sliceTo,
        List.map_take]
  | some n =>
    by_cases h1 : (l.length : ℤ) ≥ n
    · by_cases h2 : (l.length : ℤ) > n
      · cases hl : l.getLast? <;>
          simp [boStepGroups, pyAssert, pyLast, hl, h1, h2, bind, Except.bind, pure, Except.pure,
            Except.map, sliceTo, slice, List.map_take, List.map_drop]
      · simp [boStepGroups, pyAssert, h1, h2, bind, Except.bind, pure, Except.pure, Except.map]
    · simp [boStepGroups, pyAssert, h1, bind, Except.bind, Except.map]

theorem boStepGroups_length {α : Type} {l : List α} {num_init : Option ℤ} {g : List (List α)}
    (h : boStepGroups l num_init = .ok g) : (groupStyles g.length).length = g.length := by
  unfold boStepGroups at h
  cases num_init with
  | none =>
    obtain ⟨a, -, h⟩ := py_bind_ok h
    obtain rfl := Except.ok.inj h
    rfl
  | some n =>
    obtain ⟨_, -, h⟩ := py_bind_ok h
    split at h
    · obtain ⟨a, -, h⟩ := py_bind_ok h
      obtain rfl := Except.ok.inj h
      rfl
    · obtain rfl := Except.ok.inj h
      rfl

theorem finLine_marks (l : List (ℝ × ℝ)) (colour marker : String) (h : marker ≠ "None") :
    marks (finLine (l.map (·.1)) (l.map (·.2)) colour marker) =
      l.map fun p => (p.1, Flt.fin p.2) := by
  simp only [marks, finLine, h, if_false, List.map_map, List.zip_map']
  rfl

private theorem flatten_single {α : Type} (g : List α) (f : α → ℝ) :
    (g.map fun p => [f p]).flatten = g.map f := by
  induction g with
  | nil => rfl
  | cons a t ih => simp [ih]

/-- The lines with the training points, as pairs. -/
private theorem boStep_points {xs ys xt yt m s : List ℝ} (hl : xs.length = ys.length)
    {num_init : Option ℤ} {c : ℝ} {artists : List Artist}
    (h : boStepArtists (col xs) (col ys) (col xt) (col yt) (col m) (col s) num_init c =
      .ok artists) :
    ∃ g, boStepGroups (xs.zip ys) num_init = .ok g ∧
      artists = [finLine xt yt "g" "None", finLine xt m "b" "None", band xt m s c "b"] ++
        List.zipWith (fun (l : List (ℝ × ℝ)) (st : String × String) =>
          finLine (l.map (·.1)) (l.map (·.2)) st.1 st.2) g (groupStyles g.length) := by
  unfold boStepArtists at h
  have hx : (col xs).rows = (xs.zip ys).map fun p => [p.1] := by
    simp only [col]
    conv_lhs => rw [← List.map_fst_zip (le_of_eq hl)]
    rw [List.map_map]
    rfl
  have hy : (col ys).rows = (xs.zip ys).map fun p => [p.2] := by
    simp only [col]
    conv_lhs => rw [← List.map_snd_zip (le_of_eq hl.symm)]
    rw [List.map_map]
    rfl
  simp only [flatten_col] at h
  rw [hx, hy, boStepGroups_map, boStepGroups_map] at h
  cases hg : boStepGroups (xs.zip ys) num_init with
  | error e => rw [hg] at h; simp [Except.map, bind, Except.bind] at h
  | ok g =>
    rw [hg] at h
    obtain rfl := Except.ok.inj h
    refine ⟨g, rfl, ?_⟩
    congr 1
    simp only [List.length_map, List.zip_map', List.zipWith_map_left, flatten_single]

private theorem styles_ne (n : ℕ) : ∀ st ∈ groupStyles n, st.2 ≠ "None" := by
  unfold groupStyles
  split <;> simp

private theorem zip_marks (g : List (List (ℝ × ℝ))) (st : List (String × String))
    (hl : st.length = g.length) (h : ∀ s ∈ st, s.2 ≠ "None") :
    (List.zipWith (fun (l : List (ℝ × ℝ)) (st : String × String) =>
      finLine (l.map (·.1)) (l.map (·.2)) st.1 st.2) g st).flatMap marks =
        g.flatten.map (fun p => (p.1, Flt.fin p.2)) ∧
    (List.zipWith (fun (l : List (ℝ × ℝ)) (st : String × String) =>
      finLine (l.map (·.1)) (l.map (·.2)) st.1 st.2) g st).filterMap curve = [] ∧
    (List.zipWith (fun (l : List (ℝ × ℝ)) (st : String × String) =>
      finLine (l.map (·.1)) (l.map (·.2)) st.1 st.2) g st).flatMap stripes = [] := by
  induction g generalizing st with
  | nil => simp
  | cons a t ih =>
    cases st with
    | nil => simp at hl
    | cons b st =>
      obtain ⟨i1, i2, i3⟩ := ih st (by simpa using hl) fun s hs => h s (by simp [hs])
      have hb := h b (by simp)
      simp only [List.zipWith_cons_cons, List.flatMap_cons, finLine_marks _ _ _ hb, i1, i3,
        List.flatten_cons, List.map_append, true_and]
      refine ⟨?_, by simp [stripes, finLine]⟩
      rw [List.filterMap_cons_none (by simp [curve, finLine, hb]), i2]

private theorem styles_in (colour : String) (g : List (List (ℝ × ℝ)))
    (st : List (String × String)) (ax : Axes) (xt yt m s : List ℝ) (c : ℝ) (hc : colour ≠ "g")
    (hb : colour ≠ "b")
    (h : ax.artists = [finLine xt yt "g" "None", finLine xt m "b" "None", band xt m s c "b"] ++
        List.zipWith (fun (l : List (ℝ × ℝ)) (st : String × String) =>
          finLine (l.map (·.1)) (l.map (·.2)) st.1 st.2) g st)
    (hs : ∀ s ∈ st, s.2 ≠ "None") :
    markedIn colour ax = (List.zipWith (fun (l : List (ℝ × ℝ)) (st : String × String) =>
      if st.1 = colour then l.map (fun p => (p.1, Flt.fin p.2)) else []) g st).flatten := by
  have e1 : ¬ "g" = colour := fun e => hc e.symm
  have e2 : ¬ "b" = colour := fun e => hb e.symm
  simp only [markedIn, h, List.filter_append, List.flatMap_append]
  have : [finLine xt yt "g" "None", finLine xt m "b" "None",
      band xt m s c "b"].filter (hasColour colour) = [] := by
    simp [hasColour, finLine, band, e1, e2]
  rw [this, List.flatMap_nil, List.nil_append]
  clear this h
  induction g generalizing st with
  | nil => simp
  | cons a t ih =>
    cases st with
    | nil => simp
    | cons b st =>
      have hb := hs b (by simp)
      have i := ih st fun s h => hs s (by simp [h])
      simp only [List.zipWith_cons_cons, List.flatten_cons]
      by_cases hbc : b.1 = colour
      · rw [List.filter_cons_of_pos (by simp [hasColour, finLine, hbc]), List.flatMap_cons, i,
          finLine_marks _ _ _ hb, if_pos hbc]
      · rw [List.filter_cons_of_neg (by simp [hasColour, finLine, hbc]), i, if_neg hbc, List.nil_append]

private theorem stepAxes {xs ys xt yt m s : List ℝ} (hl : xs.length = ys.length)
    {num_init : Option ℤ} {c : ℝ} {artists : List Artist} {a b : ℝ} {lx : Option String}
    {ly : String} (h : boStepArtists (col xs) (col ys) (col xt) (col yt) (col m) (col s) num_init c
      = .ok artists) (ha : npMin xt = .ok a) (hb : npMax xt = .ok b) :
    StepAxes xs ys xt yt m s c num_init (setAxConfig artists lx ly (some a) (some b)) := by
  obtain ⟨g, hg, rfl⟩ := boStep_points hl h
  obtain ⟨z1, z2, z3⟩ := zip_marks g _ (boStepGroups_length hg) (styles_ne _)
  have hp := C64_bo_step_partition _ _ _ hg
  have hz : xs.zip (ys.map Flt.fin) = (xs.zip ys).map fun p => (p.1, Flt.fin p.2) := by
    rw [List.zip_map_right]; rfl
  have hlen : (xs.zip ys).length = xs.length := by simp [hl]
  have hin := fun colour h1 h2 => styles_in colour g (groupStyles g.length)
    (setAxConfig _ lx ly (some a) (some b)) xt yt m s c h1 h2 rfl (styles_ne _)
  have hlast : ∀ p : ℝ × ℝ, (xs.zip ys).getLast? = some p →
      (xs.zip ys).drop ((xs.zip ys).length - 1) = [p] := by
    intro p hp
    rw [List.drop_length_sub_one (by rintro e; simp [e] at hp)]
    rw [List.getLast?_eq_some_getLast (by rintro e; simp [e] at hp)] at hp
    simpa using hp
  have hneg : sliceBound (xs.zip ys).length (-1) = (xs.zip ys).length - 1 := by
    simp only [sliceBound]
    rw [if_pos (by norm_num)]
    omega
  refine ⟨?_, ?_, ?_, ?_, ?_, ?_, ?_, fun x => view ha hb rfl x⟩
  · simp only [curves, setAxConfig, List.filterMap_append, z2, List.append_nil]
    simp [curve, finLine, band]
  · simp only [shaded, setAxConfig, List.flatMap_append, List.flatMap_cons, zip_band, stripes_line,
      z3, List.flatMap_nil, List.nil_append, List.append_nil]
  · simp only [marked, setAxConfig, List.flatMap_append, z1, hp]
    simp [marks, finLine, band, hz]
  · intro hk
    rw [hin _ (by decide) (by decide), hz, ← List.map_drop, ← hlen]
    cases num_init with
    | none =>
      obtain ⟨p, h1, h2⟩ := py_bind_ok hg
      obtain rfl := Except.ok.inj h2
      rw [hlast p (by unfold pyLast at h1; split at h1 <;> simp_all)]
      simp [groupStyles]
    | some k =>
      have hk := hk k rfl
      rw [← hlen] at hk
      obtain ⟨_, -, h1⟩ := py_bind_ok hg
      rw [if_pos hk] at h1
      obtain ⟨p, h1, h2⟩ := py_bind_ok h1
      obtain rfl := Except.ok.inj h2
      rw [hlast p (by unfold pyLast at h1; split at h1 <;> simp_all)]
      simp [groupStyles]
  · rintro k rfl
    rw [hin _ (by decide) (by decide), hz, ← List.map_take]
    obtain ⟨_, h0, h1⟩ := py_bind_ok hg
    have h0 := assert_ok h0
    split at h1
    · obtain ⟨p, h1, h2⟩ := py_bind_ok h1
      obtain rfl := Except.ok.inj h2
      have : sliceTo (xs.zip ys) k = (xs.zip ys).take k := by
        simp only [sliceTo, sliceBound]
        rw [if_neg (by omega), Int.toNat_natCast]
      simp only [List.length_cons, List.length_nil, groupStyles, this]
      simp
    · obtain rfl := Except.ok.inj h1
      rw [List.take_of_length_le (by omega)]
      simp [groupStyles]
  · rintro k rfl hk
    rw [← hlen] at hk
    rw [hin _ (by decide) (by decide), hz, ← List.map_drop, ← List.map_dropLast]
    obtain ⟨_, -, h1⟩ := py_bind_ok hg
    rw [if_pos (by exact_mod_cast hk)] at h1
    obtain ⟨p, h1, h2⟩ := py_bind_ok h1
    obtain rfl := Except.ok.inj h2
    have : slice (xs.zip ys) k (-1) = ((xs.zip ys).drop k).dropLast := by
      rw [slice, hneg, List.dropLast_eq_take, List.length_drop, List.take_drop]
      simp only [sliceBound]
      rw [if_neg (by omega), Int.toNat_natCast]
      congr 2
      omega
    simp [groupStyles, this]
  · rintro rfl
    rw [hin _ (by decide) (by decide), hz, ← List.map_dropLast]
    obtain ⟨p, h1, h2⟩ := py_bind_ok hg
    obtain rfl := Except.ok.inj h2
    have : sliceTo (xs.zip ys) (-1) = (xs.zip ys).dropLast := by
      rw [sliceTo, hneg, List.dropLast_eq_take]
    simp only [List.length_cons, List.length_nil, groupStyles, this]
    simp

private theorem checkBoStep_ok {X_train Y_train X_test Y_test mean_test std_test : Arr2 ℝ}
    {num_init : Option ℤ} {u : Unit}
    (h : checkBoStep X_train Y_train X_test Y_test mean_test std_test num_init = .ok u) :
    ∃ xs ys xt yt m s, X_train = col xs ∧ Y_train = col ys ∧ X_test = col xt ∧ Y_test = col yt ∧
      mean_test = col m ∧ std_test = col s ∧ xs.length = ys.length ∧ xt.length = yt.length ∧
      xt.length = m.length ∧ xt.length = s.length := by
  unfold checkBoStep at h
  obtain ⟨_, h1, h⟩ := py_bind_ok h
  obtain ⟨_, h2, h⟩ := py_bind_ok h
  obtain ⟨_, h3, h⟩ := py_bind_ok h
  obtain ⟨_, h4, h⟩ := py_bind_ok h
  obtain ⟨_, h5, h⟩ := py_bind_ok h
  obtain ⟨_, h6, h⟩ := py_bind_ok h
  have h1 := assert_ok h1
  have h2 := assert_ok h2
  have h3 := assert_ok h3
  have h4 := assert_ok h4
  have h5 := assert_ok h5
  have h6 := assert_ok h6
  have e1 := col_flatten (h1.1.trans h1.2)
  have e2 := col_flatten (h2.1.trans h2.2)
  have e3 := col_flatten h1.2
  have e4 := col_flatten h2.2
  have e5 := col_flatten h4
  have e6 := col_flatten h5
  rw [e1, e2] at h3
  rw [e3, e4, e5, e6] at h6
  simp only [col_length] at h3 h6
  exact ⟨_, _, _, _, _, _, e1, e2, e3, e4, e5, e6, h3, h6.1, h6.1.trans h6.2.1,
    (h6.1.trans h6.2.1).trans h6.2.2⟩

/-- C86: a step. Truth and mean are drawn over all test inputs, with the band around the mean; the
marked points are the training pairs, each once; and the colours tell initial, later and newest
points apart. -/
theorem C86_step {X_train Y_train X_test Y_test mean_test std_test : Arr2 ℝ}
    {num_init : Option ℤ} {o : PlotOptions} {fig : Figure}
    (h : plotBoStep true X_train Y_train X_test Y_test mean_test std_test num_init o =
      .ok (some fig)) :
    ∃ xs ys xt yt m s ax, X_train = col xs ∧ Y_train = col ys ∧ X_test = col xt ∧
      Y_test = col yt ∧ mean_test = col m ∧ std_test = col s ∧ xs.length = ys.length ∧
      xt.length = yt.length ∧ xt.length = m.length ∧ xt.length = s.length ∧ fig.axes = [ax] ∧
      StepAxes xs ys xt yt m s o.range_shade num_init ax := by
  unfold plotBoStep at h
  obtain ⟨_, h1, h⟩ := py_bind_ok h
  obtain ⟨xs, ys, xt, yt, m, s, rfl, rfl, rfl, rfl, rfl, rfl, l1, l2, l3, l4⟩ := checkBoStep_ok h1
  simp only [Bool.not_true, Bool.false_eq_true, if_false] at h
  obtain ⟨artists, h2, h⟩ := py_bind_ok h
  obtain ⟨a, ha, h⟩ := py_bind_ok h
  obtain ⟨b, hb, h⟩ := py_bind_ok h
  obtain rfl := Option.some.inj (Except.ok.inj h)
  rw [flatten_col] at ha hb
  exact ⟨xs, ys, xt, yt, m, s, _, rfl, rfl, rfl, rfl, rfl, rfl, l1, l2, l3, l4, rfl,
    stepAxes l1 h2 ha hb⟩

/-- C86: a step with its acquisition function, drawn below over the same range. -/
theorem C86_step_acq {X_train Y_train X_test Y_test mean_test std_test acq_test : Arr2 ℝ}
    {num_init : Option ℤ} {str_acq_axis : String} {o : PlotOptions} {fig : Figure}
    (h : plotBoStepWithAcq true X_train Y_train X_test Y_test mean_test std_test acq_test num_init
      str_acq_axis o = .ok (some fig)) :
    ∃ xs ys xt yt m s q ax ax', X_train = col xs ∧ Y_train = col ys ∧ X_test = col xt ∧
      Y_test = col yt ∧ mean_test = col m ∧ std_test = col s ∧ acq_test = col q ∧
      xs.length = ys.length ∧ xt.length = yt.length ∧ xt.length = m.length ∧ xt.length = s.length ∧
      xt.length = q.length ∧ fig.axes = [ax, ax'] ∧
      StepAxes xs ys xt yt m s o.range_shade num_init ax ∧
      curves ax' = [xt.zip (q.map Flt.fin)] ∧ marked ax' = [] ∧ shaded ax' = [] ∧
      ax'.xlim = ax.xlim := by
  unfold plotBoStepWithAcq at h
  obtain ⟨_, h3, h⟩ := py_bind_ok h
  obtain ⟨_, h4, h⟩ := py_bind_ok h
  have h3 := assert_ok h3
  have h4 := assert_ok h4
  obtain ⟨_, h1, h⟩ := py_bind_ok h
  obtain ⟨xs, ys, xt, yt, m, s, rfl, rfl, rfl, rfl, rfl, rfl, l1, l2, l3, l4⟩ := checkBoStep_ok h1
  have hq := col_flatten h3
  rw [hq, col_length, col_length] at h4
  simp only [Bool.not_true, Bool.false_eq_true, if_false] at h
  obtain ⟨artists, h2, h⟩ := py_bind_ok h
  obtain ⟨a, ha, h⟩ := py_bind_ok h
  obtain ⟨b, hb, h⟩ := py_bind_ok h
  obtain rfl := Option.some.inj (Except.ok.inj h)
  rw [flatten_col] at ha hb
  refine ⟨xs, ys, xt, yt, m, s, flatten acq_test, _, _, rfl, rfl, rfl, rfl, rfl, rfl, hq, l1, l2, l3,
    l4, h4, rfl, stepAxes l1 h2 ha hb, ?_, ?_, ?_, rfl⟩
  · simp [curves, setAxConfig, curve, finLine, flatten_col]
  · simp [marked, setAxConfig, marks, finLine]
  · simp [shaded, setAxConfig, stripes, finLine]

/-- C86: valid arguments are drawn; without matplotlib they are accepted and nothing is drawn. -/
theorem C86_total_sample (installed : Bool) (xs : List ℝ) (Ys : Arr2 ℝ) (o : PlotOptions)
    (colors : List String) (hx : xs ≠ []) (hY : xs.length = Ys.ncols) (hc : colors ≠ []) :
    ∃ r, plotGpViaSample installed (col xs) Ys o colors = .ok r ∧ r.isSome = installed := by
  obtain ⟨a, ha⟩ := npMin_exists hx
  obtain ⟨b, hb⟩ := npMax_exists hx
  have h1 : (col xs).ncols = 1 := rfl
  obtain ⟨c, t, rfl⟩ := List.exists_cons_of_ne_nil hc
  have hm : ∀ rows : List (List ℝ), ∃ r, rows.mapM (fun Y => do
      let c ← pyIndex (c :: t) 0
      return finLine xs Y c "None") = (Except.ok r : Py (List Artist)) := by
    intro rows
    induction rows with
    | nil => exact ⟨[], rfl⟩
    | cons y ys ih =>
      obtain ⟨r, hr⟩ := ih
      rw [List.mapM_cons, hr]
      exact ⟨_, rfl⟩
  obtain ⟨r, hr⟩ := hm Ys.rows
  cases installed with
  | false =>
    simp [plotGpViaSample, pyAssert, h1, hY, col_length, bind, Except.bind, pure, Except.pure]
  | true =>
    simp only [plotGpViaSample, pyAssert, h1, hY, col_length, flatten_col, if_true, ha, hb, hr,
      Bool.not_true, Bool.false_eq_true, if_false]
    exact ⟨_, rfl, rfl⟩

theorem C86_total_distribution (installed : Bool) (xs ys xt m s : List ℝ) (yt : Option (List ℝ))
    (o : PlotOptions) (colors : List String) (h1 : xs.length = ys.length)
    (h2 : xt.length = m.length) (h3 : m.length = s.length) (h4 : ∀ y ∈ yt, xt.length = y.length)
    (hx : xt ≠ []) (hc : 3 ≤ colors.length) :
    ∃ r, plotGpViaDistribution installed (col xs) (col ys) (col xt) (col m) (col s) (yt.map col) o
      colors = .ok r ∧ r.isSome = installed := by
  obtain ⟨a, ha⟩ := npMin_exists hx
  obtain ⟨b, hb⟩ := npMax_exists hx
  have hn : ∀ l, (col l).ncols = 1 := fun _ => rfl
  obtain ⟨c0, c1, c2, t, rfl⟩ : ∃ c0 c1 c2 t, colors = c0 :: c1 :: c2 :: t := by
    match colors, hc with
    | c0 :: c1 :: c2 :: t, _ => exact ⟨c0, c1, c2, t, rfl⟩
  cases yt with
  | none =>
    simp only [plotGpViaDistribution, pyAssert, hn, col_length, flatten_col, ha, hb, h1, h2, h3,
      Option.map_none, and_self, if_true]
    cases installed with
    | false => exact ⟨_, rfl, rfl⟩
    | true => exact ⟨_, rfl, rfl⟩
  | some y =>
    have h4 : m.length = y.length := h2.symm.trans (h4 y rfl)
    rw [h3] at h4
    simp only [plotGpViaDistribution, pyAssert, hn, col_length, flatten_col, ha, hb, h1, h2, h3, h4,
      Option.map_some, and_self, if_true]
    cases installed with
    | false => exact ⟨_, rfl, rfl⟩
    | true => exact ⟨_, rfl, rfl⟩

private theorem step_ok (xs ys xt yt m s : List ℝ) (num_init : Option ℤ)
    (h1 : xs.length = ys.length) (h2 : xt.length = yt.length) (h3 : xt.length = m.length)
    (h4 : xt.length = s.length) (hxs : xs ≠ []) (hk : ∀ k ∈ num_init, k ≤ xs.length) (c : ℝ) :
    checkBoStep (col xs) (col ys) (col xt) (col yt) (col m) (col s) num_init = .ok () ∧
    ∃ l, boStepArtists (col xs) (col ys) (col xt) (col yt) (col m) (col s) num_init c = .ok l := by
  have hn : ∀ l, (col l).ncols = 1 := fun _ => rfl
  have h5 : m.length = s.length := h3.symm.trans h4
  have h6 : yt.length = m.length := h2.symm.trans h3
  constructor
  · simp only [checkBoStep, pyAssert, hn, col_length, h1, h2, h6, h5, and_self, if_true]
    cases num_init with
    | none => rfl
    | some k =>
      have := hk k rfl
      rw [h1] at this
      simp only [ge_iff_le, this, if_true]
      rfl
  · have hg : ∀ l : List ℝ, l ≠ [] → l.length = xs.length →
        ∃ g, boStepGroups (col l).rows num_init = .ok g := by
      intro l hl hlx
      cases hg : boStepGroups (col l).rows num_init with
      | ok g => exact ⟨g, rfl⟩
      | error e =>
        rcases (C64_fails_iff _ _ _).1 hg with ⟨k, rfl, h, -⟩ | ⟨h, -⟩
        · have := hk k rfl
          rw [col_length, hlx] at h
          omega
        · simp [col, hl] at h
    obtain ⟨g1, e1⟩ := hg xs hxs rfl
    obtain ⟨g2, e2⟩ := hg ys (by rintro rfl; simp at h1; exact hxs h1) h1.symm
    unfold boStepArtists
    rw [e1, e2]
    exact ⟨_, rfl⟩

theorem C86_total_step (installed : Bool) (xs ys xt yt m s q : List ℝ) (num_init : Option ℤ)
    (o : PlotOptions) (str_acq_axis : String) (h1 : xs.length = ys.length)
    (h2 : xt.length = yt.length) (h3 : xt.length = m.length) (h4 : xt.length = s.length)
    (h5 : xt.length = q.length) (hxs : xs ≠ []) (hxt : xt ≠ [])
    (hk : ∀ k ∈ num_init, k ≤ xs.length) :
    (∃ r, plotBoStep installed (col xs) (col ys) (col xt) (col yt) (col m) (col s) num_init o =
      .ok r ∧ r.isSome = installed) ∧
    ∃ r, plotBoStepWithAcq installed (col xs) (col ys) (col xt) (col yt) (col m) (col s) (col q)
      num_init str_acq_axis o = .ok r ∧ r.isSome = installed := by
  obtain ⟨a, ha⟩ := npMin_exists hxt
  obtain ⟨b, hb⟩ := npMax_exists hxt
  obtain ⟨e1, l, e2⟩ := step_ok xs ys xt yt m s num_init h1 h2 h3 h4 hxs hk o.range_shade
  have hn : (col q).ncols = 1 := rfl
  unfold plotBoStep plotBoStepWithAcq
  simp only [e1, e2, pyAssert, hn, col_length, h5, flatten_col, ha, hb, if_true]
  cases installed with
  | false => exact ⟨⟨_, rfl, rfl⟩, _, rfl, rfl⟩
  | true => exact ⟨⟨_, rfl, rfl⟩, _, rfl, rfl⟩

/-- C87 is violated: the view is the range of the test inputs, so a training point beyond it cannot
be seen. -/
theorem C87_violated : ∃ (X_train Y_train X_test mean_test std_test : Arr2 ℝ) (fig : Figure)
    (ax : Axes), plotGpViaDistribution true X_train Y_train X_test mean_test std_test none {} =
      .ok (some fig) ∧ fig.axes = [ax] ∧ ∃ p ∈ marked ax, ¬ InView ax p.1 := by
  obtain ⟨r, h, hr⟩ := C86_total_distribution true [5] [0] [0, 1] [0, 0] [1, 1] none {} COLORS rfl
    rfl rfl (by simp) (by simp) (by simp [COLORS])
  obtain ⟨fig, rfl⟩ := Option.isSome_iff_exists.1 hr
  obtain ⟨xs, ys, xt, m, s, ax, e1, e2, e3, -, -, -, -, -, hax, -, -, -, hm, hv⟩ :=
    C86_distribution h
  refine ⟨_, _, _, _, _, fig, ax, h, hax, (5, .fin 0), ?_, ?_⟩
  · rw [hm, ← flatten_col xs, ← flatten_col ys, ← e1, ← e2, flatten_col, flatten_col]
    simp
  · rw [hv, ← flatten_col xt, ← e3, flatten_col]
    norm_num

/-- C87, for the figures of the regression: a training point can be seen exactly when its input lies
between two test inputs. Missing: all the others. -/
theorem C87_regression_partial {X_train Y_train X_test mean_test std_test : Arr2 ℝ}
    {Y_test : Option (Arr2 ℝ)} {o : PlotOptions} {colors : List String} {fig : Figure}
    (h : plotGpViaDistribution true X_train Y_train X_test mean_test std_test Y_test o colors =
      .ok (some fig)) :
    ∃ ax, fig.axes = [ax] ∧ marked ax = (flatten X_train).zip ((flatten Y_train).map Flt.fin) ∧
      ∀ p ∈ marked ax, InView ax p.1 ↔
        ∃ a ∈ flatten X_test, ∃ b ∈ flatten X_test, a ≤ p.1 ∧ p.1 ≤ b := by
  obtain ⟨xs, ys, xt, m, s, ax, rfl, rfl, rfl, -, -, -, -, -, hax, -, -, -, hm, hv⟩ :=
    C86_distribution h
  exact ⟨ax, hax, by simpa only [flatten_col] using hm, fun p _ => by
    simpa only [flatten_col] using hv p.1⟩

/-- C87, for the figures of a step. -/
theorem C87_step_partial {X_train Y_train X_test Y_test mean_test std_test : Arr2 ℝ}
    {num_init : Option ℤ} {o : PlotOptions} {fig : Figure}
    (h : plotBoStep true X_train Y_train X_test Y_test mean_test std_test num_init o =
      .ok (some fig)) :
    ∃ ax, fig.axes = [ax] ∧ marked ax = (flatten X_train).zip ((flatten Y_train).map Flt.fin) ∧
      ∀ p ∈ marked ax, InView ax p.1 ↔
        ∃ a ∈ flatten X_test, ∃ b ∈ flatten X_test, a ≤ p.1 ∧ p.1 ≤ b := by
  obtain ⟨xs, ys, xt, yt, m, s, ax, rfl, rfl, rfl, -, -, -, -, -, -, -, hax, hs⟩ := C86_step h
  exact ⟨ax, hax, by simpa only [flatten_col] using hs.marked, fun p _ => by
    simpa only [flatten_col] using hs.view p.1⟩

/-- Concrete case of C86 and C87: three evaluations, two of them initial, five test inputs. -/
example : ∃ fig, plotBoStep true (col [1, 3, 2]) (col [4, 0, 1]) (col [0, 1, 2, 3, 4])
    (col [9, 4, 1, 0, 1]) (col [8, 4, 1, 0, 2]) (col [2, 0, 0, 0, 2]) (some 2) {} =
      .ok (some fig) ∧ ∃ ax, fig.axes = [ax] ∧ markedIn "orange" ax = [(2, .fin 1)] ∧
      markedIn "saddlebrown" ax = [(1, .fin 4), (3, .fin 0)] ∧ InView ax (5 / 2) := by
  obtain ⟨⟨r, h, hr⟩, -⟩ := C86_total_step true [1, 3, 2] [4, 0, 1] [0, 1, 2, 3, 4] [9, 4, 1, 0, 1]
    [8, 4, 1, 0, 2] [2, 0, 0, 0, 2] [0, 0, 0, 0, 0] (some 2) {} "" rfl rfl rfl rfl rfl (by simp)
    (by simp) (by simp)
  obtain ⟨fig, rfl⟩ := Option.isSome_iff_exists.1 hr
  obtain ⟨xs, ys, xt, yt, m, s, ax, e1, e2, e3, -, -, -, -, -, -, -, hax, hs⟩ := C86_step h
  have e1 := congrArg flatten e1
  have e2 := congrArg flatten e2
  have e3 := congrArg flatten e3
  simp only [flatten_col] at e1 e2 e3
  subst e1 e2 e3
  refine ⟨fig, h, ax, hax, ?_, ?_, ?_⟩
  · rw [hs.newest (by simp)]; simp
  · rw [hs.initial 2 rfl]; simp
  · rw [hs.view]
    exact ⟨2, by simp, 3, by simp, by norm_num, by norm_num⟩

end Verif.Props
