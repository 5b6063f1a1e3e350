import Verif.Lemmas.Curves
import Verif.Model.UtilsPlotting
import Mathlib.Tactic.NormNum

/-! # C16, C17, C18, C64: best-so-far and time curves -/

namespace Verif.Props

open Verif.Spec Verif.UtilsCommon Verif.UtilsPlotting

/-- C16. The call fails exactly when there are no more rounds than initial points. -/
theorem C16_fails_iff (Y : Arr2 Flt) (n : ℤ) (e : PyErr) :
    getMinimum Y n = .error e ↔ (Y.ncols : ℤ) ≤ n ∧ e = .assertion := by
  by_cases h : (Y.ncols : ℤ) > n
  · simp [getMinimum, pyAssert, h, bind, Except.bind, pure, Except.pure]
  · simp only [getMinimum, pyAssert, h, if_false, bind, Except.bind, Except.error.injEq]
    constructor
    · intro h'; exact ⟨by omega, h'.symm⟩
    · rintro ⟨_, rfl⟩; rfl

/-- C16. Row by row, entry `k` of the curve is the best of the first `num_init + k`
observations, and there are `t - num_init + 1` entries. -/
theorem C16_curve (Y : Arr2 Flt) (n : ℕ) (r : Minima) (h : getMinimum Y n = .ok r) :
    r.minima.length = Y.rows.length ∧
    ∀ (i : ℕ) (row curve : List Flt), Y.rows[i]? = some row → r.minima[i]? = some curve →
      curve.length = Y.ncols - n + 1 ∧
      ∀ k ≤ Y.ncols - n, ∃ m, curve[k]? = some m ∧ BestSoFar (row.take (n + k)) m := by
  have hc : (Y.ncols : ℤ) > (n : ℤ) := by
    by_contra hc
    rw [(C16_fails_iff Y n .assertion).2 ⟨by omega, rfl⟩] at h
    simp at h
  simp only [getMinimum, pyAssert, hc, if_true, bind, Except.bind, pure, Except.pure,
    Except.ok.injEq] at h
  subst h
  simp only
  refine ⟨by simp, ?_⟩
  intro i row curve hrow hcurve
  rw [List.getElem?_map, hrow, Option.map_some, Option.some.injEq] at hcurve
  subst hcurve
  have hlen : row.length = Y.ncols := Y.wf row (List.mem_of_getElem? hrow)
  have hs : sliceBound row.length n = n := by simp [sliceBound]
  refine ⟨by rw [minimaRow_length, hs, hlen], ?_⟩
  intro k hk
  refine ⟨_, minimaRow_getElem? row n k (by rw [hs, hlen]; omega), ?_⟩
  rw [hs]
  exact accMin_best _

/-- C16. Every curve is non-increasing. -/
theorem C16_nonincreasing (Y : Arr2 Flt) (n : ℕ) (r : Minima) (h : getMinimum Y n = .ok r)
    (curve : List Flt) (hc : curve ∈ r.minima) (k : ℕ) (a b : Flt)
    (ha : curve[k]? = some a) (hb : curve[k + 1]? = some b) : b ≤ a := by
  obtain ⟨hl, hcur⟩ := C16_curve Y n r h
  obtain ⟨i, hi⟩ := List.mem_iff_getElem?.1 hc
  have hil : i < Y.rows.length := by
    rw [← hl]; exact (List.getElem?_eq_some_iff.1 hi).1
  obtain ⟨hlen, hk⟩ := hcur i Y.rows[i] curve (List.getElem?_eq_getElem hil) hi
  have hk1 : k + 1 < curve.length := (List.getElem?_eq_some_iff.1 hb).1
  obtain ⟨m, hm, hbm⟩ := hk k (by omega)
  obtain ⟨m', hm', hbm'⟩ := hk (k + 1) (by omega)
  rw [ha, Option.some.injEq] at hm
  rw [hb, Option.some.injEq] at hm'
  subst hm hm'
  obtain ⟨h1, h2, h3⟩ := hbm
  obtain ⟨g1, g2, g3⟩ := hbm'
  rcases h3 with h3 | rfl
  · have : a ∈ (Y.rows[i]).take (n + (k + 1)) := by
      have h' : a ∈ ((Y.rows[i]).take (n + (k + 1))).take (n + k) := by
        rw [List.take_take, Nat.min_eq_left (by omega)]; exact h3
      exact List.mem_of_mem_take h'
    rcases g2 a this with h | h
    · exact absurd h h1
    · exact h
  · cases b <;> simp_all

/-- C16. The last entry is the overall best. -/
theorem C16_last (Y : Arr2 Flt) (n : ℕ) (r : Minima) (h : getMinimum Y n = .ok r)
    (i : ℕ) (row curve : List Flt) (hrow : Y.rows[i]? = some row)
    (hc : r.minima[i]? = some curve) :
    ∃ m, curve.getLast? = some m ∧ BestSoFar row m := by
  have hfail := (C16_fails_iff Y n .assertion)
  have hn : n < Y.ncols := by
    by_contra hc'
    rw [hfail.2 ⟨by omega, rfl⟩] at h
    simp at h
  obtain ⟨_, hcur⟩ := C16_curve Y n r h
  obtain ⟨hlen, hk⟩ := hcur i row curve hrow hc
  obtain ⟨m, hm, hb⟩ := hk (Y.ncols - n) le_rfl
  have hlr : row.length = Y.ncols := Y.wf row (List.mem_of_getElem? hrow)
  refine ⟨m, ?_, ?_⟩
  · rw [List.getLast?_eq_getElem?, hlen]; exact hm
  · rw [List.take_of_length_le (by omega)] at hb; exact hb

/-- Rows of finite observations with at least one initial point give finite curves. -/
private theorem finite_minima (Y : Arr2 Flt) (n : ℕ) (hn : 0 < n) (hnc : n < Y.ncols)
    (hfin : ∀ row ∈ Y.rows, ∀ y ∈ row, ∃ x, y = Flt.fin x) :
    ∃ R : List (List ℝ), Y.rows.map (fun b => minimaRow b n) = R.map (List.map Flt.fin) ∧
      R.length = Y.rows.length ∧ ∀ c ∈ R, c.length = Y.ncols - n + 1 := by
  have hrow : ∀ row ∈ Y.rows, ∃ c : List ℝ, minimaRow row n = c.map Flt.fin ∧
      c.length = Y.ncols - n + 1 := by
    intro row hr
    have hlr : row.length = Y.ncols := Y.wf row hr
    have hs : sliceBound row.length n = n := by simp [sliceBound]
    have hall : ∀ m ∈ minimaRow row n, ∃ x, m = Flt.fin x := by
      intro m hm
      obtain ⟨k, hk⟩ := List.mem_iff_getElem?.1 hm
      have hk1 : k < (minimaRow row n).length := (List.getElem?_eq_some_iff.1 hk).1
      rw [minimaRow_length] at hk1
      rw [minimaRow_getElem? row n k hk1, Option.some.injEq, hs] at hk
      obtain ⟨h1, h2, h3⟩ := accMin_best (row.take (n + k))
      rw [hk] at h1 h2 h3
      rcases h3 with h3 | h3
      · exact hfin row hr m (List.mem_of_mem_take h3)
      · -- the first observation is finite and is considered
        have h0 : 0 < row.length := by omega
        have hmem : row[0] ∈ row.take (n + k) := by
          rw [List.mem_iff_getElem?]
          exact ⟨0, by rw [List.getElem?_take_of_lt (by omega), List.getElem?_eq_getElem h0]⟩
        obtain ⟨x, hx⟩ := hfin row hr row[0] (List.getElem_mem h0)
        rcases h2 _ hmem with h | h
        · rw [hx] at h; simp at h
        · rw [hx, h3] at h; simp at h
    refine ⟨(minimaRow row n).map (fun m => match m with | .fin x => x | _ => 0), ?_, ?_⟩
    · rw [List.map_map]
      conv_lhs => rw [← List.map_id (minimaRow row n)]
      apply List.map_congr_left
      intro m hm
      obtain ⟨x, rfl⟩ := hall m hm
      simp
    · rw [List.length_map, minimaRow_length, hs, hlr]
  choose! f hf using hrow
  refine ⟨Y.rows.map f, ?_, by simp, ?_⟩
  · rw [List.map_map]
    apply List.map_congr_left
    intro row hr
    exact (hf row hr).1
  · intro c hc
    obtain ⟨row, hr, rfl⟩ := List.mem_map.1 hc
    exact (hf row hr).2

/-- C16. With finite observations and at least one initial point, mean, standard deviation
(divisor `r - 1`; zero for one repetition) and standard error are those of the column of
curve values. -/
theorem C16_mean_std (Y : Arr2 Flt) (n : ℕ) (hn : 0 < n) (r : Minima)
    (hr : Y.rows ≠ []) (hfin : ∀ row ∈ Y.rows, ∀ y ∈ row, ∃ x, y = Flt.fin x)
    (h : getMinimum Y n = .ok r) :
    ∃ R : List (List ℝ), r.minima = R.map (List.map Flt.fin) ∧
      r.mean.length = Y.ncols - n + 1 ∧ r.std.length = Y.ncols - n + 1 ∧
      r.sem.length = Y.ncols - n + 1 ∧
      ∀ j ≤ Y.ncols - n, ∃ col : List ℝ, col.length = Y.rows.length ∧
        (∀ (i : ℕ) c, R[i]? = some c → c[j]? = col[i]?) ∧
        r.mean[j]? = some (.fin (col.sum / col.length)) ∧
        (let sd := if 1 < col.length then
            Real.sqrt ((col.map (fun x => (x - col.sum / col.length) ^ 2)).sum /
              ((col.length : ℝ) - 1)) else 0
         r.std[j]? = some (.fin sd) ∧ r.sem[j]? = some (.fin (sd / Real.sqrt col.length))) := by
  have hc : (Y.ncols : ℤ) > (n : ℤ) := by
    by_contra hc
    rw [(C16_fails_iff Y n .assertion).2 ⟨by omega, rfl⟩] at h
    simp at h
  obtain ⟨R, hR, hRl, hRc⟩ := finite_minima Y n hn (by omega) hfin
  have hs : sliceBound Y.ncols n = n := by simp [sliceBound]
  simp only [getMinimum, pyAssert, hc, if_true, bind, Except.bind, pure, Except.pure,
    Except.ok.injEq, hR, hs] at h
  subst h
  refine ⟨R, rfl, by simp, ?_, ?_, ?_⟩
  · simp only; split_ifs <;> simp
  · simp only [List.length_map]; split_ifs <;> simp
  · intro j hj
    have hlt : ∀ c ∈ R, j < c.length := fun c hcR => by rw [hRc c hcR]; omega
    have hlen : (column R j).length = Y.rows.length := by rw [length_column R j hlt, hRl]
    have hpos : 0 < Y.rows.length := List.length_pos_iff.2 hr
    have hg : ∀ c ∈ R, c[j]? = some (c.getD j 0) := by
      intro c hcR
      rw [List.getD_eq_getElem?_getD, List.getElem?_eq_getElem (hlt c hcR)]; rfl
    have hjr : j < Y.ncols - n + 1 := by omega
    refine ⟨column R j, hlen, ?_, ?_, ?_⟩
    · intro i c hi
      rw [column_eq_map R j _ hg, List.getElem?_map, hi, Option.map_some]
      exact hg c (List.mem_of_getElem? hi)
    · simp only [List.getElem?_map, List.getElem?_range hjr, Option.map_some, column_map_fin,
        meanF_fin]
    · simp only [hlen]
      split_ifs with h1
      · have h2 : 2 ≤ (column R j).length := by omega
        simp only [List.getElem?_map, List.getElem?_range hjr, Option.map_some, column_map_fin,
          stdF_fin _ h2, Flt.divPos, hlen, and_self]
      · simp [List.getElem?_range hjr, Flt.divPos]

/-- Concrete case of C16: observations `3, 5, 1` with one initial point give `3, 3, 1`. -/
example : ∃ r, getMinimum ⟨[[.fin 3, .fin 5, .fin 1]], 3, by simp⟩ 1 = .ok r ∧
    r.minima = [[.fin 3, .fin 3, .fin 1]] := by
  refine ⟨_, rfl, ?_⟩
  have h1 : ¬ ((5 : ℝ) < 3) := by norm_num
  have h2 : ((1 : ℝ) < 3) := by norm_num
  simp [minimaRow, accMin, runMin, pyMin, sliceTo, sliceFrom, sliceBound, h1, h2]

/-- C16. Without initial points the first entry is `+inf` (nothing observed yet). -/
theorem C16_no_initial (Y : Arr2 Flt) (r : Minima) (h : getMinimum Y 0 = .ok r)
    (curve : List Flt) (hc : curve ∈ r.minima) : curve[0]? = some Flt.pinf := by
  obtain ⟨hl, hcur⟩ := C16_curve Y 0 r h
  obtain ⟨i, hi⟩ := List.mem_iff_getElem?.1 hc
  have hil : i < Y.rows.length := by
    rw [← hl]; exact (List.getElem?_eq_some_iff.1 hi).1
  obtain ⟨_, hk⟩ := hcur i Y.rows[i] curve (List.getElem?_eq_getElem hil) hi
  obtain ⟨m, hm, hb⟩ := hk 0 (by omega)
  rw [hm]
  have := hb.2.2
  simp at this
  rw [this]

/-- C17. The call fails exactly if initial points are included and there are no more rounds
than initial points. -/
theorem C17_fails_iff (T : Arr2 ℝ) (n : ℤ) (inc : Bool) (e : PyErr) :
    getTime T n inc = .error e ↔ inc = true ∧ (T.ncols : ℤ) ≤ n ∧ e = .assertion := by
  cases inc with
  | false => simp [getTime, bind, Except.bind, pure, Except.pure]
  | true =>
    by_cases h : (T.ncols : ℤ) > n
    · simp [getTime, pyAssert, h, bind, Except.bind, pure, Except.pure]
    · simp only [getTime, pyAssert, h, if_true, if_false, bind, Except.bind, Except.error.injEq,
        true_and]
      constructor
      · intro h'; exact ⟨by omega, h'.symm⟩
      · rintro ⟨_, rfl⟩; rfl

/-- The first column counted: initial points are skipped when they are included. -/
def firstCounted (n : ℕ) (inc : Bool) : ℕ := if inc then n else 0

/-- C17. The curve has one entry more than the rounds counted, and entry `k` is the average
over repetitions of the total time of the first `k` counted rounds (so entry 0 is 0). -/
theorem C17_curve (T : Arr2 ℝ) (n : ℕ) (inc : Bool) (c : List ℝ) (h : getTime T n inc = .ok c) :
    c.length = T.ncols - firstCounted n inc + 1 ∧
    ∀ k ≤ T.ncols - firstCounted n inc,
      c[k]? = some ((T.rows.map (fun row => ((row.drop (firstCounted n inc)).take k).sum)).sum
        / T.rows.length) := by
  have hs : sliceBound T.ncols n = n := by simp [sliceBound]
  have hrow : ∀ row ∈ T.rows, (if inc then sliceFrom row n else row) =
      row.drop (firstCounted n inc) := by
    intro row hr
    have hl : row.length = T.ncols := T.wf row hr
    cases inc <;> simp [firstCounted, sliceFrom, hl, hs]
  have hc : c = (List.range (T.ncols - firstCounted n inc + 1)).map (fun j =>
      (column (T.rows.map (fun t => timeRow t n inc)) j).sum /
        ((column (T.rows.map (fun t => timeRow t n inc)) j).length : ℝ)) := by
    cases inc with
    | false =>
      simp only [getTime, bind, Except.bind, pure, Except.pure, Bool.false_eq_true,
        if_false, Except.ok.injEq] at h
      rw [← h]; simp [firstCounted]
    | true =>
      by_cases hgt : (T.ncols : ℤ) > n
      · simp only [getTime, pyAssert, hgt, if_true, bind, Except.bind, pure, Except.pure,
          Except.ok.injEq, hs] at h
        rw [← h]; simp [firstCounted]
      · rw [(C17_fails_iff T n true .assertion).2 ⟨rfl, by omega, rfl⟩] at h
        simp at h
  subst hc
  refine ⟨by simp, ?_⟩
  intro k hk
  have hcol : column (T.rows.map (fun t => timeRow t n inc)) k =
      T.rows.map (fun row => ((row.drop (firstCounted n inc)).take k).sum) := by
    have : ∀ rows : List (List ℝ), (∀ row ∈ rows, row ∈ T.rows) →
        column (rows.map (fun t => timeRow t n inc)) k =
        rows.map (fun row => ((row.drop (firstCounted n inc)).take k).sum) := by
      intro rows
      induction rows with
      | nil => intro _; rfl
      | cons row t ih =>
        intro hall
        have hr := hall row (by simp)
        have ht := ih (fun s hs => hall s (by simp [hs]))
        have hl : row.length = T.ncols := T.wf row hr
        have he := timeRow_getElem? row n inc k
          (by rw [hrow row hr, List.length_drop, hl]; exact hk)
        rw [hrow row hr] at he
        simp only [List.map_cons, column, List.filterMap_cons, he] at ht ⊢
        rw [ht]
    exact this T.rows (fun _ h => h)
  rw [List.getElem?_map, List.getElem?_range (by omega), Option.map_some, hcol]
  simp

/-- C17. The curve starts at 0 and never decreases when no recorded time is negative. -/
theorem C17_monotone (T : Arr2 ℝ) (n : ℕ) (inc : Bool) (c : List ℝ)
    (h : getTime T n inc = .ok c) (hpos : ∀ row ∈ T.rows, ∀ x ∈ row, 0 ≤ x) :
    c[0]? = some 0 ∧ ∀ (k : ℕ) a b, c[k]? = some a → c[k + 1]? = some b → a ≤ b := by
  obtain ⟨hl, hk⟩ := C17_curve T n inc c h
  constructor
  · rw [hk 0 (by omega)]; simp
  · intro k a b ha hb
    have hk1 : k + 1 < c.length := (List.getElem?_eq_some_iff.1 hb).1
    rw [hk k (by omega), Option.some.injEq] at ha
    rw [hk (k + 1) (by omega), Option.some.injEq] at hb
    subst ha hb
    apply div_le_div_of_nonneg_right _ (Nat.cast_nonneg _)
    apply List.sum_le_sum
    intro row hr
    rw [List.take_add_one, List.sum_append]
    have : 0 ≤ ((row.drop (firstCounted n inc))[k]?.toList).sum := by
      apply List.sum_nonneg
      intro x hx
      have : x ∈ row := List.mem_of_mem_drop (List.mem_of_getElem? (by simpa using hx))
      exact hpos row hr x this
    linarith

/-- Concrete case of C17: times `9, 1, 2` with one initial point give `0, 1, 3`. -/
example : getTime ⟨[[9, 1, 2]], 3, by simp⟩ 1 true = .ok [0, 1, 3] := by
  have : ((3 : ℕ) : ℤ) > 1 := by norm_num
  simp [getTime, pyAssert, bind, Except.bind, pure, Except.pure, timeRow, sliceFrom, sliceBound,
    cumsum, column, List.range_succ]
  norm_num

private theorem mapM_ok_getElem {α β : Type _} (f : α → Py β) (l : List α) (out : List β)
    (h : l.mapM f = .ok out) :
    out.length = l.length ∧
      ∀ (i : ℕ) a b, l[i]? = some a → out[i]? = some b → f a = .ok b := by
  induction l generalizing out with
  | nil => simp [pure, Except.pure] at h; subst h; simp
  | cons x t ih =>
    rw [List.mapM_cons] at h
    cases hx : f x with
    | error e => simp [hx, bind, Except.bind] at h
    | ok y =>
      cases ht : t.mapM f with
      | error e => simp [hx, ht, bind, Except.bind] at h
      | ok ys =>
        simp [hx, ht, bind, Except.bind, pure, Except.pure] at h
        subst h
        obtain ⟨h1, h2⟩ := ih ys ht
        refine ⟨by simp [h1], ?_⟩
        intro i a b ha hb
        cases i with
        | zero => simp at ha hb; rw [← ha, ← hb]; exact hx
        | succ i => simp at ha hb; exact h2 i a b ha hb

/-- C18. In every accepted call all arrays have the declared number of columns, the curves
have as many abscissae as ordinates and deviations. -/
theorem C18_plot_lengths (times : List (Arr2 ℝ)) (tt : ℕ) (minima : List (Arr2 Flt)) (t : ℕ)
    (rt rm labels n : ℕ) (curves : List Curve)
    (htimes : ∀ a ∈ times, a.ncols = tt) (hminima : ∀ a ∈ minima, a.ncols = t)
    (h : minimumVsTimeData times tt minima t rt rm labels n = .ok curves) :
    curves.length = labels ∧ ∀ c ∈ curves, c.x.length = t - n + 1 ∧
      c.y.length = t - n + 1 ∧ c.std.length = t - n + 1 := by
  by_cases h1 : times.length = minima.length ∧ minima.length = labels
  case neg => simp [minimumVsTimeData, pyAssert, h1, bind, Except.bind] at h
  by_cases h2 : rt = rm
  case neg => simp [minimumVsTimeData, pyAssert, h1, h2, bind, Except.bind] at h
  by_cases h3 : (t : ℤ) ≥ (n : ℤ)
  case neg => simp [minimumVsTimeData, pyAssert, h1, h2, h3, bind, Except.bind] at h
  by_cases h4 : tt = t ∨ (tt : ℤ) + (n : ℤ) = t
  case neg => simp [minimumVsTimeData, pyAssert, h1, h2, h3, h4, bind, Except.bind] at h
  simp only [minimumVsTimeData, pyAssert, h1, h2, h3, h4, if_true, bind, and_self] at h
  change (List.zip times minima).mapM _ = _ at h
  obtain ⟨hl, hall⟩ := mapM_ok_getElem _ _ _ h
  constructor
  · rw [hl, List.length_zip, h1.1, h1.2, Nat.min_self]
  · intro c hc
    obtain ⟨i, hi⟩ := List.mem_iff_getElem?.1 hc
    have hil : i < (List.zip times minima).length := by
      rw [← hl]; exact (List.getElem?_eq_some_iff.1 hi).1
    have hz := hall i _ c (List.getElem?_eq_getElem hil) hi
    have hmem : (List.zip times minima)[i] ∈ List.zip times minima := List.getElem_mem hil
    revert hz hmem
    generalize (List.zip times minima)[i] = p
    intro hz hmem
    obtain ⟨hT, hM⟩ := List.of_mem_zip (show (p.1, p.2) ∈ List.zip times minima from hmem)
    have hTc := htimes _ hT
    have hMc := hminima _ hM
    cases hg : getMinimum p.2 n with
    | error e => simp [hg, Except.bind] at hz
    | ok r =>
      cases ht : getTime p.1 n (decide (tt = t)) with
      | error e => simp [hg, ht, Except.bind] at hz
      | ok x =>
        simp only [hg, ht, Except.bind, pure, Except.pure, Except.ok.injEq] at hz
        subst hz
        have hx := (C17_curve p.1 n _ x ht).1
        have hn : (p.2.ncols : ℤ) > (n : ℤ) := by
          by_contra hc'
          rw [(C16_fails_iff p.2 n .assertion).2 ⟨by omega, rfl⟩] at hg
          simp at hg
        have hs : sliceBound p.2.ncols n = n := by simp [sliceBound]
        simp only [getMinimum, pyAssert, hn, if_true, bind, Except.bind, pure, Except.pure,
          Except.ok.injEq, hs] at hg
        subst hg
        simp only
        refine ⟨?_, by simp [hMc], ?_⟩
        · rw [hx, hTc]
          by_cases he : tt = t
          · simp [he, firstCounted]
          · rcases h4 with h4 | h4
            · exact absurd h4 he
            · simp only [he, decide_false, firstCounted, Bool.false_eq_true, if_false]
              omega
        · split_ifs <;> simp [hMc]

/-- C18. A number of initial points equal to the number of rounds passes the function's own
checks and then fails inside `get_minimum`. -/
theorem C18_boundary_fails (times : List (Arr2 ℝ)) (tt : ℕ) (m : Arr2 Flt) (ms : List (Arr2 Flt))
    (t rt labels : ℕ) (a : Arr2 ℝ) (hm : m.ncols = t)
    (hl : (a :: times).length = (m :: ms).length ∧ (m :: ms).length = labels)
    (htt : tt = t ∨ (tt : ℤ) + t = t) :
    minimumVsTimeData (a :: times) tt (m :: ms) t rt rt labels t = .error .assertion := by
  have hg : getMinimum m (t : ℤ) = .error .assertion :=
    (C16_fails_iff m t .assertion).2 ⟨by omega, rfl⟩
  have htt' : tt = t ∨ tt = 0 := by omega
  unfold minimumVsTimeData
  simp [pyAssert, hl, htt', bind, Except.bind, hg, List.mapM_cons]

/-- Concrete case of C18: an array of 2 rounds x 3 columns, one initial point, times without
the initial ones. -/
example : ∃ curves, minimumVsTimeData [⟨[[1, 2], [3, 4]], 2, by simp⟩] 2
    [⟨[[.fin 3, .fin 2, .fin 1], [.fin 3, .fin 5, .fin 1]], 3, by simp⟩] 3 2 2 1 (1 : ℕ)
      = .ok curves ∧ curves.length = 1 := by
  simp [minimumVsTimeData, pyAssert, bind, Except.bind, getMinimum, getTime, pure, Except.pure,
    List.mapM_cons]

/-- C64. `plot_bo_step` draws every training row exactly once, in order: the groups
concatenate to the training data. It fails only when there is no newest point to mark. -/
theorem C64_bo_step_partition {α : Type _} (X : List α) (num_init : Option ℤ)
    (groups : List (List α)) (h : boStepGroups X num_init = .ok groups) :
    groups.flatten = X := by
  have hb : ∀ l : List α, l ≠ [] → sliceBound l.length (-1) = l.length - 1 := by
    intro l hl
    have : 0 < l.length := List.length_pos_iff.2 hl
    simp only [sliceBound]
    rw [if_pos (by norm_num)]
    omega
  have hlast : ∀ a, X.getLast? = some a → X ≠ [] ∧ X.take (X.length - 1) ++ [a] = X := by
    intro a ha
    have hne : X ≠ [] := by rintro rfl; simp at ha
    refine ⟨hne, ?_⟩
    rw [← List.dropLast_eq_take]
    rw [List.getLast?_eq_some_getLast hne, Option.some.injEq] at ha
    rw [← ha]
    exact List.dropLast_append_getLast hne
  cases num_init with
  | none =>
    cases hg : X.getLast? with
    | none => simp [boStepGroups, pyLast, hg, bind, Except.bind] at h
    | some a =>
      simp [boStepGroups, pyLast, hg, bind, Except.bind, pure, Except.pure] at h
      subst h
      obtain ⟨hne, hx⟩ := hlast a hg
      simp only [List.flatten_cons, List.flatten_nil, List.append_nil, sliceTo, hb X hne]
      exact hx
  | some n =>
    by_cases h1 : (X.length : ℤ) ≥ n
    case neg => simp [boStepGroups, pyAssert, h1, bind, Except.bind] at h
    by_cases h2 : (X.length : ℤ) > n
    · cases hg : X.getLast? with
      | none => simp [boStepGroups, pyAssert, pyLast, h1, h2, hg, bind, Except.bind] at h
      | some a =>
        simp [boStepGroups, pyAssert, pyLast, h1, h2, hg, bind, Except.bind, pure,
          Except.pure] at h
        subst h
        obtain ⟨hne, hx⟩ := hlast a hg
        have hpos : 0 < X.length := List.length_pos_iff.2 hne
        have hle : sliceBound X.length n ≤ X.length - 1 := by
          simp only [sliceBound]; split_ifs <;> omega
        simp only [List.flatten_cons, List.flatten_nil, List.append_nil, sliceTo, slice, hb X hne]
        rw [← List.append_assoc]
        have : X.take (sliceBound X.length n) ++ (X.take (X.length - 1)).drop
            (sliceBound X.length n) = X.take (X.length - 1) := by
          conv_rhs => rw [← List.take_append_drop (sliceBound X.length n) (X.take (X.length - 1))]
          rw [List.take_take, Nat.min_eq_left hle]
        rw [this]
        exact hx
    · simp [boStepGroups, pyAssert, h1, h2, bind, Except.bind, pure, Except.pure] at h
      subst h
      simp

/-- C64. The only failing calls: too few rows, or no rows at all where a newest row is marked. -/
theorem C64_fails_iff {α : Type _} (X : List α) (num_init : Option ℤ) (e : PyErr) :
    boStepGroups X num_init = .error e ↔
      (∃ n, num_init = some n ∧ (X.length : ℤ) < n ∧ e = .assertion) ∨
      (X = [] ∧ e = .index ∧ (num_init = none ∨ ∃ n, num_init = some n ∧ n < 0)) := by
  cases num_init with
  | none =>
    cases X with
    | nil => simp [boStepGroups, pyLast, bind, Except.bind, eq_comm]
    | cons a t =>
      simp [boStepGroups, pyLast, bind, Except.bind, List.getLast?_cons, pure, Except.pure]
  | some n =>
    by_cases h1 : (X.length : ℤ) ≥ n
    · by_cases h2 : (X.length : ℤ) > n
      · cases X with
        | nil =>
          simp at h1 h2
          simp [boStepGroups, pyAssert, pyLast, h1, h2, bind, Except.bind, eq_comm]
        | cons a t =>
          have h3 : ¬ ((a :: t).length : ℤ) < n := by omega
          simp only [List.length_cons] at h1 h2 h3
          push_cast at h1 h2 h3
          have h1' : n ≤ (t.length : ℤ) + 1 := h1
          have h2' : n < (t.length : ℤ) + 1 := h2
          simp [boStepGroups, pyAssert, pyLast, h1', h2', h3, bind, Except.bind,
            List.getLast?_cons, pure, Except.pure]
      · have h3 : ¬ (X.length : ℤ) < n := by omega
        have h4 : ¬ (X = [] ∧ n < 0) := by
          rintro ⟨rfl, h⟩; simp at h2; omega
        simp [boStepGroups, pyAssert, h1, h2, h3, bind, Except.bind, pure, Except.pure]
        intro hX _; subst hX; simp at h2; exact h2
    · have h3 : (X.length : ℤ) < n := by omega
      have h4 : ¬ (n < 0) := by omega
      simp [boStepGroups, pyAssert, h1, h3, h4, bind, Except.bind, eq_comm]

/-- Concrete case of C64. -/
example : boStepGroups [10, 11, 12, 13] (some 2) = .ok [[10, 11], [12], [13]] := rfl

end Verif.Props
