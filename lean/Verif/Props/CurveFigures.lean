import Verif.Props.Figures
import Verif.Lemmas.StepPost
import Verif.Lemmas.StepTotal
import Mathlib.Data.Nat.ModEq

/-! C88, C89, C90: figures of best-so-far curves, their legends, and the files written. -/

namespace Verif.Props

open Verif.Spec Verif.Lemmas Verif.UtilsPlotting Verif.UtilsCommon

private theorem assert_ok' {p : Prop} [Decidable p] {u : Unit} (h : pyAssert p = .ok u) : p := by
  by_contra hn
  simp [pyAssert, hn] at h

private theorem assert_pos {p : Prop} [Decidable p] (h : p) : pyAssert p = .ok () := by
  simp [pyAssert, h]

private theorem index_ok {α : Type} {l : List α} {i : ℕ} {a : α} (h : pyIndex l i = .ok a) :
    l[i]? = some a := by
  unfold pyIndex at h
  split at h
  · rw [← Except.ok.inj h]; assumption
  · simp at h

private theorem mod_ok {i n r : ℕ} (h : pyMod i n = .ok r) : r = i % n := by
  unfold pyMod at h
  split at h
  · simp at h
  · exact (Except.ok.inj h).symm

private theorem mapM_split {α β γ : Type} {f : α × ℕ → Py (β × γ)} {D : α → Py γ}
    {P : ℕ → γ → β → Prop} (hf : ∀ a i e, f (a, i) = .ok e → D a = .ok e.2 ∧ P i e.2 e.1) :
    ∀ (l : List α) (k : ℕ) (out : List (β × γ)), (l.zipIdx k).mapM f = .ok out →
      l.mapM D = .ok (out.map (·.2)) ∧ ∀ i e, out[i]? = some e → P (k + i) e.2 e.1 := by
  intro l
  induction l with
  | nil =>
    intro k out h
    obtain rfl := Except.ok.inj h
    exact ⟨rfl, by simp⟩
  | cons a t ih =>
    intro k out h
    rw [List.zipIdx_cons, List.mapM_cons] at h
    obtain ⟨x, h1, h⟩ := py_bind_ok h
    obtain ⟨xs, h2, h⟩ := py_bind_ok h
    obtain rfl := Except.ok.inj h
    obtain ⟨i1, i2⟩ := ih _ _ h2
    obtain ⟨j1, j2⟩ := hf _ _ _ h1
    refine ⟨by rw [List.mapM_cons, j1, i1]; rfl, ?_⟩
    intro i e hi
    cases i with
    | zero =>
      obtain rfl := Option.some.inj hi
      exact j2
    | succ i =>
      have := i2 i e (by simpa using hi)
      rwa [show k + (i + 1) = k + 1 + i by omega]

private theorem mapM_mem {α β : Type} {f : α → Py β} {l : List α} {r : List β}
    (h : l.mapM f = .ok r) (b : β) (hb : b ∈ r) : ∃ a ∈ l, f a = .ok b := by
  obtain ⟨i, hi⟩ := List.mem_iff_getElem?.1 hb
  obtain ⟨h1, h2⟩ := mapM_getElem h
  have : i < l.length := by
    rw [← h1]
    exact (List.getElem?_eq_some_iff.1 hi).1
  exact ⟨l[i], List.getElem_mem this, h2 i _ b (List.getElem?_eq_getElem this) hi⟩

private theorem scale_fin (c x : ℝ) : scale c (.fin x) = .fin (c * x) := rfl

private theorem drawCurve_ok {o : CurveOptions} {labels : List String} {i ic im : ℕ} {c : Curve}
    {artists : List Artist} (hc : ic = i % o.colors.length) (hm : im = i % o.markers.length)
    (h : drawCurve o labels i ic im c = .ok artists) : IsCurve o labels i c artists := by
  subst hc hm
  unfold drawCurve at h
  obtain ⟨label, h1, h⟩ := py_bind_ok h
  obtain ⟨colour, h2, h⟩ := py_bind_ok h
  have h1 := index_ok h1
  have h2 := index_ok h2
  have key : ∀ marker, (if o.include_marker then o.markers[i % o.markers.length]? = some marker
      else marker = "None") → artists = Artist.line c.x c.y colour marker (some label) ::
        (if o.draw_std then [bandF c.x c.y c.std o.range_shade colour] else []) →
      IsCurve o labels i c artists := by
    intro marker hm ha
    refine ⟨label, colour, marker, _, h1, h2, hm, ha, ?_⟩
    by_cases hd : o.draw_std = true
    · rw [if_pos hd, if_pos hd]
      refine ⟨_, _, rfl, ?_⟩
      intro m s hm hs
      simp only [hm, hs, List.zipWith_map, scale_fin]
      exact ⟨rfl, rfl⟩
    · rw [if_neg hd, if_neg hd]
  by_cases hi : o.include_marker = true
  · simp only [hi, if_true] at h
    obtain ⟨marker, h3, h⟩ := py_bind_ok h
    obtain rfl := Except.ok.inj h
    exact key marker (by rw [if_pos hi]; exact index_ok h3) rfl
  · simp only [hi] at h
    obtain rfl := Except.ok.inj h
    exact key "None" (by rw [if_neg hi]) rfl

private theorem lookup {α β : Type} {f : α → β} {l : List α} {i : ℕ} {b : β}
    (h : (l.map f)[i]? = some b) : ∃ a, l[i]? = some a ∧ f a = b := by
  rw [List.getElem?_map] at h
  cases hl : l[i]? with
  | none => simp [hl] at h
  | some a => exact ⟨a, rfl, by simpa [hl] using h⟩

/-- The figure of the curves `cs`. -/
private theorem curve_parts {o : CurveOptions} {labels : List String}
    {drawn : List (List Artist × Curve)}
    (h : ∀ i e, drawn[i]? = some e → IsCurve o labels (0 + i) e.2 e.1) (i : ℕ) (c : Curve)
    (hc : (drawn.map (·.2))[i]? = some c) :
    ∃ p, (drawn.map (·.1))[i]? = some p ∧ IsCurve o labels i c p := by
  obtain ⟨e, he, rfl⟩ := lookup hc
  refine ⟨e.1, by simp [he], ?_⟩
  have := h i e he
  rwa [Nat.zero_add] at this

private theorem finish_axes (o : CurveOptions) (labels : List String) (kind : String)
    (artists : List Artist) (ax : Axes) : (finishCurves o labels kind artists ax).axes = [ax] := by
  unfold finishCurves
  split <;> rfl

private theorem iter_parts {minima : List (Arr2 Flt)} {t : ℕ} {labels : List String} {n : ℕ}
    {o : CurveOptions} {fig : Figure} (h : plotMinimumVsIter true minima t labels n o = .ok (some fig)) :
    ∃ cs ax parts, minimumVsIterData minima t labels.length n = .ok cs ∧ fig.axes = [ax] ∧
      ax.artists = List.flatten parts ∧ parts.length = cs.length ∧
      (∀ i c, cs[i]? = some c → ∃ p, parts[i]? = some p ∧ IsCurve o labels i c p) ∧
      parts.length = labels.length ∧
      fig = finishCurves o labels "minimum_" parts.flatten ax ∧
      ((∀ a ∈ minima, a.ncols = t) → ∀ c ∈ cs, ∀ x ∈ c.x, InView ax x) := by
  unfold plotMinimumVsIter at h
  obtain ⟨_, h1, h⟩ := py_bind_ok h
  obtain ⟨_, h2, h⟩ := py_bind_ok h
  have h1 := assert_ok' h1
  have h2 := assert_ok' h2
  simp only [Bool.not_true, Bool.false_eq_true, if_false] at h
  obtain ⟨drawn, h3, h⟩ := py_bind_ok h
  obtain ⟨hD, hP⟩ := mapM_split (P := fun i c p => IsCurve o labels i c p)
    (D := fun arr_minimum => do
      let r ← getMinimum arr_minimum n
      return (⟨(List.range r.mean.length).map (fun i : ℕ => (i : ℝ)), r.mean, r.std⟩ : Curve))
    (by
      intro a i e he
      obtain ⟨ic, e1, he⟩ := py_bind_ok he
      obtain ⟨im, e2, he⟩ := py_bind_ok he
      obtain ⟨r, e3, he⟩ := py_bind_ok he
      obtain ⟨artists, e4, he⟩ := py_bind_ok he
      obtain rfl := Except.ok.inj he
      dsimp only at e3
      refine ⟨?_, drawCurve_ok (mod_ok e1) (mod_ok e2) e4⟩
      dsimp only
      rw [e3]
      rfl) minima 0 drawn h3
  have hlen : (∀ a ∈ minima, a.ncols = t) → ∀ c ∈ drawn.map (·.2), c.y.length = t - n + 1 ∧
      c.x = (List.range (t - n + 1)).map (fun i : ℕ => (i : ℝ)) := by
    intro ht c hc
    obtain ⟨a, ha, hac⟩ := mapM_mem hD c hc
    obtain ⟨r, e1, e2⟩ := py_bind_ok hac
    obtain rfl := Except.ok.inj e2
    have hn : (a.ncols : ℤ) > (n : ℤ) := by
      by_contra hc'
      rw [(C16_fails_iff a n .assertion).2 ⟨by omega, rfl⟩] at e1
      simp at e1
    have hr : r.mean.length = t - n + 1 := by
      have hs : sliceBound a.ncols n = n := by simp [sliceBound]
      simp only [getMinimum, pyAssert, hn, if_true, bind, Except.bind, pure, Except.pure,
        Except.ok.injEq, hs] at e1
      subst e1
      simp [ht a ha]
    exact ⟨hr, by rw [hr]⟩
  have hdata : minimumVsIterData minima t labels.length n = .ok (drawn.map (·.2)) := by
    simp only [minimumVsIterData, pyAssert, h1, h2, if_true]
    exact hD
  cases hg : drawn.getLast? with
  | none => simp [hg] at h
  | some last =>
    simp only [hg] at h
    obtain rfl := Option.some.inj (Except.ok.inj h)
    refine ⟨_, _, drawn.map (·.1), hdata, finish_axes _ _ _ _ _, rfl, by simp,
      fun i c hc => curve_parts hP i c hc, ?_, rfl, ?_⟩
    · have := (mapM_getElem hD).1
      rw [List.length_map] at this ⊢
      exact this.trans h1
    intro ht c hc x hx
    have hlast := hlen ht last.2 (List.mem_map.2 ⟨last, List.mem_of_getLast? hg, rfl⟩)
    rw [(hlen ht c hc).2] at hx
    obtain ⟨k, hk, rfl⟩ := List.mem_map.1 hx
    refine ⟨0, (last.2.y.length : ℝ) - 1, rfl, by positivity, ?_⟩
    rw [hlast.1]
    push_cast
    have := List.mem_range.1 hk
    have : k ≤ t - n := by omega
    have : (k : ℝ) ≤ ((t - n : ℕ) : ℝ) := by exact_mod_cast this
    linarith

private theorem time_parts {times : List (Arr2 ℝ)} {tt : ℕ} {minima : List (Arr2 Flt)} {t rt rm : ℕ}
    {labels : List String} {n : ℤ} {o : CurveOptions} {fig : Figure}
    (h : plotMinimumVsTime true times tt minima t rt rm labels n o = .ok (some fig)) :
    ∃ cs ax parts, minimumVsTimeData times tt minima t rt rm labels.length n = .ok cs ∧
      fig.axes = [ax] ∧ ax.artists = List.flatten parts ∧ parts.length = cs.length ∧
      (∀ i c, cs[i]? = some c → ∃ p, parts[i]? = some p ∧ IsCurve o labels i c p) ∧
      parts.length = labels.length ∧
      fig = finishCurves o labels "minimum_time_" parts.flatten ax ∧
      ∀ c ∈ cs, ∀ x ∈ c.x, InView ax x := by
  unfold plotMinimumVsTime at h
  obtain ⟨_, h1, h⟩ := py_bind_ok h
  obtain ⟨_, h2, h⟩ := py_bind_ok h
  obtain ⟨_, h4, h⟩ := py_bind_ok h
  obtain ⟨_, h5, h⟩ := py_bind_ok h
  have h1 := assert_ok' h1
  have h2 := assert_ok' h2
  have h4 := assert_ok' h4
  have h5 := assert_ok' h5
  simp only [Bool.not_true, Bool.false_eq_true, if_false] at h
  obtain ⟨drawn, h3, h⟩ := py_bind_ok h
  obtain ⟨a, ha, h⟩ := py_bind_ok h
  obtain ⟨b, hb, h⟩ := py_bind_ok h
  obtain rfl := Option.some.inj (Except.ok.inj h)
  obtain ⟨hD, hP⟩ := mapM_split (P := fun i c p => IsCurve o labels i c p)
    (D := fun p : Arr2 ℝ × Arr2 Flt => do
      let r ← getMinimum p.2 n
      let x_data ← getTime p.1 n (decide (tt = t))
      return (⟨x_data, r.mean, r.std⟩ : Curve))
    (by
      intro a i e he
      obtain ⟨ic, e1, he⟩ := py_bind_ok he
      obtain ⟨im, e2, he⟩ := py_bind_ok he
      obtain ⟨r, e3, he⟩ := py_bind_ok he
      obtain ⟨x, e5, he⟩ := py_bind_ok he
      obtain ⟨artists, e4, he⟩ := py_bind_ok he
      obtain rfl := Except.ok.inj he
      dsimp only at e3 e5
      refine ⟨?_, drawCurve_ok (mod_ok e1) (mod_ok e2) e4⟩
      dsimp only
      rw [e3, e5]
      rfl) (times.zip minima) 0 drawn h3
  have hdata : minimumVsTimeData times tt minima t rt rm labels.length n =
      .ok (drawn.map (·.2)) := by
    unfold minimumVsTimeData
    simp only [pyAssert]
    rw [if_pos h1, if_pos h2, if_pos h4, if_pos h5]
    exact hD
  refine ⟨_, _, drawn.map (·.1), hdata, finish_axes _ _ _ _ _, rfl, by simp,
    fun i c hc => curve_parts hP i c hc, ?_, rfl, ?_⟩
  · have := (mapM_getElem hD).1
    rw [List.length_map, List.length_zip, h1.1, Nat.min_self] at this
    rw [List.length_map]
    exact this.trans h1.2
  intro c hc x hx
  obtain ⟨e, he, rfl⟩ := List.mem_map.1 hc
  have hmem : x ∈ (drawn.map (·.2.x)).flatten :=
    List.mem_flatten.2 ⟨e.2.x, List.mem_map.2 ⟨e, he, rfl⟩, hx⟩
  exact ⟨a, b, rfl, (npMin_ok.1 ha).2 x hmem, (npMax_ok.1 hb).2 x hmem⟩

/-- C88: best-so-far curves against iterations. Every array gives one curve, drawn with the line and
the band that belong to it and nothing else; all of it is in view. -/
theorem C88_iterations {minima : List (Arr2 Flt)} {t : ℕ} {labels : List String} {n : ℕ}
    {o : CurveOptions} {fig : Figure} (ht : ∀ a ∈ minima, a.ncols = t)
    (h : plotMinimumVsIter true minima t labels n o = .ok (some fig)) :
    ∃ cs ax parts, minimumVsIterData minima t labels.length n = .ok cs ∧ fig.axes = [ax] ∧
      ax.artists = List.flatten parts ∧ parts.length = cs.length ∧
      (∀ i c, cs[i]? = some c → ∃ p, parts[i]? = some p ∧ IsCurve o labels i c p) ∧
      ∀ c ∈ cs, ∀ x ∈ c.x, InView ax x := by
  obtain ⟨cs, ax, parts, e1, e2, e3, e4, e5, -, -, e6⟩ := iter_parts h
  exact ⟨cs, ax, parts, e1, e2, e3, e4, e5, e6 ht⟩

/-- C88: best-so-far curves against time. -/
theorem C88_time {times : List (Arr2 ℝ)} {tt : ℕ} {minima : List (Arr2 Flt)} {t rt rm : ℕ}
    {labels : List String} {n : ℤ} {o : CurveOptions} {fig : Figure}
    (h : plotMinimumVsTime true times tt minima t rt rm labels n o = .ok (some fig)) :
    ∃ cs ax parts, minimumVsTimeData times tt minima t rt rm labels.length n = .ok cs ∧
      fig.axes = [ax] ∧ ax.artists = List.flatten parts ∧ parts.length = cs.length ∧
      (∀ i c, cs[i]? = some c → ∃ p, parts[i]? = some p ∧ IsCurve o labels i c p) ∧
      ∀ c ∈ cs, ∀ x ∈ c.x, InView ax x := by
  obtain ⟨cs, ax, parts, e1, e2, e3, e4, e5, -, -, e6⟩ := time_parts h
  exact ⟨cs, ax, parts, e1, e2, e3, e4, e5, e6⟩

/-- C88: numbers of labels other than the number of arrays, and more initial points than columns, are
rejected, also when matplotlib is missing. -/
theorem C88_rejects_iterations (installed : Bool) (minima : List (Arr2 Flt)) (t : ℕ)
    (labels : List String) (n : ℤ) (o : CurveOptions)
    (h : minima.length ≠ labels.length ∨ (t : ℤ) < n) :
    plotMinimumVsIter installed minima t labels n o = .error .assertion ∧
    minimumVsIterData minima t labels.length n = .error .assertion := by
  by_cases h1 : minima.length = labels.length
  · have h2 : ¬ (t : ℤ) ≥ n := by
      rcases h with h | h
      · exact absurd h1 h
      · omega
    simp [plotMinimumVsIter, minimumVsIterData, pyAssert, h1, h2, bind, Except.bind]
  · simp [plotMinimumVsIter, minimumVsIterData, pyAssert, h1, bind, Except.bind]

/-- C88: against time, also unequal numbers of arrays or rounds, and numbers of times that are neither
those of all columns nor those of the columns after the initial ones. -/
theorem C88_rejects_time (installed : Bool) (times : List (Arr2 ℝ)) (tt : ℕ)
    (minima : List (Arr2 Flt)) (t rt rm : ℕ) (labels : List String) (n : ℤ) (o : CurveOptions)
    (h : times.length ≠ minima.length ∨ minima.length ≠ labels.length ∨ rt ≠ rm ∨ (t : ℤ) < n ∨
      (tt ≠ t ∧ (tt : ℤ) + n ≠ t)) :
    plotMinimumVsTime installed times tt minima t rt rm labels n o = .error .assertion ∧
    minimumVsTimeData times tt minima t rt rm labels.length n = .error .assertion := by
  by_cases h1 : times.length = minima.length ∧ minima.length = labels.length
  · by_cases h2 : rt = rm
    · by_cases h3 : (t : ℤ) ≥ n
      · have h4 : ¬ (tt = t ∨ (tt : ℤ) + n = t) := by
          rcases h with h | h | h | h | h
          · exact absurd h1.1 h
          · exact absurd h1.2 h
          · exact absurd h2 h
          · omega
          · tauto
        simp [plotMinimumVsTime, minimumVsTimeData, pyAssert, h1, h2, h3, h4, bind, Except.bind]
      · simp [plotMinimumVsTime, minimumVsTimeData, pyAssert, h1, h2, h3, bind, Except.bind]
    · simp [plotMinimumVsTime, minimumVsTimeData, pyAssert, h1, h2, bind, Except.bind]
  · simp [plotMinimumVsTime, minimumVsTimeData, pyAssert, h1, bind, Except.bind]

/-- Two labels for one array. -/
example : plotMinimumVsIter false [⟨[[.fin 1]], 1, by simp⟩] 1 ["a", "b"] 0 { draw_std := true } =
    .error .assertion :=
  (C88_rejects_iterations _ _ _ _ _ _ (.inl (by decide))).1

/-- C88: with different colours and different markers, two curves look alike exactly when their
numbers differ by a multiple of both numbers of styles. -/
theorem C88_styles {o : CurveOptions} {labels : List String} {i j : ℕ} {c d : Curve}
    {p q : List Artist} (hi : IsCurve o labels i c p) (hj : IsCurve o labels j d q)
    (hc : o.colors.Nodup) (hm : o.markers.Nodup) (hinc : o.include_marker = true) :
    ∃ x y x' y' colour marker colour' marker' label label' r r',
      p = .line x y colour marker label :: r ∧ q = .line x' y' colour' marker' label' :: r' ∧
      (colour = colour' ∧ marker = marker' ↔
        i ≡ j [MOD Nat.lcm o.colors.length o.markers.length]) := by
  obtain ⟨l1, c1, m1, b1, -, hc1, hm1, hp, -⟩ := hi
  obtain ⟨l2, c2, m2, b2, -, hc2, hm2, hq, -⟩ := hj
  rw [if_pos hinc] at hm1 hm2
  refine ⟨_, _, _, _, _, _, _, _, _, _, _, _, hp, hq, ?_⟩
  have key : ∀ {l : List String} {a b : ℕ} {x y : String}, l.Nodup → l[a % l.length]? = some x →
      l[b % l.length]? = some y → (x = y ↔ a ≡ b [MOD l.length]) := by
    intro l a b x y hl hx hy
    obtain ⟨h1, e1⟩ := List.getElem?_eq_some_iff.1 hx
    obtain ⟨h2, e2⟩ := List.getElem?_eq_some_iff.1 hy
    rw [← e1, ← e2, hl.getElem_inj_iff]
    rfl
  rw [key hc hc1 hc2, key hm hm1 hm2]
  constructor
  · rintro ⟨h1, h2⟩
    rw [Nat.modEq_iff_dvd] at *
    exact_mod_cast Int.coe_lcm_dvd h1 h2
  · intro h
    exact ⟨h.of_dvd (Nat.dvd_lcm_left _ _), h.of_dvd (Nat.dvd_lcm_right _ _)⟩

/-- The names of colours of CSS 4, all of which matplotlib knows. -/
def cssColours : List String :=
  ["aliceblue", "antiquewhite", "aqua", "aquamarine", "azure", "beige", "bisque", "black",
   "blanchedalmond", "blue", "blueviolet", "brown", "burlywood", "cadetblue", "chartreuse",
   "chocolate", "coral", "cornflowerblue", "cornsilk", "crimson", "cyan", "darkblue", "darkcyan",
   "darkgoldenrod", "darkgray", "darkgreen", "darkgrey", "darkkhaki", "darkmagenta",
   "darkolivegreen", "darkorange", "darkorchid", "darkred", "darksalmon", "darkseagreen",
   "darkslateblue", "darkslategray", "darkslategrey", "darkturquoise", "darkviolet", "deeppink",
   "deepskyblue", "dimgray", "dimgrey", "dodgerblue", "firebrick", "floralwhite", "forestgreen",
   "fuchsia", "gainsboro", "ghostwhite", "gold", "goldenrod", "gray", "green", "greenyellow",
   "grey", "honeydew", "hotpink", "indianred", "indigo", "ivory", "khaki", "lavender",
   "lavenderblush", "lawngreen", "lemonchiffon", "lightblue", "lightcoral", "lightcyan",
   "lightgoldenrodyellow", "lightgray", "lightgreen", "lightgrey", "lightpink", "lightsalmon",
   "lightseagreen", "lightskyblue", "lightslategray", "lightslategrey", "lightsteelblue",
   "lightyellow", "lime", "limegreen", "linen", "magenta", "maroon", "mediumaquamarine",
   "mediumblue", "mediumorchid", "mediumpurple", "mediumseagreen", "mediumslateblue",
   "mediumspringgreen", "mediumturquoise", "mediumvioletred", "midnightblue", "mintcream",
   "mistyrose", "moccasin", "navajowhite", "navy", "oldlace", "olive", "olivedrab", "orange",
   "orangered", "orchid", "palegoldenrod", "palegreen", "paleturquoise", "palevioletred",
   "papayawhip", "peachpuff", "peru", "pink", "plum", "powderblue", "purple", "rebeccapurple",
   "red", "rosybrown", "royalblue", "saddlebrown", "salmon", "sandybrown", "seagreen", "seashell",
   "sienna", "silver", "skyblue", "slateblue", "slategray", "slategrey", "snow", "springgreen",
   "steelblue", "tan", "teal", "thistle", "tomato", "turquoise", "violet", "wheat", "white",
   "whitesmoke", "yellow", "yellowgreen"]

/-- The markers matplotlib knows by one character. -/
def knownMarkers : List String := [".", ",", "o", "v", "^", "<", ">", "1", "2", "3", "4", "8", "s", "p", "P",
  "*", "h", "H", "+", "x", "X", "D", "d", "|", "_"]

/-- C88: with the default styles, curves look alike exactly when their numbers differ by a multiple
of 15. All of them are styles that matplotlib knows. -/
theorem C88_default_styles :
    COLORS.Nodup ∧ MARKERS.Nodup ∧ Nat.lcm COLORS.length MARKERS.length = 15 ∧
    (∀ c ∈ COLORS, c ∈ cssColours) ∧ ∀ m ∈ MARKERS, m ∈ knownMarkers := by
  refine ⟨by decide, by decide, by decide, ?_, ?_⟩
  · simp [COLORS, cssColours]
  · simp [MARKERS, knownMarkers]

private theorem index_total {α : Type} {l : List α} {i : ℕ} (h : i < l.length) :
    ∃ a, pyIndex l i = .ok a := by
  unfold pyIndex
  rw [List.getElem?_eq_getElem h]
  exact ⟨_, rfl⟩

private theorem drawCurve_total {o : CurveOptions} {labels : List String} {i ic im : ℕ} (c : Curve)
    (hi : i < labels.length) (hc : ic < o.colors.length) (hm : im < o.markers.length) :
    ∃ p, drawCurve o labels i ic im c = .ok p := by
  obtain ⟨l, e1⟩ := index_total hi
  obtain ⟨cl, e2⟩ := index_total hc
  obtain ⟨m, e3⟩ := index_total hm
  unfold drawCurve
  rw [e1, e2]
  by_cases h : o.include_marker = true
  · simp only [h, if_true, e3]
    exact ⟨_, rfl⟩
  · simp only [h]
    exact ⟨_, rfl⟩

private theorem getMinimum_total {Y : Arr2 Flt} {n : ℤ} (h : n < Y.ncols) :
    ∃ r, getMinimum Y n = .ok r := by
  cases hr : getMinimum Y n with
  | ok r => exact ⟨r, rfl⟩
  | error e =>
    have := (C16_fails_iff Y n e).1 hr
    omega

private theorem getTime_total {T : Arr2 ℝ} {n : ℤ} {inc : Bool} (h : inc = true → n < T.ncols) :
    ∃ r, getTime T n inc = .ok r ∧ r ≠ [] := by
  cases hr : getTime T n inc with
  | ok r =>
    refine ⟨r, rfl, ?_⟩
    rintro rfl
    unfold getTime at hr
    have hw : ∀ (k : ℕ) (f : ℕ → ℝ), (List.range (k + 1)).map f ≠ [] := by
      intro k f; simp [List.range_succ]
    cases inc with
    | false => exact hw _ _ (Except.ok.inj hr)
    | true =>
      simp only [if_true] at hr
      obtain ⟨_, -, hr⟩ := py_bind_ok hr
      exact hw _ _ (Except.ok.inj hr)
  | error e =>
    have := (C17_fails_iff T n inc e).1 hr
    have := h this.1
    omega

/-- C88: valid arguments are drawn: more rounds than initial points, at least one array, one label
per array, and at least one colour and one marker. -/
theorem C88_total_iterations (installed : Bool) (minima : List (Arr2 Flt)) (t : ℕ)
    (labels : List String) (n : ℤ) (o : CurveOptions) (h1 : minima.length = labels.length)
    (hne : minima ≠ []) (ht : ∀ a ∈ minima, a.ncols = t) (hn : n < t) (hc : o.colors ≠ [])
    (hm : o.markers ≠ []) :
    ∃ r, plotMinimumVsIter installed minima t labels n o = .ok r ∧ r.isSome = installed := by
  have h2 : (t : ℤ) ≥ n := hn.le
  have hc : 0 < o.colors.length := List.length_pos_iff.2 hc
  have hm : 0 < o.markers.length := List.length_pos_iff.2 hm
  unfold plotMinimumVsIter
  rw [assert_pos h1, assert_pos h2]
  cases installed with
  | false => exact ⟨_, rfl, rfl⟩
  | true =>
    obtain ⟨drawn, e, hl, -⟩ := mapM_total (P := fun _ => True)
      (f := fun p : Arr2 Flt × ℕ => (do
        let ind_color ← pyMod p.2 o.colors.length
        let ind_marker ← pyMod p.2 o.markers.length
        let r ← getMinimum p.1 n
        let c : Curve := ⟨(List.range r.mean.length).map (fun i : ℕ => (i : ℝ)), r.mean, r.std⟩
        let artists ← drawCurve o labels p.2 ind_color ind_marker c
        return (artists, c) : Py (List Artist × Curve))) minima.zipIdx (by
      rintro ⟨a, i⟩ ha
      have hmem := List.mem_zipIdx' ha
      obtain ⟨r, hr⟩ := getMinimum_total (Y := a) (n := n)
        (by rw [ht a (by rw [hmem.2]; exact List.getElem_mem _)]; exact hn)
      obtain ⟨p, hp⟩ := drawCurve_total (o := o) (labels := labels)
        ⟨(List.range r.mean.length).map (fun i : ℕ => (i : ℝ)), r.mean, r.std⟩
        (by rw [← h1]; exact hmem.1) (Nat.mod_lt i hc) (Nat.mod_lt i hm)
      refine ⟨(p, ⟨(List.range r.mean.length).map (fun i : ℕ => (i : ℝ)), r.mean, r.std⟩), trivial,
        ?_⟩
      · simp only [pyMod, hc.ne', hm.ne', if_false, hr, hp, bind, Except.bind, pure, Except.pure])
    have hd : drawn ≠ [] := by
      rintro rfl
      simp only [List.length_nil, List.length_zipIdx] at hl
      exact hne (List.length_eq_zero_iff.1 hl.symm)
    rw [if_neg (by simp), e]
    simp only [bind, Except.bind, List.getLast?_eq_some_getLast hd]
    exact ⟨some _, rfl, rfl⟩

theorem C88_total_time (installed : Bool) (times : List (Arr2 ℝ)) (tt : ℕ)
    (minima : List (Arr2 Flt)) (t r : ℕ) (labels : List String) (n : ℤ) (o : CurveOptions)
    (h1 : times.length = minima.length ∧ minima.length = labels.length) (hne : minima ≠ [])
    (ht : ∀ a ∈ minima, a.ncols = t) (htt : ∀ a ∈ times, a.ncols = tt) (hn : n < t)
    (h4 : tt = t ∨ (tt : ℤ) + n = t) (hc : o.colors ≠ []) (hm : o.markers ≠ []) :
    ∃ r', plotMinimumVsTime installed times tt minima t r r labels n o = .ok r' ∧
      r'.isSome = installed := by
  have h2 : (t : ℤ) ≥ n := hn.le
  have hc : 0 < o.colors.length := List.length_pos_iff.2 hc
  have hm : 0 < o.markers.length := List.length_pos_iff.2 hm
  unfold plotMinimumVsTime
  rw [assert_pos h1, assert_pos rfl, assert_pos h2, assert_pos h4]
  cases installed with
  | false => exact ⟨_, rfl, rfl⟩
  | true =>
    obtain ⟨drawn, e, hl, hx⟩ := mapM_total (P := fun e : List Artist × Curve => e.2.x ≠ [])
      (f := fun p : (Arr2 ℝ × Arr2 Flt) × ℕ => (do
        let ind_color ← pyMod p.2 o.colors.length
        let ind_marker ← pyMod p.2 o.markers.length
        let r ← getMinimum p.1.2 n
        let x_data ← getTime p.1.1 n (decide (tt = t))
        let c : Curve := ⟨x_data, r.mean, r.std⟩
        let artists ← drawCurve o labels p.2 ind_color ind_marker c
        return (artists, c) : Py (List Artist × Curve))) (times.zip minima).zipIdx (by
      rintro ⟨⟨b, a⟩, i⟩ ha
      have hmem := List.mem_zipIdx' ha
      have hin : (b, a) ∈ times.zip minima := by rw [hmem.2]; exact List.getElem_mem _
      obtain ⟨hb, ha⟩ := List.of_mem_zip hin
      obtain ⟨r, hr⟩ := getMinimum_total (Y := a) (n := n) (by rw [ht a ha]; exact hn)
      obtain ⟨x, hx, hx0⟩ := getTime_total (T := b) (n := n) (inc := decide (tt = t)) (by
        intro h
        rw [htt b hb, of_decide_eq_true h]
        exact hn)
      obtain ⟨p, hp⟩ := drawCurve_total (o := o) (labels := labels) ⟨x, r.mean, r.std⟩
        (by
          have := hmem.1
          rw [List.length_zip, h1.1, Nat.min_self, h1.2] at this
          exact this) (Nat.mod_lt i hc) (Nat.mod_lt i hm)
      refine ⟨(p, ⟨x, r.mean, r.std⟩), hx0, ?_⟩
      simp only [pyMod, hc.ne', hm.ne', if_false, hr, hx, hp, bind, Except.bind, pure, Except.pure])
    have hd : drawn ≠ [] := by
      rintro rfl
      simp only [List.length_nil, List.length_zipIdx, List.length_zip, h1.1, Nat.min_self] at hl
      exact hne (List.length_eq_zero_iff.1 hl.symm)
    have hxs : (drawn.map (·.2.x)).flatten ≠ [] := by
      obtain ⟨d, t', rfl⟩ := List.exists_cons_of_ne_nil hd
      have := hx d (by simp)
      intro h
      rw [List.map_cons, List.flatten_cons, List.append_eq_nil_iff] at h
      exact this h.1
    obtain ⟨a, ha⟩ := npMin_exists hxs
    obtain ⟨b, hb⟩ := npMax_exists hxs
    rw [if_neg (by simp), e]
    simp only [bind, Except.bind, ha, hb]
    exact ⟨some _, rfl, rfl⟩

/-- The handles of a legend and their labels. -/
private theorem handles {o : CurveOptions} {all : List String} : ∀ (parts : List (List Artist))
    (labels : List String) (k : ℕ), parts.length = labels.length →
    (∀ i p, parts[i]? = some p → ∃ c, IsCurve o all (k + i) c p) →
    (∀ i l, labels[i]? = some l → all[k + i]? = some l) →
    (legendHandles parts.flatten).map labelOf =
      (labels.filter fun l => l ≠ "" ∧ l.toList.head? ≠ some '_').map some ∧
    ((∀ l ∈ labels, ShownLabel l) → legendHandles parts.flatten = parts.flatten.filter isLine) := by
  intro parts
  induction parts with
  | nil =>
    intro labels k hl _ _
    obtain rfl := List.length_eq_zero_iff.1 hl.symm
    simp [legendHandles]
  | cons p t ih =>
    intro labels k hl hp ha
    cases labels with
    | nil => simp at hl
    | cons l labels =>
      obtain ⟨i1, i2⟩ := ih labels (k + 1) (by simpa using hl)
        (fun i q hq => by
          have := hp (i + 1) q (by simpa using hq)
          rwa [show k + 1 + i = k + (i + 1) by omega])
        (fun i q hq => by
          have := ha (i + 1) q (by simpa using hq)
          rwa [show k + 1 + i = k + (i + 1) by omega])
      obtain ⟨c, label, colour, marker, bands, h1, h2, h3, rfl, h4⟩ := hp 0 p rfl
      have hlab : label = l := by
        have := ha 0 l rfl
        rw [h1] at this
        exact Option.some.inj this
      subst hlab
      have hb : bands.filter inLegend = [] ∧ bands.filter isLine = [] := by
        split at h4
        · obtain ⟨lo, up, rfl, -⟩ := h4
          simp [isLine, inLegend]
        · subst h4
          simp
      have hsplit : ∀ (q : List Artist), legendHandles (Artist.line c.x c.y colour marker
          (some label) :: bands ++ q) = (if label ≠ "" ∧ label.toList.head? ≠ some '_' then
            [Artist.line c.x c.y colour marker (some label)] else []) ++ legendHandles q := by
        intro q
        simp only [legendHandles, List.cons_append, List.filter_cons, List.filter_append, hb.1]
        by_cases hg : label ≠ "" ∧ label.toList.head? ≠ some '_'
        · rw [if_pos hg, if_pos (by simpa [inLegend] using hg)]; rfl
        · rw [if_neg hg, if_neg (by simpa [inLegend] using hg)]
      refine ⟨?_, ?_⟩
      · rw [List.flatten_cons, hsplit, List.map_append, i1, List.filter_cons]
        by_cases hg : label ≠ "" ∧ label.toList.head? ≠ some '_'
        · rw [if_pos hg, if_pos (by simpa using hg)]
          rfl
        · rw [if_neg hg, if_neg (by simpa using hg)]
          rfl
      · intro hall
        have hg : label ≠ "" ∧ label.toList.head? ≠ some '_' := hall label (by simp)
        rw [List.flatten_cons, hsplit, if_pos hg, i2 fun l hl => hall l (by simp [hl])]
        simp only [List.cons_append, List.filter_cons, List.filter_append, hb.2, isLine, if_true,
          List.nil_append]

private theorem finish_legend {o : CurveOptions} {labels : List String} {kind : String}
    {parts : List (List Artist)} {ax : Axes} (hl : parts.length = labels.length)
    (hp : ∀ i p, parts[i]? = some p → ∃ c, IsCurve o labels i c p)
    (hax : ax.artists = parts.flatten) {L : List (Artist × String)}
    (h : (finishCurves o labels kind parts.flatten ax).legend = some L) :
    L.map (fun e => (labelOf e.1, e.2)) =
      ((labels.filter fun l => l ≠ "" ∧ l.toList.head? ≠ some '_').map some).zip labels ∧
    ((∀ l ∈ labels, ShownLabel l) → L.map (·.1) = lines ax ∧ L.map (·.2) = labels) := by
  have hL : L = (legendHandles parts.flatten).zip labels := by
    unfold finishCurves at h
    split at h
    · exact (Option.some.inj h).symm
    · simp at h
  obtain ⟨e1, e2⟩ := handles parts labels 0 hl (fun i p hi => by
    rw [Nat.zero_add]; exact hp i p hi) (fun i l hi => by rwa [Nat.zero_add])
  subst hL
  refine ⟨?_, ?_⟩
  · rw [← e1, List.zip_map_left]
    rfl
  · intro hall
    have hlen : (legendHandles parts.flatten).length = labels.length := by
      have := congrArg List.length e1
      rw [List.length_map, List.length_map, List.filter_eq_self.2] at this
      · exact this
      · intro l hl
        have : l ≠ "" ∧ l.toList.head? ≠ some '_' := hall l hl
        simpa using this
    refine ⟨?_, List.map_snd_zip (le_of_eq hlen.symm)⟩
    rw [List.map_fst_zip (le_of_eq hlen), e2 hall]
    simp only [lines, hax]

private theorem parts_curve {o : CurveOptions} {labels : List String} {cs : List Curve}
    {parts : List (List Artist)} (hl : parts.length = cs.length)
    (h : ∀ i c, cs[i]? = some c → ∃ p, parts[i]? = some p ∧ IsCurve o labels i c p) (i : ℕ)
    (p : List Artist) (hp : parts[i]? = some p) : ∃ c, IsCurve o labels i c p := by
  have hi : i < cs.length := by
    rw [← hl]
    exact (List.getElem?_eq_some_iff.1 hp).1
  obtain ⟨q, hq, hc⟩ := h i _ (List.getElem?_eq_getElem hi)
  rw [hp] at hq
  obtain rfl := Option.some.inj hq
  exact ⟨_, hc⟩

private theorem own {L : List (Artist × String)} {labels : List String}
    (h : L.map (fun e => (labelOf e.1, e.2)) =
      ((labels.filter fun l => l ≠ "" ∧ l.toList.head? ≠ some '_').map some).zip labels)
    (hall : ∀ l ∈ labels, ShownLabel l) : ∀ e ∈ L, labelOf e.1 = some e.2 := by
  rw [List.filter_eq_self.2 (fun l hl => by
    have : l ≠ "" ∧ l.toList.head? ≠ some '_' := hall l hl
    simpa using this)] at h
  intro e he
  have hm : (labelOf e.1, e.2) ∈ L.map (fun e => (labelOf e.1, e.2)) := List.mem_map_of_mem he
  rw [h, List.mem_iff_getElem?] at hm
  obtain ⟨i, hi⟩ := hm
  rw [List.getElem?_zip_eq_some, List.getElem?_map] at hi
  rw [hi.2] at hi
  simpa using hi.1.symm

/-- C89: the legend pairs the lines whose labels matplotlib shows, in order, with all labels, in
order. So the labels are right if all of them can be shown; missing: the other cases, where they are
shifted. -/
theorem C89_iterations_partial {minima : List (Arr2 Flt)} {t : ℕ} {labels : List String} {n : ℕ}
    {o : CurveOptions} {fig : Figure} {L : List (Artist × String)}
    (h : plotMinimumVsIter true minima t labels n o = .ok (some fig)) (hL : fig.legend = some L) :
    L.map (fun e => (labelOf e.1, e.2)) =
      ((labels.filter fun l => l ≠ "" ∧ l.toList.head? ≠ some '_').map some).zip labels ∧
    ((∀ l ∈ labels, ShownLabel l) → ∃ ax, fig.axes = [ax] ∧ L.map (·.1) = lines ax ∧
      L.map (·.2) = labels ∧ ∀ e ∈ L, labelOf e.1 = some e.2) := by
  obtain ⟨cs, ax, parts, -, e2, e3, e4, e5, e6, rfl, -⟩ := iter_parts h
  obtain ⟨r1, r2⟩ := finish_legend e6 (parts_curve e4 e5) e3 hL
  refine ⟨r1, fun hall => ⟨ax, e2, (r2 hall).1, (r2 hall).2, own r1 hall⟩⟩

theorem C89_time_partial {times : List (Arr2 ℝ)} {tt : ℕ} {minima : List (Arr2 Flt)} {t rt rm : ℕ}
    {labels : List String} {n : ℤ} {o : CurveOptions} {fig : Figure} {L : List (Artist × String)}
    (h : plotMinimumVsTime true times tt minima t rt rm labels n o = .ok (some fig))
    (hL : fig.legend = some L) :
    L.map (fun e => (labelOf e.1, e.2)) =
      ((labels.filter fun l => l ≠ "" ∧ l.toList.head? ≠ some '_').map some).zip labels ∧
    ((∀ l ∈ labels, ShownLabel l) → ∃ ax, fig.axes = [ax] ∧ L.map (·.1) = lines ax ∧
      L.map (·.2) = labels ∧ ∀ e ∈ L, labelOf e.1 = some e.2) := by
  obtain ⟨cs, ax, parts, -, e2, e3, e4, e5, e6, rfl, -⟩ := time_parts h
  obtain ⟨r1, r2⟩ := finish_legend e6 (parts_curve e4 e5) e3 hL
  refine ⟨r1, fun hall => ⟨ax, e2, (r2 hall).1, (r2 hall).2, own r1 hall⟩⟩

/-- Two rounds with one initial point, for two methods. -/
private def exMinima : List (Arr2 Flt) :=
  [⟨[[.fin 3, .fin 2], [.fin 3, .fin 1]], 2, by simp⟩, ⟨[[.fin 5, .fin 4], [.fin 3, .fin 1]], 2, by simp⟩]

/-- C89 is violated: of the labels `_a` and `b`, the first is not shown by matplotlib, so the saved
legend names the second curve `_a`. -/
theorem C89_violated : ∃ (minima : List (Arr2 Flt)) (labels : List String) (o : CurveOptions)
    (fig : Figure) (L : List (Artist × String)),
    plotMinimumVsIter true minima 2 labels 1 o = .ok (some fig) ∧ fig.legend = some L ∧
      ∃ e ∈ L, labelOf e.1 = some "b" ∧ e.2 = "_a" := by
  obtain ⟨r, h, hr⟩ := C88_total_iterations true exMinima 2 ["_a", "b"] (1 : ℕ)
    { draw_std := true, path_save := some "d", str_postfix := some "p" } rfl (by simp [exMinima])
    (by simp [exMinima]) (by norm_num) (by simp [COLORS]) (by simp [MARKERS])
  obtain ⟨fig, rfl⟩ := Option.isSome_iff_exists.1 hr
  have hL : ∃ L, fig.legend = some L := by
    obtain ⟨cs, ax, parts, -, -, -, -, -, -, rfl, -⟩ := iter_parts h
    exact ⟨_, rfl⟩
  obtain ⟨L, hL⟩ := hL
  refine ⟨_, _, _, fig, L, h, hL, ?_⟩
  have := (C89_iterations_partial h hL).1
  have hmem : (some "b", "_a") ∈ L.map (fun e => (labelOf e.1, e.2)) := by
    rw [this]
    decide
  obtain ⟨e, he, h2⟩ := List.mem_map.1 hmem
  simp only [Prod.mk.injEq] at h2
  exact ⟨e, he, h2.1, h2.2⟩

/-- The beginning of a file's name. -/
private def kindPrefix : PlotKind → String
  | .sample => "gp_sampled_"
  | .regression => "gp_"
  | .step => "bo_step_"
  | .stepAcq => "bo_step_acq_"
  | .iterations std => if std then "minimum_mean_std_" else "minimum_mean_only_"
  | .time std => if std then "minimum_time_mean_std_" else "minimum_time_mean_only_"

private theorem kindPrefix_inj {k k' : PlotKind} (h : kindPrefix k = kindPrefix k') : k = k' := by
  rcases k with _ | _ | _ | _ | (_ | _) | (_ | _) <;>
    rcases k' with _ | _ | _ | _ | (_ | _) | (_ | _) <;>
    first
    | rfl
    | exact absurd h (by decide)

/-- The main file of every kind of figure. -/
private theorem main_file {k : PlotKind} {d p : String} {fig : Figure}
    (h : DrawnBy k (some d) (some p) fig) : mainFile fig = some (d, kindPrefix k ++ p ++ ".pdf") := by
  cases k with
  | sample =>
    obtain ⟨X, Ys, o, colors, h, h1, h2⟩ := h
    unfold plotGpViaSample at h
    obtain ⟨_, -, h⟩ := py_bind_ok h
    obtain ⟨_, -, h⟩ := py_bind_ok h
    simp only [Bool.not_true, Bool.false_eq_true, if_false] at h
    obtain ⟨artists, -, h⟩ := py_bind_ok h
    obtain ⟨a, -, h⟩ := py_bind_ok h
    obtain ⟨b, -, h⟩ := py_bind_ok h
    obtain rfl := Option.some.inj (Except.ok.inj h)
    simp [mainFile, saveFigure, h1, h2, kindPrefix]
  | regression =>
    obtain ⟨X, Y, Xt, m, s, Yt, o, colors, h, h1, h2⟩ := h
    unfold plotGpViaDistribution at h
    obtain ⟨_, -, h⟩ := py_bind_ok h
    obtain ⟨_, -, h⟩ := py_bind_ok h
    obtain ⟨_, -, h⟩ := py_bind_ok h
    obtain ⟨_, -, h⟩ := py_bind_ok h
    obtain ⟨_, -, h⟩ := py_bind_ok h
    obtain ⟨_, -, h⟩ := py_bind_ok h
    simp only [Bool.not_true, Bool.false_eq_true, if_false] at h
    cases Yt with
    | none =>
      obtain ⟨truth, -, h⟩ := py_bind_ok h
      obtain ⟨c2, -, h⟩ := py_bind_ok h
      obtain ⟨c0, -, h⟩ := py_bind_ok h
      obtain ⟨a, -, h⟩ := py_bind_ok h
      obtain ⟨b, -, h⟩ := py_bind_ok h
      obtain rfl := Option.some.inj (Except.ok.inj h)
      simp [mainFile, saveFigure, h1, h2, kindPrefix]
    | some y =>
      dsimp only at h
      obtain ⟨_, -, h⟩ := py_bind_ok h
      obtain ⟨_, -, h⟩ := py_bind_ok h
      obtain ⟨_, -, h⟩ := py_bind_ok h
      obtain ⟨truth, -, h⟩ := py_bind_ok h
      obtain ⟨c2, -, h⟩ := py_bind_ok h
      obtain ⟨c0, -, h⟩ := py_bind_ok h
      obtain ⟨a, -, h⟩ := py_bind_ok h
      obtain ⟨b, -, h⟩ := py_bind_ok h
      obtain rfl := Option.some.inj (Except.ok.inj h)
      simp [mainFile, saveFigure, h1, h2, kindPrefix]
  | step =>
    obtain ⟨X, Y, Xt, Yt, m, s, n, o, h, h1, h2⟩ := h
    unfold plotBoStep at h
    obtain ⟨_, -, h⟩ := py_bind_ok h
    simp only [Bool.not_true, Bool.false_eq_true, if_false] at h
    obtain ⟨artists, -, h⟩ := py_bind_ok h
    obtain ⟨a, -, h⟩ := py_bind_ok h
    obtain ⟨b, -, h⟩ := py_bind_ok h
    obtain rfl := Option.some.inj (Except.ok.inj h)
    simp [mainFile, saveFigure, h1, h2, kindPrefix]
  | stepAcq =>
    obtain ⟨X, Y, Xt, Yt, m, s, q, n, axis, o, h, h1, h2⟩ := h
    unfold plotBoStepWithAcq at h
    obtain ⟨_, -, h⟩ := py_bind_ok h
    obtain ⟨_, -, h⟩ := py_bind_ok h
    obtain ⟨_, -, h⟩ := py_bind_ok h
    simp only [Bool.not_true, Bool.false_eq_true, if_false] at h
    obtain ⟨artists, -, h⟩ := py_bind_ok h
    obtain ⟨a, -, h⟩ := py_bind_ok h
    obtain ⟨b, -, h⟩ := py_bind_ok h
    obtain rfl := Option.some.inj (Except.ok.inj h)
    simp [mainFile, saveFigure, h1, h2, kindPrefix]
  | iterations std =>
    obtain ⟨minima, t, labels, n, o, h, h1, h2, rfl⟩ := h
    unfold plotMinimumVsIter at h
    obtain ⟨_, -, h⟩ := py_bind_ok h
    obtain ⟨_, -, h⟩ := py_bind_ok h
    simp only [Bool.not_true, Bool.false_eq_true, if_false] at h
    obtain ⟨drawn, -, h⟩ := py_bind_ok h
    cases hg : drawn.getLast? with
    | none => simp [hg] at h
    | some last =>
      simp only [hg] at h
      obtain rfl := Option.some.inj (Except.ok.inj h)
      cases hs : o.draw_std <;> simp [mainFile, finishCurves, saveFigure, h1, h2, kindPrefix, hs]
  | time std =>
    obtain ⟨times, tt, minima, t, rt, rm, labels, n, o, h, h1, h2, rfl⟩ := h
    unfold plotMinimumVsTime at h
    obtain ⟨_, -, h⟩ := py_bind_ok h
    obtain ⟨_, -, h⟩ := py_bind_ok h
    obtain ⟨_, -, h⟩ := py_bind_ok h
    obtain ⟨_, -, h⟩ := py_bind_ok h
    simp only [Bool.not_true, Bool.false_eq_true, if_false] at h
    obtain ⟨drawn, -, h⟩ := py_bind_ok h
    obtain ⟨a, -, h⟩ := py_bind_ok h
    obtain ⟨b, -, h⟩ := py_bind_ok h
    obtain rfl := Option.some.inj (Except.ok.inj h)
    cases hs : o.draw_std <;> simp [mainFile, finishCurves, saveFigure, h1, h2, kindPrefix, hs]

/-- C90: figures of different kinds with the same postfix have different main files, and so have
figures of one kind with different postfixes. Missing: different kinds with different postfixes, and
the files with the legends. -/
theorem C90_main_files_partial {k k' : PlotKind} {d p p' : String} {fig fig' : Figure}
    (h : DrawnBy k (some d) (some p) fig) (h' : DrawnBy k' (some d) (some p') fig')
    (hf : mainFile fig = mainFile fig') : (∃ f, mainFile fig = some f) ∧ (k = k' ↔ p = p') := by
  rw [main_file h, main_file h'] at hf
  refine ⟨⟨_, main_file h⟩, ?_⟩
  simp only [Option.some.injEq, Prod.mk.injEq, true_and] at hf
  have hf := congrArg String.toList hf
  simp only [String.toList_append, List.append_cancel_right_eq] at hf
  constructor
  · rintro rfl
    exact String.toList_inj.1 (List.append_cancel_left hf)
  · rintro rfl
    exact kindPrefix_inj (String.toList_inj.1 (List.append_cancel_right hf))

/-- C90: nothing is written without a path or a postfix. -/
theorem C90_no_files {k : PlotKind} {path post : Option String} {fig : Figure}
    (h : DrawnBy k path post fig) (hn : path = none ∨ post = none) : fig.files = [] := by
  have hs : ∀ q, saveFigure path post q = [] := by
    intro q
    rcases hn with rfl | rfl
    · rfl
    · cases path <;> rfl
  have hfin : ∀ (o : CurveOptions) (labels : List String) (kind : String) (artists : List Artist)
      (ax : Axes), o.path_save = path → o.str_postfix = post →
      (finishCurves o labels kind artists ax).files = [] := by
    intro o labels kind artists ax h1 h2
    subst h1 h2
    unfold finishCurves
    split
    · rename_i e1 e2
      rcases hn with h | h
      · simp [h] at e1
      · simp [h] at e2
    · rfl
  cases k with
  | sample =>
    obtain ⟨X, Ys, o, colors, h, rfl, rfl⟩ := h
    unfold plotGpViaSample at h
    obtain ⟨_, -, h⟩ := py_bind_ok h
    obtain ⟨_, -, h⟩ := py_bind_ok h
    simp only [Bool.not_true, Bool.false_eq_true, if_false] at h
    obtain ⟨artists, -, h⟩ := py_bind_ok h
    obtain ⟨a, -, h⟩ := py_bind_ok h
    obtain ⟨b, -, h⟩ := py_bind_ok h
    obtain rfl := Option.some.inj (Except.ok.inj h)
    exact hs _
  | regression =>
    obtain ⟨X, Y, Xt, m, s, Yt, o, colors, h, rfl, rfl⟩ := h
    unfold plotGpViaDistribution at h
    obtain ⟨_, -, h⟩ := py_bind_ok h
    obtain ⟨_, -, h⟩ := py_bind_ok h
    obtain ⟨_, -, h⟩ := py_bind_ok h
    obtain ⟨_, -, h⟩ := py_bind_ok h
    obtain ⟨_, -, h⟩ := py_bind_ok h
    obtain ⟨_, -, h⟩ := py_bind_ok h
    simp only [Bool.not_true, Bool.false_eq_true, if_false] at h
    cases Yt with
    | none =>
      obtain ⟨truth, -, h⟩ := py_bind_ok h
      obtain ⟨c2, -, h⟩ := py_bind_ok h
      obtain ⟨c0, -, h⟩ := py_bind_ok h
      obtain ⟨a, -, h⟩ := py_bind_ok h
      obtain ⟨b, -, h⟩ := py_bind_ok h
      obtain rfl := Option.some.inj (Except.ok.inj h)
      exact hs _
    | some y =>
      dsimp only at h
      obtain ⟨_, -, h⟩ := py_bind_ok h
      obtain ⟨_, -, h⟩ := py_bind_ok h
      obtain ⟨_, -, h⟩ := py_bind_ok h
      obtain ⟨truth, -, h⟩ := py_bind_ok h
      obtain ⟨c2, -, h⟩ := py_bind_ok h
      obtain ⟨c0, -, h⟩ := py_bind_ok h
      obtain ⟨a, -, h⟩ := py_bind_ok h
      obtain ⟨b, -, h⟩ := py_bind_ok h
      obtain rfl := Option.some.inj (Except.ok.inj h)
      exact hs _
  | step =>
    obtain ⟨X, Y, Xt, Yt, m, s, n, o, h, rfl, rfl⟩ := h
    unfold plotBoStep at h
    obtain ⟨_, -, h⟩ := py_bind_ok h
    simp only [Bool.not_true, Bool.false_eq_true, if_false] at h
    obtain ⟨artists, -, h⟩ := py_bind_ok h
    obtain ⟨a, -, h⟩ := py_bind_ok h
    obtain ⟨b, -, h⟩ := py_bind_ok h
    obtain rfl := Option.some.inj (Except.ok.inj h)
    exact hs _
  | stepAcq =>
    obtain ⟨X, Y, Xt, Yt, m, s, q, n, axis, o, h, rfl, rfl⟩ := h
    unfold plotBoStepWithAcq at h
    obtain ⟨_, -, h⟩ := py_bind_ok h
    obtain ⟨_, -, h⟩ := py_bind_ok h
    obtain ⟨_, -, h⟩ := py_bind_ok h
    simp only [Bool.not_true, Bool.false_eq_true, if_false] at h
    obtain ⟨artists, -, h⟩ := py_bind_ok h
    obtain ⟨a, -, h⟩ := py_bind_ok h
    obtain ⟨b, -, h⟩ := py_bind_ok h
    obtain rfl := Option.some.inj (Except.ok.inj h)
    exact hs _
  | iterations std =>
    obtain ⟨minima, t, labels, n, o, h, h1, h2, rfl⟩ := h
    unfold plotMinimumVsIter at h
    obtain ⟨_, -, h⟩ := py_bind_ok h
    obtain ⟨_, -, h⟩ := py_bind_ok h
    simp only [Bool.not_true, Bool.false_eq_true, if_false] at h
    obtain ⟨drawn, -, h⟩ := py_bind_ok h
    cases hg : drawn.getLast? with
    | none => simp [hg] at h
    | some last =>
      simp only [hg] at h
      obtain rfl := Option.some.inj (Except.ok.inj h)
      exact hfin _ _ _ _ _ h1 h2
  | time std =>
    obtain ⟨times, tt, minima, t, rt, rm, labels, n, o, h, h1, h2, rfl⟩ := h
    obtain ⟨cs, ax, parts, -, -, -, -, -, -, rfl, -⟩ := time_parts h
    exact hfin _ _ _ _ _ h1 h2

/-- C90 is violated by a postfix that continues the beginning of the name: sampled functions with
postfix `a` and a regression with postfix `sampled_a` are saved under the same name. -/
theorem C90_names_violated : ∃ (d p p' : String) (fig fig' : Figure), p ≠ p' ∧
    DrawnBy .sample (some d) (some p) fig ∧ DrawnBy .regression (some d) (some p') fig' ∧
    mainFile fig = mainFile fig' := by
  obtain ⟨r, h, hr⟩ := C86_total_sample true [0, 1] ⟨[[1, 2]], 2, by simp⟩
    { path_save := some "d", str_postfix := some "a" } COLORS (by simp) rfl (by simp [COLORS])
  obtain ⟨fig, rfl⟩ := Option.isSome_iff_exists.1 hr
  obtain ⟨r', h', hr'⟩ := C86_total_distribution true [5] [0] [0, 1] [0, 0] [1, 1] none
    { path_save := some "d", str_postfix := some "sampled_a" } COLORS rfl rfl rfl (by simp) (by simp)
    (by simp [COLORS])
  obtain ⟨fig', rfl⟩ := Option.isSome_iff_exists.1 hr'
  have d1 : DrawnBy .sample (some "d") (some "a") fig := ⟨_, _, _, _, h, rfl, rfl⟩
  have d2 : DrawnBy .regression (some "d") (some "sampled_a") fig' :=
    ⟨_, _, _, _, _, _, _, _, h', rfl, rfl⟩
  refine ⟨"d", "a", "sampled_a", fig, fig', by decide, d1, d2, ?_⟩
  rw [main_file d1, main_file d2]
  simp only [kindPrefix, Option.some.injEq, Prod.mk.injEq, true_and]
  decide

/-- C90 is violated by the legends: curves against iterations and against time, with the same
postfix, write the same file. -/
theorem C90_legend_violated : ∃ (d p : String) (fig fig' : Figure),
    DrawnBy (.iterations true) (some d) (some p) fig ∧ DrawnBy (.time true) (some d) (some p) fig' ∧
    ∃ f ∈ fig.files, f ∈ fig'.files := by
  obtain ⟨r, h, hr⟩ := C88_total_iterations true exMinima 2 ["a", "b"] (1 : ℕ)
    { draw_std := true, path_save := some "d", str_postfix := some "p" } rfl (by simp [exMinima])
    (by simp [exMinima]) (by norm_num) (by simp [COLORS]) (by simp [MARKERS])
  obtain ⟨fig, rfl⟩ := Option.isSome_iff_exists.1 hr
  obtain ⟨r', h', hr'⟩ := C88_total_time true
    [⟨[[1, 2], [3, 4]], 2, by simp⟩, ⟨[[1, 1], [1, 1]], 2, by simp⟩] 2 exMinima 2 2 ["a", "b"] 1
    { draw_std := true, path_save := some "d", str_postfix := some "p" } ⟨rfl, rfl⟩
    (by simp [exMinima]) (by simp [exMinima]) (by simp) (by norm_num) (Or.inl rfl) (by simp [COLORS])
    (by simp [MARKERS])
  obtain ⟨fig', rfl⟩ := Option.isSome_iff_exists.1 hr'
  refine ⟨"d", "p", fig, fig', ⟨_, _, _, _, _, h, rfl, rfl, rfl⟩,
    ⟨_, _, _, _, _, _, _, _, _, h', rfl, rfl, rfl⟩, ("d", "legend_p.pdf"), ?_, ?_⟩
  · obtain ⟨cs, ax, parts, -, -, -, -, -, -, rfl, -⟩ := iter_parts h
    simp only [finishCurves, List.mem_append, List.mem_singleton]
    right
    decide
  · obtain ⟨cs, ax, parts, -, -, -, -, -, -, rfl, -⟩ := time_parts h'
    simp only [finishCurves, List.mem_append, List.mem_singleton]
    right
    decide

/-- Concrete case of C88 and C89: two methods, with labels that can be shown. -/
example : ∃ fig L, plotMinimumVsIter true exMinima 2 ["a", "b"] (1 : ℕ)
    { draw_std := false, path_save := some "d", str_postfix := some "p" } = .ok (some fig) ∧
    fig.legend = some L ∧ L.map (·.2) = ["a", "b"] ∧ ∀ e ∈ L, labelOf e.1 = some e.2 := by
  obtain ⟨r, h, hr⟩ := C88_total_iterations true exMinima 2 ["a", "b"] (1 : ℕ)
    { draw_std := false, path_save := some "d", str_postfix := some "p" } rfl (by simp [exMinima])
    (by simp [exMinima]) (by norm_num) (by simp [COLORS]) (by simp [MARKERS])
  obtain ⟨fig, rfl⟩ := Option.isSome_iff_exists.1 hr
  have hL : ∃ L, fig.legend = some L := by
    obtain ⟨cs, ax, parts, -, -, -, -, -, -, rfl, -⟩ := iter_parts h
    exact ⟨_, rfl⟩
  obtain ⟨L, hL⟩ := hL
  obtain ⟨ax, -, -, h2, h3⟩ := (C89_iterations_partial h hL).2
    (by simp only [ShownLabel, List.mem_cons, List.not_mem_nil, or_false, forall_eq_or_imp,
      forall_eq]; decide)
  exact ⟨fig, L, h, hL, h2, h3⟩

/-- The two things that all plotting functions do in the same way. -/
private theorem drawn_with {o : PlotOptions} {L : List (Option String × String)} {fig : Figure}
    (h : DrawnWith o L fig) :
    axisLabels fig = L ∧ fig.shown = showFigure o.pause_figure o.time_pause := by
  have hfin : ∀ (o : CurveOptions) (labels : List String) (kind : String) (artists : List Artist)
      (ax : Axes), (finishCurves o labels kind artists ax).axes = [ax] ∧
      (finishCurves o labels kind artists ax).shown = showFigure o.pause_figure o.time_pause := by
    intro o labels kind artists ax
    unfold finishCurves
    split <;> exact ⟨rfl, rfl⟩
  cases h with
  | sample h =>
    unfold plotGpViaSample at h
    obtain ⟨_, -, h⟩ := py_bind_ok h
    obtain ⟨_, -, h⟩ := py_bind_ok h
    simp only [Bool.not_true, Bool.false_eq_true, if_false] at h
    obtain ⟨artists, -, h⟩ := py_bind_ok h
    obtain ⟨a, -, h⟩ := py_bind_ok h
    obtain ⟨b, -, h⟩ := py_bind_ok h
    obtain rfl := Option.some.inj (Except.ok.inj h)
    exact ⟨rfl, rfl⟩
  | @regression X Y Xt m s Yt o colors fig h =>
    unfold plotGpViaDistribution at h
    obtain ⟨_, -, h⟩ := py_bind_ok h
    obtain ⟨_, -, h⟩ := py_bind_ok h
    obtain ⟨_, -, h⟩ := py_bind_ok h
    obtain ⟨_, -, h⟩ := py_bind_ok h
    obtain ⟨_, -, h⟩ := py_bind_ok h
    obtain ⟨_, -, h⟩ := py_bind_ok h
    simp only [Bool.not_true, Bool.false_eq_true, if_false] at h
    cases Yt with
    | none =>
      obtain ⟨truth, -, h⟩ := py_bind_ok h
      obtain ⟨c2, -, h⟩ := py_bind_ok h
      obtain ⟨c0, -, h⟩ := py_bind_ok h
      obtain ⟨a, -, h⟩ := py_bind_ok h
      obtain ⟨b, -, h⟩ := py_bind_ok h
      obtain rfl := Option.some.inj (Except.ok.inj h)
      exact ⟨rfl, rfl⟩
    | some y =>
      dsimp only at h
      obtain ⟨_, -, h⟩ := py_bind_ok h
      obtain ⟨_, -, h⟩ := py_bind_ok h
      obtain ⟨_, -, h⟩ := py_bind_ok h
      obtain ⟨truth, -, h⟩ := py_bind_ok h
      obtain ⟨c2, -, h⟩ := py_bind_ok h
      obtain ⟨c0, -, h⟩ := py_bind_ok h
      obtain ⟨a, -, h⟩ := py_bind_ok h
      obtain ⟨b, -, h⟩ := py_bind_ok h
      obtain rfl := Option.some.inj (Except.ok.inj h)
      exact ⟨rfl, rfl⟩
  | step h =>
    unfold plotBoStep at h
    obtain ⟨_, -, h⟩ := py_bind_ok h
    simp only [Bool.not_true, Bool.false_eq_true, if_false] at h
    obtain ⟨artists, -, h⟩ := py_bind_ok h
    obtain ⟨a, -, h⟩ := py_bind_ok h
    obtain ⟨b, -, h⟩ := py_bind_ok h
    obtain rfl := Option.some.inj (Except.ok.inj h)
    exact ⟨rfl, rfl⟩
  | stepAcq h =>
    unfold plotBoStepWithAcq at h
    obtain ⟨_, -, h⟩ := py_bind_ok h
    obtain ⟨_, -, h⟩ := py_bind_ok h
    obtain ⟨_, -, h⟩ := py_bind_ok h
    simp only [Bool.not_true, Bool.false_eq_true, if_false] at h
    obtain ⟨artists, -, h⟩ := py_bind_ok h
    obtain ⟨a, -, h⟩ := py_bind_ok h
    obtain ⟨b, -, h⟩ := py_bind_ok h
    obtain rfl := Option.some.inj (Except.ok.inj h)
    exact ⟨rfl, rfl⟩
  | iterations h =>
    unfold plotMinimumVsIter at h
    obtain ⟨_, -, h⟩ := py_bind_ok h
    obtain ⟨_, -, h⟩ := py_bind_ok h
    simp only [Bool.not_true, Bool.false_eq_true, if_false] at h
    obtain ⟨drawn, -, h⟩ := py_bind_ok h
    cases hg : drawn.getLast? with
    | none => simp [hg] at h
    | some last =>
      simp only [hg] at h
      obtain rfl := Option.some.inj (Except.ok.inj h)
      refine ⟨?_, (hfin ..).2⟩
      rw [axisLabels, (hfin ..).1]
      rfl
  | time h =>
    unfold plotMinimumVsTime at h
    obtain ⟨_, -, h⟩ := py_bind_ok h
    obtain ⟨_, -, h⟩ := py_bind_ok h
    obtain ⟨_, -, h⟩ := py_bind_ok h
    obtain ⟨_, -, h⟩ := py_bind_ok h
    simp only [Bool.not_true, Bool.false_eq_true, if_false] at h
    obtain ⟨drawn, -, h⟩ := py_bind_ok h
    obtain ⟨a, -, h⟩ := py_bind_ok h
    obtain ⟨b, -, h⟩ := py_bind_ok h
    obtain rfl := Option.some.inj (Except.ok.inj h)
    refine ⟨?_, (hfin ..).2⟩
    rw [axisLabels, (hfin ..).1]
    rfl

/-- C100: the axes carry the labels that were asked for. -/
theorem C100_labels {o : PlotOptions} {L : List (Option String × String)} {fig : Figure}
    (h : DrawnWith o L fig) : axisLabels fig = L := (drawn_with h).1

/-- C100: without a pause nothing is shown; with one, a figure is shown for the finite time that was
asked for, and until it is closed if the time is infinite. -/
theorem C100_shown {o : PlotOptions} {L : List (Option String × String)} {fig : Figure}
    (h : DrawnWith o L fig) :
    (fig.shown = .no ↔ o.pause_figure = false) ∧
    (∀ r : ℝ, o.pause_figure = true → o.time_pause = .fin r → fig.shown = .paused (.fin r)) ∧
    (o.pause_figure = true → o.time_pause = .pinf → fig.shown = .untilClosed) := by
  rw [(drawn_with h).2]
  refine ⟨?_, fun r h1 h2 => ?_, fun h1 h2 => ?_⟩
  · cases hp : o.pause_figure
    · simp [showFigure]
    · simp only [showFigure, if_true, Bool.true_eq_false, iff_false]
      split <;> simp
  · simp only [showFigure, h1, h2, if_true]
    exact if_pos trivial
  · simp only [showFigure, h1, h2, if_true]
    exact if_neg id

/-- Hypotheses of C100: a figure with an acquisition function, shown for half a second. -/
example : ∃ fig, DrawnWith { pause_figure := true, time_pause := .fin 0.5 }
    [(none, "y"), (some "x", "acq.")] fig ∧ fig.shown = .paused (.fin 0.5) := by
  have h : ∃ fig, plotBoStepWithAcq true (col [1, 2]) (col [3, 4]) (col [1]) (col [3]) (col [3])
      (col [0]) (col [7]) none "acq." { pause_figure := true, time_pause := .fin 0.5 } =
      .ok (some fig) := ⟨_, rfl⟩
  obtain ⟨fig, h⟩ := h
  have hd := DrawnWith.stepAcq h
  exact ⟨fig, hd, (C100_shown hd).2.1 _ rfl rfl⟩

end Verif.Props
