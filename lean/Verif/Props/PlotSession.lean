import Verif.Model.PlotSession
import Verif.Props.CurveFigures

/-! C128: what calls of the plotting functions do to the calls after them. -/

namespace Verif.Props

open Verif.Spec Verif.UtilsPlotting

/-- The calls of a session are calls of the six functions with options `o 0`, `o 1`, ... -/
def SessionOf (o : ℕ → PlotOptions) (calls : List PlotCall) : Prop :=
  ∀ (i : ℕ) (c : PlotCall), calls[i]? = some c → ∃ L, DrawnWith (o i) L c.figure

/-- The call pauses for a finite time. -/
def PausesBriefly (o : PlotOptions) : Prop :=
  o.pause_figure = true ∧ ∃ r : ℝ, o.time_pause = .fin r

private theorem drawIn_fields (s : Pyplot) (c : PlotCall) :
    (drawIn s c).1.usetex = (s.usetex || c.use_tex) ∧
    (drawIn s c).2.tex = (s.usetex || c.use_tex) ∧
    (drawIn s c).1.fonttype = (if c.use_tex then s.fonttype else 42) ∧
    (drawIn s c).2.fonttype = (if c.use_tex then s.fonttype else 42) ∧
    (drawIn s c).2.figure = c.figure := by
  obtain ⟨t, f⟩ := c
  obtain ⟨u, n, b, k⟩ := s
  cases t <;> cases u <;> cases b <;> cases hl : f.legend.isSome <;> cases hs : f.shown <;>
    simp [drawIn, setFontConfig, showIn, hl, hs]

private theorem drawIn_interactive (s : Pyplot) (c : PlotCall) :
    (drawIn s c).1.interactive = true ↔
      s.interactive = true ∨ ∃ t, c.figure.shown = .paused t := by
  obtain ⟨t, f⟩ := c
  obtain ⟨u, n, b, k⟩ := s
  cases t <;> cases u <;> cases b <;> cases hl : f.legend.isSome <;> cases hs : f.shown <;>
    simp [drawIn, setFontConfig, showIn, hl, hs]

private theorem drawIn_seen (s : Pyplot) (c : PlotCall) :
    (c.figure.shown = .no → (drawIn s c).2.seen = .no) ∧
    (∀ t, c.figure.shown = .paused t → (drawIn s c).2.seen = .paused t) ∧
    (c.figure.shown = .untilClosed →
      (drawIn s c).2.seen = if s.interactive then .passing else .untilClosed) := by
  obtain ⟨t, f⟩ := c
  obtain ⟨u, n, b, k⟩ := s
  cases t <;> cases u <;> cases b <;> cases hl : f.legend.isSome <;> cases hs : f.shown <;>
    simp [drawIn, setFontConfig, showIn, hl, hs]

/-- Where an entry of a session comes from: the state before it, reached by the calls before it. -/
private theorem session_getElem (calls : List PlotCall) : ∀ (s : Pyplot) (i : ℕ),
    (session s calls).2[i]? =
      (calls[i]?).map fun c => (drawIn (session s (calls.take i)).1 c).2 := by
  induction calls with
  | nil => intro s i; simp [session]
  | cons c t ih =>
    intro s i
    cases i with
    | zero => simp [session]
    | succ i => simp [session, ih]

private theorem session_usetex (calls : List PlotCall) : ∀ s : Pyplot,
    (session s calls).1.usetex = true ↔ s.usetex = true ∨ ∃ c ∈ calls, c.use_tex = true := by
  induction calls with
  | nil => intro s; simp [session]
  | cons c t ih =>
    intro s
    simp only [session, ih, (drawIn_fields s c).1, Bool.or_eq_true, List.mem_cons,
      exists_eq_or_imp]
    tauto

private theorem session_fonttype (calls : List PlotCall) : ∀ s : Pyplot,
    (session s calls).1.fonttype =
      if ∃ c ∈ calls, c.use_tex = false then 42 else s.fonttype := by
  induction calls with
  | nil => intro s; simp [session]
  | cons c t ih =>
    intro s
    simp only [session, ih, (drawIn_fields s c).2.2.1, List.mem_cons, exists_eq_or_imp]
    by_cases h1 : ∃ c ∈ t, c.use_tex = false <;> cases h2 : c.use_tex <;> simp [h1]

private theorem session_interactive (calls : List PlotCall) : ∀ s : Pyplot,
    (session s calls).1.interactive = true ↔
      s.interactive = true ∨ ∃ c ∈ calls, ∃ t, c.figure.shown = .paused t := by
  induction calls with
  | nil => intro s; simp [session]
  | cons c t ih =>
    intro s
    simp only [session, ih, drawIn_interactive, List.mem_cons, exists_eq_or_imp]
    tauto

private theorem mem_take_iff {α : Type} {l : List α} {i : ℕ} {a : α} :
    a ∈ l.take i ↔ ∃ j < i, l[j]? = some a := by
  rw [List.mem_iff_getElem?]
  constructor
  · rintro ⟨j, hj⟩
    rw [List.getElem?_take] at hj
    split at hj
    · exact ⟨j, ‹_›, hj⟩
    · simp at hj
  · rintro ⟨j, hj, h⟩
    exact ⟨j, by rw [List.getElem?_take_of_lt hj, h]⟩

/-- C128: every call of a session draws its own figure, and LaTeX sets the text of a figure exactly if its own
call or one of the calls before it asked for that (or it was on at the start); its file has fonts of type
42 exactly if its own call or one before it did not ask for LaTeX (or this was the setting at the
start). -/
theorem C128_fonts (s : Pyplot) (calls : List PlotCall) :
    (session s calls).2.map Drawn.figure = calls.map PlotCall.figure ∧
    ∀ (i : ℕ) (D : Drawn), (session s calls).2[i]? = some D →
      (D.tex = true ↔ s.usetex = true ∨ ∃ j ≤ i, ∃ c, calls[j]? = some c ∧ c.use_tex = true) ∧
      (D.fonttype = 42 ↔ s.fonttype = 42 ∨
        ∃ j ≤ i, ∃ c, calls[j]? = some c ∧ c.use_tex = false) := by
  refine ⟨List.ext_getElem? fun i => ?_, fun i D hD => ?_⟩
  · simp only [List.getElem?_map, session_getElem, Option.map_map]
    exact congrArg (fun g => Option.map g calls[i]?)
      (funext fun c => (drawIn_fields (session s (calls.take i)).1 c).2.2.2.2)
  · rw [session_getElem] at hD
    obtain ⟨c, hc, rfl⟩ := Option.map_eq_some_iff.mp hD
    have h := drawIn_fields (session s (calls.take i)).1 c
    rw [h.2.1, h.2.2.2.1, Bool.or_eq_true, session_usetex, session_fonttype]
    constructor
    · constructor
      · rintro ((h | ⟨b, hb, hb'⟩) | h)
        · exact .inl h
        · obtain ⟨j, hj, hb⟩ := mem_take_iff.mp hb
          exact .inr ⟨j, hj.le, b, hb, hb'⟩
        · exact .inr ⟨i, le_rfl, c, hc, h⟩
      · rintro (h | ⟨j, hj, b, hb, hb'⟩)
        · exact .inl (.inl h)
        · rcases hj.lt_or_eq with hj | rfl
          · exact .inl (.inr ⟨b, mem_take_iff.mpr ⟨j, hj, hb⟩, hb'⟩)
          · rw [hc] at hb
            cases hb
            exact .inr hb'
    · by_cases hex : ∃ b ∈ calls.take i, b.use_tex = false
      · obtain ⟨b, hb, hb'⟩ := hex
        obtain ⟨j, hj, hb''⟩ := mem_take_iff.mp hb
        rw [if_pos (c := ∃ b ∈ calls.take i, b.use_tex = false) ⟨b, hb, hb'⟩]
        exact ⟨fun _ => .inr ⟨j, hj.le, b, hb'', hb'⟩, fun _ => by split <;> rfl⟩
      · rw [if_neg (c := ∃ b ∈ calls.take i, b.use_tex = false) hex]
        cases hu : c.use_tex with
        | false => simpa using .inr ⟨i, le_rfl, c, hc, hu⟩
        | true =>
          simp only [if_true]
          constructor
          · exact .inl
          · rintro (h | ⟨j, hj, b, hb, hb'⟩)
            · exact h
            · rcases hj.lt_or_eq with hj | rfl
              · exact absurd ⟨b, mem_take_iff.mpr ⟨j, hj, hb⟩, hb'⟩ hex
              · rw [hc] at hb
                cases hb
                rw [hu] at hb'
                cases hb'

/-- C128, the part that holds: in a process where no figure so far asked for LaTeX, and for every figure
that asks for it itself, LaTeX is used exactly as asked. (The full claim, that the figure of every call
is drawn as this call asks, is false: `C128_tex_stays`.) -/
theorem C128_as_asked_partial (calls : List PlotCall) (i : ℕ) (c : PlotCall) (D : Drawn)
    (hc : calls[i]? = some c) (hD : (session Pyplot.fresh calls).2[i]? = some D)
    (h : c.use_tex = true ∨ ∀ j < i, ∀ b, calls[j]? = some b → b.use_tex = false) :
    D.tex = c.use_tex := by
  have hf := ((C128_fonts Pyplot.fresh calls).2 i D hD).1
  cases hu : c.use_tex with
  | true => exact hf.mpr (.inr ⟨i, le_rfl, c, hc, hu⟩)
  | false =>
    rw [← Bool.not_eq_true, hf]
    rintro (h' | ⟨j, hj, b, hb, hb'⟩)
    · cases h'
    · rcases hj.lt_or_eq with hj | rfl
      · rw [hu] at h
        rcases h with h | h
        · cases h
        · rw [h j hj b hb] at hb'
          cases hb'
      · rw [hc] at hb
        cases hb
        rw [hu] at hb'
        cases hb'

/-- C128: how figures are seen in a session that starts in a script. A figure without a pause is not
seen; one with a finite time is seen for this time; one with an infinite time is seen until it is closed
exactly if no earlier call paused for a finite time, and otherwise the program does not wait for
it. -/
theorem C128_seen (o : ℕ → PlotOptions) (calls : List PlotCall) (ho : SessionOf o calls)
    (ht : ∀ i, (∃ r : ℝ, (o i).time_pause = .fin r) ∨ (o i).time_pause = .pinf)
    (i : ℕ) (D : Drawn) (hD : (session Pyplot.fresh calls).2[i]? = some D) :
    ((o i).pause_figure = false → D.seen = .no) ∧
    (∀ r : ℝ, (o i).pause_figure = true → (o i).time_pause = .fin r → D.seen = .paused (.fin r)) ∧
    ((o i).pause_figure = true → (o i).time_pause = .pinf →
      (D.seen = .untilClosed ∧ ∀ j < i, ¬ PausesBriefly (o j)) ∨
      (D.seen = .passing ∧ ∃ j < i, PausesBriefly (o j))) := by
  rw [session_getElem] at hD
  obtain ⟨c, hc, rfl⟩ := Option.map_eq_some_iff.mp hD
  obtain ⟨L, hL⟩ := ho i c hc
  have hs := C100_shown hL
  have hd := drawIn_seen (session Pyplot.fresh (calls.take i)).1 c
  refine ⟨fun h => hd.1 (hs.1.mpr h), fun r h1 h2 => hd.2.1 _ (hs.2.1 r h1 h2), fun h1 h2 => ?_⟩
  rw [hd.2.2 (hs.2.2 h1 h2)]
  have hi := session_interactive (calls.take i) Pyplot.fresh
  have hp : ∀ (j : ℕ) (b : PlotCall), calls[j]? = some b →
      ((∃ t, b.figure.shown = .paused t) ↔ PausesBriefly (o j)) := by
    intro j b hb
    obtain ⟨M, hM⟩ := ho j b hb
    have hb' := C100_shown hM
    constructor
    · rintro ⟨t, h⟩
      have hpf : (o j).pause_figure = true := by
        rw [← Bool.not_eq_false, ← hb'.1, h]
        simp
      rcases ht j with hr | hr
      · exact ⟨hpf, hr⟩
      · rw [hb'.2.2 hpf hr] at h
        cases h
    · rintro ⟨h, r, hr⟩
      exact ⟨_, hb'.2.1 r h hr⟩
  have hlen : i < calls.length := (List.getElem?_eq_some_iff.mp hc).1
  by_cases hn : ∃ j < i, PausesBriefly (o j)
  · right
    refine ⟨?_, hn⟩
    obtain ⟨j, hj, hpj⟩ := hn
    have hb : calls[j]? = some calls[j] := List.getElem?_eq_getElem (hj.trans hlen)
    rw [if_pos (hi.mpr (.inr ⟨calls[j], mem_take_iff.mpr ⟨j, hj, hb⟩, (hp j _ hb).mpr hpj⟩))]
  · left
    refine ⟨if_neg fun h => ?_, fun j hj h => hn ⟨j, hj, h⟩⟩
    rcases hi.mp h with h | ⟨b, hb, hb'⟩
    · cases h
    · obtain ⟨j, hj, hb⟩ := mem_take_iff.mp hb
      exact hn ⟨j, hj, (hp j b hb).mp hb'⟩

/-- C128: figures that stay open. After a call that pauses for a finite time no figure is open; calls that do
not pause close nothing, so each of them leaves at least one more figure open. -/
theorem C128_open (s : Pyplot) (calls : List PlotCall) (o : ℕ → PlotOptions)
    (ho : SessionOf o calls) :
    (∀ n, calls.length = n + 1 → PausesBriefly (o n) → (session s calls).1.opened = 0) ∧
    ((∀ i < calls.length, (o i).pause_figure = false) →
      (session s calls).1.opened =
        s.opened + calls.length + calls.countP fun c => c.figure.legend.isSome) := by
  constructor
  · intro n hn hp
    have hlast : ∀ (l : List PlotCall) (c : PlotCall) (s : Pyplot) (t : Flt),
        c.figure.shown = .paused t → (session s (l ++ [c])).1.opened = 0 := by
      intro l c
      induction l with
      | nil =>
        intro s t h
        simp [session, drawIn, h, showIn]
      | cons a l ih =>
        intro s t h
        exact ih _ t h
    rcases List.eq_nil_or_concat calls with rfl | ⟨l, c, rfl⟩
    · simp at hn
    · obtain rfl : l.length = n := by simpa using hn
      obtain ⟨L, hL⟩ := ho l.length c (by simp)
      obtain ⟨h1, r, hr⟩ := hp
      rw [List.concat_eq_append]
      exact hlast l c s _ ((C100_shown hL).2.1 r h1 hr)
  · intro hp
    have hno : ∀ c ∈ calls, c.figure.shown = .no := by
      intro c hc
      obtain ⟨i, hi, rfl⟩ := List.mem_iff_getElem.mp hc
      obtain ⟨L, hL⟩ := ho i _ (List.getElem?_eq_getElem hi)
      exact (C100_shown hL).1.mpr (hp i hi)
    clear hp ho
    induction calls generalizing s with
    | nil => simp [session]
    | cons c t ih =>
      have h := ih (drawIn s c).1 fun b hb => hno b (List.mem_cons_of_mem _ hb)
      have hc := hno c (List.mem_cons_self ..)
      have ho : (drawIn s c).1.opened = s.opened + 1 + if c.figure.legend.isSome then 1 else 0 := by
        cases hl : c.figure.legend.isSome <;> cases hu : c.use_tex <;>
          simp [drawIn, setFontConfig, showIn, hc, hl, hu]
      simp only [session, h, ho, List.length_cons, List.countP_cons]
      split <;> omega

/-- Two figures of sampled functions with these options. -/
private theorem two_calls (o₁ o₂ : PlotOptions) :
    ∃ f₁ f₂ L₁ L₂, DrawnWith o₁ L₁ f₁ ∧ DrawnWith o₂ L₂ f₂ := by
  have hd : ∀ o : PlotOptions, ∃ f, plotGpViaSample true (col [0, 1]) ⟨[[3, 4]], 2, by simp⟩ o =
      .ok (some f) := fun o => ⟨_, rfl⟩
  obtain ⟨f₁, h₁⟩ := hd o₁
  obtain ⟨f₂, h₂⟩ := hd o₂
  exact ⟨f₁, f₂, _, _, .sample h₁, .sample h₂⟩

/-- C128: LaTeX stays on. There are a call with LaTeX and a call without such that the figure of the second is
set by LaTeX if it comes after the first one, and is not if it comes alone. -/
theorem C128_tex_stays : ∃ a b : PlotCall, (∃ o L, DrawnWith o L a.figure) ∧
    (∃ o L, DrawnWith o L b.figure) ∧ b.use_tex = false ∧
    (session Pyplot.fresh [b]).2.map Drawn.tex = [false] ∧
    (session Pyplot.fresh [a, b]).2.map Drawn.tex = [true, true] := by
  obtain ⟨f₁, f₂, L₁, L₂, h₁, h₂⟩ := two_calls {} {}
  have hb : (session Pyplot.fresh [⟨false, f₂⟩]).2.map Drawn.tex = [false] := by
    simp [session, (drawIn_fields _ _).2.1, Pyplot.fresh]
  refine ⟨⟨true, f₁⟩, ⟨false, f₂⟩, ⟨_, _, h₁⟩, ⟨_, _, h₂⟩, rfl, hb, ?_⟩
  simp [session, (drawIn_fields _ _).2.1, (drawIn_fields _ _).1, Pyplot.fresh]

/-- C128: after a figure with the default pause, a figure that is to be shown until it is closed is not
waited for. -/
theorem C128_not_held : ∃ a b : PlotCall, ∃ o : PlotOptions, ∃ L M, DrawnWith {} L a.figure ∧
    DrawnWith o M b.figure ∧ o.pause_figure = true ∧ o.time_pause = .pinf ∧
    (session Pyplot.fresh [b]).2.map Drawn.seen = [.untilClosed] ∧
    (session Pyplot.fresh [a, b]).2.map Drawn.seen = [.paused (.fin 2), .passing] := by
  obtain ⟨f₁, f₂, L₁, L₂, h₁, h₂⟩ := two_calls {} { time_pause := .pinf }
  have s₁ : f₁.shown = .paused (.fin 2) := (C100_shown h₁).2.1 2 rfl rfl
  have s₂ : f₂.shown = .untilClosed := (C100_shown h₂).2.2 rfl rfl
  refine ⟨⟨false, f₁⟩, ⟨false, f₂⟩, { time_pause := .pinf }, L₁, L₂, h₁, h₂, rfl, rfl, ?_, ?_⟩
  · cases hl : f₂.legend.isSome <;>
      simp [session, drawIn, setFontConfig, showIn, s₂, Pyplot.fresh, hl]
  · cases hl : f₂.legend.isSome <;> cases hk : f₁.legend.isSome <;>
      simp [session, drawIn, setFontConfig, showIn, s₁, s₂, Pyplot.fresh, hl, hk]

/-- Hypotheses of C128: two calls, the second without a pause. -/
example : ∃ calls : List PlotCall, ∃ o : ℕ → PlotOptions, SessionOf o calls ∧ calls.length = 2 ∧
    (∀ i, (∃ r : ℝ, (o i).time_pause = .fin r) ∨ (o i).time_pause = .pinf) ∧
    PausesBriefly (o 0) ∧ ¬ PausesBriefly (o 1) := by
  obtain ⟨f₁, f₂, L₁, L₂, h₁, h₂⟩ := two_calls {} { pause_figure := false }
  refine ⟨[⟨true, f₁⟩, ⟨false, f₂⟩], fun i => if i = 0 then {} else { pause_figure := false }, ?_, rfl,
    fun i => .inl ⟨2, by dsimp only; split <;> rfl⟩, ⟨rfl, 2, rfl⟩, fun h => by simpa using h.1⟩
  intro i c hc
  match i, hc with
  | 0, hc => cases hc; exact ⟨L₁, h₁⟩
  | 1, hc => cases hc; exact ⟨L₂, h₂⟩
  | n + 2, hc => simp at hc

end Verif.Props
