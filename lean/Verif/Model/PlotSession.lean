import Verif.Model.Figures

/-!
# Several calls of the functions of `bayeso/utils/utils_plotting.py`

The plotting functions change settings that matplotlib keeps for the whole process. `Figures.lean` models
one call by itself; here is what calls leave to the calls after them: the settings of `plt.rc`, whether
pyplot is in interactive mode, and the figures that are open. Calls that raise or find no matplotlib are
left out. What matplotlib does is taken from its documentation.
-/

namespace Verif.UtilsPlotting

/-- What pyplot keeps between calls: `rcParams['text.usetex']`, `rcParams['pdf.fonttype']`, interactive
mode, and the number of figures that are open. -/
structure Pyplot where
  usetex : Bool
  fonttype : ℕ
  interactive : Bool
  opened : ℕ

/-- The state after the import in a script. -/
def Pyplot.fresh : Pyplot := ⟨false, 3, false, 0⟩

/-- `_set_font_config` (`utils_plotting.py:26-41`). -/
def setFontConfig (use_tex : Bool) (s : Pyplot) : Pyplot :=
  if use_tex then { s with usetex := true } else { s with fonttype := 42 }

/-- What a user sees of a figure: nothing, the figure for some time, the figure until all windows are
closed, or windows that do not stop the program. -/
inductive Seen
  | no
  | paused (seconds : Flt)
  | untilClosed
  | passing

/-- `_show_figure` (`utils_plotting.py:122-143`) with the state it changes. `plt.ion()` turns the
interactive mode on and nothing turns it off; `plt.pause` shows all open figures, `plt.close('all')` closes
them; `plt.show()` waits until all figures are closed if the mode is not interactive and returns at
once if it is. -/
def showIn (s : Pyplot) : Shown → Pyplot × Seen
  | .no => (s, .no)
  | .paused seconds => ({ s with interactive := true, opened := 0 }, .paused seconds)
  | .untilClosed =>
    if s.interactive then (s, .passing) else ({ s with opened := 0 }, .untilClosed)

/-- A call that draws a figure: the argument `use_tex` and the finished figure. -/
structure PlotCall where
  use_tex : Bool
  figure : Figure

/-- A figure of a session: whether LaTeX sets its text, the font type of its file, how it is
seen. -/
structure Drawn where
  figure : Figure
  tex : Bool
  fonttype : ℕ
  seen : Seen

/-- The parts of a plotting function that touch the state (`utils_plotting.py:209-228` and the same lines of
the other five functions): fonts, a new figure, one more for a saved legend (`:496`, `:652`), and
showing. The text of a figure takes over the setting when it is created. -/
def drawIn (s : Pyplot) (c : PlotCall) : Pyplot × Drawn :=
  let s := setFontConfig c.use_tex s
  let s := { s with opened := s.opened + 1 }
  let s := if c.figure.legend.isSome then { s with opened := s.opened + 1 } else s
  let r := showIn s c.figure.shown
  (r.1, ⟨c.figure, s.usetex, s.fonttype, r.2⟩)

/-- Calls one after the other. -/
def session (s : Pyplot) : List PlotCall → Pyplot × List Drawn
  | [] => (s, [])
  | c :: t =>
    let r := drawIn s c
    let q := session r.1 t
    (q.1, r.2 :: q.2)

end Verif.UtilsPlotting
