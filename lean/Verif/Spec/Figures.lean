import Verif.Model.Figures

/-! Vocabulary of C86 to C88: what can be seen in a figure. -/

namespace Verif.Spec

open Verif.UtilsPlotting

/-- The points of a line that is drawn without markers. -/
def curve : Artist → Option (List (ℝ × Flt))
  | .line x y _ marker _ => if marker = "None" then some (x.zip y) else none
  | .band .. => none

/-- The points of a line that are marked. -/
def marks : Artist → List (ℝ × Flt)
  | .line x y _ marker _ => if marker = "None" then [] else x.zip y
  | .band .. => []

/-- Abscissa, lower and upper end of the places of a band. -/
def stripes : Artist → List (ℝ × Flt × Flt)
  | .line .. => []
  | .band x lower upper _ => x.zip (lower.zip upper)

/-- The curves of a pair of axes, in the order of drawing. -/
def curves (ax : Axes) : List (List (ℝ × Flt)) := ax.artists.filterMap curve

/-- The marked points of a pair of axes, in the order of drawing. -/
def marked (ax : Axes) : List (ℝ × Flt) := ax.artists.flatMap marks

/-- A line of the given colour. -/
def hasColour (colour : String) : Artist → Bool
  | .line _ _ c _ _ => c = colour
  | .band .. => false

/-- The points that are marked in one colour. -/
def markedIn (colour : String) (ax : Axes) : List (ℝ × Flt) :=
  (ax.artists.filter (hasColour colour)).flatMap marks

/-- The stripes of the bands of a pair of axes. -/
def shaded (ax : Axes) : List (ℝ × Flt × Flt) := ax.artists.flatMap stripes

/-- The abscissa lies in the range of the horizontal axis. -/
def InView (ax : Axes) (x : ℝ) : Prop := ∃ a b, ax.xlim = some (a, b) ∧ a ≤ x ∧ x ≤ b

/-- An array of one column with these entries. -/
def col (l : List ℝ) : Arr2 ℝ := ⟨l.map fun x => [x], 1, by simp⟩

/-- The figure of an optimisation step with training pairs `xs`, `ys` (the last pair is the newest, the
first `num_init` ones are the initial points), true values `yt`, means `m` and deviations `s` at the
inputs `xt`, and bands of `c` deviations. -/
structure StepAxes (xs ys xt yt m s : List ℝ) (c : ℝ) (num_init : Option ℤ) (ax : Axes) : Prop where
  curves : Spec.curves ax = [xt.zip (yt.map Flt.fin), xt.zip (m.map Flt.fin)]
  shaded : Spec.shaded ax = List.zipWith (fun a (p : ℝ × ℝ) => (a, Flt.fin (p.1 - c * p.2),
    Flt.fin (p.1 + c * p.2))) xt (m.zip s)
  marked : Spec.marked ax = xs.zip (ys.map Flt.fin)
  newest : (∀ k, num_init = some k → k < xs.length) →
    markedIn "orange" ax = ((xs.zip (ys.map Flt.fin)).drop (xs.length - 1))
  initial : ∀ k : ℕ, num_init = some (k : ℤ) →
    markedIn "saddlebrown" ax = (xs.zip (ys.map Flt.fin)).take k
  between : ∀ k : ℕ, num_init = some (k : ℤ) → k < xs.length →
    markedIn "r" ax = ((xs.zip (ys.map Flt.fin)).drop k).dropLast
  earlier : num_init = none → markedIn "r" ax = (xs.zip (ys.map Flt.fin)).dropLast
  view : ∀ x, InView ax x ↔ ∃ a ∈ xt, ∃ b ∈ xt, a ≤ x ∧ x ≤ b

/-- What is drawn for curve number `i`: its line in colour and marker number `i` (counted modulo the
lengths of the lists) with label number `i`, and its band in the same colour, if bands are drawn. -/
def IsCurve (o : CurveOptions) (labels : List String) (i : ℕ) (c : Curve)
    (drawn : List Artist) : Prop :=
  ∃ label colour marker bands, labels[i]? = some label ∧
    o.colors[i % o.colors.length]? = some colour ∧
    (if o.include_marker then o.markers[i % o.markers.length]? = some marker
      else marker = "None") ∧
    drawn = .line c.x c.y colour marker (some label) :: bands ∧
    (if o.draw_std then ∃ lower upper, bands = [.band c.x lower upper colour] ∧
      ∀ m s : List ℝ, c.y = m.map Flt.fin → c.std = s.map Flt.fin →
        lower = List.zipWith (fun a b => Flt.fin (a - o.range_shade * b)) m s ∧
        upper = List.zipWith (fun a b => Flt.fin (a + o.range_shade * b)) m s
      else bands = [])

/-- The label of a line. -/
def labelOf : Artist → Option String
  | .line _ _ _ _ label => label
  | .band .. => none

/-- A line, not a band. -/
def isLine : Artist → Bool
  | .line .. => true
  | .band .. => false

/-- The lines of a pair of axes. -/
def lines (ax : Axes) : List Artist := ax.artists.filter isLine

/-- A label that matplotlib takes into a legend. -/
def ShownLabel (label : String) : Prop := label ≠ "" ∧ label.toList.head? ≠ some '_'

/-- The kinds of figures; `std`: with bands. -/
inductive PlotKind
  | sample | regression | step | stepAcq | iterations (std : Bool) | time (std : Bool)
  deriving DecidableEq

/-- The figure is drawn by a call of this kind with these values of `path_save` and
`str_postfix`. -/
def DrawnBy : PlotKind → Option String → Option String → Figure → Prop
  | .sample, path, postfix', fig => ∃ X Ys o colors,
    plotGpViaSample true X Ys o colors = .ok (some fig) ∧ o.path_save = path ∧
      o.str_postfix = postfix'
  | .regression, path, postfix', fig => ∃ X Y Xt m s Yt o colors,
    plotGpViaDistribution true X Y Xt m s Yt o colors = .ok (some fig) ∧ o.path_save = path ∧
      o.str_postfix = postfix'
  | .step, path, postfix', fig => ∃ X Y Xt Yt m s n o,
    plotBoStep true X Y Xt Yt m s n o = .ok (some fig) ∧ o.path_save = path ∧
      o.str_postfix = postfix'
  | .stepAcq, path, postfix', fig => ∃ X Y Xt Yt m s q n axis o,
    plotBoStepWithAcq true X Y Xt Yt m s q n axis o = .ok (some fig) ∧ o.path_save = path ∧
      o.str_postfix = postfix'
  | .iterations std, path, postfix', fig => ∃ minima t labels n o,
    plotMinimumVsIter true minima t labels n o = .ok (some fig) ∧ o.path_save = path ∧
      o.str_postfix = postfix' ∧ o.draw_std = std
  | .time std, path, postfix', fig => ∃ times tt minima t rt rm labels n o,
    plotMinimumVsTime true times tt minima t rt rm labels n o = .ok (some fig) ∧
      o.path_save = path ∧ o.str_postfix = postfix' ∧ o.draw_std = std

/-- The main file, the first one written: directory and name. -/
def mainFile (fig : Figure) : Option (String × String) := fig.files.head?

/-- The figure was drawn by one of the six plotting functions with these common options; the list
holds the labels of its axes (horizontal, vertical) that the caller asked for. -/
inductive DrawnWith : PlotOptions → List (Option String × String) → Figure → Prop
  | sample {X Ys o colors fig} (h : plotGpViaSample true X Ys o colors = .ok (some fig)) :
      DrawnWith o [(some o.str_x_axis, o.str_y_axis)] fig
  | regression {X Y Xt m s Yt o colors fig}
      (h : plotGpViaDistribution true X Y Xt m s Yt o colors = .ok (some fig)) :
      DrawnWith o [(some o.str_x_axis, o.str_y_axis)] fig
  | step {X Y Xt Yt m s n o fig} (h : plotBoStep true X Y Xt Yt m s n o = .ok (some fig)) :
      DrawnWith o [(some o.str_x_axis, o.str_y_axis)] fig
  | stepAcq {X Y Xt Yt m s q n axis o fig}
      (h : plotBoStepWithAcq true X Y Xt Yt m s q n axis o = .ok (some fig)) :
      DrawnWith o [(none, o.str_y_axis), (some o.str_x_axis, axis)] fig
  | iterations {minima t labels n o fig}
      (h : plotMinimumVsIter true minima t labels n o = .ok (some fig)) :
      DrawnWith o.toPlotOptions [(some o.str_x_axis, o.str_y_axis)] fig
  | time {times tt minima t rt rm labels n o fig}
      (h : plotMinimumVsTime true times tt minima t rt rm labels n o = .ok (some fig)) :
      DrawnWith o.toPlotOptions [(some o.str_x_axis, o.str_y_axis)] fig

/-- The labels of the axes of a figure. -/
def axisLabels (fig : Figure) : List (Option String × String) :=
  fig.axes.map fun ax => (ax.xLabel, ax.yLabel)

end Verif.Spec
