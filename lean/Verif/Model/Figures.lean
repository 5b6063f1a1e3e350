import Verif.Model.UtilsPlotting

/-!
# Figures drawn by `bayeso/utils/utils_plotting.py`

What ends up in a figure: lines, markers and bands with their data, colours and labels, the range
of the horizontal axis, the legend, the files written and how the figure is shown. Left out: line
widths, font sizes and other settings without data, and what matplotlib does with them.
-/

namespace Verif.UtilsPlotting

open Verif.UtilsCommon

/-- `ax.plot` and `ax.fill_between`. -/
inductive Artist
  | line (x : List ℝ) (y : List Flt) (colour marker : String) (label : Option String)
  | band (x : List ℝ) (lower upper : List Flt) (colour : String)

/-- One pair of axes. -/
structure Axes where
  artists : List Artist
  xLabel : Option String
  yLabel : String
  xlim : Option (ℝ × ℝ)

/-- What `_show_figure` does. -/
inductive Shown
  | no
  | paused (seconds : Flt)
  | untilClosed

/-- A finished figure. `legend` is the figure that holds only the legend; `files` are the pairs of
directory and name given to `os.path.join`, in the order of writing. -/
structure Figure where
  axes : List Axes
  legend : Option (List (Artist × String)) := none
  files : List (String × String)
  shown : Shown

/-- The arguments that all plotting functions share, with their default values. -/
structure PlotOptions where
  path_save : Option String := none
  str_postfix : Option String := none
  str_x_axis : String := "x"
  str_y_axis : String := "y"
  pause_figure : Bool := true
  time_pause : Flt := .fin 2
  range_shade : ℝ := 1.96

/-- `COLORS` (`constants.py:79-95`). -/
def COLORS : List String := ["red", "green", "blue", "orange", "olive", "purple", "darkred",
  "limegreen", "deepskyblue", "lightsalmon", "aquamarine", "navy", "rosybrown", "darkkhaki",
  "darkslategray"]

/-- `MARKERS` (`constants.py:97-113`). -/
def MARKERS : List String := [".", "x", "*", "+", "^", "v", "<", ">", "d", ",", "8", "h", "1", "2",
  "3"]

/-- `_set_ax_config` (`utils_plotting.py:44-95`). -/
def setAxConfig (artists : List Artist) (str_x_axis : Option String) (str_y_axis : String)
    (xlim_min xlim_max : Option ℝ) : Axes :=
  ⟨artists, str_x_axis, str_y_axis,
    match xlim_min, xlim_max with
    | some a, some b => some (a, b)
    | _, _ => none⟩

/-- `_save_figure` (`utils_plotting.py:98-119`); both arguments may be `None`. -/
def saveFigure (path_save str_postfix : Option String) (str_prefix : String := "") :
    List (String × String) :=
  match path_save, str_postfix with
  | some path_save, some str_postfix => [(path_save, str_prefix ++ str_postfix ++ ".pdf")]
  | _, _ => []

/-- `_show_figure` (`utils_plotting.py:122-143`). -/
noncomputable def showFigure (pause_figure : Bool) (time_pause : Flt) : Shown :=
  if pause_figure then
    if time_pause < Flt.pinf then .paused time_pause else .untilClosed
  else .no

/-- `a.flatten()`. -/
def flatten {α : Type _} (a : Arr2 α) : List α := a.rows.flatten

/-- `y - c * s` and `y + c * s`, entry by entry. -/
noncomputable def band (x : List ℝ) (y s : List ℝ) (c : ℝ) (colour : String) : Artist :=
  .band x (List.zipWith (fun a b => Flt.fin (a - c * b)) y s)
    (List.zipWith (fun a b => Flt.fin (a + c * b)) y s) colour

/-- A line through finite values, without a label. -/
def finLine (x y : List ℝ) (colour marker : String) : Artist :=
  .line x (y.map Flt.fin) colour marker none

/-- `plot_gp_via_sample` (`utils_plotting.py:146-228`). `installed`: matplotlib and pylab can be
imported; otherwise nothing is drawn. -/
noncomputable def plotGpViaSample (installed : Bool) (X Ys : Arr2 ℝ) (o : PlotOptions)
    (colors : List String := COLORS) : Py (Option Figure) := do
  pyAssert (X.ncols = 1)
  pyAssert (X.rows.length = Ys.ncols)
  if !installed then return none
  let artists ← Ys.rows.mapM (fun Y => do
    let c ← pyIndex colors 0
    return finLine (flatten X) Y c "None")
  let xlim_min ← npMin (flatten X)
  let xlim_max ← npMax (flatten X)
  let ax := setAxConfig artists o.str_x_axis o.str_y_axis xlim_min xlim_max
  return some ⟨[ax], none, saveFigure o.path_save o.str_postfix "gp_sampled_",
    showFigure o.pause_figure o.time_pause⟩

/-- `plot_gp_via_distribution` (`utils_plotting.py:231-357`). -/
noncomputable def plotGpViaDistribution (installed : Bool)
    (X_train Y_train X_test mean_test std_test : Arr2 ℝ) (Y_test : Option (Arr2 ℝ))
    (o : PlotOptions) (colors : List String := COLORS) : Py (Option Figure) := do
  pyAssert (X_train.ncols = X_test.ncols ∧ X_test.ncols = 1)
  pyAssert (Y_train.ncols = 1)
  pyAssert (X_train.rows.length = Y_train.rows.length)
  pyAssert (mean_test.ncols = 1)
  pyAssert (std_test.ncols = 1)
  pyAssert (X_test.rows.length = mean_test.rows.length ∧
    mean_test.rows.length = std_test.rows.length)
  match Y_test with
  | some Y_test => do
    pyAssert (Y_test.ncols = 1)
    pyAssert (X_test.rows.length = Y_test.rows.length)
  | none => pure ()
  if !installed then return none
  let truth ← match Y_test with
    | some Y_test => do
      let c ← pyIndex colors 1
      pure [finLine (flatten X_test) (flatten Y_test) c "None"]
    | none => pure []
  let c2 ← pyIndex colors 2
  let c0 ← pyIndex colors 0
  let artists := truth ++ [finLine (flatten X_test) (flatten mean_test) c2 "None",
    band (flatten X_test) (flatten mean_test) (flatten std_test) o.range_shade c2,
    finLine (flatten X_train) (flatten Y_train) c0 "x"]
  let xlim_min ← npMin (flatten X_test)
  let xlim_max ← npMax (flatten X_test)
  let ax := setAxConfig artists o.str_x_axis o.str_y_axis xlim_min xlim_max
  return some ⟨[ax], none, saveFigure o.path_save o.str_postfix "gp_",
    showFigure o.pause_figure o.time_pause⟩

/-- Product of a finite number and a float. -/
noncomputable def scale (c : ℝ) : Flt → Flt
  | .fin x => .fin (c * x)
  | .nan => .nan
  | .pinf => if 0 < c then .pinf else if c < 0 then .ninf else .nan
  | .ninf => if 0 < c then .ninf else if c < 0 then .pinf else .nan

/-- The band of `plot_minimum_vs_iter` and `plot_minimum_vs_time`, whose values need not be
finite: `y - c * s`, `y + c * s`. -/
noncomputable def bandF (x : List ℝ) (y s : List Flt) (c : ℝ) (colour : String) : Artist :=
  .band x (List.zipWith (fun a b => a.sub (scale c b)) y s)
    (List.zipWith (fun a b => a.add (scale c b)) y s) colour

/-- The arguments of the two curve plots, with their default values. -/
structure CurveOptions extends PlotOptions where
  draw_std : Bool
  include_marker : Bool := true
  markers : List String := MARKERS
  colors : List String := COLORS

/-- `i % n`; a division by zero is `outOfModel`. -/
def pyMod (i n : ℕ) : Py ℕ := if n = 0 then .error .outOfModel else .ok (i % n)

/-- What is drawn for one curve (`utils_plotting.py:448-483`, `:600-636`). -/
noncomputable def drawCurve (o : CurveOptions) (list_str_label : List String) (ind_minimum : ℕ)
    (ind_color ind_marker : ℕ) (c : Curve) : Py (List Artist) := do
  let label ← pyIndex list_str_label ind_minimum
  let colour ← pyIndex o.colors ind_color
  let line ←
    if o.include_marker then do
      let marker ← pyIndex o.markers ind_marker
      pure (Artist.line c.x c.y colour marker (some label))
    else pure (Artist.line c.x c.y colour "None" (some label))
  return line :: if o.draw_std then [bandF c.x c.y c.std o.range_shade colour] else []

/-- matplotlib leaves out of a legend what has no label, an empty label, or one that starts with an
underscore (as the default labels of bands do). -/
def inLegend : Artist → Bool
  | .line _ _ _ _ (some label) => label ≠ "" ∧ label.toList.head? ≠ some '_'
  | _ => false

/-- The lines of `ax.get_legend_handles_labels()` (`utils_plotting.py:480`, `:635`). -/
def legendHandles (artists : List Artist) : List Artist := artists.filter inLegend

/-- The end of both curve plots (`utils_plotting.py:484-502`, `:637-658`): the main file, then the
figure with the legend and its file. The call `legend(lines, list_str_label, 'center', ..)` pairs the
two lists and stops at the end of the shorter one; that newer versions of matplotlib refuse its third
positional argument is left out. `str_kind` is the beginning of the file's name. -/
noncomputable def finishCurves (o : CurveOptions) (list_str_label : List String) (str_kind : String)
    (artists : List Artist) (ax : Axes) : Figure :=
  match o.path_save, o.str_postfix with
  | some path_save, some str_postfix =>
    let str_figure := (if o.draw_std then str_kind ++ "mean_std_" else str_kind ++ "mean_only_") ++
      str_postfix
    ⟨[ax], some ((legendHandles artists).zip list_str_label),
      saveFigure path_save str_figure ++ [(path_save, "legend_" ++ str_postfix ++ ".pdf")],
      showFigure o.pause_figure o.time_pause⟩
  | _, _ => ⟨[ax], none, [], showFigure o.pause_figure o.time_pause⟩

/-- `plot_minimum_vs_iter` (`utils_plotting.py:360-502`). `minima` as in `minimumVsIterData`. Without
arrays the loop variable `mean_min` is unbound after the loop: `outOfModel`. -/
noncomputable def plotMinimumVsIter (installed : Bool) (minima : List (Arr2 Flt)) (t : ℕ)
    (list_str_label : List String) (num_init : ℤ) (o : CurveOptions) : Py (Option Figure) := do
  pyAssert (minima.length = list_str_label.length)
  pyAssert ((t : ℤ) ≥ num_init)
  if !installed then return none
  let drawn ← minima.zipIdx.mapM (fun p => do
    let ind_color ← pyMod p.2 o.colors.length
    let ind_marker ← pyMod p.2 o.markers.length
    let r ← getMinimum p.1 num_init
    let c : Curve := ⟨(List.range r.mean.length).map (fun i : ℕ => (i : ℝ)), r.mean, r.std⟩
    let artists ← drawCurve o list_str_label p.2 ind_color ind_marker c
    return (artists, c))
  let artists := (drawn.map (·.1)).flatten
  match drawn.getLast? with
  | none => .error .outOfModel
  | some last =>
    let ax := setAxConfig artists o.str_x_axis o.str_y_axis (some 0)
      (some ((last.2.y.length : ℝ) - 1))
    return some (finishCurves o list_str_label "minimum_" artists ax)

/-- `plot_minimum_vs_time` (`utils_plotting.py:505-658`). Arguments as in `minimumVsTimeData`. -/
noncomputable def plotMinimumVsTime (installed : Bool) (times : List (Arr2 ℝ)) (tt : ℕ)
    (minima : List (Arr2 Flt)) (t : ℕ) (r_times r_minima : ℕ) (list_str_label : List String)
    (num_init : ℤ) (o : CurveOptions) : Py (Option Figure) := do
  pyAssert (times.length = minima.length ∧ minima.length = list_str_label.length)
  pyAssert (r_times = r_minima)
  pyAssert ((t : ℤ) ≥ num_init)
  pyAssert (tt = t ∨ (tt : ℤ) + num_init = t)
  if !installed then return none
  let drawn ← (times.zip minima).zipIdx.mapM (fun p => do
    let ind_color ← pyMod p.2 o.colors.length
    let ind_marker ← pyMod p.2 o.markers.length
    let r ← getMinimum p.1.2 num_init
    let x_data ← getTime p.1.1 num_init (decide (tt = t))
    let c : Curve := ⟨x_data, r.mean, r.std⟩
    let artists ← drawCurve o list_str_label p.2 ind_color ind_marker c
    return (artists, c))
  let artists := (drawn.map (·.1)).flatten
  let xlim_min ← npMin (drawn.map (·.2.x)).flatten
  let xlim_max ← npMax (drawn.map (·.2.x)).flatten
  let ax := setAxConfig artists o.str_x_axis o.str_y_axis xlim_min xlim_max
  return some (finishCurves o list_str_label "minimum_time_" artists ax)

/-- The markers for the groups of `boStepGroups` (`utils_plotting.py:767-782`): colour and marker,
in the order of the groups. -/
def groupStyles (groups : ℕ) : List (String × String) :=
  match groups with
  | 3 => [("saddlebrown", "x"), ("r", "x"), ("orange", "+")]
  | 2 => [("r", "x"), ("orange", "+")]
  | _ => [("saddlebrown", "x")]

/-- The checks of `plot_bo_step` (`utils_plotting.py:735-749`). -/
def checkBoStep (X_train Y_train X_test Y_test mean_test std_test : Arr2 ℝ)
    (num_init : Option ℤ) : Py Unit := do
  pyAssert (X_train.ncols = X_test.ncols ∧ X_test.ncols = 1)
  pyAssert (Y_train.ncols = Y_test.ncols ∧ Y_test.ncols = 1)
  pyAssert (X_train.rows.length = Y_train.rows.length)
  pyAssert (mean_test.ncols = 1)
  pyAssert (std_test.ncols = 1)
  pyAssert (X_test.rows.length = Y_test.rows.length ∧
    Y_test.rows.length = mean_test.rows.length ∧ mean_test.rows.length = std_test.rows.length)
  match num_init with
  | some num_init => pyAssert ((X_train.rows.length : ℤ) ≥ num_init)
  | none => pure ()

/-- What `plot_bo_step` draws (`utils_plotting.py:759-782`, `:889-912`). -/
noncomputable def boStepArtists (X_train Y_train X_test Y_test mean_test std_test : Arr2 ℝ)
    (num_init : Option ℤ) (range_shade : ℝ) : Py (List Artist) := do
  let gx ← boStepGroups X_train.rows num_init
  let gy ← boStepGroups Y_train.rows num_init
  let points := List.zipWith (fun (g : List (List ℝ) × List (List ℝ)) (c : String × String) =>
    finLine g.1.flatten g.2.flatten c.1 c.2) (gx.zip gy) (groupStyles gx.length)
  return [finLine (flatten X_test) (flatten Y_test) "g" "None",
    finLine (flatten X_test) (flatten mean_test) "b" "None",
    band (flatten X_test) (flatten mean_test) (flatten std_test) range_shade "b"] ++ points

/-- `plot_bo_step` (`utils_plotting.py:661-791`). -/
noncomputable def plotBoStep (installed : Bool)
    (X_train Y_train X_test Y_test mean_test std_test : Arr2 ℝ) (num_init : Option ℤ)
    (o : PlotOptions) : Py (Option Figure) := do
  checkBoStep X_train Y_train X_test Y_test mean_test std_test num_init
  if !installed then return none
  let artists ← boStepArtists X_train Y_train X_test Y_test mean_test std_test num_init
    o.range_shade
  let xlim_min ← npMin (flatten X_test)
  let xlim_max ← npMax (flatten X_test)
  let ax := setAxConfig artists o.str_x_axis o.str_y_axis xlim_min xlim_max
  return some ⟨[ax], none, saveFigure o.path_save o.str_postfix "bo_step_",
    showFigure o.pause_figure o.time_pause⟩

/-- `plot_bo_step_with_acq` (`utils_plotting.py:794-934`). -/
noncomputable def plotBoStepWithAcq (installed : Bool)
    (X_train Y_train X_test Y_test mean_test std_test acq_test : Arr2 ℝ) (num_init : Option ℤ)
    (str_acq_axis : String) (o : PlotOptions) : Py (Option Figure) := do
  pyAssert (acq_test.ncols = 1)
  pyAssert (X_test.rows.length = acq_test.rows.length)
  checkBoStep X_train Y_train X_test Y_test mean_test std_test num_init
  if !installed then return none
  let artists ← boStepArtists X_train Y_train X_test Y_test mean_test std_test num_init
    o.range_shade
  let xlim_min ← npMin (flatten X_test)
  let xlim_max ← npMax (flatten X_test)
  let ax1 := setAxConfig artists none o.str_y_axis xlim_min xlim_max
  let ax2 := setAxConfig [finLine (flatten X_test) (flatten acq_test) "b" "None"] o.str_x_axis
    str_acq_axis xlim_min xlim_max
  return some ⟨[ax1, ax2], none, saveFigure o.path_save o.str_postfix "bo_step_acq_",
    showFigure o.pause_figure o.time_pause⟩

end Verif.UtilsPlotting
