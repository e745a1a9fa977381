import Verif.Model.Request
import Verif.Model.Histogram2d
import Verif.Model.Contours
import Verif.Model.LatexTable

/-! # plotter.py, plotting/contours.py, plotting/truth.py: what is drawn where

A plot is modelled by the calls made on each of its axes, in order. Colours, line styles, fonts and
watermarks are left out; legends and sizes are in `Model/Legend`. -/

namespace CC

section
variable {K : Type} [Field K] [LinearOrder K]

/-- The range one chain contributes, plotter.py 882-899; `none` stands for `(inf, -inf)`. -/
def chainRange (c : Chain K) (column : String) (wide : Bool) : Res (Option (K × K)) :=
  if column ∉ c.samples.columns then .ok none
  else do
    let data ← c.samples.get column
    if c.cfg .plotContour || c.cfg .plotCloud then
      if c.grid then return some (← arrMin data, ← arrMax data)
      else return some (← getExtents data (← c.weights) true wide false false)
    else match ← c.maxPosteriorPoint with
      | none => return none
      | some p => return (p.coordinate.lookup column).map fun v => (v, v)

/-- `min(min_prop, min_val), max(max_prop, max_val)`, plotter.py 901-902. -/
def joinRange : Option (K × K) → Option (K × K) → Option (K × K)
  | none, r => r
  | r, none => r
  | some a, some b => some (min b.1 a.1, max b.2 a.2)

/-- `_get_parameter_extents`, plotter.py 878-904. -/
def parameterExtents (column : String) (wide : Bool) (chains : List (Chain K)) : Res (Option (K × K)) :=
  chains.foldlM (fun r c => do return joinRange r (← chainRange c column wide)) none

/-- `_get_custom_extents`, plotter.py 752-765. Configured ranges are finite. -/
def customExtents (columns : List String) (chains : List (Chain K)) (initial : List (String × K × K)) (wide : Bool) :
    Res (List (String × Option (K × K))) :=
  columns.foldlM (fun d p => if p ∈ initial.map Prod.fst then .ok d
    else do return dictSet d p (← parameterExtents p wide chains)) (initial.map fun e => (e.1, some e.2))

end

/-- The settings of `PlotConfig` that matter here, plotting/config.py 9-49. -/
structure PlotConfig where
  labels : List (String × String) := []
  plotHists : Bool := true
  flip : Bool := false
  summarise : Bool := true
  sigma2d : Bool := false
  blind : Blind := .bool false
  logScales : List String := []
  extents : List (String × ℝ × ℝ) := []

/-- `PlottingBase`, plotter.py 34-39. -/
structure PlottingBase where
  chains : List (Chain ℝ)
  columns : List String
  extents : List (String × Option (ℝ × ℝ))
  blind : List String
  logScales : List String

/-- `_sanitise`, plotter.py 714-734, for the dictionary of final chains. -/
noncomputable def sanitise (cfg : PlotConfig) (final : List (String × Chain ℝ)) (req : ChainReq ℝ)
    (columns : Option (List String)) (wide : Bool) : Res PlottingBase := do
  let chains ← plotChains final req false
  let columns := sanitiseColumns columns chains
  let extents ← customExtents columns chains cfg.extents wide
  return ⟨chains, columns, extents, sanitiseBlinds cfg.blind columns, cfg.logScales⟩

/-- The two directions of a panel: the `x` or the `y` in the names of the methods of an axes object (plotter.py
812-874). -/
inductive Dir
  | x | y
deriving DecidableEq

/-- A call on the axes of one panel (plotter.py 193-229, 370-423, 492-526, 619-677, 811-874, 929-1016,
1030-1044; plotting/contours.py 45-255; plotting/truth.py 8-23). Styles are left out. -/
inductive Call
  /-- `set_frame_on(False)` -/
  | frameOff
  /-- `set_axis_off()` -/
  | axisOff
  /-- `set_xticks([])`, `set_yticks([])` -/
  | noTicks (d : Dir)
  /-- `set_xscale("log")`, `set_yscale("log")` -/
  | logScale (d : Dir)
  /-- `xaxis.set_major_locator(MaxNLocator(…))` -/
  | maxNLocator (d : Dir)
  /-- `xaxis.set_major_locator(LogLocator(…))` -/
  | logLocator (d : Dir)
  /-- `set_xlim`, `set_ylim` -/
  | lim (d : Dir) (lo hi : ℝ)
  /-- `set_xlabel`, `set_ylabel` -/
  | axisLabel (d : Dir) (text : String)
  /-- `set_title` -/
  | title (text : String)
  /-- `text` -/
  | text (text : String)
  /-- the curve or histogram of one chain; `flip`: values along the vertical axis -/
  | marginal (chain column : String) (flip : Bool) (xs ys : List ℝ)
  /-- the shaded part of it -/
  | shade (chain column : String) (flip : Bool) (lower upper : ℝ)
  /-- a cloud of samples with their colour values -/
  | cloud (chain px py : String) (xs ys : List ℝ) (colours : Option (List ℝ))
  /-- contours of a surface given by its rows along `py` -/
  | contour (chain px py : String) (xs ys : List ℝ) (vals : List (List ℝ)) (levels : List ℝ)
  /-- the maximum posterior point -/
  | point (chain px py : String) (x y : ℝ)
  /-- `axvline` -/
  | vline (x : ℝ) (kw : LineKwargs ℝ)
  /-- `axhline` -/
  | hline (y : ℝ) (kw : LineKwargs ℝ)
  /-- a truth marker -/
  | marker (x y : ℝ) (kw : MarkerKwargs ℝ)
  /-- `errorbar` -/
  | errorbar (chain column : String) (center left right : ℝ)
  /-- the walk of a chain -/
  | walk (chain : String) (values : List ℝ)

/-- What is used of the libraries: the neighbour search (kde.py 71-79), the sorting permutation of
plotting/contours.py 263, and the filled markers (truth.py 57). -/
structure Lib where
  near : NearFn
  argsort : List ℝ → List Nat
  filled : List String

/-- `MegKDE` with that library, analysis.py 352. -/
noncomputable def Lib.kde (l : Lib) : KdeFn := megKde l.near

/-- `set_xlim(extents[p])` for a range from `_get_parameter_extents`; matplotlib raises ValueError for infinite
limits (plotter.py 643, 873, 874). -/
def setLim (d : Dir) : Option (Option (ℝ × ℝ)) → Res Call
  | none => .error .key
  | some none => .error .value
  | some (some r) => .ok (.lim d r.1 r.2)

/-! ### truths -/

/-- One step of `plot_truths`, plotting/truth.py 8-23. -/
def truthCalls (filled : List String) (px py : Option String) (t : Truth ℝ) : List Call :=
  let vx := px.bind (t.location.lookup ·)
  let vy := py.bind (t.location.lookup ·)
  match vx, vy, t.marker with
  | some x, some y, some _ => [.marker x y (t.markerKwargs filled)]
  | _, _, _ => (match vx with | some x => [.vline x t.kwargs] | none => []) ++
      (match vy with | some y => [.hline y t.kwargs] | none => [])

/-- `plot_truths`, plotting/truth.py 7-23. -/
def plotTruths (filled : List String) (truths : List (Truth ℝ)) (px py : Option String) : List Call :=
  truths.flatMap (truthCalls filled px py)

/-! ### marginals -/

/-- `a[::step]` for `step ≥ 1` (plotter.py 377; plotting/contours.py 54-56). -/
def everyNth {α : Type} (step : Nat) : List α → List α
  | [] => []
  | x :: xs => x :: everyNth step (xs.drop (step - 1))
termination_by l => l.length
decreasing_by simp

/-- The abscissae and ordinates of a marginal before scaling, plotter.py 929-945. The bins (lines
937-940) are those of the unpadded marginal. -/
noncomputable def barData (lib : Lib) (c : Chain ℝ) (column : String) : Res (List ℝ × List ℝ) :=
  if c.smoothValue ≠ 0 ∨ c.cfg .kde ≠ (0 : ℝ) then do
    let m ← smoothedHistogram lib.kde c column true none
    return (m.xs, m.ys)
  else do
    let data ← c.samples.get column
    let w ← c.weights
    let bins ← marginalBins c data w false
    let h ← histDensity bins data w
    let h ← powAll h c.power
    return (midpoints bins, h)

/-- Python `s.strip("$")`, plotter.py 1007. -/
def stripDollars (s : String) : String :=
  String.ofList (((s.toList.dropWhile (· == '$')).reverse.dropWhile (· == '$')).reverse)

/-- What is shaded and summarised, plotter.py 965-980: intervals and the bounds for the title. -/
noncomputable def shadeBounds (lib : Lib) (c : Chain ℝ) (column : String) (xs : List ℝ) (b : Bound ℝ) (lo hi : ℝ) :
    Res (List (ℝ × ℝ) × Summary ℝ) :=
  if c.cfg .multimodal then do
    let m ← smoothedHistogram lib.kde c column true none
    let ivs ← hdiIntervals m (c.cfg .summaryArea : ℝ)
    let bounds ← multimodalBounds m ivs
    return (if ivs.length < 2 then [(lo, hi)] else ivs, .multi bounds)
  else do
    let a ← arrMin xs
    let z ← arrMax xs
    return ([(max lo a, min hi z)], .single b)

/-- The title, plotter.py 1005-1013; empty for none. -/
noncomputable def barTitle (cfg : PlotConfig) (column : String) (s : Summary ℝ) (summary : Bool) : Res String :=
  if summary then parameterText (some s) true (some (stripDollars (getLabel cfg.labels column))) else .ok ""

/-- The shading and the title, plotter.py 958-1016. The interpolator raises ValueError outside of the curve. -/
noncomputable def barShade (lib : Lib) (cfg : PlotConfig) (c : Chain ℝ) (column : String) (xs : List ℝ)
    (flip summary : Bool) : Res (List Call) := do
  let b ← parameterSummary lib.kde c column
  match b.lower, b.upper with
  | some lo, some hi => do
    let (ivs, s) ← shadeBounds lib c column xs b lo hi
    let a ← arrMin xs
    let z ← arrMax xs
    ensure .value (ivs.all fun iv => decide (a ≤ min iv.1 iv.2) && decide (max iv.1 iv.2 ≤ z))
    let title ← barTitle cfg column s summary
    return ivs.map (fun iv => .shade c.name column flip iv.1 iv.2) ++ (if title = "" then [] else [.title title])
  | _, _ => return []

/-- The relative height of the histogram, plotter.py 931 and 946; infinite heights are not modelled. -/
def Chain.finHeight (c : Chain ℝ) : Res ℝ :=
  match c.histogramRelativeHeight with
  | .fin h => .ok h
  | _ => .error .unmodelled

/-- The shading if configured, plotter.py 961-1016. -/
noncomputable def barShadeIf (lib : Lib) (cfg : PlotConfig) (c : Chain ℝ) (column : String) (xs : List ℝ)
    (flip summary : Bool) : Res (List Call) :=
  if c.cfg .barShade then barShade lib cfg c column xs flip summary else .ok []

/-- `_plot_bars`, plotter.py 919-1018: the calls and the largest value. -/
noncomputable def plotBars (lib : Lib) (cfg : PlotConfig) (column : String) (c : Chain ℝ) (flip summary : Bool) :
    Res (List Call × ℝ) := do
  let (xs, ys) ← barData lib c column
  let h ← c.finHeight
  let ys := ys.map (· * h)
  let top ← arrMax ys
  let shade ← barShadeIf lib cfg c column xs flip summary
  return (.marginal c.name column flip xs ys :: shade, top)

end CC
