import Verif.Model.Plotter
import Verif.Model.Shades
import Mathlib.Analysis.SpecialFunctions.Log.Base

/-! # plotter.py: `plot`, `plot_walks`, `plot_distributions`, `plot_summary` -/

namespace CC

/-- A figure: the calls on each panel (row, column), and the columns for which there is a colour bar (`axes` and
`paths_for_cbar`, plotter.py 182-188). -/
structure Fig where
  panels : List ((Nat × Nat) × List Call)
  colorbars : List String := []

/-- The panels of a grid in the order of the loops (plotter.py 189-190, 492, 800-801). -/
def gridPanels (rows cols : Nat) : List (Nat × Nat) :=
  (List.range rows).flatMap fun i => (List.range cols).map fun j => (i, j)

/-! ### panels with two parameters -/

/-- `color_data`, chain.py 215-219. -/
def Chain.colorData {K : Type} (c : Chain K) : Res (Option (List K)) :=
  match c.cfg .colorParam with
  | none => .ok none
  | some p => do return some (← c.samples.get p)

/-- `max(1, int(size / num_cloud))`, plotting/contours.py 48. -/
noncomputable def cloudStep (size : Nat) (numCloud : ℝ) : Res Nat := do
  ensure .zeroDivision (decide (numCloud ≠ 0))
  return max 1 ⌊(size : ℝ) / numCloud⌋.toNat

/-- `plot_cloud`, plotting/contours.py 45-65: the call and the column for the colour bar. -/
noncomputable def plotCloud (c : Chain ℝ) (px py : String) : Res (Call × Option String) := do
  let x ← c.samples.get px
  let y ← c.samples.get py
  let skip ← cloudStep x.length (c.cfg .numCloud)
  let cd ← c.colorData
  return (.cloud c.name px py (everyNth skip x) (everyNth skip y) (cd.map (everyNth skip)), c.cfg .colorParam)

open Classical in
/-- `plot_contour`, plotting/contours.py 181-236. matplotlib refuses surfaces smaller than 2×2 (TypeError) and
levels that do not increase, or too few or too opaque for filling (ValueError). Colours are computed, since that may
fail, but not kept. -/
noncomputable def plotContour (lib : Lib) (cfg : PlotConfig) (c : Chain ℝ) (px py : String) : Res Call := do
  let levels := getLevels cfg.sigma2d (c.cfg .sigmas)
  let _ ← contourColours c levels.length
  let h ← smoothedHistogram2d lib.near c px py
  let vals ← contourSurface lib.argsort h.hist
  ensure .type (decide (2 ≤ h.xs.length) && decide (2 ≤ h.ys.length))
  ensure .value (decide (c.fillable levels.length))
  ensure .value ((List.zipWith (fun a b => decide (a < b)) levels levels.tail).all id)
  return .contour c.name px py h.xs h.ys (transpose h.ys.length vals) levels

/-- `plot_point`, plotting/contours.py 239-255. -/
noncomputable def plotPoint (c : Chain ℝ) (px py : String) : Res (List Call) := do
  match ← c.maxPosteriorPoint with
  | none => return []
  | some p => match p.coordinate.lookup px, p.coordinate.lookup py with
    | some x, some y => return [.point c.name px py x y]
    | _, _ => return []

/-- The cloud of a chain if configured, plotting/contours.py 33-34. -/
noncomputable def cloudCalls (c : Chain ℝ) (px py : String) : Res (List Call × List String) :=
  if c.cfg .plotCloud then do
    let r ← plotCloud c px py
    return ([r.1], r.2.toList)
  else .ok ([], [])

/-- The contours of a chain if configured, plotting/contours.py 36-37. -/
noncomputable def contourCalls (lib : Lib) (cfg : PlotConfig) (c : Chain ℝ) (px py : String) : Res (List Call) :=
  if c.cfg .plotContour then do return [← plotContour lib cfg c px py] else .ok []

/-- The point of a chain if configured, plotting/contours.py 39-40. -/
noncomputable def pointCalls (c : Chain ℝ) (px py : String) : Res (List Call) :=
  if c.cfg .plotPoint then plotPoint c px py else .ok []

/-- One chain of `plot_surface`, plotting/contours.py 30-40. -/
noncomputable def surfaceChain (lib : Lib) (cfg : PlotConfig) (px py : String) (c : Chain ℝ) :
    Res (List Call × List String) :=
  if px ∉ c.plottingColumns ∨ py ∉ c.plottingColumns then .ok ([], [])
  else do
    let cloud ← cloudCalls c px py
    let contour ← contourCalls lib cfg c px py
    let point ← pointCalls c px py
    return (cloud.1 ++ contour ++ point, cloud.2)

/-- `plot_surface`, plotting/contours.py 14-42. -/
noncomputable def plotSurface (lib : Lib) (cfg : PlotConfig) (chains : List (Chain ℝ)) (px py : String) :
    Res (List Call × List String) := do
  let rs ← chains.mapM (surfaceChain lib cfg px py)
  return (rs.flatMap Prod.fst, rs.flatMap Prod.snd)

/-! ### `plot` -/

/-- Whether the horizontal axis of a panel on or below the diagonal shows tick labels unless blinded, plotter.py
832. -/
def bottomTicks (cfg : PlotConfig) (n i j : Nat) : Bool := !(decide (i ≠ n - 1) || (cfg.flip && decide (j = n - 1)))

/-- Likewise for the vertical axis, plotter.py 841. -/
def leftTicks (cfg : PlotConfig) (i j : Nat) : Bool := !(decide (j ≠ 0) || (cfg.plotHists && decide (i = 0)))

/-- Which axes of a panel are logarithmic, plotter.py 815-831. -/
def logAxes (cfg : PlotConfig) (logScales : List String) (n j : Nat) (p1 p2 : String) : Bool × Bool :=
  if p1 = p2 then
    if p1 ∈ logScales then (if cfg.flip && decide (j = n - 1) then (false, true) else (true, false)) else (false, false)
  else (decide (p2 ∈ logScales), decide (p1 ∈ logScales))

/-- The calls for one axis: scale, ticks and label, plotter.py 815-871. The calls on the two axes are
independent of each other, so their interleaving is not kept. -/
def axisCalls (cfg : PlotConfig) (blind : List String) (d : Dir) (p : String) (log shown : Bool) : List Call :=
  (if log then [.logScale d] else []) ++
  (if !shown then [.noTicks d]
    else (if p ∈ blind then [.noTicks d] else []) ++ [.axisLabel d (getLabel cfg.labels p)]) ++
  (if shown && !decide (p ∈ blind) then [if log then .logLocator d else .maxNLocator d] else [.noTicks d])

/-- The vertical range of a panel, plotter.py 872-873. -/
def triangleYlim (cfg : PlotConfig) (b : PlottingBase) (i j : Nat) (p1 : String) : Res (List Call) :=
  if (decide (i ≠ j) || !cfg.plotHists) || (cfg.flip && decide (i = 1)) then
    do return [← setLim .y (b.extents.lookup p1)]
  else .ok []

/-- One panel of `_get_triangle_figure`, plotter.py 800-874. -/
def trianglePanel (cfg : PlotConfig) (b : PlottingBase) (n i j : Nat) (p1 p2 : String) : Res (List Call) :=
  if i < j then .ok [.frameOff, .noTicks .x, .noTicks .y]
  else do
    let log := logAxes cfg b.logScales n j p1 p2
    let ylim ← triangleYlim cfg b i j p1
    let xlim ← setLim .x (b.extents.lookup p2)
    return axisCalls cfg b.blind .x p2 log.1 (bottomTicks cfg n i j) ++
      axisCalls cfg b.blind .y p1 log.2 (leftTicks cfg i j) ++ ylim ++ [xlim]

/-- The largest value so far (`none`: minus infinity or nothing) and a further one, plotter.py 218-219, 522-523. -/
noncomputable def topStep (m : Option ℝ) (v : ℝ) : Option ℝ :=
  match m with
  | none => some v
  | some m => if m < v then some v else some m

/-- The chains of one histogram panel, plotter.py 202-219: the calls and the largest value. -/
noncomputable def histChains (lib : Lib) (cfg : PlotConfig) (p : String) (flip summary : Bool) :
    List (Chain ℝ) → Option ℝ → Res (List Call × Option ℝ)
  | [], m => .ok ([], m)
  | c :: cs, m =>
    if !(c.cfg .plotContour) || decide (p ∉ c.samples.columns) then histChains lib cfg p flip summary cs m
    else do
      let bars ← plotBars lib cfg p c flip summary
      let r ← histChains lib cfg p flip summary cs (topStep m bars.2)
      return (bars.1 ++ r.1, r.2)

/-- The range along the densities, plotter.py 221-225. -/
noncomputable def topLim (doFlip : Bool) : Option ℝ → List Call
  | none => []
  | some m => [.lim (if doFlip then .x else .y) 0 (11 / 10 * m)]

/-- The truths of a histogram panel, plotter.py 198-201. -/
def histTruths (lib : Lib) (truths : List (Truth ℝ)) (doFlip : Bool) (p : String) : List Call :=
  if doFlip then plotTruths lib.filled truths none (some p) else plotTruths lib.filled truths (some p) none

/-- A histogram panel, plotter.py 197-225. -/
noncomputable def histPanel (lib : Lib) (cfg : PlotConfig) (b : PlottingBase) (truths : List (Truth ℝ))
    (summarise doFlip : Bool) (p : String) : Res (List Call) := do
  let r ← histChains lib cfg p doFlip (summarise && !decide (p ∈ b.blind)) b.chains none
  return histTruths lib truths doFlip p ++ r.1 ++ topLim doFlip r.2

/-- The drawing of one panel, plotter.py 191-229: calls and colour bars. -/
noncomputable def drawPanel (lib : Lib) (cfg : PlotConfig) (b : PlottingBase) (truths : List (Truth ℝ))
    (summarise flip : Bool) (nx i j : Nat) (p1 p2 : String) : Res (List Call × List String) :=
  if i < j then .ok ([], [])
  else if cfg.plotHists && decide (i = j) then do
    let calls ← histPanel lib cfg b truths summarise (flip && decide (i = nx - 1)) p1
    return (calls, [])
  else do
    let (calls, bars) ← plotSurface lib cfg b.chains p2 p1
    return (calls ++ plotTruths lib.filled truths (some p2) (some p1), bars)

/-- `plot`, plotter.py 138-282, after `_sanitise`. -/
noncomputable def plotBase (lib : Lib) (cfg : PlotConfig) (truths : List (Truth ℝ)) (b : PlottingBase) : Res Fig := do
  let flip := decide (b.columns.length = 2) && cfg.plotHists && cfg.flip
  let px := if cfg.plotHists then b.columns else b.columns.tail
  let py := if cfg.plotHists then b.columns else b.columns.dropLast
  let n := if cfg.plotHists then b.columns.length else b.columns.length - 1
  ensure .value (decide (0 < n))
  let summarise := cfg.summarise && decide ((b.chains.filter fun c => c.cfg .plotContour).length = 1)
  let setup ← (gridPanels px.length py.length).mapM fun ij =>
    trianglePanel cfg b n ij.1 ij.2 (px.getD ij.1 "") (py.getD ij.2 "")
  let draws ← (gridPanels px.length py.length).mapM fun ij =>
    drawPanel lib cfg b truths summarise flip px.length ij.1 ij.2 (px.getD ij.1 "") (py.getD ij.2 "")
  return {
    panels := (gridPanels px.length py.length).zip (List.zipWith (fun s d => s ++ d.1) setup draws)
    colorbars := (draws.flatMap Prod.snd).reverse.dedup.reverse }

/-- `plot`, plotter.py 138-282. -/
noncomputable def plot (lib : Lib) (cfg : PlotConfig) (truths : List (Truth ℝ)) (final : List (String × Chain ℝ))
    (req : ChainReq ℝ) (columns : Option (List String)) : Res Fig := do
  plotBase lib cfg truths (← sanitise cfg final req columns true)

/-! ### `plot_walks` -/

/-- `max_points`, plotter.py 368. -/
@[irreducible] def maxPoints : Nat := 100000

/-- `if len(v) > max_points: v = v[:: int(len(v) / max_points)]`, plotter.py 376-377, 399-400, 415-416. -/
def thin {α : Type} (v : List α) : List α := if maxPoints < v.length then everyNth (v.length / maxPoints) v else v

/-- `if extents is not None: ax.set_ylim(extents)`, plotter.py 1030-1031. -/
def walkLim : Option (Option (ℝ × ℝ)) → Res (List Call)
  | none => .ok []
  | some e => do return [← setLim .y (some e)]

/-- `_plot_walk`, plotter.py 1020-1044, without a running average. -/
noncomputable def plotWalk (chain label : String) (values : List ℝ) (extents : Option (Option (ℝ × ℝ))) (log : Bool) :
    Res (List Call) := do
  let lim ← walkLim extents
  ensure .index (!values.isEmpty)
  return lim ++ [.lim .x 0 ((values.length : ℝ) - 1), .axisLabel .y label, .walk chain values] ++
    (if log then [.logScale .y, .logLocator .y] else [.maxNLocator .y])

/-- The truths of one panel, plotter.py 388-390 and 1053-1054. -/
def walkTruth (p : String) (t : Truth ℝ) : List Call :=
  match t.location.lookup p with
  | none => []
  | some v => [.hline v t.kwargs]

/-- The panel of one parameter, plotter.py 371-393. -/
noncomputable def walkPanel (cfg : PlotConfig) (b : PlottingBase) (truths : List (Truth ℝ)) (p : String) :
    Res (List Call) := do
  let walks ← b.chains.mapM fun c =>
    if p ∈ c.dataColumns then do
      plotWalk c.name (getLabel cfg.labels p) (thin (← c.samples.get p)) (b.extents.lookup p) (decide (p ∈ b.logScales))
    else .ok []
  return walks.flatten ++ truths.flatMap (walkTruth p) ++ (if p ∈ b.blind then [.noTicks .y] else [])

/-- The panel of the log posterior, plotter.py 395-408. -/
noncomputable def posteriorPanel (cfg : PlotConfig) (b : PlottingBase) : Res (List Call) := do
  let walks ← b.chains.mapM fun c => match c.logPosterior with
    | none => .ok []
    | some l => do
      let m ← arrMax l
      plotWalk c.name (getLabel cfg.labels "$\\log(P)$") (thin (l.map (· - m))) none false
  return walks.flatten

/-- The panel of the weights, plotter.py 409-423. -/
noncomputable def weightPanel (cfg : PlotConfig) (b : PlottingBase) (logWeight : Bool) : Res (List Call) := do
  let walks ← b.chains.mapM fun c => do
    let w := thin (← c.weights)
    let w := if logWeight then w.map (Real.logb 10) else w
    plotWalk c.name (getLabel cfg.labels (if logWeight then "$\\log_{10}$Weight" else "Weight")) w none false
  return walks.flatten

/-- `plot_walks`, plotter.py 291-428, after `_sanitise`, without a running average. -/
noncomputable def plotWalksBase (cfg : PlotConfig) (truths : List (Truth ℝ)) (plotWeights plotPosterior logWeight : Bool)
    (b : PlottingBase) : Res Fig := do
  let plotPosterior := plotPosterior && b.chains.any fun c => c.logPosterior.isSome
  let extra := (if plotWeights then 1 else 0) + (if plotPosterior then 1 else 0)
  ensure .value (decide (0 < b.columns.length + extra))
  let panels ← (List.range (b.columns.length + extra)).mapM fun i =>
    if extra ≤ i then walkPanel cfg b truths (b.columns.getD (i - extra) "")
    else if i = 0 && plotPosterior then posteriorPanel cfg b
    else weightPanel cfg b logWeight
  return { panels := ((List.range (b.columns.length + extra)).map fun i => (i, 0)).zip panels }

/-- `plot_walks`, plotter.py 291-428. -/
noncomputable def plotWalks (cfg : PlotConfig) (truths : List (Truth ℝ)) (plotWeights plotPosterior logWeight : Bool)
    (final : List (String × Chain ℝ)) (req : ChainReq ℝ) (columns : Option (List String)) : Res Fig := do
  plotWalksBase cfg truths plotWeights plotPosterior logWeight (← sanitise cfg final req columns true)

/-! ### `plot_distributions` -/

/-- The chains of one panel, plotter.py 515-523. The largest value starts at minus infinity (`none`). -/
noncomputable def distChains (lib : Lib) (cfg : PlotConfig) (p : String) (summary : Bool) :
    List (Chain ℝ) → Option ℝ → Res (List Call × Option ℝ)
  | [], m => .ok ([], m)
  | c :: cs, m =>
    if !(c.cfg .plotContour) || decide (p ∉ c.plottingColumns) then distChains lib cfg p summary cs m
    else do
      let bars ← plotBars lib cfg p c false summary
      let r ← distChains lib cfg p summary cs (topStep m bars.2)
      return (bars.1 ++ r.1, r.2)

/-- The vertical range, plotter.py 525. -/
noncomputable def distYlim : Option ℝ → Res Call
  | none => .error .value
  | some m => .ok (.lim .y 0 (11 / 10 * m))

/-- One panel, plotter.py 496-526. The vertical limit is infinite, a ValueError, if nothing is drawn. -/
noncomputable def distPanel (lib : Lib) (cfg : PlotConfig) (b : PlottingBase) (truths : List (Truth ℝ)) (p : String) :
    Res (List Call) := do
  let summary := cfg.summarise && decide (b.chains.length = 1) && !decide (p ∈ b.blind)
  let xlim ← setLim .x (b.extents.lookup p)
  let r ← distChains lib cfg p summary b.chains none
  let ylim ← distYlim r.2
  return [.noTicks .y] ++ (if p ∈ b.logScales then [.logScale .x] else []) ++
    [if p ∈ b.blind then .noTicks .x else if p ∈ b.logScales then .logLocator .x else .maxNLocator .x] ++
    [xlim] ++ r.1 ++ plotTruths lib.filled truths none (some p) ++ [ylim, .axisLabel .x p]

/-- `plot_distributions`, plotter.py 430-530, after `_sanitise`; panels without a parameter are switched off. -/
noncomputable def plotDistributionsBase (lib : Lib) (cfg : PlotConfig) (truths : List (Truth ℝ)) (colWrap : Nat)
    (b : PlottingBase) : Res Fig := do
  let n := b.columns.length
  let cols := min n colWrap
  ensure .zeroDivision (decide (colWrap ≠ 0))
  ensure .value (decide (0 < n))
  let rows := (n + colWrap - 1) / colWrap
  let panels ← (gridPanels rows cols).mapM fun ij =>
    if n ≤ ij.1 * cols + ij.2 then .ok [.axisOff]
    else distPanel lib cfg b truths (b.columns.getD (ij.1 * cols + ij.2) "")
  return { panels := (gridPanels rows cols).zip panels }

/-- `plot_distributions`, plotter.py 430-530. -/
noncomputable def plotDistributions (lib : Lib) (cfg : PlotConfig) (truths : List (Truth ℝ)) (colWrap : Nat)
    (final : List (String × Chain ℝ)) (req : ChainReq ℝ) (columns : Option (List String)) : Res Fig := do
  plotDistributionsBase lib cfg truths colWrap (← sanitise cfg final req columns true)

/-! ### `plot_summary` -/

/-- The content of one cell, plotter.py 657-672: calls, and the largest value of a curve. -/
noncomputable def summaryContent (lib : Lib) (cfg : PlotConfig) (errorbar : Bool) (c : Chain ℝ) (p : String) :
    Res (List Call × Option ℝ) :=
  if p ∉ c.dataColumns then .ok ([], none)
  else if errorbar then do
    let b ← parameterSummary lib.kde c p
    if b.allNone then return ([], none)
    else match b.lower, b.center, b.upper with
      | some lo, some m, some hi => return ([.errorbar c.name p m |m - lo| |hi - m|], none)
      | some _, none, some _ => .error .type
      | _, _, _ => return ([], none)
  else do
    let r ← plotBars lib cfg p c false false
    return (r.1, some r.2)

/-- The truth of one cell, plotter.py 652-655. -/
def summaryTruth (p : String) (t : Truth ℝ) : List Call :=
  match t.location.lookup p with
  | none => []
  | some v => [.vline v t.kwargs]

/-- One cell, plotter.py 634-672. -/
noncomputable def summaryCell (lib : Lib) (cfg : PlotConfig) (b : PlottingBase) (truths : List (Truth ℝ))
    (errorbar : Bool) (i : Nat) (c : Chain ℝ) (p : String) : Res (List Call × Option ℝ) := do
  let xlim ← setLim .x (b.extents.lookup p)
  let r ← summaryContent lib cfg errorbar c p
  return ((if decide (i < b.chains.length - 1) || decide (p ∈ b.blind) then [.noTicks .x] else []) ++ [.noTicks .y, xlim] ++
    (if p ∈ b.logScales then [.logScale .x] else []) ++
    (if i = 0 then [.title (getLabel cfg.labels p)] else []) ++
    truths.flatMap (summaryTruth p) ++ r.1, r.2)

/-- One cell for `max_vals`, plotter.py 671-672. -/
noncomputable def maxValsStep (d : List (String × ℝ)) (e : String × Option ℝ) : List (String × ℝ) :=
  match e.2 with
  | none => d
  | some v => match d.lookup e.1 with
    | none => dictSet d e.1 v
    | some m => if m < v then dictSet d e.1 v else d

/-- `max_vals`, plotter.py 612, 671-672: the largest value of each column, over the cells in order. -/
noncomputable def maxVals (cells : List (String × Option ℝ)) : List (String × ℝ) := cells.foldl maxValsStep []

/-- The vertical limits set at the end, plotter.py 674-677: the `k`-th *panel* of a row, the name panel
included, is paired with the `k`-th column. A column without curves is a KeyError. -/
noncomputable def summaryLimits (errorbar : Bool) (columns : List String) (tops : List (String × ℝ)) :
    Res (List (List Call)) :=
  columns.mapM fun p =>
    if errorbar then .ok []
    else match tops.lookup p with
      | none => .error .key
      | some m => .ok [.lim .y 0 (11 / 10 * m)]

/-- `plot_summary`, plotter.py 532-682, after `_sanitise`. -/
noncomputable def plotSummaryBase (lib : Lib) (cfg : PlotConfig) (truths : List (Truth ℝ)) (errorbar : Bool)
    (b : PlottingBase) : Res Fig := do
  ensure .value (!b.columns.isEmpty && !b.chains.isEmpty)
  let rows ← b.chains.zipIdx.mapM fun ci => b.columns.mapM fun p => summaryCell lib cfg b truths errorbar ci.2 ci.1 p
  let tops := maxVals (rows.flatMap fun r => List.zipWith (fun p cell => (p, cell.2)) b.columns r)
  let lims ← summaryLimits errorbar b.columns tops
  let line := fun (cr : Chain ℝ × List (List Call × Option ℝ)) =>
    List.zipWith (· ++ ·) ([.axisOff, .text cr.1.name] :: cr.2.map Prod.fst) (lims ++ [[]])
  return { panels := (gridPanels b.chains.length (b.columns.length + 1)).zip ((b.chains.zip rows).flatMap line) }

/-- `plot_summary`, plotter.py 532-682. -/
noncomputable def plotSummary (lib : Lib) (cfg : PlotConfig) (truths : List (Truth ℝ)) (errorbar : Bool)
    (final : List (String × Chain ℝ)) (req : ChainReq ℝ) (columns : Option (List String)) : Res Fig := do
  plotSummaryBase lib cfg truths errorbar (← sanitise cfg final req columns (!errorbar))

end CC
