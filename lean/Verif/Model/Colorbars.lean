import Verif.Model.Figure

/-! # plotter.py: the colour bars of `plot`

`plotBase` (`Model/Figure`) keeps only the columns that have a colour bar. Here the dictionary `paths_for_cbar` is followed with its
values, and the bars that are made of it. -/

namespace CC

/-- What a colour bar takes from the scatter it belongs to: the map of colours and the values, whose least and greatest are the ends
of the scale (`c` and `cmap`, plotting/contours.py 49-50, 54-62). -/
structure Scatter where
  cmap : String
  values : List ℝ

/-- `{chain.color_param: h}` or `{}`, plotting/contours.py 63-65. -/
noncomputable def cloudEntry (c : Chain ℝ) (skip : Nat) : Option (List ℝ) → Option String → List (String × Scatter)
  | some v, some p => [(p, ⟨c.cfg .cmap, everyNth skip v⟩)]
  | _, _ => []

/-- What `plot_cloud` returns, plotting/contours.py 45-65. -/
noncomputable def cloudPath (c : Chain ℝ) (px : String) : Res (List (String × Scatter)) := do
  let x ← c.samples.get px
  let skip ← cloudStep x.length (c.cfg .numCloud)
  let cd ← c.colorData
  return cloudEntry c skip cd (c.cfg .colorParam)

/-- What one chain adds to the dictionary of a panel, plotting/contours.py 30-34. -/
noncomputable def chainPaths (px py : String) (c : Chain ℝ) : Res (List (String × Scatter)) :=
  if px ∉ c.plottingColumns ∨ py ∉ c.plottingColumns then .ok []
  else if c.cfg .plotCloud then cloudPath c px else .ok []

/-- What `plot_surface` returns, plotting/contours.py 28-42. -/
noncomputable def surfacePaths (chains : List (Chain ℝ)) (px py : String) : Res (List (String × Scatter)) := do
  let ds ← chains.mapM (chainPaths px py)
  return ds.foldl dictMerge []

/-- What one panel adds to `paths_for_cbar`, plotter.py 191-229. -/
noncomputable def panelPaths (cfg : PlotConfig) (b : PlottingBase) (i j : Nat) (p1 p2 : String) : Res (List (String × Scatter)) :=
  if i < j then .ok []
  else if cfg.plotHists && decide (i = j) then .ok []
  else surfacePaths b.chains p2 p1

/-- `paths_for_cbar` after the loops over the panels, plotter.py 182-229. -/
noncomputable def plotPaths (cfg : PlotConfig) (b : PlottingBase) : Res (List (String × Scatter)) := do
  let px := if cfg.plotHists then b.columns else b.columns.tail
  let py := if cfg.plotHists then b.columns else b.columns.dropLast
  let ds ← (gridPanels px.length py.length).mapM fun ij =>
    panelPaths cfg b ij.1 ij.2 (px.getD ij.1 "") (py.getD ij.2 "")
  return ds.foldl dictMerge []

/-- A colour bar: its label, its map of colours and the ends of its scale. -/
structure Colorbar where
  column : String
  label : String
  cmap : String
  lo : ℝ
  hi : ℝ

/-- The label, plotter.py 237-243. -/
def barLabel (cfg : PlotConfig) (column : String) : String :=
  let label := getLabel cfg.labels column
  if label = "weight" then "Weights"
  else if label = "log_weight" then "log(Weights)"
  else if label = "posterior" then "log(Posterior)"
  else label

/-- One bar, plotter.py 235-246. matplotlib scales the colours of a scatter from the least to the greatest of its values. -/
noncomputable def colorbarOf (cfg : PlotConfig) (e : String × Scatter) : Res Colorbar := do
  let lo ← arrMin e.2.values
  let hi ← arrMax e.2.values
  return ⟨e.1, barLabel cfg e.1, e.2.cmap, lo, hi⟩

/-- The colour bars of `plot`, plotter.py 231-246. -/
noncomputable def plotColorbars (cfg : PlotConfig) (b : PlottingBase) : Res (List Colorbar) := do
  let ps ← plotPaths cfg b
  ps.mapM (colorbarOf cfg)

end CC
