import Verif.Model.Figure
import Verif.Model.Colors

/-! # plotter.py: the legend of `plot`

The figure itself is `plotBase` (`Model/Figure`); the legend is added to it after all panels are drawn. -/

namespace CC

/-- The legend settings of `PlotConfig`, plotting/config.py 25-32. `legend_kwargs` is handed to matplotlib; kept of
it are `markerfirst` (read in plotter.py 256-257) and matplotlib's `reverse`, which turns the order of the entries
around. The other keys, and the defaults of `legend_kwargs_final` (plotting/config.py 51-62), are spacing and fonts. -/
structure LegendConfig where
  showLegend : Option Bool := none
  location : Option (Int × Int) := none
  artists : Option Bool := none
  colorText : Bool := true
  markerfirst : Option Bool := none
  reverse : Bool := false

/-- A `Line2D` of the legend, plotter.py 69-111. -/
structure Artist where
  label : String
  color : String
  ls : String
  lw : ℝ
  /-- marker style and size -/
  marker : Option (String × ℝ)

/-- One `Line2D`, plotter.py 74-110. -/
noncomputable def artistOf (c : Chain ℝ) : Res Artist := do
  let color ← Colors.format (c.cfg .color)
  if c.cfg .plotContour && !(c.cfg .plotPoint) then
    return ⟨"  " ++ c.name, color, c.cfg .linestyle, c.cfg .linewidth, none⟩
  else if !(c.cfg .plotContour) && c.cfg .plotPoint then
    return ⟨"  " ++ c.name, color, c.cfg .linestyle, 0, some (c.cfg .markerStyle, Real.sqrt (c.cfg .markerSize))⟩
  else
    return ⟨"  " ++ c.name, color, c.cfg .linestyle, c.cfg .linewidth, some (c.cfg .markerStyle, Real.sqrt (c.cfg .markerSize))⟩

/-- `get_artists_from_chains`, plotter.py 69-111. -/
noncomputable def getArtists (chains : List (Chain ℝ)) : Res (List Artist) :=
  (chains.filter fun c => c.showLabelInLegend).mapM artistOf

/-- An entry as displayed: its handle and its text, with the colour set for the text if any. -/
structure LegendEntry where
  handle : Artist
  text : String
  textColor : Option String

/-- The legend of a figure: the panel it is put in, its entries in order, and whether markers precede the texts. -/
structure Legend where
  panel : Nat × Nat
  entries : List LegendEntry
  markerfirst : Bool

/-- Index of an array of `n` elements: negative ones count from the end, others raise IndexError (`axes[i, j]`, plotter.py
254). -/
def pyIndex (n : Nat) (i : Int) : Res Nat :=
  if 0 ≤ i ∧ i < n then .ok i.toNat
  else if i < 0 ∧ 0 ≤ i + n then .ok (i + n).toNat
  else .error .index

/-- Whether there is a legend, plotter.py 174-176. -/
def legendShown (lc : LegendConfig) (chains : List (Chain ℝ)) : Bool :=
  lc.showLegend.getD (decide (1 < chains.length))

/-- The panel of the legend, plotter.py 181, 248-250. -/
def legendLocation (lc : LegendConfig) (cfg : PlotConfig) (columns : Nat) : Int × Int :=
  let flip := decide (columns = 2) && cfg.plotHists && cfg.flip
  lc.location.getD (if !flip || decide (2 < columns) then (0, -1) else (-1, 0))

/-- Colours of the texts: `zip(leg.get_texts(), chains_to_show_on_legend)`, plotter.py 262-265. -/
def textColors (lc : LegendConfig) (chains : List (Chain ℝ)) : Res (List (Option String)) :=
  chains.mapM fun c => if lc.colorText then do return some (← Colors.format (c.cfg .color)) else .ok none

/-- The legend of `plot`, plotter.py 174-176, 248-265. matplotlib lists the handles in the order given, or turned around with
`reverse`, each with its label as text, and `get_texts()` lists the texts as displayed. -/
noncomputable def plotLegend (lc : LegendConfig) (cfg : PlotConfig) (b : PlottingBase) : Res (Option Legend) :=
  if !(legendShown lc b.chains) then .ok none
  else do
    let n := if cfg.plotHists then b.columns.length else b.columns.length - 1
    let loc := legendLocation lc cfg b.columns.length
    let i ← pyIndex n loc.1
    let j ← pyIndex n loc.2
    let shown := b.chains.filter fun c => c.showLabelInLegend
    let artists ← getArtists shown
    let handles := if lc.reverse then artists.reverse else artists
    let colors ← textColors lc shown
    return some {
      panel := (i, j)
      entries := List.zipWith (fun a col => ⟨a, a.label, col⟩) handles colors
      markerfirst := lc.markerfirst.getD (decide (loc.2 ≤ loc.1) || !(lc.artists.getD false)) }

/-- `FigSize` and the other kinds of `figsize`, plotter.py 42-66. -/
inductive FigSize
  | column
  | page
  | grow
  | factor (f : ℝ)
  | square (n : Int)
  | size (w h : ℝ)
  /-- a string: not of the types declared, but accepted and treated like `grow` -/
  | text (s : String)

/-- `FigSize.get_size`, plotter.py 49-66. -/
noncomputable def figSize (input : FigSize) (columns : Nat) (hasCax : Bool) : ℝ × ℝ :=
  let cax : ℝ := if hasCax then 1 else 0
  match input with
  | .page => (10, 10)
  | .column => (5 + cax, 5)
  | .square n => (n, n)
  | .size w h => (w, h)
  | .factor f => (3 + f * 2 * columns + cax, 3 + f * 2 * columns)
  | .grow | .text _ => (3 + 1 * 2 * columns + cax, 3 + 1 * 2 * columns)

end CC
