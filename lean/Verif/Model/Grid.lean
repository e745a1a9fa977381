import Verif.Model.Basic
import Mathlib.Algebra.Order.Field.Basic

/-! # plotter.py: the grid of panels of `plot` -/

namespace CC

variable {K : Type} [Field K] [LinearOrder K]

/-- The configuration read by the first part of `_get_triangle_figure`: `plot_hists`, `flip` and `spacing`, plotting/config.py 12-13,
23. -/
structure GridConfig (K : Type) where
  hists : Bool
  flip : Bool
  spacing : Option K

/-- The number of rows and of columns of panels, plotter.py 770-772. A number below one is rejected by `plt.subplots` in any case, so
truncated subtraction is used. -/
def gridCount (cfg : GridConfig K) (columns : Nat) : Nat :=
  if cfg.hists then columns else columns - 1

/-- The spacing, plotter.py 774-776. -/
def gridSpacing (cfg : GridConfig K) (n : Nat) : K :=
  match cfg.spacing with
  | some s => s
  | none => if n < 6 then 1 else 0

/-- Relative widths of the columns and heights of the rows, plotter.py 778-780; matplotlib's default is one for each. -/
def gridRatios (cfg : GridConfig K) (n : Nat) : List K × List K :=
  if n = 2 ∧ cfg.hists ∧ cfg.flip then ([3, 1], [1, 3]) else (List.replicate n 1, List.replicate n 1)

/-- The left margin for a width and the bottom margin for a height, in parts of the figure, plotter.py 783-784; ZeroDivisionError. -/
def gridMargin (size : K) : Res K := do
  ensure .zeroDivision (decide (size ≠ 0))
  return min (max (17 / 20 / size) (1 / 10)) (3 / 10)

/-- Intervals with the given lengths, each `sep` after the one before. -/
def spans (sep : K) : K → List K → List (K × K)
  | _, [] => []
  | x, l :: ls => (x, x + l) :: spans sep (x + l + sep) ls

/-- matplotlib's `GridSpec.get_grid_positions` in one direction, measured from the side where it starts, as used at plotter.py
782-792: `space` is the gap in units of the mean length. -/
def gridSpans (total space : K) (ratios : List K) : List (K × K) :=
  let n : K := ratios.length
  let cell := total / (n + space * (n - 1))
  let norm := cell * n / ratios.sum
  spans (space * cell) 0 (ratios.map (· * norm))

/-- The panels: left and right of every column, bottom and top of every row in parts of the figure; rows are counted from the top. -/
structure PanelGrid (K : Type) where
  cols : List (K × K)
  rows : List (K × K)

/-- The first part of `_get_triangle_figure`, plotter.py 770-792. `plt.subplots` rejects numbers of rows below one and negative
sizes (ValueError). -/
def triangleGrid (cfg : GridConfig K) (columns : Nat) (w h : K) : Res (PanelGrid K) := do
  let n := gridCount cfg columns
  let space := 1 / 20 * gridSpacing cfg n
  ensure .value (decide (n ≠ 0))
  ensure .value (decide (0 ≤ w ∧ 0 ≤ h))
  let left ← gridMargin w
  let bottom ← gridMargin h
  return {
    cols := (gridSpans (19 / 20 - left) space (gridRatios cfg n).1).map fun p => (left + p.1, left + p.2)
    rows := (gridSpans (9 / 10 - bottom) space (gridRatios cfg n).2).map fun p => (9 / 10 - p.2, 9 / 10 - p.1) }

end CC
