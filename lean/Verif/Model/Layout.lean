import Verif.Model.Legend

/-! # plotter.py: sizes of `plot_walks`, `plot_distributions` and `plot_summary` -/

namespace CC

/-- The `figsize` argument of `plot_walks` and `plot_distributions`: nothing, a number or a pair, plotter.py 295, 435. -/
inductive SizeArg
  | none
  | number (f : ℝ)
  | pair (w h : ℝ)

/-- The size of `plot_walks`, plotter.py 348-363, for `n` columns and `extra` further panels. -/
noncomputable def walksSize (a : SizeArg) (n extra : Nat) : ℝ × ℝ :=
  match a with
  | .none => (8, 3 / 4 + (n + extra : ℕ))
  | .number f => (f, f)
  | .pair w h => (w, h)

/-- The numbers of rows and columns of `plot_distributions`, plotter.py 472-474; ZeroDivisionError. -/
def distGrid (n colWrap : Nat) : Res (Nat × Nat) := do
  ensure .zeroDivision (decide (colWrap ≠ 0))
  return ((n + colWrap - 1) / colWrap, min n colWrap)

/-- The size of `plot_distributions`, plotter.py 476-482. -/
noncomputable def distSize (a : SizeArg) (rows cols : Nat) : ℝ × ℝ :=
  match a with
  | .none => (cols * (5 / 2) * 1, rows * (5 / 2) * 1)
  | .number f => (cols * (5 / 2) * f, rows * (5 / 2) * f)
  | .pair w h => (w, h)

/-- The layout of `plot_summary`: widths of the columns of panels and height of the figure before scaling, plotter.py 582-602. -/
structure SummaryLayout where
  widths : List ℝ
  height : ℝ
  top : ℝ
  bottom : ℝ
  size : ℝ × ℝ

/-- The layout of `plot_summary`, plotter.py 582-604. `paramText` and `modelText` are the widths of the longest column name and of
the longest chain name (plotter.py 684-688; ValueError without columns or chains). -/
noncomputable def summaryLayout (figsize : ℝ) (errorbar : Bool) (extraSpacing verticalRatio : ℝ) (paramText modelText : ℝ)
    (columns chains : Nat) : Res SummaryLayout := do
  ensure .value (decide (columns ≠ 0))
  ensure .value (decide (chains ≠ 0))
  let paramWidth := extraSpacing + max (1 / 2) (paramText / 65)
  let modelWidth := 1 / 4 + modelText / 65
  let rowHeight := (if errorbar then 1 / 2 else 4 / 5) * verticalRatio
  let width := paramWidth * columns + modelWidth
  let height := 3 / 10 + 1 / 5 + rowHeight * chains
  ensure .zeroDivision (decide (height ≠ 0))
  return {
    widths := modelWidth :: List.replicate columns paramWidth
    height := height
    top := 1 - 3 / 10 / height
    bottom := 1 / 5 / height
    size := (width * figsize, height * figsize) }

end CC
