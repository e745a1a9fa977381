import Verif.Model.Basic
import Mathlib.Data.Real.Basic

/-! # plotting/config.py: keywords for the legend and the watermark; plotter.py: files -/

namespace CC

/-- The value of a keyword. -/
inductive Kw
  | num (x : ℝ)
  | text (s : String)
  | flag (b : Bool)

/-- The defaults of `legend_kwargs_final`, plotting/config.py 53-61. -/
noncomputable def legendDefaults (labelFontSize : ℝ) : List (String × Kw) :=
  [("labelspacing", .num (3 / 10)), ("loc", .text "upper right"), ("frameon", .flag false), ("fontsize", .num labelFontSize),
   ("handlelength", .num 1), ("handletextpad", .num (2 / 10)), ("borderaxespad", .num 0)]

/-- The defaults of `watermark_text_kwargs_final`, plotting/config.py 66-72. -/
noncomputable def watermarkDefaults : List (String × Kw) :=
  [("color", .text "#333333"), ("alpha", .num (7 / 10)), ("verticalalignment", .text "center"),
   ("horizontalalignment", .text "center"), ("weight", .text "bold")]

/-- `legend_kwargs_final`, plotting/config.py 51-62. -/
noncomputable def legendKwargsFinal (labelFontSize : ℝ) (given : List (String × Kw)) : List (String × Kw) :=
  dictMerge (legendDefaults labelFontSize) given

/-- `watermark_text_kwargs_final`, plotting/config.py 64-73. -/
noncomputable def watermarkKwargsFinal (given : List (String × Kw)) : List (String × Kw) := dictMerge watermarkDefaults given

/-- The keywords handed to `legend`, plotter.py 255-257. `outside` and `artists` are `legend_outside` and whether
`legend_artists` is true. -/
noncomputable def legendKwargs (labelFontSize : ℝ) (given : List (String × Kw)) (outside artists : Bool) : List (String × Kw) :=
  let kw := legendKwargsFinal labelFontSize given
  if (kw.lookup "markerfirst").isNone then dictSet kw "markerfirst" (.flag (outside || !artists)) else kw

/-- The properties of the text of the watermark, plotting/watermark.py 24, 46-52: `fontdict` comes first, then the explicit
arguments `rotation` and `fontsize` (so matplotlib's `text`). -/
noncomputable def watermarkKwargs (given : List (String × Kw)) (rotation fontsize : ℝ) : List (String × Kw) :=
  dictMerge (watermarkKwargsFinal given) [("rotation", .num rotation), ("fontsize", .num fontsize)]

/-- The argument `filename` of the four plots, plotter.py 142, 284. -/
inductive Filename
  | none
  | one (f : String)
  | many (fs : List String)

/-- `_save_fig`, plotter.py 284-289: the files written, each with its resolution. -/
def saveFig (filename : Filename) (dpi : Nat) : List (String × Nat) :=
  match filename with
  | .none => []
  | .one f => [(f, dpi)]
  | .many fs => fs.map fun f => (f, dpi)

end CC
