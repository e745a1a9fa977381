import Verif.Model.Figure
import Verif.Model.Format

/-! # plotting/contours.py: labels of contours -/

namespace CC

/-- `f" {lvl:0.0%} " if lvl < 0.991 else f" {lvl:0.1%} "`, plotting/contours.py 231. -/
noncomputable def levelLabel (lvl : ℝ) : String :=
  let d := if lvl < 991 / 1000 then 0 else 1
  " " ++ (Signed.of (lvl * 100)).text d ++ "% "

open Classical in
/-- `con.levels`, plotting/contours.py 218-227: matplotlib keeps the levels unless none is strictly between the least and the
greatest value of the surface; then only the least value remains. -/
noncomputable def conLevels (levels : List ℝ) (vals : List (List ℝ)) : Res (List ℝ) :=
  if ∃ l ∈ levels, (∃ v ∈ vals.flatten, v < l) ∧ ∃ v ∈ vals.flatten, l < v then .ok levels
  else do return [← arrMin vals.flatten]

/-- The labelled levels and their texts, plotting/contours.py 230-231. -/
noncomputable def levelLabels (levels : List ℝ) : List (ℝ × String) :=
  (levels.filter fun l => decide (l ≠ 0)).map fun l => (l, levelLabel l)

/-- The labels of the contours of a chain on the surface `vals`, plotting/contours.py 192, 229-232. The font is left out, and
so are the places, which matplotlib chooses along each line. -/
noncomputable def contourLabels (cfg : PlotConfig) (c : Chain ℝ) (vals : List (List ℝ)) : Res (List (ℝ × String)) :=
  if c.cfg .showContourLabels then do return levelLabels (← conLevels (getLevels cfg.sigma2d (c.cfg .sigmas)) vals) else .ok []

end CC
