import Verif.Model.Plotter
import Verif.Model.Shades

/-! # plotting/contours.py: `plot_dist` -/

namespace CC

/-- The padded bins, plotting/contours.py 95 and 103: without regard to grids. -/
noncomputable def distBins (c : Chain ℝ) (data w : List ℝ) : Res (List ℝ) := do
  return (← getSmoothedBins c.smoothValue (getBins c) data w false true).1

/-- The kernel density estimate at 1000 points over the bins, plotting/contours.py 96-100. -/
noncomputable def distKdeCurve (lib : Lib) (c : Chain ℝ) (data w bins : List ℝ) : Res (List ℝ × List ℝ) := do
  let xs := linspace (← arrMin bins) (← arrMax bins) 1000
  let ys ← distKde lib.near data w (c.cfg .kde) xs
  return (xs, ← powAll ys c.power)

/-- The smoothed histogram, plotting/contours.py 104-109. -/
noncomputable def distSmoothed (c : Chain ℝ) (data w bins : List ℝ) : Res (List ℝ × List ℝ) := do
  let h ← histDensity bins data w
  let h ← powAll h c.power
  return (midpoints bins, ← smoothHist c.smoothValue h)

/-- The histogram, plotting/contours.py 115-125. The bins are those of the unpadded marginal. -/
noncomputable def distPlain (c : Chain ℝ) (data w : List ℝ) : Res (List ℝ × List ℝ) := do
  let bins ← marginalBins c data w false
  let h ← histDensity bins data w
  return (midpoints bins, ← powAll h c.power)

/-- Abscissae and ordinates before scaling, plotting/contours.py 84-125. -/
noncomputable def distCurve (lib : Lib) (c : Chain ℝ) (px : String) : Res (List ℝ × List ℝ) := do
  let data ← c.samples.get px
  let w ← c.weights
  if c.cfg .kde ≠ (0 : ℝ) then distKdeCurve lib c data w (← distBins c data w)
  else if c.smoothValue ≠ 0 then distSmoothed c data w (← distBins c data w)
  else distPlain c data w

/-- `effective_alpha`, plotting/contours.py 161, as matplotlib accepts it (168): ValueError outside of 0 to 1. -/
noncomputable def distAlpha (c : Chain ℝ) : Res ℝ :=
  match (c.cfg .shadeAlpha : Flt ℝ) with
  | .fin a => do
    let alpha := a * (1 / 5 + 4 / 5 * (c.cfg .shadeGradient : ℝ))
    ensure .value (decide (0 ≤ alpha) && decide (alpha ≤ 1))
    return alpha
  | _ => .error .value

/-- The shaded interval and its opacity, plotting/contours.py 150-170. The interpolator raises ValueError outside of the curve. -/
noncomputable def distInterval (c : Chain ℝ) (b : Bound ℝ) (xs : List ℝ) : Res (Option (ℝ × ℝ × ℝ)) :=
  match b.lower, b.upper with
  | some lo, some hi => do
    let a ← arrMin xs
    let z ← arrMax xs
    let lo := max lo a
    let hi := min hi z
    ensure .value (decide (a ≤ min lo hi) && decide (max lo hi ≤ z))
    return some (lo, hi, ← distAlpha c)
  | _, _ => .ok none

open Classical in
/-- The shading if configured, plotting/contours.py 149-170. -/
noncomputable def distShade (c : Chain ℝ) (b : Bound ℝ) (xs : List ℝ) : Res (Option (ℝ × ℝ × ℝ)) :=
  if c.filled then distInterval c b xs else .ok none

/-- A title: a text, or `f"${px} = {center}$"` with Python's text of a number. -/
inductive DistTitle
  | text (s : String)
  | number (px : String) (v : ℝ)

/-- The title, plotting/contours.py 174-176. -/
noncomputable def distTitle (px : String) (b : Bound ℝ) : Res DistTitle := do
  let t ← parameterText (some (.single b)) false none
  if t ≠ "" then return .text (dollars (px ++ " = " ++ t))
  else match b.center with
    | none => return .text (dollars (px ++ " = None"))
    | some v => return .number px v

/-- The title if configured, plotting/contours.py 173-178. -/
noncomputable def distTitleIf (px : String) (summary : Bool) (b : Bound ℝ) : Res (Option DistTitle) :=
  if summary then do return some (← distTitle px b) else .ok none

/-- What `plot_dist` draws: the curve or histogram, the shaded interval with its opacity, the title (plotting/contours.py
111-138, 163-170, 178). -/
structure DistPlot where
  xs : List ℝ
  ys : List ℝ
  shade : Option (ℝ × ℝ × ℝ)
  title : Option DistTitle

open Classical in
/-- Shading and title, plotting/contours.py 140-178. -/
noncomputable def distDecorations (lib : Lib) (c : Chain ℝ) (px : String) (summary : Bool) (xs : List ℝ) :
    Res (Option (ℝ × ℝ × ℝ) × Option DistTitle) :=
  if c.filled ∨ summary then do
    let b ← parameterSummary lib.kde c px
    let shade ← distShade c b xs
    let title ← distTitleIf px summary b
    return (shade, title)
  else .ok (none, none)

/-- `plot_dist`, plotting/contours.py 68-178. The plot configuration supplies the font size only (178). -/
noncomputable def plotDist (lib : Lib) (c : Chain ℝ) (px : String) (summary : Bool) : Res DistPlot := do
  let r ← distCurve lib c px
  let h ← c.finHeight
  let d ← distDecorations lib c px summary r.1
  return ⟨r.1, r.2.map (· * h), d.1, d.2⟩

end CC
