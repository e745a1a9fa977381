import Verif.Model.Chain
import Verif.Model.Colors
import Verif.Model.Numpy
import Mathlib.Analysis.SpecialFunctions.Pow.Real
import Mathlib.Analysis.SpecialFunctions.Log.Basic

/-! # plotting/contours.py: the colours of contours -/

namespace CC

/-- `np.logspace(np.log(minv), np.log(maxv), num)`, plotting/contours.py 275-276; `none`: NaN. The logarithms are natural, the
base of `logspace` is 10. If one of the bounds is not positive its logarithm is NaN or infinite, and so is the first of the
numbers; the last one may then be finite, which makes no difference to `_scale_colours` and is left out. -/
noncomputable def shadeFactors (gradient : ℝ) (num : Nat) : List (Option ℝ) :=
  let minv := 1 - 1 / 10 * gradient
  let maxv := 1 + 1 / 2 * gradient
  if 0 < minv ∧ 0 < maxv then (linspace (Real.log minv) (Real.log maxv) num).map fun e => some ((10 : ℝ) ^ e)
  else List.replicate num none

/-- `colors.scale_colour(colour, scale)` where the scale may be NaN (`int` raises ValueError), color_finder.py 110-118,
plotting/contours.py 277. -/
noncomputable def scaleColourOpt (color : String) : Option ℝ → Res String
  | some s => Colors.scaleColour (some color) s
  | none => do
    let hexx := Colors.stripHash (← Colors.format (some color)).toList
    if hexx.length ≠ 6 then return String.ofList hexx else .error .value

/-- `_scale_colours`, plotting/contours.py 272-278. -/
noncomputable def scaleColours (color : String) (num : Nat) (gradient : ℝ) : Res (List String) :=
  (shadeFactors gradient num).mapM (scaleColourOpt color)

/-- How much darker the lines are than the filled contours, plotting/contours.py 194-199. -/
noncomputable def lineFactor (gradient : ℝ) (shade : Bool) : ℝ :=
  let sub := max (1 / 10) (1 - 1 / 5 * gradient)
  if shade then sub * (9 / 10) else sub

/-- The colours of the filled contours and of the lines, plotting/contours.py 192-202. The first one is looked up first, so
that no levels raise IndexError. -/
noncomputable def contourColours (c : Chain ℝ) (num : Nat) : Res (List String × List String) := do
  let fills ← scaleColours (← Colors.format (c.cfg .color)) num (c.cfg .shadeGradient)
  let sub := lineFactor (c.cfg .shadeGradient) (c.cfg .shade)
  match fills with
  | [] => .error .index
  | f :: _ => do
    let first ← Colors.scaleColour (some f) sub
    let rest ← fills.dropLast.mapM fun x => Colors.scaleColour (some x) sub
    return (fills, first :: rest)

/-- Whether the contours are filled, plotting/contours.py 208. -/
def Chain.filled (c : Chain ℝ) : Prop :=
  c.cfg .shade = true ∧ match (c.cfg .shadeAlpha : Flt ℝ) with
    | .fin a => 0 < a
    | .posInf => True
    | _ => False

/-- What matplotlib demands of filled contours: an opacity of at most 1 and at least two levels, both ValueErrors
(plotting/contours.py 209-217). -/
def Chain.fillable (c : Chain ℝ) (num : Nat) : Prop :=
  c.filled → (match (c.cfg .shadeAlpha : Flt ℝ) with | .fin a => a ≤ 1 | _ => False) ∧ 2 ≤ num

end CC
