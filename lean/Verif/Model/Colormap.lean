import Verif.Model.Chain
import Verif.Model.Colors
import Verif.Model.Format
import Verif.Model.Numpy

/-! # color_finder.py: colours given as numbers, lists of colours and colour maps -/

namespace CC.Colors

section
variable {K : Type} [Field K] [LinearOrder K] [FloorRing K]

/-- `ColorInput`, color_finder.py 9: a string, or the numbers of a list or one-dimensional array. -/
inductive Input (K : Type)
  | text (s : String)
  | numbers (v : List K)

/-- `matplotlib.colors.rgb2hex(color)`, color_finder.py 82: three or four numbers from 0 to 1 (ValueError otherwise), the fourth
is dropped, and each of the others is written as the integer nearest to 255 times it. -/
def rgb2hex (v : List K) : Res String := do
  ensure .value (v.length = 3 || v.length = 4)
  ensure .value (v.all fun x => decide (0 ≤ x) && decide (x ≤ 1))
  return String.ofList ('#' :: (v.take 3).flatMap fun x => hex2 (halfEven (x * 255)))

/-- `format`, color_finder.py 78-96, for every kind of input. -/
def formatInput : Option (Input K) → Res String
  | none => format none
  | some (.text s) => format (some s)
  | some (.numbers v) => do format (some (← rgb2hex v))

/-- `_convert_color` and `_validate_color` for every kind of input, chain.py 83-88 and 231-236: the second one sees the string
that the first one made. -/
def validateInput (v : Option (Input K)) : Res (Option String) :=
  match v with
  | none => .ok none
  | some i =>
    match (do format (some (← formatInput (some i)))) with
    | .ok c => .ok (some c)
    | .error .value => .error .validation
    | .error e => .error e

/-- `get_formatted`, color_finder.py 98-99. -/
def getFormatted (l : List (Option (Input K))) : Res (List String) := l.mapM formatInput

/-- `get_default`, color_finder.py 101-102. -/
def getDefault : Res (List String) := getFormatted (defaultColors.map fun s => some (Input.text (K := K) s))

/-- `get_colormap`, color_finder.py 104-108. `cmap` is the colour map that matplotlib has under the name; a negative number of
colours raises ValueError in `np.linspace`. -/
def getColormap (cmap : K → List K) (num : Int) (scale : K) : Res (List String) := do
  ensure .value (decide (0 ≤ num))
  let n := num.toNat
  let list ← getFormatted ((linspace (5 / 100) (9 / 10) n).map fun t => some (.numbers (cmap t)))
  let scales := (linspace 0 2 n).map fun t => scale + (1 - scale) * |1 - t|
  (list.zip scales).mapM fun p => scaleColour (some p.1) p.2

end
end CC.Colors
