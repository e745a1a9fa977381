import Verif.Model.Basic
import Mathlib.Algebra.Order.Field.Basic

/-! # truth.py -/

namespace CC

/-- `Truth`, truth.py 13-31 (the defaults of the numbers are in `Truth.line`). Simplification: `color` and `edge_color` are strings. -/
structure Truth (K : Type) where
  location : List (String × K)
  name : Option String := none
  color : String := "black"
  edgeColor : Option String := none
  lineWidth : K
  lineStyle : String := "--"
  alpha : K
  zorder : Int := 100
  marker : Option String := none
  markerSize : K
  markerEdgeWidth : K

/-- The keyword arguments of a marker, truth.py 71-82; `none` means that the keyword is not passed. -/
structure MarkerKwargs (K : Type) where
  marker : Option String
  s : K
  color : String
  alpha : K
  zorder : Int
  edgecolor : Option String
  facecolor : Option String
  linewidth : Option K

/-- The keyword arguments of a line, truth.py 61-67. -/
structure LineKwargs (K : Type) where
  ls : String
  c : String
  lw : K
  alpha : K
  zorder : Int

namespace Truth
variable {K : Type}

/-- `Truth(location=…)` with all defaults, truth.py 13-31. -/
def line [Field K] (location : List (String × K)) : Truth K where
  location := location
  lineWidth := 1
  alpha := 1
  markerSize := 150
  markerEdgeWidth := 1

/-- `is_filled_marker`, truth.py 55-57; `filled` is `Line2D.filled_markers` of matplotlib. `None` is not
an element of it. -/
def isFilled (filled : List String) (t : Truth K) : Bool :=
  match t.marker with
  | none => false
  | some m => decide (m ∈ filled)

/-- `Truth(...)`, truth.py 42-53: the model validator; its ValueError becomes a validation error. -/
def make [Field K] [LinearOrder K] (filled : List String) (t : Truth K) : Res (Truth K) :=
  if t.marker.isSome && !t.isFilled filled && decide (1 < t.markerEdgeWidth) then .error .validation
  else .ok t

/-- `_kwargs`, truth.py 59-67. -/
def kwargs (t : Truth K) : LineKwargs K := ⟨t.lineStyle, t.color, t.lineWidth, t.alpha, t.zorder⟩

/-- `_marker_kwargs`, truth.py 69-82. -/
def markerKwargs (filled : List String) (t : Truth K) : MarkerKwargs K where
  marker := t.marker
  s := t.markerSize
  color := t.color
  alpha := t.alpha
  zorder := t.zorder
  edgecolor := if t.isFilled filled then some (t.edgeColor.getD t.color) else none
  facecolor := if t.isFilled filled then some t.color else none
  linewidth := if t.isFilled filled then some t.markerEdgeWidth else none

end Truth
end CC
