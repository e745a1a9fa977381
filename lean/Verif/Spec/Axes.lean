import Verif.Model.Plotter

/-! # Specification: scales and labels of axes -/

namespace CC.Spec

/-- The axis is made logarithmic. -/
def LogAxis (d : Dir) (calls : List Call) : Prop := .logScale d ∈ calls

/-- The label a call gives to an axis. -/
def axisTextOf (d : Dir) : Call → Option String
  | .axisLabel e t => if e = d then some t else none
  | _ => none

/-- The labels given to an axis, in order. -/
def axisTexts (d : Dir) (calls : List Call) : List String := calls.filterMap (axisTextOf d)

/-- The label of a parameter: the configured one, otherwise its name. -/
def nameOf (labels : List (String × String)) (p : String) : String :=
  match labels.find? fun e => e.1 == p with
  | some e => e.2
  | none => p

/-- The axis along which the values of a histogram run: vertical for the second of two histograms if they are to be
flipped, otherwise horizontal. -/
def valueAxis (flip : Bool) (columns i : Nat) : Dir := if flip = true ∧ columns = 2 ∧ i = 1 then .y else .x

/-- The other axis. -/
def otherAxis : Dir → Dir
  | .x => .y
  | .y => .x

end CC.Spec
