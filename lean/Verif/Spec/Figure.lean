import Verif.Model.Plotter

/-! # Specification: what a panel shows -/

namespace CC.Spec

/-- Something drawn for a chain. -/
inductive Item
  | hist (chain column : String) (flip : Bool)
  | cloud (chain px py : String)
  | contour (chain px py : String)
  | point (chain px py : String)
deriving DecidableEq

/-- The item a call draws. -/
def itemOf : Call → Option Item
  | .marginal c p f _ _ => some (.hist c p f)
  | .cloud c px py _ _ _ => some (.cloud c px py)
  | .contour c px py _ _ _ _ => some (.contour c px py)
  | .point c px py _ _ => some (.point c px py)
  | _ => none

/-- The columns an item shows horizontally and vertically, if it shows two. -/
def Item.pair : Item → Option (String × String)
  | .hist _ _ _ => none
  | .cloud _ px py => some (px, py)
  | .contour _ px py => some (px, py)
  | .point _ px py => some (px, py)

/-- The column an item is a histogram of. -/
def Item.column : Item → Option String
  | .hist _ p _ => some p
  | _ => none

/-- What a panel draws for chains, in order. -/
def items (calls : List Call) : List Item := calls.filterMap itemOf

/-- The chain knows a maximum posterior point with both coordinates. -/
noncomputable def hasPoint (c : Chain ℝ) (px py : String) : Bool :=
  match c.maxPosteriorPoint with
  | .ok (some m) => (m.coordinate.lookup px).isSome && (m.coordinate.lookup py).isSome
  | _ => false

/-- The histograms of a column: every chain with contours and that column. -/
def histItems (chains : List (Chain ℝ)) (p : String) (flip : Bool) : List Item :=
  (chains.filter fun c => c.cfg .plotContour && decide (p ∈ c.samples.columns)).map fun c => .hist c.name p flip

/-- The surfaces of a pair of columns: cloud, contours and point, as configured, of every chain with both. -/
noncomputable def surfaceItems (chains : List (Chain ℝ)) (px py : String) : List Item :=
  (chains.filter fun c => decide (px ∈ c.plottingColumns ∧ py ∈ c.plottingColumns)).flatMap fun c =>
    (if c.cfg .plotCloud then [.cloud c.name px py] else []) ++
    (if c.cfg .plotContour then [.contour c.name px py] else []) ++
    (if c.cfg .plotPoint && hasPoint c px py then [.point c.name px py] else [])

/-- The column and the ordinates of the curve a call draws. -/
def curveOf : Call → Option (String × List ℝ)
  | .marginal _ p _ _ ys => some (p, ys)
  | _ => none

/-- The curves of a panel. -/
def curves (calls : List Call) : List (String × List ℝ) := calls.filterMap curveOf

/-- The range set for an axis. -/
def limOf (d : Dir) : Call → Option (ℝ × ℝ)
  | .lim e lo hi => if e = d then some (lo, hi) else none
  | _ => none

/-- The ranges set for an axis of a panel, in order; the last one counts. -/
def lims (d : Dir) (calls : List Call) : List (ℝ × ℝ) := calls.filterMap (limOf d)

/-- A mark for a true value. -/
inductive Mark
  | vertical (x : ℝ)
  | horizontal (y : ℝ)
  | dot (x y : ℝ)

/-- The mark a call draws. -/
def markOf : Call → Option Mark
  | .vline x _ => some (.vertical x)
  | .hline y _ => some (.horizontal y)
  | .marker x y _ => some (.dot x y)
  | _ => none

/-- The marks of a panel. -/
def marks (calls : List Call) : List Mark := calls.filterMap markOf

/-- The marks due on a panel whose horizontal axis shows `px` and whose vertical axis shows `py` (`none`: no
parameter): a dot for a truth with a marker that has both values; otherwise a vertical line for a value on the
horizontal axis and a horizontal line for a value on the vertical axis. -/
def dueMarks (truths : List (Truth ℝ)) (px py : Option String) : List Mark :=
  truths.flatMap fun t =>
    match px.bind (t.location.lookup ·), py.bind (t.location.lookup ·), t.marker.isSome with
    | some x, some y, true => [.dot x y]
    | some x, some y, false => [.vertical x, .horizontal y]
    | some x, none, _ => [.vertical x]
    | none, some y, _ => [.horizontal y]
    | none, none, _ => []

/-- Whether tick labels can appear on an axis, from the major and from the minor locator. -/
structure Ticks where
  major : Bool
  minor : Bool
deriving DecidableEq

/-- matplotlib: how a call changes the locators of an axis. `set_xticks([])` replaces the major locator by one
without ticks; `set_xscale("log")` installs logarithmic major and minor locators. -/
def Ticks.step (d : Dir) (t : Ticks) : Call → Ticks
  | .noTicks e => if e = d then { t with major := false } else t
  | .logScale e => if e = d then ⟨true, true⟩ else t
  | .maxNLocator e => if e = d then { t with major := true } else t
  | .logLocator e => if e = d then { t with major := true } else t
  | _ => t

/-- The tick labels an axis ends up with. A fresh axis has major ticks only. -/
def ticks (d : Dir) (calls : List Call) : Ticks := calls.foldl (Ticks.step d) ⟨true, false⟩

/-- The titles of a panel. -/
def titles (calls : List Call) : List String :=
  calls.filterMap fun c => match c with
    | .title t => some t
    | _ => none

end CC.Spec
