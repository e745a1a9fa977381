import Verif.Model.Plotter

/-! # Specification: the range a chain needs -/

namespace CC.Spec
variable {K : Type} [Field K] [LinearOrder K]

/-- `lo` and `hi` are the smallest and the largest of some values. -/
structure IsSpan (data : List K) (lo hi : K) : Prop where
  low_mem : lo ∈ data
  high_mem : hi ∈ data
  mem : ∀ x ∈ data, lo ≤ x ∧ x ≤ hi

/-- A chain's own range for a column: all of its values for a grid, the extents of its weighted samples
(property C45) otherwise, and only the maximum posterior point if it shows neither contours nor a cloud. -/
def OwnRange (c : Chain K) (column : String) (wide : Bool) (lo hi : K) : Prop :=
  ∃ data, c.samples.get column = .ok data ∧
  ((c.cfg .plotContour = true ∨ c.cfg .plotCloud = true) ∧ c.grid = true ∧ IsSpan data lo hi ∨
   (c.cfg .plotContour = true ∨ c.cfg .plotCloud = true) ∧ c.grid = false ∧
     (∃ w, c.weights = .ok w ∧ getExtents data w true wide false false = .ok (lo, hi)) ∨
   c.cfg .plotContour = false ∧ c.cfg .plotCloud = false ∧
     ∃ m v, c.maxPosteriorPoint = .ok (some m) ∧ m.coordinate.lookup column = some v ∧ lo = v ∧ hi = v)

end CC.Spec
