import Mathlib.Algebra.Order.Field.Basic
import Mathlib.Algebra.BigOperators.Group.List.Basic

/-! # Specification: highest density regions -/

namespace CC.Spec
variable {K : Type} [Field K] [LinearOrder K]

/-- Cells given by density and contour value. The cells with values up to `p` are a highest density region
of mass at most `p`, and there is no larger one. -/
structure HighestDensity (cells : List (K × K)) : Prop where
  /-- Values are in `(0, 1]`. -/
  range : ∀ c ∈ cells, 0 < c.2 ∧ c.2 ≤ 1
  /-- Denser cells have smaller values. -/
  denser : ∀ c ∈ cells, ∀ c' ∈ cells, c'.1 < c.1 → c.2 < c'.2
  /-- The cells with values up to `p` carry at most `p` of the mass. -/
  mass : ∀ p, 0 ≤ p → ((cells.filter fun c => decide (c.2 ≤ p)).map Prod.fst).sum ≤ p * (cells.map Prod.fst).sum
  /-- No cell outside is denser than a cell inside. -/
  highest : ∀ p, ∀ c ∈ cells, ∀ c' ∈ cells, c.2 ≤ p → p < c'.2 → c'.1 ≤ c.1
  /-- One more of the densest cells outside exceeds `p`. -/
  maximal : ∀ p, ∀ c ∈ cells, p < c.2 → (∀ c' ∈ cells, p < c'.2 → c'.1 ≤ c.1) →
    p * (cells.map Prod.fst).sum < ((cells.filter fun c => decide (c.2 ≤ p)).map Prod.fst).sum + c.1

end CC.Spec
