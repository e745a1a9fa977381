import Mathlib.Algebra.Order.Field.Basic
import Mathlib.Algebra.BigOperators.Fin

/-! # Specification: weighted sample covariance -/

namespace CC.Spec
variable {K : Type} [Field K] {n : Nat}

/-- Weighted mean `Σ wᵢ xᵢ / Σ wᵢ`. -/
def wmean (w x : Fin n → K) : K := (∑ i, w i * x i) / ∑ i, w i

/-- Weighted sample covariance with reliability weights,
`Σ wᵢ (xᵢ - x̄)(yᵢ - ȳ) / (Σw - Σw²/Σw)`; for unit weights the usual `1/(n-1)` covariance. -/
def wcov (w x y : Fin n → K) : K :=
  (∑ i, w i * (x i - wmean w x) * (y i - wmean w y)) / ((∑ i, w i) - (∑ i, w i ^ 2) / ∑ i, w i)

end CC.Spec
