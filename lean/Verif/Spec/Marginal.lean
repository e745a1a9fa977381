import Verif.Model.Marginal

/-! # Specification: marginal distributions -/

namespace CC.Spec
variable {K : Type} [Field K] [LinearOrder K]

/-- A valid tabulated distribution: increasing abscissae, nonnegative density of positive total, and
the cumulative curve of that density, which is nondecreasing and ends at 1. -/
structure ValidMarginal (m : Marginal K) : Prop where
  ys_length : m.ys.length = m.xs.length
  cs_length : m.cs.length = m.xs.length
  two : 2 ≤ m.xs.length
  increasing : m.xs.Pairwise (· < ·)
  density_nonneg : ∀ y ∈ m.ys, 0 ≤ y
  mass_pos : 0 < m.ys.sum
  cumulative : ∀ i (h : i < m.cs.length), m.cs[i] = (m.ys.take (i + 1)).sum / m.ys.sum
  nondecreasing : m.cs.Pairwise (· ≤ ·)
  ends_at_one : m.cs.getLast? = some 1

/-- What is assumed of a kernel density estimator: one nonnegative value per target. -/
def KdeOk (kde : KdeFn) : Prop :=
  ∀ data weights factor targets ys, kde data weights factor targets = .ok ys →
    ys.length = targets.length ∧ ∀ y ∈ ys, 0 ≤ y

end CC.Spec
