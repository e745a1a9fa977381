import Mathlib.Analysis.Real.Sqrt
import Mathlib.Algebra.BigOperators.Field

/-! # Specification: Gelman-Rubin statistic -/

namespace CC.Spec
variable {m n : Nat}

/-- Walker `j` made its step `i` in row `j * n + i` of the table. -/
def steps (x : List ℝ) (m n : Nat) : Fin m → Fin n → ℝ := fun j i => x.getD (j.val * n + i.val) 0

/-- Mean of walker `j`. -/
noncomputable def walkerMean (θ : Fin m → Fin n → ℝ) (j : Fin m) : ℝ := (∑ i, θ j i) / n

/-- Mean over all walkers. -/
noncomputable def grandMean (θ : Fin m → Fin n → ℝ) : ℝ := (∑ j, walkerMean θ j) / m

/-- Between-walker variance `B`, docstring of `gelman_rubin`, diagnostic.py 53. -/
noncomputable def between (θ : Fin m → Fin n → ℝ) : ℝ :=
  n / (m - 1) * ∑ j, (walkerMean θ j - grandMean θ) ^ 2

/-- Within-walker variance `W`, diagnostic.py 55. -/
noncomputable def within (θ : Fin m → Fin n → ℝ) : ℝ :=
  1 / m * ∑ j, 1 / (n - 1) * ∑ i, (θ j i - walkerMean θ j) ^ 2

/-- The square of the convergence ratio as implemented, with the term `B/(mn)` that PyMC uses and
the docstring leaves out. -/
noncomputable def ratioSq (θ : Fin m → Fin n → ℝ) : ℝ :=
  ((n - 1) / n * within θ + between θ / n + between θ / (m * n)) / within θ

/-- The square of the convergence ratio as documented, diagnostic.py 58-59. -/
noncomputable def docRatioSq (θ : Fin m → Fin n → ℝ) : ℝ :=
  ((n - 1) / n * within θ + between θ / n) / within θ

/-- The verdict for one parameter. -/
def Converged (threshold : ℝ) (θ : Fin m → Fin n → ℝ) : Prop :=
  within θ ≠ 0 ∧ |√(ratioSq θ) - 1| < threshold

end CC.Spec
