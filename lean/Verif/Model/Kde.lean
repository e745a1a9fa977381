import Verif.Model.Marginal
import Mathlib.Analysis.Matrix.LDL
import Mathlib.Analysis.SpecialFunctions.Pow.Real

/-! # kde.py: the kernel density estimator `MegKDE`

Training points are functions `Fin n → Fin p → ℝ` (`n` rows, `p` dimensions). -/

namespace CC
open Matrix

/-- Contract of `np.linalg.cholesky(a)` for a symmetric matrix (kde.py 43): the lower triangular matrix
with positive diagonal whose product with its transpose is `a`. -/
def IsCholesky {p : ℕ} (a L : Matrix (Fin p) (Fin p) ℝ) : Prop :=
  L * Lᵀ = a ∧ (∀ i j, i < j → L i j = 0) ∧ ∀ i, 0 < L i i

open Classical in
/-- `np.linalg.cholesky`, kde.py 43: LinAlgError (a ValueError) if there is no such matrix. -/
noncomputable def cholesky {p : ℕ} (a : Matrix (Fin p) (Fin p) ℝ) : Res (Matrix (Fin p) (Fin p) ℝ) :=
  if h : ∃ L, IsCholesky a L then .ok h.choose else .error .value

/-- The function returning the nearest points of a `cKDTree` (`tree.query(t, k)`, kde.py 79) as a set of
row numbers, for the points and the target. Which of several equally distant points are returned is up
to the tree, so this is a parameter of the model, restricted by `NearOk`. -/
abbrev NearFn := ∀ {n p : ℕ}, (Fin n → Fin p → ℝ) → (Fin p → ℝ) → ℕ → Finset (Fin n)

/-- `np.sum(diff * diff)`, kde.py 75-76. -/
def distSq {p : ℕ} (a b : Fin p → ℝ) : ℝ := ∑ j, (a j - b j) * (a j - b j)

/-- Contract of `tree.query` with `k` at most the number of points: `k` points, none of the others
nearer. -/
def NearOk (near : NearFn) : Prop := ∀ {n p : ℕ} (d : Fin n → Fin p → ℝ) (t : Fin p → ℝ) (k : ℕ), k ≤ n →
  (near d t k).card = k ∧ ∀ i ∈ near d t k, ∀ j, j ∉ near d t k → distSq (d i) t ≤ distSq (d j) t

/-- The attributes of `MegKDE` that `evaluate` reads, kde.py 31-48. -/
structure Kde (n p : ℕ) where
  truncation : ℝ
  nmin : ℕ
  weights : Fin n → ℝ
  mean : Fin p → ℝ
  A : Matrix (Fin p) (Fin p) ℝ
  d : Fin n → Fin p → ℝ
  sigma : ℝ

/-- `np.average(train, weights=weights, axis=0)`, kde.py 40, for a nonzero sum of weights. -/
noncomputable def kdeMean {n p : ℕ} (x : Fin n → Fin p → ℝ) (w : Fin n → ℝ) : Fin p → ℝ :=
  fun j => (∑ i, x i j * w i) / ∑ i, w i

/-- The normalisation in `np.cov(..., aweights=w)`. -/
noncomputable def kdeFact {n : ℕ} (w : Fin n → ℝ) : ℝ := (∑ i, w i) - (∑ i, w i * w i) / ∑ i, w i

/-- `np.cov(dx.T, aweights=weights)`, kde.py 42, for a positive normalisation. Like numpy, it subtracts
the weighted mean (of `dx`, where it is already 0). -/
noncomputable def kdeCov {n p : ℕ} (dx : Fin n → Fin p → ℝ) (w : Fin n → ℝ) : Matrix (Fin p) (Fin p) ℝ :=
  fun j k => (∑ i, (dx i j - kdeMean dx w j) * ((dx i k - kdeMean dx w k) * w i)) / kdeFact w

/-- `MegKDE.__init__`, kde.py 12-49. Weights summing to zero: ZeroDivisionError from `np.average`.
Negative weights: ValueError from `np.cov`. A vanishing normalisation (a single point, for instance)
gives NaN, which `cholesky` rejects with LinAlgError; a singular covariance makes `inv` raise it. A
bandwidth factor 0, which gives NaN, is not modelled. -/
noncomputable def Kde.make {n p : ℕ} (x : Fin n → Fin p → ℝ) (w : Fin n → ℝ) (truncation : ℝ) (nmin : ℕ)
    (factor : ℝ) : Res (Kde n p) := do
  ensure .unmodelled (decide (factor ≠ 0))
  ensure .zeroDivision (decide (∑ i, w i ≠ 0))
  let mean := kdeMean x w
  let dx := fun i => x i - mean
  ensure .value (decide (∀ i, 0 ≤ w i))
  ensure .value (decide (0 < kdeFact w))
  let cov := kdeCov dx w
  ensure .value (decide (cov.det ≠ 0))
  let A ← cholesky cov⁻¹
  return {
    truncation := truncation
    nmin := nmin
    weights := w
    mean := mean
    A := A
    d := fun i => vecMul (dx i) A
    sigma := 2 * factor * (n : ℝ) ^ (-1 / (4 + (p : ℝ))) }

/-- The rows within the truncation radius, `tree.query_ball_point(_d, sigma * truncation)`,
kde.py 71. -/
noncomputable def Kde.ball {n p : ℕ} (k : Kde n p) (t : Fin p → ℝ) : Finset (Fin n) :=
  Finset.univ.filter fun i => 0 ≤ k.sigma * k.truncation ∧ distSq (k.d i) t ≤ (k.sigma * k.truncation) ^ 2

/-- The kernel sum over a set of rows, kde.py 81. -/
noncomputable def Kde.kernelSum {n p : ℕ} (k : Kde n p) (t : Fin p → ℝ) (s : Finset (Fin n)) : ℝ :=
  ∑ i ∈ s, k.weights i * Real.exp (-(1 / 2) / (k.sigma * k.sigma) * distSq (k.d i) t)

/-- One target of `evaluate`, kde.py 68-81. With fewer than `nmin` training points the query returns the
row number `n` for the missing ones, and `self.weights[n]` raises IndexError. -/
noncomputable def Kde.at (near : NearFn) {n p : ℕ} (k : Kde n p) (target : Fin p → ℝ) : Res ℝ :=
  let t := vecMul (target - k.mean) k.A
  if k.nmin ≤ (k.ball t).card then .ok (k.kernelSum t (k.ball t))
  else if n < k.nmin then .error .index
  else .ok (k.kernelSum t (near k.d t k.nmin))

/-- `MegKDE.evaluate`, kde.py 55-82. -/
noncomputable def Kde.evaluate (near : NearFn) {n p : ℕ} (k : Kde n p) (targets : List (Fin p → ℝ)) :
    Res (List ℝ) := targets.mapM (k.at near)

/-- `MegKDE(data, weights, factor=factor).evaluate(targets)` for one-dimensional data, analysis.py 352;
the defaults are truncation 3 and `nmin` 4, kde.py 17-18. Weights of a different length raise in
`np.average`. -/
noncomputable def megKde (near : NearFn) : KdeFn := fun data weights factor targets =>
  if h : weights.length = data.length then do
    let k ← Kde.make (n := data.length) (p := 1) (fun i _ => data[i])
      (fun i => weights[i.val]'(by omega)) 3 4 factor
    k.evaluate near (targets.map fun t _ => t)
  else .error .value

end CC
