import Verif.Model.Marginal
import Mathlib.Probability.CDF
import Mathlib.Probability.Distributions.Gaussian.Real

/-! # plotting/contours.py: contour surfaces and levels -/

namespace CC

/-- `a[idx]` with an array of indices; all of them are in range where it is used (plotting/contours.py 266, 269). -/
def gather {α : Type} (l : List α) (idx : List Nat) : List α := idx.filterMap (l[·]?)

/-- `np.argsort` of an array of distinct integers (plotting/contours.py 264). -/
def argsortNat (l : List Nat) : List Nat :=
  (List.range l.length).mergeSort fun i j => decide (l.getD i 0 ≤ l.getD j 0)

section
variable {K : Type} [Field K] [LinearOrder K]

/-- `np.argsort`: a permutation of the indices that puts the values into nondecreasing order. Which one
it is for equal values is not specified (plotting/contours.py 263). -/
def ArgsortOk (argsort : List K → List Nat) : Prop := ∀ l,
  (argsort l).Perm (List.range l.length) ∧ (gather l (argsort l)).Pairwise (· ≤ ·)

/-- `_convert_to_stdev` between `ravel` and `reshape`, plotting/contours.py 262-269. An array of zeros is divided
by zero; an empty one raises IndexError. -/
def stdevFlat (argsort : List K → List Nat) (sigma : List K) : Res (List K) := do
  let isort := (argsort sigma).reverse
  let iunsort := argsortNat isort
  let c := cumsum (gather sigma isort)
  match c.getLast? with
  | none => .error .index
  | some last => do
    ensure .unmodelled (decide (last ≠ 0))
    return gather (c.map (· / last)) iunsort

/-- `a.reshape(shape)` for the shape of an array of rows, plotting/contours.py 269. -/
def reshapeLike {α β : Type} : List (List α) → List β → List (List β)
  | [], _ => []
  | r :: rs, l => l.take r.length :: reshapeLike rs (l.drop r.length)

/-- `_convert_to_stdev`, plotting/contours.py 258-269. -/
def convertToStdev (argsort : List K → List Nat) (sigma : List (List K)) : Res (List (List K)) := do
  let v ← stdevFlat argsort sigma.flatten
  return reshapeLike sigma v

/-- `hist[hist == 0] = 1e-16`, plotting/contours.py 205. -/
def fillZeros (hist : List (List K)) : List (List K) :=
  hist.map (List.map fun v => if v = 0 then 1 / 10 ^ 16 else v)

/-- The surface of which contours are drawn, plotting/contours.py 205-206. -/
def contourSurface (argsort : List K → List Nat) (hist : List (List K)) : Res (List (List K)) :=
  convertToStdev argsort (fillZeros hist)

end

/-- The standard normal distribution function, `scipy.stats.norm.cdf`. -/
noncomputable def normCdf (x : ℝ) : ℝ := ProbabilityTheory.cdf (ProbabilityTheory.gaussianReal 0 1) x

/-- `_get_levels`, plotting/contours.py 281-288. -/
noncomputable def getLevels (sigma2d : Bool) (sigmas : List ℝ) : List ℝ :=
  sigmas.map fun s => if sigma2d then 1 - Real.exp (-(1 / 2) * s ^ 2) else 2 * normCdf s - 1

end CC
