import Verif.Model.Chain
import Mathlib.Analysis.Real.Sqrt

/-! # chain.py: covariance and correlation -/

namespace CC

/-- What `np.cov(...).squeeze()` can be here: a square matrix (at least two columns, or none) or a
0-d array (one column), chain.py 382. -/
inductive CovArray (K : Type)
  | matrix (m : List (List (Flt K)))
  | scalar (x : Flt K)
deriving DecidableEq

/-- `Named2DMatrix`, chain.py 34-38. -/
structure NamedMatrix (K : Type) where
  columns : List String
  array : CovArray K

section
variable {K : Type} [Field K] [LinearOrder K]

/-- `c * np.true_divide(1, fact)` inside `np.cov`: with `fact = 0` the factor is `+inf`, giving
`±inf`, or NaN for `c = 0` (contract of numpy's `cov`). -/
def covScale (fact c : K) : Flt K :=
  if fact = 0 then (if 0 < c then .posInf else if c < 0 then .negInf else .nan)
  else .fin (c * (1 / fact))

/-- `np.cov(X, rowvar=False, aweights=w)` for the columns `X` of a table (contract of numpy's `cov`,
called in chain.py 382): empty for no columns; ValueError for negative weights; ZeroDivisionError
from `np.average` when the weights sum to zero; `fact = Σw - Σw²/Σw`, raised to 0 when negative;
a single column is squeezed to a 0-d array. -/
def npCov (X : List (List K)) (w : List K) : Res (CovArray K) :=
  if X = [] then .ok (.matrix [])
  else if w.any (fun v => decide (v < 0)) then .error .value
  else if w.sum = 0 then .error .zeroDivision
  else
    let fact := w.sum - dot w w / w.sum
    let fact := if fact ≤ 0 then 0 else fact
    let D := X.map fun x => x.map (· - dot x w / w.sum)
    match D with
    | [d] => .ok (.scalar (covScale fact (dot d (List.zipWith (· * ·) d w))))
    | D => .ok (.matrix (D.map fun a => D.map fun b =>
        covScale fact (dot a (List.zipWith (· * ·) b w))))

/-- `get_covariance`, chain.py 371-383. -/
def Chain.getCovariance (c : Chain K) (columns : Option (List String)) :
    Res (NamedMatrix K) := do
  let cols := columns.getD c.dataColumns
  let X ← c.samples.getMany cols
  let w ← c.weights
  let m ← npCov X w
  return { columns := cols, array := m }

end

/-- `np.sqrt` on doubles. -/
noncomputable def fltSqrt : Flt ℝ → Flt ℝ
  | .fin x => if x < 0 then .nan else .fin √x
  | .posInf => .posInf
  | .negInf => .nan
  | .nan => .nan

/-- Product of two square roots, i.e. of doubles that are non-negative or NaN (chain.py 396):
`0 * inf` is NaN. -/
noncomputable def fltMulNN : Flt ℝ → Flt ℝ → Flt ℝ
  | .fin x, .fin y => .fin (x * y)
  | .fin x, .posInf => if x = 0 then .nan else .posInf
  | .posInf, .fin y => if y = 0 then .nan else .posInf
  | .posInf, .posInf => .posInf
  | _, _ => .nan

/-- Division of a double by a double that is non-negative or NaN (chain.py 397). Simplification: a
zero divisor is `+0`, which it is as a product of square roots. -/
noncomputable def fltDivNN : Flt ℝ → Flt ℝ → Flt ℝ
  | .fin x, .fin y =>
    if y = 0 then (if 0 < x then .posInf else if x < 0 then .negInf else .nan) else .fin (x / y)
  | .fin _, .posInf => .fin 0
  | .posInf, .fin _ => .posInf
  | .negInf, .fin _ => .negInf
  | _, _ => .nan

/-- `np.diag` of a square matrix given by rows (chain.py 395). -/
def diagOf {α : Type} (m : List (List α)) : List α :=
  m.zipIdx.filterMap fun ri => ri.1[ri.2]?

/-- `get_correlation`, chain.py 385-398. `np.diag` of a 0-d array raises ValueError. -/
noncomputable def Chain.getCorrelation (c : Chain ℝ) (columns : Option (List String)) :
    Res (NamedMatrix ℝ) := do
  let cov ← c.getCovariance columns
  match cov.array with
  | .scalar _ => .error .value
  | .matrix m =>
    let diag := (diagOf m).map fltSqrt
    let divisor := diag.map fun di => diag.map fun dj => fltMulNN dj di
    return { columns := cov.columns
             array := .matrix (List.zipWith (List.zipWith fltDivNN) m divisor) }

end CC
