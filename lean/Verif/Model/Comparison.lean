import Verif.Model.Chain
import Verif.Model.Flt
import Mathlib.Analysis.SpecialFunctions.Log.Basic

/-! # comparisons.py: information criteria

The registry `self.parent._chains` is the list of its items. -/

namespace CC

section
variable {K : Type} [Field K] [LinearOrder K]

/-- `np.max(p)`; ValueError on an empty array (comparisons.py 87, 132). -/
def npMax : List K → Res K
  | [] => .error .value
  | x :: xs => .ok (xs.foldl max x)

/-- `np.min(list(d.values()))` and the subtraction loop (comparisons.py 51-54, 88-91, 133-136). -/
def relativeToMin (d : List (String × Flt K)) : List (String × Flt K) :=
  match d with
  | [] => []
  | e :: es =>
    let m := es.foldl (fun m e => Flt.minNan m e.2) e.2
    d.map fun e => (e.1, e.2.sub m)

/-- One iteration of the loop of `aic`, comparisons.py 119-132. The Python float division raises
ZeroDivisionError. -/
def Chain.aicValue (c : Chain K) : Res (Option (Flt K)) :=
  match c.logPosterior, c.numEffDataPoints, c.numFreeParams with
  | some p, some nData, some nFree =>
    let k : K := nFree
    if nData - k - 1 = 0 then .error .zeroDivision
    else do
      let m ← npMax p
      return some (.fin (2 * (k + 1 * k * (k + 1) / (nData - k - 1) - m)))
  | _, _, _ => .ok none

/-- The loop over the registry, comparisons.py 38-50, 73-87, 117-132, for one criterion. -/
def criterionLoop (f : Chain K → Res (Option (Flt K))) :
    List (String × Chain K) → Res (List (String × Flt K))
  | [] => .ok []
  | e :: es => do
    let v ← f e.2
    let rest ← criterionLoop f es
    return match v with
      | none => rest
      | some x => (e.1, x) :: rest

/-- `aic`, comparisons.py 95-137. -/
def aic (cs : List (String × Chain K)) : Res (List (String × Flt K)) := do
  return relativeToMin (← criterionLoop Chain.aicValue cs)

/-- Squared Euclidean distance of two points given by their coordinates. -/
def sqDist (x y : List K) : K := (List.zipWith (fun a b => (a - b) * (a - b)) x y).sum

/-- The rows of a table given by its columns. -/
def rowsOf (n : Nat) (cols : List (List K)) : List (List K) :=
  (List.range n).map fun i => cols.filterMap fun c => c[i]?

/-- Position of the first element of least key. -/
def argminBy {α : Type} (f : α → K) : List α → Option Nat
  | [] => none
  | x :: xs => match argminBy f xs with
    | none => some 0
    | some j => match xs[j]? with
      | some y => if f y < f x then some (j + 1) else some 0
      | none => some 0

/-- `values[i]` for an in-range index. -/
def valueAt (values : List K) (i : Nat) : Res K :=
  match values[i]? with
  | some v => .ok v
  | none => .error .index

/-- `griddata(points, values, xi, method="nearest")[0]` for one query point (contract of scipy): the
value at a sample of least Euclidean distance. `tie` picks among the nearest samples in an
unspecified way; an answer that is not a nearest sample is replaced by the first nearest one. -/
def nearestValue (tie : List (List K) → List K → Nat) (points : List (List K)) (values : List K)
    (xi : List K) : Res K :=
  match argminBy (fun p => sqDist p xi) points with
  | none => .error .value
  | some j =>
    let i := tie points xi
    let i := match points[i]?, points[j]? with
      | some p, some q => if sqDist p xi = sqDist q xi then i else j
      | _, _ => j
    valueAt values i

/-- `[np.average(chain.samples[c], weights=chain.weights) for c in …]`, comparisons.py 44. -/
def averages (w : List K) : List (List K) → Res (List K)
  | [] => .ok []
  | x :: xs => do
    let m ← average x w
    let ms ← averages w xs
    return m :: ms

/-- One iteration of the loop of `dic`, comparisons.py 40-50. Simplification: chains have at least
one data column (scipy's behaviour for zero-dimensional points is not modelled). -/
def Chain.dicValue (tie : List (List K) → List K → Nat) (c : Chain K) : Res (Option (Flt K)) :=
  match c.logPosterior with
  | none => .ok none
  | some p => do
    let X ← c.samples.getMany c.dataColumns
    let w ← c.weights
    let means ← averages w X
    let d := p.map (-2 * ·)
    let dOfMean ← nearestValue tie (rowsOf c.samples.index.length X) d means
    let meanD ← average d w
    let pD := meanD - dOfMean
    return some (.fin (meanD + pD))

/-- `dic`, comparisons.py 15-55. -/
def dic (tie : List (List K) → List K → Nat) (cs : List (String × Chain K)) :
    Res (List (String × Flt K)) := do
  return relativeToMin (← criterionLoop (Chain.dicValue tie) cs)

end

/-- `np.log` of a non-negative double: `-inf` at zero. -/
noncomputable def npLog (x : ℝ) : Flt ℝ := if x = 0 then .negInf else .fin (Real.log x)

/-- One iteration of the loop of `bic`, comparisons.py 75-87. -/
noncomputable def Chain.bicValue (c : Chain ℝ) : Res (Option (Flt ℝ)) :=
  match c.logPosterior, c.numEffDataPoints, c.numFreeParams with
  | some p, some nData, some nFree => do
    let m ← npMax p
    return some ((Flt.mul (.fin (nFree : ℝ)) (npLog nData)).sub (.fin (2 * m)))
  | _, _, _ => .ok none

/-- `bic`, comparisons.py 57-93. -/
noncomputable def bic (cs : List (String × Chain ℝ)) : Res (List (String × Flt ℝ)) := do
  return relativeToMin (← criterionLoop Chain.bicValue cs)

end CC
