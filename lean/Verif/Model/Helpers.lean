import Verif.Model.Numpy
import Mathlib.Data.Nat.Sqrt

/-! # helpers.py: ranges and bins -/

namespace CC
variable {K : Type} [Field K] [LinearOrder K]

/-- `threshold`, helpers.py 26-30. -/
def extentThreshold (plot wide tiny : Bool) : K :=
  if tiny then 3 / 10
  else if plot && !wide then 1 / 20
  else if plot then 1 / 10000 else 1 / 100000

/-- Python `a[-i]` for `i ≥ 0` (`-0` is `0`), helpers.py 34. -/
def fromEnd {α : Type} (l : List α) (i : Nat) : Res α :=
  match (if i = 0 then l[0]? else if i ≤ l.length then l[l.length - i]? else none) with
  | none => .error .index
  | some x => .ok x

/-- `a[i]` for `i ≥ 0`. -/
def atIndex {α : Type} (l : List α) (i : Nat) : Res α :=
  match l[i]? with
  | none => .error .index
  | some x => .ok x

/-- The cumulative histogram shifted by its first entry and scaled to end at 1 (`cdf` at helpers.py
25) and its reversed complement (`icdf` at line 24). When the first cell holds everything, numpy
divides by zero, no comparison with NaN holds and line 31 raises IndexError. -/
def extentCurves (hist : List K) : Res (List K × List K) := do
  let c := cumsum hist
  let m ← arrMax c
  ensure .unmodelled (decide (m ≠ 0))
  let icdf := ((c.map (· / m)).map (1 - ·)).reverse
  let im ← arrMax icdf
  ensure .index (decide (im ≠ 0))
  let icdf := icdf.map (· / im)
  return (icdf.reverse.map (1 - ·), icdf)

/-- Lines 31-39 of `get_extents`, helpers.py, from the bin centres and the two curves. -/
def extentPick (bc cdf icdf : List K) (threshold : K) (pad : Bool) : Res (K × K) := do
  let i1 ← firstWhere (fun v => decide (threshold < v)) cdf
  let i2 ← firstWhere (fun v => decide (threshold < v)) icdf
  let lower ← atIndex bc i1
  let upper ← fromEnd bc i2
  return if pad then (lower - 1 / 5 * (upper - lower), upper + 1 / 5 * (upper - lower))
    else (lower, upper)

/-- `get_extents`, helpers.py 11-39. -/
def getExtents (data weight : List K) (plot wide tiny pad : Bool) : Res (K × K) := do
  let be ← autoEdges 2000 data
  let hist ← histogram be data weight
  let (cdf, icdf) ← extentCurves hist
  extentPick (midpoints be) cdf icdf (extentThreshold plot wide tiny) pad

/-- `get_bins`, helpers.py 42-46. The floor of the fourth root of `rows / columns` is taken exactly. -/
def getBins (c : Chain K) : Int :=
  match c.cfg .bins with
  | some b => b
  | none => max (if 0 < c.smoothValue then 35 else 100)
      (Nat.sqrt (Nat.sqrt (c.samples.index.length / c.samples.cols.length)) : Int)

/-- `np.linspace(a, b, n)`, ValueError for a negative number of points. -/
def linspaceInt (a b : K) (n : Int) : Res (List K) :=
  if n < 0 then .error .value else .ok (linspace a b n.toNat)

/-- `get_smoothed_bins`, helpers.py 49-73. -/
def getSmoothedBins (smooth bins : Int) (data weight : List K) (plot pad : Bool) :
    Res (List K × Int) := do
  let (minv, maxv) ← getExtents data weight plot true false pad
  if smooth = 0 then return (← linspaceInt minv maxv bins, 0)
  else return (← linspaceInt minv maxv (2 * smooth * bins), smooth)

/-- `get_grid_bins`, helpers.py 126-130. -/
def getGridBins (data : List K) : Res (List K) :=
  match sortUnique data with
  | a :: b :: rest =>
    let delta := 1 / 2 * (b - a)
    .ok ((a :: b :: rest).map (· - delta) ++ [(b :: rest).getLastD b + delta])
  | _ => .error .index

end CC
