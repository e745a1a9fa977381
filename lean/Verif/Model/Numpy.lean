import Verif.Model.Frame
import Verif.Model.Comparison

/-! # The numpy and scipy array functions used by helpers.py and analysis.py

Exact arithmetic; every function is modelled by its documented contract. -/

namespace CC
variable {K : Type} [Field K]

/-- `np.linspace(a, b, n)` (helpers.py 71, 73; analysis.py 342, 350, 652-653). -/
def linspace (a b : K) (n : Nat) : List K :=
  (List.range n).map fun (i : Nat) => a + i * ((b - a) / ((n : K) - 1))

/-- `0.5 * (e[1:] + e[:-1])` (helpers.py 20; analysis.py 341). -/
def midpoints (e : List K) : List K := List.zipWith (fun l r => (1 / 2 : K) * (r + l)) e e.tail

/-- `a.cumsum()` (helpers.py 21; analysis.py 358, 656). -/
def cumsum (l : List K) : List K := (List.range l.length).map fun i => (l.take (i + 1)).sum

/-- Composite Simpson rule for an odd number of equally spaced values (scipy's `_basic_simpson`). -/
def simpsonOdd (h : K) : List K → K
  | a :: b :: c :: rest => h / 3 * (a + 4 * b + c) + simpsonOdd h (c :: rest)
  | _ => 0

/-- `simpson(ys, x=xs)` on equally spaced points (analysis.py 353, 591, 594; the abscissae are always
a `linspace`). For an even number of points scipy adds Cartwright's correction for the last
interval. -/
def simpson (ys xs : List K) : K :=
  let h := xs.getD 1 0 - xs.getD 0 0
  let n := ys.length
  if n % 2 = 1 then simpsonOdd h ys
  else if n = 2 then 1 / 2 * h * (ys.getD 1 0 + ys.getD 0 0)
  else simpsonOdd h (ys.take (n - 1)) + (5 / 12 * h * ys.getD (n - 1) 0 +
    2 / 3 * h * ys.getD (n - 2) 0 - 1 / 12 * h * ys.getD (n - 3) 0)

section
variable [LinearOrder K]

/-- `a.max()`; ValueError on an empty array (`npMax`, comparisons.py 87). -/
abbrev arrMax (l : List K) : Res K := npMax l

/-- `np.where(cond)[0][0]`: the first index at which the condition holds, IndexError if there is
none (helpers.py 31, 32; analysis.py 671, 672). -/
def firstWhere {α : Type} (p : α → Bool) (l : List α) : Res Nat :=
  match l.findIdx? p with
  | none => .error .index
  | some i => .ok i

/-- Is `x` in bin `i` of `np.histogram` with the given edges: bins are half open except the last. -/
def inBin (edges : List K) (i : Nat) (x : K) : Bool :=
  decide (edges.getD i 0 ≤ x) &&
    (decide (x < edges.getD (i + 1) 0) ||
      (decide (i + 2 = edges.length) && decide (x ≤ edges.getD (i + 1) 0)))

/-- The total weight of the data in bin `i`. -/
def binMass (edges data weights : List K) (i : Nat) : K :=
  (List.zipWith (fun x w => if inBin edges i x then w else 0) data weights).sum

/-- `np.histogram(data, bins=edges, weights=weights)[0]`; ValueError if the edges decrease. -/
def histogram (edges data weights : List K) : Res (List K) := do
  ensure .value ((List.zipWith (fun l r => decide (l ≤ r)) edges edges.tail).all id)
  return (List.range (edges.length - 1)).map (binMass edges data weights)

/-- `np.histogram(data, bins=edges, weights=weights, density=True)[0]`, analysis.py 338. Without mass
or with an empty bin numpy divides by zero. -/
def histDensity (edges data weights : List K) : Res (List K) := do
  let n ← histogram edges data weights
  ensure .unmodelled ((List.zipWith (fun l r => decide (l ≠ r)) edges edges.tail).all id)
  ensure .unmodelled (decide (n.sum ≠ 0))
  return List.zipWith (fun m d => m / d / n.sum) n
    (List.zipWith (fun l r => r - l) edges edges.tail)

/-- The edges of `np.histogram(data, bins=n)`: equal widths from the smallest to the largest value,
widened by a half if they coincide (helpers.py 19). ValueError on empty data. -/
def autoEdges (n : Nat) (data : List K) : Res (List K) :=
  match data with
  | [] => .error .value
  | x :: xs =>
    let lo := xs.foldl min x
    let hi := xs.foldl max x
    if lo = hi then .ok (linspace (lo - 1 / 2) (hi + 1 / 2) (n + 1))
    else .ok (linspace lo hi (n + 1))

/-- The piecewise linear function through the points, to the right of the first one. -/
def polyline : List (K × K) → K → K
  | [], _ => 0
  | [p], _ => p.2
  | p :: q :: rest, x =>
    if x < q.1 then p.2 + (q.2 - p.2) / (q.1 - p.1) * (x - p.1) else polyline (q :: rest) x

/-- `interp1d(xp, fp)(x)` with `xp` nondecreasing: `np.interp` plus a ValueError outside of the range
(analysis.py 355, 357, 499, 506, 691). `np.interp` uses the segment starting at the last point not
to the right of `x`. -/
def interp1d (xp fp : List K) (x : K) : Res K :=
  match xp.head?, xp.getLast? with
  | some a, some b =>
    if x < a then .error .value else if b < x then .error .value
    else .ok (polyline (xp.zip fp) x)
  | _, _ => .error .value

/-- `np.interp(x, xp, fp, left=left, right=right)` (analysis.py 574). -/
def npInterp (xp fp : List K) (left right x : K) : K :=
  match xp.head?, xp.getLast? with
  | some a, some b => if x < a then left else if b < x then right else polyline (xp.zip fp) x
  | _, _ => left

/-- `np.searchsorted(l, v, side="left")` on a nondecreasing array: the number of smaller entries
(analysis.py 542). -/
def searchsortedLeft (l : List K) (v : K) : Nat := (l.takeWhile fun y => decide (y < v)).length

/-- `np.sort(np.unique(data))` (helpers.py 127). -/
def sortUnique (data : List K) : List K := (data.mergeSort fun a b => decide (a ≤ b)).dedup

end
end CC
