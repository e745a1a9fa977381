import Verif.Model.Helpers
import Mathlib.Analysis.SpecialFunctions.Exp
import Mathlib.Analysis.SpecialFunctions.Pow.Real

/-! # analysis.py: marginal distributions -/

namespace CC

/-- The three arrays returned by `_get_smoothed_histogram`, analysis.py 331, 360. -/
structure Marginal (K : Type) where
  xs : List K
  ys : List K
  cs : List K

section
variable {K : Type} [Field K]

/-- Index `i + k` reflected into `0..n-1` (`mode="reflect"`: the array is repeated backwards and
forwards, `d c b a | a b c d | d c b a`). -/
def reflectIndex (n : Nat) (i : Int) : Nat :=
  let r := (i % (2 * n)).toNat
  if r < n then r else 2 * n - 1 - r

/-- Correlation with a kernel of the given radius and reflecting boundary: scipy's
`correlate1d(..., mode="reflect")` used by `gaussian_filter`. -/
def reflectFilter (radius : Nat) (kernel : Int → K) (h : List K) : List K :=
  (List.range h.length).map fun (i : Nat) =>
    ((List.range (2 * radius + 1)).map fun (j : Nat) =>
      kernel ((j : Int) - radius) * h.getD (reflectIndex h.length ((i : Int) + ((j : Int) - radius))) 0).sum

end

/-- The Gaussian kernel of `gaussian_filter`: `exp(-k²/2σ²)` normalised over `-radius..radius`. -/
noncomputable def gaussKernel (sigma : Nat) (radius : Nat) (k : Int) : ℝ :=
  Real.exp (-(k : ℝ) ^ 2 / (2 * (sigma : ℝ) ^ 2)) /
    ((List.range (2 * radius + 1)).map fun (j : Nat) =>
      Real.exp (-((((j : Int) - radius : Int)) : ℝ) ^ 2 / (2 * (sigma : ℝ) ^ 2))).sum

/-- `gaussian_filter(h, sigma, mode="reflect")` for a positive integer `sigma`: the radius is
`int(4 sigma + 0.5) = 4 sigma` (analysis.py 345, helpers.py 121). -/
noncomputable def gaussianFilter (sigma : Nat) (h : List ℝ) : List ℝ :=
  reflectFilter (4 * sigma) (gaussKernel sigma (4 * sigma)) h

/-- `hist**power`, analysis.py 339-340 (`power` is never `None`). A zero entry with a negative power
becomes infinite. -/
noncomputable def powAll (h : List ℝ) (power : ℝ) : Res (List ℝ) := do
  ensure .unmodelled (decide (0 ≤ power) || h.all fun v => decide (v ≠ 0))
  return h.map fun v => v ^ power

/-- `if chain.smooth_value: hist = gaussian_filter(...)`, analysis.py 344-345. Negative values are
not modelled. -/
noncomputable def smoothHist (smooth : Int) (h : List ℝ) : Res (List ℝ) :=
  if smooth = 0 then .ok h
  else if 0 < smooth then .ok (gaussianFilter smooth.toNat h)
  else .error .unmodelled

/-- The bins of `_get_smoothed_histogram`, analysis.py 333-336. -/
noncomputable def marginalBins (c : Chain ℝ) (data weights : List ℝ) (pad : Bool) :
    Res (List ℝ) :=
  if c.grid then getGridBins data
  else do
    let b ← getSmoothedBins c.smoothValue (getBins c) data weights false pad
    return b.1

/-- The kernel density estimate of a marginal: training data, weights, bandwidth factor, targets. -/
abbrev KdeFn := List ℝ → List ℝ → ℝ → List ℝ → Res (List ℝ)

/-- The number of points of the marginal, analysis.py 342. -/
@[irreducible] def gridSize : Nat := 10000

/-- The first and last entry of an array (IndexError if empty). -/
def endpoints {K : Type} (l : List K) : Res (K × K) :=
  match l.head?, l.getLast? with
  | some a, some b => .ok (a, b)
  | _, _ => .error .index

/-- `max(200, int(bins.max()))`, analysis.py 350: the size of the KDE grid (taken from the largest
bin *edge*, not from the number of bins). -/
noncomputable def kdeGridSize (bins : List ℝ) : Res Nat := do
  let m ← arrMax bins
  return max 200 (if 0 ≤ m then ⌊m⌋.toNat else 0)

/-- The density on the grid by KDE, analysis.py 350-355. -/
noncomputable def kdeDensity (kde : KdeFn) (factor : ℝ)
    (data weights bins : List ℝ) (a b : ℝ) (xs : List ℝ) : Res (List ℝ) := do
  let n ← kdeGridSize bins
  let kxs := linspace a b n
  let ys ← kde data weights factor kxs
  let area := simpson ys kxs
  ensure .unmodelled (decide (area ≠ 0))
  xs.mapM (interp1d kxs (ys.map (· / area)))

/-- `cs = ys.cumsum(); cs /= cs.max()`, analysis.py 358-359; NaN when there is no mass. -/
noncomputable def normCumsum (ys : List ℝ) : Res (List ℝ) := do
  let m ← arrMax (cumsum ys)
  ensure .unmodelled (decide (m ≠ 0))
  return (cumsum ys).map (· / m)

/-- The density values on the grid, analysis.py 344-357. -/
noncomputable def marginalYs (kde : KdeFn) (c : Chain ℝ) (useKde : Option Bool)
    (data weights bins hist : List ℝ) (a b : ℝ) (xs : List ℝ) : Res (List ℝ) := do
  let hist ← smoothHist c.smoothValue hist
  if useKde.getD (decide (c.cfg .kde ≠ (0 : ℝ))) then
    kdeDensity kde (c.cfg .kde) data weights bins a b xs
  else xs.mapM (interp1d (midpoints bins) hist)

/-- `_get_smoothed_histogram`, analysis.py 324-360. A single bin gives a constant abscissa, which is
not modelled. -/
noncomputable def smoothedHistogram (kde : KdeFn) (c : Chain ℝ) (col : String)
    (pad : Bool) (useKde : Option Bool) : Res (Marginal ℝ) := do
  let data ← c.samples.get col
  let weights ← c.weights
  let bins ← marginalBins c data weights pad
  let hist ← histDensity bins data weights
  let hist ← powAll hist c.power
  let ab ← endpoints (midpoints bins)
  ensure .unmodelled (decide (2 ≤ (midpoints bins).length))
  let xs := linspace ab.1 ab.2 gridSize
  let ys ← marginalYs kde c useKde data weights bins hist ab.1 ab.2 xs
  let cs ← normCumsum ys
  return { xs := xs, ys := ys, cs := cs }

end CC
