import Verif.Model.Marginal

/-! # analysis.py: parameter summaries -/

namespace CC

/-- `Bound`, analysis.py 49-70. -/
structure Bound (K : Type) where
  lower : Option K
  center : Option K
  upper : Option K
deriving DecidableEq, Repr

section
variable {K : Type} [Field K] [LinearOrder K]

/-- `_mask_to_intervals`, analysis.py 22-46: indices where the mask switches on, ... -/
def maskStarts (mask : List Bool) : List Nat :=
  let inner := (List.range (mask.length - 1)).filter
    fun i => !(mask.getD i false) && mask.getD (i + 1) false
  (if mask.getD 0 false then [0] else []) ++ inner.map (· + 1)

/-- ... indices where it switches off, analysis.py 32-41. -/
def maskEnds (mask : List Bool) : List Nat :=
  let inner := (List.range (mask.length - 1)).filter
    fun i => mask.getD i false && !(mask.getD (i + 1) false)
  inner ++ (if mask.getD (mask.length - 1) false then [mask.length - 1] else [])

/-- `_mask_to_intervals`, analysis.py 22-46. `zip(..., strict=True)` raises ValueError when the
lengths differ; indexing `x` beyond its length raises IndexError. -/
def maskToIntervals (x : List K) (mask : List Bool) : Res (List (K × K)) :=
  if mask.isEmpty then .ok []
  else if (maskStarts mask).length ≠ (maskEnds mask).length then .error .value
  else do
    let ivs ← ((maskStarts mask).zip (maskEnds mask)).mapM fun se => do
      let e ← atIndex x se.2
      let s ← atIndex x se.1
      return (s, e)
    return ivs.filter fun iv => decide (iv.1 < iv.2)

/-- The three bounds found by `interp1d(cs, xs)(vals)`, analysis.py 498-499, 505-506. -/
def equalTailed (m : Marginal K) (area : K) : Res (K × K × K) := do
  let l ← interp1d m.cs m.xs (1 / 2 - area / 2)
  let c ← interp1d m.cs m.xs (1 / 2)
  let u ← interp1d m.cs m.xs (1 / 2 + area / 2)
  return (l, c, u)

/-- `get_parameter_summary_mean` from the marginal on, analysis.py 496-501. -/
def summaryMean (m : Marginal K) (area : K) : Res (Bound K) := do
  let b ← equalTailed m area
  return ⟨some b.1, some (1 / 2 * (b.1 + b.2.2)), some b.2.2⟩

/-- `get_parameter_summary_cumulative` from the marginal on, analysis.py 503-507. -/
def summaryCumulative (m : Marginal K) (area : K) : Res (Bound K) := do
  let b ← equalTailed m area
  return ⟨some b.1, some b.2.1, some b.2.2⟩

/-- `a.argmax()`, ValueError on an empty array. -/
def arrArgmax (l : List K) : Res Nat :=
  match argmax l with
  | none => .error .value
  | some i => .ok i

/-- `get_parameter_summary_max_central` from the marginal on, analysis.py 688-698. -/
def summaryMaxCentral (m : Marginal K) (area : K) : Res (Bound K) := do
  let i ← arrArgmax m.ys
  let x ← atIndex m.xs i
  let l ← interp1d m.cs m.xs (1 / 2 - 1 / 2 * area)
  let u ← interp1d m.cs m.xs (1 / 2 + 1 / 2 * area)
  return ⟨some l, some x, some u⟩

/-- `eps`, analysis.py 529. -/
def hdiEps : K := 1 / 10 ^ 12

/-- The running best of the HDI search, analysis.py 530-534; `width = none` is infinity. -/
structure HdiBest (K : Type) where
  width : Option K
  lower : K
  upper : K
  startMass : K
  endMass : K

/-- The end index for a start index and its mass, analysis.py 537-552; `none` is the `break`. -/
def hdiEnd (cdf : List K) (area : K) (i : Nat) (sm : K) : Option Nat :=
  let e0 := searchsortedLeft cdf (sm + area)
  let e1 := if e0 ≤ i then i + 1 else e0
  if cdf.length ≤ e1 then none
  else if cdf.getD e1 0 - sm < area - hdiEps ∧ e1 + 1 < cdf.length then some (e1 + 1) else some e1

/-- One update of the best interval, analysis.py 554-565. -/
def hdiUpdate (cdf xp : List K) (i e : Nat) (sm : K) (b : HdiBest K) : HdiBest K :=
  let lower := xp.getD i 0
  let upper := xp.getD e 0
  let width := upper - lower
  if width ≤ hdiEps then b
  else if b.width.all fun w => decide (width < w - hdiEps) then
    { width := some width, lower := lower, upper := upper, startMass := sm,
      endMass := cdf.getD e 0 }
  else b

/-- The loop over start indices, analysis.py 536-565. -/
def hdiLoop (cdf xp : List K) (area : K) : List Nat → HdiBest K → HdiBest K
  | [], b => b
  | i :: is, b =>
    let sm := cdf.getD i 0
    if 1 + hdiEps < sm + area then b
    else match hdiEnd cdf area i sm with
      | none => b
      | some e => hdiLoop cdf xp area is (hdiUpdate cdf xp i e sm b)

/-- `get_parameter_summary_hdi` from the marginal on, analysis.py 526-576 (the low sample warning is
not modelled). -/
def summaryHdi (m : Marginal K) (area : K) : Res (Bound K) := do
  let ab ← endpoints m.xs
  let cdf := 0 :: m.cs
  let xp := ab.1 :: m.xs
  let b := hdiLoop cdf xp area (List.range (cdf.length - 1))
    { width := none, lower := ab.1, upper := ab.2, startMass := 0, endMass := 1 }
  let mass := b.endMass - b.startMass
  let center := if mass ≤ hdiEps then 1 / 2 * (b.lower + b.upper)
    else npInterp cdf xp b.lower b.upper (b.startMass + 1 / 2 * mass)
  return ⟨some b.lower, some center, some b.upper⟩

/-- `mass_diff`, analysis.py 589-592. -/
def massDiff (density xs : List K) (target threshold : K) : K :=
  simpson (density.map fun d => if threshold ≤ d then d else 0) xs - target

/-- The iterations of scipy's `bisect` (`xtol = 5e-4`, default `rtol = 4 ε`, at most 100 steps;
without convergence the last point is returned because `root_scalar` does not raise). `fa` is the
value at the fixed left end. -/
def bisectLoop (f : K → K) (rtol : K) : Nat → K → K → K → K
  | 0, xa, _, _ => xa
  | n + 1, xa, fa, dm =>
    let dm := dm / 2
    let xm := xa + dm
    let fm := f xm
    let xa' := if 0 ≤ fm * fa then xm else xa
    if fm = 0 ∨ |dm| < 5 / 10000 + rtol * |xm| then xm
    else bisectLoop f rtol n xa' fa dm

/-- `root_scalar(f, bracket=(a, b), method="bisect", xtol=5e-4).root`: ValueError when the signs at
the ends agree (analysis.py 597-603). -/
def bisect (f : K → K) (rtol a b : K) : Res K :=
  if f a = 0 then .ok a
  else if f b = 0 then .ok b
  else if 0 < f a * f b then .error .value
  else .ok (bisectLoop f rtol 100 a (f a) (b - a))

/-- `4 * np.finfo(float).eps`, scipy's default `rtol`. -/
def defaultRtol : K := 4 / 2 ^ 52

/-- The density cut of `get_parameter_hdi_intervals`, analysis.py 594-606; with the density. Without
area numpy divides by zero. -/
def hdiCut (m : Marginal K) (area : K) : Res (K × List K) := do
  let total := simpson m.ys m.xs
  ensure .unmodelled (decide (total ≠ 0))
  let density := m.ys.map (· / total)
  let top ← arrMax density
  let t ← bisect (massDiff density m.xs area) defaultRtol 0 top
  return (t, density)

/-- `get_parameter_hdi_intervals` from the marginal on, analysis.py 578-610. -/
def hdiIntervals (m : Marginal K) (area : K) : Res (List (K × K)) := do
  let s ← summaryHdi m area
  let cut ← hdiCut m area
  let ivs ← maskToIntervals m.xs (cut.2.map fun d => decide (cut.1 ≤ d))
  return if ivs.isEmpty then [(s.lower.getD 0, s.upper.getD 0)] else ivs

/-- One bound of `get_parameter_multimodal_bounds`, analysis.py 632-643. -/
def modeBound (m : Marginal K) (lo hi : K) (iv : K × K) : Res (Bound K) := do
  let lower := max iv.1 lo
  let upper := min iv.2 hi
  let pts := (m.xs.zip m.ys).filter fun p => decide (lower ≤ p.1) && decide (p.1 ≤ upper)
  if pts.isEmpty then return ⟨some lower, some (1 / 2 * (lower + upper)), some upper⟩
  else
    let i ← arrArgmax (pts.map Prod.snd)
    let x ← atIndex (pts.map Prod.fst) i
    return ⟨some lower, some x, some upper⟩

/-- `get_parameter_multimodal_bounds` from the marginal on, analysis.py 612-645. `xs.min()` and
`xs.max()` are the ends, the abscissae being increasing (C25). -/
def multimodalBounds (m : Marginal K) (intervals : List (K × K)) : Res (List (Bound K)) := do
  let ab ← endpoints m.xs
  intervals.mapM (modeBound m ab.1 ab.2)

/-- The number of points `n_pad` added at each end, analysis.py 649. -/
@[irreducible] def padSize : Nat := 1000

/-- The bisection of `get_parameter_summary_max`, analysis.py 659-684: `some (i1, i2)`, or `none`
after 50 steps (`ValueError("Failed to converge")`, caught). -/
def maxLoop (ys cs : List K) (start : Nat) (area : K) : Nat → K → K → Res (Option (Nat × Nat))
  | 0, _, _ => .ok none
  | fuel + 1, maxv, minv => do
    let mid := (maxv + minv) / 2
    let r1 ← firstWhere (fun y => decide (y < mid)) (ys.take start).reverse
    let r2 ← firstWhere (fun y => decide (y < mid)) (ys.drop start)
    let c2 ← atIndex cs (start + r2)
    let c1 ← atIndex cs (start - r1)
    if |c2 - c1 - area| < 3 / 1000 then return some (start - r1, start + r2)
    else if c2 - c1 < area then maxLoop ys cs start area fuel mid minv
    else if area < c2 - c1 then maxLoop ys cs start area fuel maxv mid
    else maxLoop ys cs start area fuel maxv minv

/-- The padded arrays, analysis.py 650-655. -/
def padded (m : Marginal K) (pad : Nat) : Res (List K × List K) := do
  let xe ← endpoints m.xs
  let ye ← endpoints m.ys
  return (List.replicate pad xe.1 ++ m.xs ++ List.replicate pad xe.2,
    linspace 0 ye.1 pad ++ m.ys ++ linspace ye.2 0 pad)

/-- `get_parameter_summary_max` from the marginal on, analysis.py 647-686. -/
def summaryMax (m : Marginal K) (area : K) : Res (Bound K) := do
  let p ← padded m padSize
  let total ← arrMax (cumsum p.2)
  ensure .unmodelled (decide (total ≠ 0))
  let cs := (cumsum p.2).map (· / total)
  let start ← arrArgmax p.2
  let top ← atIndex p.2 start
  let xc ← atIndex p.1 start
  match ← maxLoop p.2 cs start area 50 top 0 with
  | none => return ⟨none, some xc, none⟩
  | some i => do
    let x1 ← atIndex p.1 i.1
    let x2 ← atIndex p.1 i.2
    return ⟨some x1, some xc, some x2⟩

end

/-- `get_parameter_summary`, analysis.py 262-264, with the table of callbacks at lines 80-86 (a chain
without a statistic: KeyError). -/
noncomputable def parameterSummary (kde : KdeFn) (c : Chain ℝ) (col : String) : Res (Bound ℝ) := do
  let area : ℝ := c.cfg .summaryArea
  match c.cfg .statistics with
  | none => .error .key
  | some .mean => summaryMean (← smoothedHistogram kde c col false none) area
  | some .cumulative => summaryCumulative (← smoothedHistogram kde c col false none) area
  | some .maxCentral => summaryMaxCentral (← smoothedHistogram kde c col false none) area
  | some .max => summaryMax (← smoothedHistogram kde c col false none) area
  | some .hdi => summaryHdi (← smoothedHistogram kde c col true none) area

/-- What `get_summary` reports for one parameter: a bound, or a list of bounds. -/
inductive Summary (K : Type)
  | single (b : Bound K)
  | multi (bs : List (Bound K))

/-- The entry of one parameter in `get_summary`, analysis.py 214-230. -/
noncomputable def summaryEntry (kde : KdeFn) (c : Chain ℝ) (col : String) : Res (Summary ℝ) := do
  let s ← parameterSummary kde c col
  if c.cfg .multimodal then
    let m ← smoothedHistogram kde c col true none
    let ivs ← hdiIntervals m (c.cfg .summaryArea : ℝ)
    if 2 ≤ ivs.length then return .multi (← multimodalBounds m ivs) else return .single s
  else return .single s

end CC
