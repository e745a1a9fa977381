import Verif.Model.Summary
import Verif.Model.Diagnostic
import Verif.Model.Request

/-! # analysis.py: marginals and the maximum statistic when NaN arises

`Model/Marginal` and `Model/Summary` stop with `Err.unmodelled` where numpy goes on with NaN. This file follows the same lines
(without KDE, for the statistic `max`) with doubles that may be infinite or NaN. -/

namespace CC

/-- `np.histogram(data, bins=edges, weights=weights, density=True)[0]`, analysis.py 338: `n / db / n.sum()` with numpy's division. -/
noncomputable def fltHistDensity (edges data weights : List ℝ) : Res (List (Flt ℝ)) := do
  let n ← histogram edges data weights
  return List.zipWith (fun m d => ((Flt.fin m).div (.fin d)).div (.fin n.sum)) n
    (List.zipWith (fun l r => r - l) edges edges.tail)

/-- `v**p` of numpy, analysis.py 340: everything to the power 0 is 1, NaN included. Densities are never negative, so
negative bases do not occur. -/
noncomputable def fltPow (p : ℝ) : Flt ℝ → Flt ℝ
  | .fin x => if p = 0 then .fin 1 else if x = 0 ∧ p < 0 then .posInf else .fin (x ^ p)
  | .posInf => if p = 0 then .fin 1 else if p < 0 then .fin 0 else .posInf
  | .negInf => if p = 0 then .fin 1 else .nan
  | .nan => if p = 0 then .fin 1 else .nan

/-- `gaussian_filter(h, sigma, mode="reflect")`, analysis.py 345, as in `reflectFilter` and `gaussianFilter`. -/
noncomputable def fltFilter (sigma : Nat) (h : List (Flt ℝ)) : List (Flt ℝ) :=
  (List.range h.length).map fun (i : Nat) =>
    fltSum ((List.range (2 * (4 * sigma) + 1)).map fun (j : Nat) =>
      (Flt.fin (gaussKernel sigma (4 * sigma) ((j : Int) - (4 * sigma : Nat)))).mul
        (h.getD (reflectIndex h.length ((i : Int) + ((j : Int) - (4 * sigma : Nat)))) (.fin 0)))

/-- `if chain.smooth_value: hist = gaussian_filter(...)`, analysis.py 344-345. -/
noncomputable def fltSmooth (smooth : Int) (h : List (Flt ℝ)) : Res (List (Flt ℝ)) :=
  if smooth = 0 then .ok h
  else if 0 < smooth then .ok (fltFilter smooth.toNat h)
  else .error .unmodelled

/-- The piecewise linear function through points with finite abscissae, as in `polyline`. -/
noncomputable def fltPolyline : List (ℝ × Flt ℝ) → ℝ → Flt ℝ
  | [], _ => .fin 0
  | [p], _ => p.2
  | p :: q :: rest, x =>
    if x < q.1 then p.2.add (((q.2.sub p.2).div (.fin (q.1 - p.1))).mul (.fin (x - p.1))) else fltPolyline (q :: rest) x

/-- `interp1d(xp, fp)(x)`, analysis.py 357, as in `interp1d`. -/
noncomputable def fltInterp1d (xp : List ℝ) (fp : List (Flt ℝ)) (x : ℝ) : Res (Flt ℝ) :=
  match xp.head?, xp.getLast? with
  | some a, some b =>
    if x < a then .error .value else if b < x then .error .value
    else .ok (fltPolyline (xp.zip fp) x)
  | _, _ => .error .value

/-- `xs` and `ys` of `_get_smoothed_histogram` without KDE, analysis.py 332-345, 357. -/
noncomputable def fltMarginal (c : Chain ℝ) (col : String) (pad : Bool) : Res (List ℝ × List (Flt ℝ)) := do
  let data ← c.samples.get col
  let weights ← c.weights
  let bins ← marginalBins c data weights pad
  let hist ← fltHistDensity bins data weights
  let hist ← fltSmooth c.smoothValue (hist.map (fltPow c.power))
  let ab ← endpoints (midpoints bins)
  let xs := linspace ab.1 ab.2 gridSize
  let ys ← xs.mapM (fltInterp1d (midpoints bins) hist)
  return (xs, ys)

/-- `np.linspace` between doubles, analysis.py 652-653: the last entry is the end point. -/
noncomputable def fltLinspace (a b : Flt ℝ) (n : Nat) : List (Flt ℝ) :=
  ((List.range (n - 1)).map fun (i : Nat) => a.add ((Flt.fin (i : ℝ)).mul ((b.sub a).div (.fin ((n : ℝ) - 1))))) ++
    (if n = 0 then [] else [b])

/-- `a.argmax()` of doubles, analysis.py 658: the first NaN if there is one, otherwise the first greatest entry. -/
noncomputable def fltArgmax (l : List (Flt ℝ)) : Res Nat :=
  match l.findIdx? (fun v => decide (v = .nan)) with
  | some i => .ok i
  | none => firstWhere (fun v => l.all fun u => !(v.lt u)) l

/-- `a.cumsum()` of doubles, analysis.py 656. -/
noncomputable def fltCumsum (l : List (Flt ℝ)) : List (Flt ℝ) :=
  (List.range l.length).map fun i => fltSum (l.take (i + 1))

/-- Binary maximum as in `a.max()`: NaN wins. -/
noncomputable def fltMax (x y : Flt ℝ) : Flt ℝ :=
  if x = .nan ∨ y = .nan then .nan else if x.lt y then y else x

/-- `a.max()` of doubles, analysis.py 657; ValueError on an empty array. -/
noncomputable def fltArrMax : List (Flt ℝ) → Res (Flt ℝ)
  | [] => .error .value
  | x :: xs => .ok (xs.foldl fltMax x)

/-- The bisection of `get_parameter_summary_max`, analysis.py 659-684, as in `maxLoop`. -/
noncomputable def fltMaxLoop (ys cs : List (Flt ℝ)) (start : Nat) (area : ℝ) :
    Nat → Flt ℝ → Flt ℝ → Res (Option (Nat × Nat))
  | 0, _, _ => .ok none
  | fuel + 1, maxv, minv => do
    let mid := (maxv.add minv).div (.fin 2)
    let r1 ← firstWhere (fun y => y.lt mid) (ys.take start).reverse
    let r2 ← firstWhere (fun y => y.lt mid) (ys.drop start)
    let c2 ← atIndex cs (start + r2)
    let c1 ← atIndex cs (start - r1)
    let a := c2.sub c1
    if (fltAbs (a.sub (.fin area))).lt (.fin (3 / 1000)) then return some (start - r1, start + r2)
    else if a.lt (.fin area) then fltMaxLoop ys cs start area fuel mid minv
    else if (Flt.fin area).lt a then fltMaxLoop ys cs start area fuel maxv mid
    else fltMaxLoop ys cs start area fuel maxv minv

/-- The bound found, analysis.py 676-677, 684, 686. -/
def maxBound (xs : List ℝ) (xc : ℝ) : Option (Nat × Nat) → Res (Bound ℝ)
  | none => .ok ⟨none, some xc, none⟩
  | some i => do
    let x1 ← atIndex xs i.1
    let x2 ← atIndex xs i.2
    return ⟨some x1, some xc, some x2⟩

/-- `get_parameter_summary_max` from the marginal on, analysis.py 649-686. -/
noncomputable def fltSummaryMax (xs : List ℝ) (ys : List (Flt ℝ)) (area : ℝ) : Res (Bound ℝ) := do
  let xe ← endpoints xs
  let ye ← endpoints ys
  let xs := List.replicate padSize xe.1 ++ xs ++ List.replicate padSize xe.2
  let ys := fltLinspace (.fin 0) ye.1 padSize ++ ys ++ fltLinspace ye.2 (.fin 0) padSize
  let total ← fltArrMax (fltCumsum ys)
  let cs := (fltCumsum ys).map fun v => v.div total
  let start ← fltArgmax ys
  let top ← atIndex ys start
  let xc ← atIndex xs start
  let r ← fltMaxLoop ys cs start area 50 top (.fin 0)
  maxBound xs xc r

/-- `get_parameter_summary_max` of a chain without KDE, analysis.py 647-686. -/
noncomputable def fltParameterSummaryMax (c : Chain ℝ) (col : String) : Res (Bound ℝ) := do
  let m ← fltMarginal c col false
  fltSummaryMax m.1 m.2 (c.cfg .summaryArea)

/-- The entry of one parameter in `get_summary`, analysis.py 214-230, for chains with the statistic `max`, without KDE and not
multimodal. -/
noncomputable def fltSummaryEntry (c : Chain ℝ) (col : String) : Res (Summary ℝ) :=
  if c.cfg .statistics = some Stat.max ∧ c.cfg .kde = (0 : ℝ) ∧ c.cfg .multimodal = false then do
    let s ← fltParameterSummaryMax c col
    return .single s
  else .error .unmodelled

/-- The inner loop of `get_summary`, analysis.py 209-230, as in `chainSummary`. -/
noncomputable def fltChainSummary (c : Chain ℝ) :
    List String → List (String × Summary ℝ) → Res (List (String × Summary ℝ))
  | [], res => .ok res
  | p :: ps, res =>
    if p ∉ c.samples.columns then fltChainSummary c ps res
    else do
      let s ← fltSummaryEntry c p
      fltChainSummary c ps (dictSet res p s)

/-- The outer loop of `get_summary`, analysis.py 208-232, as in `summaryLoop`. -/
noncomputable def fltSummaryLoop (columns : List String) :
    List (Chain ℝ) → List (String × List (String × Summary ℝ)) → Res (List (String × List (String × Summary ℝ)))
  | [], res => .ok res
  | c :: cs, res => do
    let r ← fltChainSummary c columns []
    fltSummaryLoop columns cs (dictSet res c.name r)

/-- `get_summary` with the chains given, analysis.py 188-234. -/
noncomputable def fltGetSummary (chains : List (Chain ℝ)) (columns : Option (List String)) :
    Res (List (String × List (String × Summary ℝ))) :=
  fltSummaryLoop (sanitiseColumns columns chains) chains []

end CC
