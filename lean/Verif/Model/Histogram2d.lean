import Verif.Model.Kde

/-! # helpers.py: two-dimensional histograms -/

namespace CC

section
variable {K : Type} [Field K] [LinearOrder K]

/-- The weight in cell `(i, j)` of `np.histogram2d`, helpers.py 98, 102. -/
def cellMass (ex ey x y w : List K) (i j : Nat) : K :=
  ((x.zip (y.zip w)).map fun p => if inBin ex i p.1 && inBin ey j p.2.1 then p.2.2 else 0).sum

/-- `np.histogram2d(x, y, bins=[ex, ey], weights=w)[0]`, helpers.py 98, 102: rows are bins of `x`. Edges
that decrease raise ValueError. -/
def histogram2d (ex ey x y w : List K) : Res (List (List K)) := do
  ensure .value ((List.zipWith (fun l r => decide (l ≤ r)) ex ex.tail).all id)
  ensure .value ((List.zipWith (fun l r => decide (l ≤ r)) ey ey.tail).all id)
  return (List.range (ex.length - 1)).map fun i => (List.range (ey.length - 1)).map fun j => cellMass ex ey x y w i j

/-- `a.min()`; ValueError on an empty array (helpers.py 112, 113). -/
def arrMin : List K → Res K
  | [] => .error .value
  | x :: xs => .ok (xs.foldl min x)

/-- The rows and columns of an array of `n` columns exchanged, for a filter along the first axis (helpers.py 121). -/
def transpose (n : Nat) (h : List (List K)) : List (List K) :=
  (List.range n).map fun j => h.map fun r => r.getD j 0

end

/-- A two-dimensional histogram with the coordinates of its cells, helpers.py 123. -/
structure Hist2d where
  hist : List (List ℝ)
  xs : List ℝ
  ys : List ℝ

/-- The bins of both axes, helpers.py 95-102. -/
noncomputable def bins2d (c : Chain ℝ) (x y w : List ℝ) : Res (List ℝ × List ℝ) :=
  if c.grid then do
    let bx ← getGridBins x
    let by' ← getGridBins y
    return (bx, by')
  else do
    let bx ← getSmoothedBins c.smoothValue (getBins c) x w false false
    let by' ← getSmoothedBins bx.2 (getBins c) y w false false
    return (bx.1, by'.1)

/-- `hist**power` of an array of rows, helpers.py 104-105, 118-119. -/
noncomputable def powRows (h : List (List ℝ)) (power : ℝ) : Res (List (List ℝ)) := h.mapM fun r => powAll r power

/-- `gaussian_filter(hist, smooth, mode="reflect")` in two dimensions: along the first axis, then along the
second (helpers.py 120-121). Negative values are not modelled. -/
noncomputable def smoothRows (smooth : Int) (n : Nat) (h : List (List ℝ)) : Res (List (List ℝ)) :=
  if smooth = 0 then .ok h
  else if 0 < smooth then
    .ok ((transpose h.length ((transpose n h).map (gaussianFilter smooth.toNat))).map (gaussianFilter smooth.toNat))
  else .error .unmodelled

/-- `MegKDE(data, w, t).evaluate(coords)` for two columns, helpers.py 114-117. The third positional argument
of the constructor is the *truncation* (kde.py 12-19), so the bandwidth factor keeps its default 1. -/
noncomputable def megKde2d (near : NearFn) (x y w : List ℝ) (t : ℝ) (xs ys : List ℝ) : Res (List (List ℝ)) :=
  if h : y.length = x.length ∧ w.length = x.length then do
    let k ← Kde.make (n := x.length) (p := 2) (fun i => ![x[i], y[i.val]'(by omega)])
      (fun i => w[i.val]'(by omega)) t 4 1
    xs.mapM fun a => ys.mapM fun b => k.at near ![a, b]
  else .error .value

/-- The density on the doubled grid by KDE, helpers.py 110-119. -/
noncomputable def kde2d (near : NearFn) (c : Chain ℝ) (x y w bx by' : List ℝ) : Res Hist2d := do
  let nn := (midpoints bx).length * 2
  let x0 ← arrMin bx
  let x1 ← arrMax bx
  let y0 ← arrMin by'
  let y1 ← arrMax by'
  let xs := linspace x0 x1 nn
  let ys := linspace y0 y1 nn
  let h ← megKde2d near x y w (c.cfg .kde) xs ys
  let h ← powRows h c.power
  return ⟨h, xs, ys⟩

/-- `get_smoothed_histogram2d`, helpers.py 76-123. -/
noncomputable def smoothedHistogram2d (near : NearFn) (c : Chain ℝ) (px py : String) : Res Hist2d := do
  let x ← c.samples.get px
  let y ← c.samples.get py
  let w ← c.weights
  let (bx, by') ← bins2d c x y w
  let h ← histogram2d bx by' x y w
  let h ← powRows h c.power
  if c.cfg .kde ≠ (0 : ℝ) then kde2d near c x y w bx by'
  else do
    let h ← smoothRows c.smoothValue (by'.length - 1) h
    return ⟨h, midpoints bx, midpoints by'⟩

/-- `MegKDE(data, weights, t).evaluate(targets)` for one column in `plot_dist`, plotting/contours.py 96-98: again the
setting is passed as the truncation. -/
noncomputable def distKde (near : NearFn) (data w : List ℝ) (t : ℝ) (targets : List ℝ) : Res (List ℝ) :=
  if h : w.length = data.length then do
    let k ← Kde.make (n := data.length) (p := 1) (fun i _ => data[i]) (fun i => w[i.val]'(by omega)) t 4 1
    k.evaluate near (targets.map fun t _ => t)
  else .error .value

end CC
