import Verif.Model.Diagnostic

/-! # diagnostic.py: `_spec`

`_spec` (diagnostic.py 151-155) calls `yule_walker` of statsmodels with `order=2` and its defaults: the mean is taken off,
the autocovariance at lag `k` is divided by `n - k`. -/

namespace CC

/-- The data less their mean, in `yule_walker` (diagnostic.py 154). -/
noncomputable def deviations (x : List ℝ) : List ℝ := x.map (· - meanOf x)

/-- The autocovariance at lag `k`, in `yule_walker` (diagnostic.py 154): the sum of `x[0:-k] * x[k:]` over `n - k`. -/
noncomputable def autoCov (x : List ℝ) (k : Nat) : ℝ :=
  (List.zipWith (· * ·) (deviations x) ((deviations x).drop k)).sum / ((x.length : ℝ) - k)

/-- The solution of the Yule-Walker equations of order 2, in `yule_walker` (diagnostic.py 154): `np.linalg.solve` of the Toeplitz
matrix of `r0, r1`, or its pseudo-inverse if that is singular. Simplification: doubles seldom make a singular matrix exactly singular. -/
noncomputable def yuleWalker (r0 r1 r2 : ℝ) : ℝ × ℝ :=
  if r0 ^ 2 - r1 ^ 2 ≠ 0 then
    (r1 * (r0 - r2) / (r0 ^ 2 - r1 ^ 2), (r0 * r2 - r1 ^ 2) / (r0 ^ 2 - r1 ^ 2))
  else if r0 = 0 then (0, 0)
  else ((r1 + r1 / r0 * r2) / (4 * r0), (r1 / r0 * r1 + r2) / (4 * r0))

/-- The variance of the innovations, in `yule_walker` (diagnostic.py 154). -/
noncomputable def innovation (r0 r1 r2 : ℝ) : ℝ := r0 - (r1 * (yuleWalker r0 r1 r2).1 + r2 * (yuleWalker r0 r1 r2).2)

/-- `_spec`, diagnostic.py 151-155. `yule_walker` returns NaN for `sigma` if the variance of the innovations is not positive. With
fewer than three values one of its divisors is zero, and so is its result NaN; simplification: for a single value the
pseudo-inverse may raise LinAlgError instead. -/
noncomputable def gewekeSpec (x : List ℝ) : Flt ℝ :=
  if x.length < 3 then .nan
  else
    let r0 := autoCov x 0
    let r1 := autoCov x 1
    let r2 := autoCov x 2
    if 0 < innovation r0 r1 r2 then
      Flt.div (.fin (√(innovation r0 r1 r2) ^ 2)) (.fin ((1 - ((yuleWalker r0 r1 r2).1 + (yuleWalker r0 r1 r2).2)) ^ 2))
    else .nan

end CC
