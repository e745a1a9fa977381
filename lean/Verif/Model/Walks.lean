import Verif.Model.Figure

/-! # plotter.py: the running average of a walk -/

namespace CC

section
variable {K : Type} [Field K]

/-- Entry `k` of numpy's full convolution `Σ a[j] v[k - j]` (contract of `np.convolve`, plotter.py 1050). -/
def convolveAt (a v : List K) (k : Nat) : K :=
  ((List.range a.length).map fun j => if j ≤ k then a.getD j 0 * v.getD (k - j) 0 else 0).sum

/-- `np.convolve(a, v, mode="same")`, plotter.py 1050: as many entries as the longer array, from the middle of the full
convolution; ValueError if one is empty. -/
def convolveSame (a v : List K) : Res (List K) := do
  ensure .value (!a.isEmpty && !v.isEmpty)
  return (List.range (max a.length v.length)).map fun i => convolveAt a v (i + (min a.length v.length - 1) / 2)

/-- Python `l[t:-t]` for `t ≥ 0`, plotter.py 1051. -/
def trimmed {α : Type} (t : Nat) (l : List α) : List α := if t = 0 then [] else (l.take (l.length - t)).drop t

/-- The points of the running average, plotter.py 1046-1051. `np.ones` of a negative number raises ValueError, as does
`plot` with different numbers of abscissae and ordinates. -/
def runningAverage (data : List K) (convolve : Int) : Res (List (Nat × K)) := do
  ensure .value (decide (0 ≤ convolve))
  let n := convolve.toNat
  let filtered ← convolveSame data (List.replicate n (1 / (n : K)))
  let xs := trimmed (n / 2) (List.range data.length)
  let ys := trimmed (n / 2) filtered
  ensure .value (decide (xs.length = ys.length))
  return xs.zip ys

end

end CC
