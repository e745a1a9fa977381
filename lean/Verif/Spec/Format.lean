import Mathlib.Algebra.Order.Field.Basic
import Mathlib.Data.Int.Init

/-! # Specification: decimal numerals and displayed measurements -/

namespace CC.Spec

/-- The number written by a list of decimal digits. -/
def natOf (l : List Char) : ℕ := l.foldl (fun a c => 10 * a + (c.toNat - 48)) 0

/-- The string `s` is a decimal numeral with `d` decimals, and `v` is its value: an optional minus
sign, at least one digit, and for `d > 0` a point and `d` more digits. -/
def Numeral {K : Type} [Field K] (s : String) (d : ℕ) (v : K) : Prop :=
  ∃ (neg : Bool) (ip fp : List Char),
    s.toList = (if neg then ['-'] else []) ++ ip ++ (if d = 0 then [] else '.' :: fp) ∧
    ip ≠ [] ∧ fp.length = d ∧ (∀ c ∈ ip ++ fp, c.isDigit = true) ∧
    v = (if neg then -1 else 1) * ((natOf (ip ++ fp) : K) / 10 ^ d)

/-- The LaTeX text showing a centre `C` with an upper error `U` and a lower error `L`, or a common
error when `pm`, in units of `10^k`. -/
def layout (pm : Bool) (k : ℤ) (C U L : String) : String :=
  let body := if pm then C ++ "\\pm " ++ L else C ++ "^{+" ++ U ++ "}_{-" ++ L ++ "}"
  if k = 0 then body else "\\left( " ++ body ++ " \\right) \\times 10^{" ++ toString k ++ "}"

/-- The number that sets the precision: the smaller nonzero error, or the centre when both errors
vanish. -/
def scaleOf {K : Type} [Field K] [LinearOrder K] (lower center upper : K) : K :=
  if upper - center = 0 then (if center - lower = 0 then |center| else |center - lower|)
  else if center - lower = 0 then |upper - center|
  else min |upper - center| |center - lower|

end CC.Spec
