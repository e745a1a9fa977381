import Verif.Model.Basic
import Mathlib.Algebra.Order.Field.Basic

/-! # Arithmetic on doubles with infinities and NaN (contract of numpy)

Simplifications: finite arithmetic is exact, and zero is unsigned (a zero divisor counts as `+0`). -/

namespace CC.Flt
variable {K : Type} [Field K] [LinearOrder K]

/-- `-x`. -/
def neg : Flt K → Flt K
  | fin x => fin (-x)
  | posInf => negInf
  | negInf => posInf
  | nan => nan

/-- `x + y`. -/
def add : Flt K → Flt K → Flt K
  | fin x, fin y => fin (x + y)
  | nan, _ => nan
  | _, nan => nan
  | posInf, negInf => nan
  | negInf, posInf => nan
  | posInf, _ => posInf
  | _, posInf => posInf
  | negInf, _ => negInf
  | _, negInf => negInf

/-- `x - y`. -/
def sub (x y : Flt K) : Flt K := add x (neg y)

/-- The infinity or NaN resulting from an infinity times a number with the sign of `x`. -/
def infTimes (x : K) : Flt K := if 0 < x then posInf else if x < 0 then negInf else nan

/-- `x * y`. -/
def mul : Flt K → Flt K → Flt K
  | fin x, fin y => fin (x * y)
  | nan, _ => nan
  | _, nan => nan
  | posInf, fin y => infTimes y
  | fin x, posInf => infTimes x
  | negInf, fin y => neg (infTimes y)
  | fin x, negInf => neg (infTimes x)
  | posInf, posInf => posInf
  | posInf, negInf => negInf
  | negInf, posInf => negInf
  | negInf, negInf => posInf

/-- numpy's `x / y` (no exception on a zero divisor). -/
def div : Flt K → Flt K → Flt K
  | fin x, fin y => if y = 0 then infTimes x else fin (x / y)
  | nan, _ => nan
  | _, nan => nan
  | fin _, _ => fin 0
  | posInf, fin y => if y < 0 then negInf else posInf
  | negInf, fin y => if y < 0 then posInf else negInf
  | _, _ => nan

/-- `x < y`; comparisons with NaN are false. -/
def lt : Flt K → Flt K → Bool
  | fin x, fin y => decide (x < y)
  | negInf, fin _ => true
  | negInf, posInf => true
  | fin _, posInf => true
  | _, _ => false

/-- Binary minimum as in `np.min`: NaN wins. -/
def minNan : Flt K → Flt K → Flt K
  | nan, _ => nan
  | _, nan => nan
  | x, y => if lt y x then y else x

end CC.Flt
