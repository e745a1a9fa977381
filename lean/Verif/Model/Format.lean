import Verif.Model.Summary
import Mathlib.Data.Int.Log
import Mathlib.Data.Nat.Digits.Defs

/-! # analysis.py: formatting of bounds, and Python's fixed-point number formatting

Exact arithmetic: the decimal rounding of `round(x, n)` and of `"%.nf"` is to the nearest multiple of
`10^-n`, ties to the even one, applied to the exact value. -/

namespace CC

/-- A double with its sign bit: sign and absolute value (so that `-0.0` can be told from `0.0`). -/
structure Signed (K : Type) where
  neg : Bool
  abs : K

/-- The digit `n < 10`. -/
def digitChar (n : Nat) : Char := Char.ofNat (48 + n)

/-- `str(n)` for a natural number. -/
def decDigits (n : Nat) : List Char :=
  if n = 0 then ['0'] else (Nat.digits 10 n).reverse.map digitChar

/-- The last `d` decimal digits of `n`. -/
def lastDigits (d n : Nat) : List Char :=
  (List.range d).map fun i => digitChar (n / 10 ^ (d - 1 - i) % 10)

/-- `n / 10^d` written with `d` decimals. -/
def unitsText (d n : Nat) : List Char :=
  decDigits (n / 10 ^ d) ++ (if d = 0 then [] else '.' :: lastDigits d (n % 10 ^ d))

/-- Left padding with blanks to a minimal width: the `5` in `f"{r:5.2f}"`, and `"%5s"`. -/
def padLeft (width : Nat) (s : List Char) : List Char := List.replicate (width - s.length) ' ' ++ s

section
variable {K : Type} [Field K] [LinearOrder K] [FloorRing K]

/-- The nearest integer to a non-negative number, ties to even. -/
def halfEven (x : K) : Nat :=
  let f := ⌊x⌋.toNat
  if x - f < 1 / 2 then f
  else if 1 / 2 < x - f then f + 1
  else if f % 2 = 0 then f else f + 1

/-- A real number as a double; zero has a positive sign. -/
def Signed.of (x : K) : Signed K := ⟨decide (x < 0), |x|⟩

/-- `x * c` for `c > 0`. -/
def Signed.mul (s : Signed K) (c : K) : Signed K := ⟨s.neg, s.abs * c⟩

/-- `round(x, r)`, analysis.py 475-477. -/
def Signed.round (r : Nat) (s : Signed K) : Signed K := ⟨s.neg, (halfEven (s.abs * 10 ^ r) : K) / 10 ^ r⟩

/-- `if maximum == -0.0: maximum = 0.0`, analysis.py 478-479. -/
def Signed.fixZero (s : Signed K) : Signed K := if s.abs = 0 then ⟨false, 0⟩ else s

/-- `"%0.<d>f" % x`, analysis.py 486-491. -/
def Signed.text (d : Nat) (s : Signed K) : String :=
  String.ofList ((if s.neg then ['-'] else []) ++ unitsText d (halfEven (s.abs * 10 ^ d)))

/-- `f"{x:<w>.<d>f}"` on doubles, analysis.py 377 (`5.2f`), comparisons.py 207-211 (`5.1f`). -/
def fixedWidth (w d : Nat) : Flt K → String
  | .fin x => String.ofList (padLeft w ((Signed.of x).text d).toList)
  | .posInf => String.ofList (padLeft w "inf".toList)
  | .negInf => String.ofList (padLeft w "-inf".toList)
  | .nan => String.ofList (padLeft w "nan".toList)

/-- `resolution`, analysis.py 447-454; `none` is `-inf = floor(log10(0))`. -/
def resolution (upperError lowerError center : K) : Option Int :=
  if upperError ≠ 0 ∧ lowerError ≠ 0 then
    some (min (Int.log 10 |upperError|) (Int.log 10 |lowerError|))
  else if upperError = 0 ∧ lowerError ≠ 0 then some (Int.log 10 |lowerError|)
  else if upperError ≠ 0 ∧ lowerError = 0 then some (Int.log 10 |upperError|)
  else if center ≠ 0 then some (Int.log 10 |center|) else none

/-- `factor`, analysis.py 455, 458-462. -/
def formatFactor (res : Int) : Int := if res = 2 then -1 else if 2 < |res| then -res else 0

/-- `r`, analysis.py 457, 463, 468, 471. -/
def formatRound (res : Int) : Nat :=
  if res = -1 then 2 else if res = -2 then 3 else if res = 2 then 0 else 1

/-- The number of decimals in `fmt`, analysis.py 456, 461, 465, 467, 470, 485. -/
def formatDecimals (res : Int) : Nat :=
  if res = -1 then 2 else if res = -2 then 3 else if res = 2 ∨ res = 1 then 0 else 1

/-- One number on its way to the text: scaled, rounded and, in units of ten, scaled back,
analysis.py 472-484. -/
def scaleRound (res : Int) (x : K) : Signed K :=
  ((Signed.of x).mul ((10 : K) ^ formatFactor res)).round (formatRound res)

/-- `x *= 10**-factor` when `resolution == 2`, analysis.py 480-484. -/
def scaleBack (res : Int) (s : Signed K) : Signed K :=
  if res = 2 then s.mul ((10 : K) ^ (-formatFactor res)) else s

/-- `text` before the power of ten, analysis.py 486-491. -/
def numberText (usePm : Bool) (d : Nat) (center upper lower : Signed K) : String :=
  if usePm && upper.text d == lower.text d then center.text d ++ "\\pm " ++ lower.text d
  else center.text d ++ "^{+" ++ upper.text d ++ "}_{-" ++ lower.text d ++ "}"

/-- `_format_single_bound`, analysis.py 443-494, for given limits. When all limits are 0,
`resolution` is `-inf` and `"%d" % -factor` raises OverflowError. Simplification: the powers of ten
are exact; in doubles they overflow for errors below `10^-308`. -/
def formatLimits (lower center upper : K) (usePm : Bool) : Res String :=
  match resolution (upper - center) (center - lower) center with
  | none => .error .overflow
  | some res =>
    let u := scaleBack res (scaleRound res (upper - center))
    let l := scaleBack res (scaleRound res (center - lower))
    let m := scaleBack res (scaleRound res center).fixZero
    let text := numberText usePm (formatDecimals res) m u l
    let factor := if res = 2 then 0 else formatFactor res
    .ok (if factor ≠ 0 then "\\left( " ++ text ++ " \\right) \\times 10^{" ++ toString (-factor) ++ "}"
      else text)

/-- `_format_single_bound`, analysis.py 443-494: subtraction with `None` raises TypeError. -/
def formatBound (b : Bound K) (usePm : Bool) : Res String :=
  match b.lower, b.center, b.upper with
  | some l, some c, some u => formatLimits l c u usePm
  | _, _, _ => .error .type

/-- `Bound.all_none`, analysis.py 64-66. -/
def Bound.allNone (b : Bound K) : Bool := b.lower.isNone && b.center.isNone && b.upper.isNone

/-- `f"${s}$"`, analysis.py 419, 426, 440. -/
def dollars (s : String) : String := "$" ++ s ++ "$"

/-- The single-bound branch of `get_parameter_text`, analysis.py 431-441; a label that is `None` or
empty is not shown. -/
def singleText (b : Bound K) (wrap : Bool) (label : Option String) : Res String :=
  match b.lower, b.center, b.upper with
  | some l, some c, some u => do
    let text ← formatLimits l c u true
    let text := if label.getD "" ≠ "" then label.getD "" ++ " = " ++ text else text
    return if wrap then dollars text else text
  | _, _, _ => .ok ""

/-- `f"I{index}: {entry}"`, analysis.py 421-427. -/
def modeLine (wrap : Bool) (bi : Bound K × Nat) : Res String := do
  let entry ← formatBound bi.1 false
  return "I" ++ toString (bi.2 + 1) ++ ": " ++ (if wrap then dollars entry else entry)

/-- `get_parameter_text`, analysis.py 382-441, for a bound or a list of bounds (`bound[0]` of an empty
list: IndexError). The entries of `lines` are never empty. -/
def parameterText (s : Option (Summary K)) (wrap : Bool) (label : Option String) : Res String :=
  match s with
  | none => .ok ""
  | some (.single b) => singleText b wrap label
  | some (.multi []) => .error .index
  | some (.multi [b]) => singleText b wrap label
  | some (.multi bs) =>
    let bounds := bs.filter fun b => !b.allNone
    if bounds = [] then .ok ""
    else do
      let entries ← bounds.zipIdx.mapM (modeLine wrap)
      let head := if label.getD "" ≠ "" then
        [if wrap then dollars (label.getD "") else label.getD ""] else []
      return String.intercalate "\n" (head ++ entries)

end
end CC
