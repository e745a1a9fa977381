/-!
# Shared conventions of the model

Python exceptions are values of type `Err`; a Python function that may raise is modelled as a
function into `Res α = Except Err α`.
-/

namespace CC

/-- The exception classes that the modelled code can raise. `validation` is
`pydantic.ValidationError`, into which pydantic turns every `ValueError`/`AssertionError` raised
inside a validator (chain.py 243-297). The others keep their Python class. `unmodelled` is not an
exception: it marks inputs on which the code goes on computing with NaN or infinite array entries,
which the model does not follow; no theorem claims anything about the code there. -/
inductive Err
  | assertion | value | validation | key | index | zeroDivision | stopIteration | type | overflow
  | unmodelled
deriving DecidableEq, Repr

/-- Result of a Python call: a value or a raised exception. -/
abbrev Res (α : Type _) := Except Err α

/-- Python `assert cond` / `if not cond: raise e`. -/
def ensure (e : Err) (b : Bool) : Res Unit := if b then .ok () else .error e

/-- An IEEE double as the code observes it: finite, ±inf or NaN. Finite values are elements of `K`
(simplification: exact arithmetic, no rounding). -/
inductive Flt (K : Type _)
  | fin (x : K) | posInf | negInf | nan
deriving DecidableEq, Repr

namespace Flt
variable {K : Type _}

/-- `np.isfinite` (used in chain.py 259, 280, 283). -/
def isFinite : Flt K → Bool
  | fin _ => true
  | _ => false

/-- The finite value, if any. -/
def toFin? : Flt K → Option K
  | fin x => some x
  | _ => none

/-- `x > 0` on doubles: NaN compares false, +inf true (chain.py 255). -/
def gtZero [Zero K] [LT K] [DecidableLT K] : Flt K → Bool
  | fin x => decide (0 < x)
  | posInf => true
  | _ => false

/-- `x >= 0` on doubles, the pydantic `ge=0` constraint (chain.py 129-138, 147-151). -/
def geZero [Zero K] [LE K] [DecidableLE K] : Flt K → Bool
  | fin x => decide (0 ≤ x)
  | posInf => true
  | _ => false

/-- Multiplication of a double by a positive finite constant (chainconsumer.py 172). -/
def scalePos [Mul K] (c : K) : Flt K → Flt K
  | fin x => fin (x * c)
  | posInf => posInf
  | negInf => negInf
  | nan => nan

end Flt

/-- Python `s.lower()` restricted to ASCII. Simplification: non-ASCII letters are left alone; no
non-ASCII character lowers to a letter occurring in the reserved names of chain.py 160-168. -/
def pyLower (s : String) : String := String.ofList (s.toList.map Char.toLower)

/-- Python `dict` as an association list in insertion order; `d[k] = v`. -/
def dictSet {α β : Type _} [DecidableEq α] (d : List (α × β)) (k : α) (v : β) : List (α × β) :=
  if k ∈ d.map Prod.fst then d.map (fun e => if e.1 = k then (k, v) else e) else d ++ [(k, v)]

/-- Python `d.pop(k)`: the dictionary after removal (insertion order of the rest is kept). -/
def dictPop {α β : Type _} [DecidableEq α] (d : List (α × β)) (k : α) : List (α × β) :=
  d.filter (fun e => e.1 ≠ k)

/-- Python `d | e` on dictionaries, also `d |= e`. -/
def dictMerge {α β : Type _} [DecidableEq α] (d e : List (α × β)) : List (α × β) :=
  e.foldl (fun acc kv => dictSet acc kv.1 kv.2) d

end CC
