import Verif.Model.Basic
import Mathlib.Algebra.Order.Field.Basic
import Mathlib.Algebra.BigOperators.Group.List.Basic

/-!
# The parts of pandas and numpy that chain.py relies on

These are contracts of external libraries (trusted base), written as executable definitions.
-/

namespace CC

/-- A row label of a DataFrame index. Simplification: only integer and string labels. -/
inductive Label
  | int (i : Int) | str (s : String)
deriving DecidableEq, Repr

/-- A column label: a string, or something that is not a `str` (chain.py 258). -/
inductive ColLabel
  | str (s : String) | other (i : Int)
deriving DecidableEq, Repr

/-- A `pd.DataFrame` as the user passes it (chain.py 103-106): arbitrary labels and doubles. -/
structure RawFrame (K : Type) where
  index : List Label
  cols : List (ColLabel × List (Flt K))
deriving DecidableEq, Repr

/-- A `pd.DataFrame` of a constructed chain: string column labels, finite values. -/
structure Frame (K : Type) where
  index : List Label
  cols : List (String × List K)
deriving DecidableEq, Repr

/-- Shape invariant of a DataFrame with distinct column labels. Simplification: pandas permits
duplicate column labels, the model does not. -/
def RawFrame.WF {K : Type} (f : RawFrame K) : Prop :=
  (f.cols.map Prod.fst).Nodup ∧ ∀ c ∈ f.cols, c.2.length = f.index.length

/-- Shape invariant of a DataFrame with distinct column labels. -/
def Frame.WF {K : Type} (f : Frame K) : Prop :=
  (f.cols.map Prod.fst).Nodup ∧ ∀ c ∈ f.cols, c.2.length = f.index.length

/-- `pd.DataFrame.empty`: an axis of length zero (chain.py 245, 190). -/
def RawFrame.empty {K : Type} (f : RawFrame K) : Bool := f.index.isEmpty || f.cols.isEmpty

/-- `pd.DataFrame.empty` (chain.py 190). -/
def Frame.empty {K : Type} (f : Frame K) : Bool := f.index.isEmpty || f.cols.isEmpty

/-- `samples.columns`. -/
def Frame.columns {K : Type} (f : Frame K) : List String := f.cols.map Prod.fst

/-- `samples[name]`; KeyError if absent (chain.py 299-301). -/
def Frame.get {K : Type} (f : Frame K) (name : String) : Res (List K) :=
  match f.cols.lookup name with
  | none => .error .key
  | some v => .ok v

/-- `samples[name] = v` for an existing column. -/
def Frame.set {K : Type} (f : Frame K) (name : String) (v : List K) : Frame K :=
  { f with cols := f.cols.map fun c => if c.1 = name then (name, v) else c }

/-- `samples[names]`, selection of several columns in the given order; KeyError if one is absent
(chain.py 176, 382). -/
def Frame.getMany {K : Type} (f : Frame K) : List String → Res (List (List K))
  | [] => .ok []
  | n :: ns => do
    let v ← f.get n
    let vs ← f.getMany ns
    return v :: vs

/-- The frame seen as raw user data again (chain.py 349-353 passes a DataFrame to `Chain`). -/
def Frame.toRaw {K : Type} (f : Frame K) : RawFrame K :=
  { index := f.index, cols := f.cols.map fun c => (.str c.1, c.2.map .fin) }

/-- Rows `start, …, start+n-1` of a frame. -/
def Frame.rows {K : Type} (f : Frame K) (start n : Nat) : Frame K :=
  { index := (f.index.drop start).take n
    cols := f.cols.map fun c => (c.1, (c.2.drop start).take n) }

/-- `np.split(samples, k)` for integer `k` (chain.py 346, diagnostic.py 76, 131): `k` consecutive
blocks of equal size, ValueError if the rows do not divide evenly; row labels are kept. -/
def Frame.split {K : Type} (f : Frame K) (k : Nat) : Res (List (Frame K)) := do
  ensure .value (f.index.length % k == 0)
  let n := f.index.length / k
  return (List.range k).map fun i => f.rows (i * n) n

/-- `samples.iloc[i]` as a dictionary in column order. -/
def Frame.row {K : Type} (f : Frame K) (i : Nat) : List (String × K) :=
  f.cols.filterMap fun c => (c.2[i]?).map fun v => (c.1, v)

/-- Positions whose row label equals `l` (label based `samples.loc[l]`, chain.py 200). -/
def Frame.positions {K : Type} (f : Frame K) (l : Label) : List Nat :=
  (List.range f.index.length).filter fun i => f.index[i]? = some l

section Num
variable {K : Type} [Field K]

/-- `Σ aᵢ bᵢ`. -/
def dot (a b : List K) : K := (List.zipWith (· * ·) a b).sum

/-- `np.average(x, weights=w)` (chain.py 264, comparisons.py 44, 47): ZeroDivisionError when the
weights sum to zero. -/
def average [DecidableEq K] (x w : List K) : Res K :=
  if w.sum = 0 then .error .zeroDivision else .ok (dot x w / w.sum)

end Num

/-- `argmax` of a list: the first position of the maximum (chain.py 199, numpy semantics);
`none` on an empty list, where numpy raises ValueError. -/
def argmax {K : Type} [LT K] [DecidableLT K] : List K → Option Nat
  | [] => none
  | x :: xs => match argmax xs with
    | none => some 0
    | some j => match xs[j]? with
      | some y => if x < y then some (j + 1) else some 0
      | none => some 0

end CC
