import Verif.Model.Comparison
import Verif.Model.Latex

/-! # comparisons.py: the LaTeX table of model comparisons -/

namespace CC

/-- The accepted values of `sort`, comparisons.py 147. Simplification: other strings, which fail the
assertion of line 173, are not modelled. -/
inductive Crit
  | aic | bic | dic
deriving DecidableEq, Repr

/-- The arguments of `comparison_table`, comparisons.py 139-149. -/
structure CompOpts where
  caption : Option String := none
  label : String := "tab:model_comp"
  hlines : Bool := true
  aic : Bool := true
  bic : Bool := true
  dic : Bool := true
  sort : Crit := .bic
  descending : Bool := true

/-- Is the column of a criterion switched on? -/
def CompOpts.on (o : CompOpts) : Crit → Bool
  | .aic => o.aic
  | .bic => o.bic
  | .dic => o.dic

/-- The pieces from which the table is assembled: the LaTeX column specification, the header line,
the chain names in row order, and the row lines. -/
structure CompParts where
  columnText : String
  header : String
  names : List String
  lines : List String

/-- Row labels of `pd.DataFrame(series)` for a dict of dicts (comparisons.py 202): the union of the
keys in order of first appearance. -/
def unionKeys {α : Type} : List (List (String × α)) → List String
  | [] => []
  | d :: ds => let rest := unionKeys ds
    d.map Prod.fst ++ rest.filter fun n => n ∉ d.map Prod.fst

/-- A cell of that table: NaN where the dict has no such key. -/
def cellOf {K : Type} (d : List (String × Flt K)) (n : String) : Flt K := (d.lookup n).getD .nan

section
variable {K : Type} [Field K] [LinearOrder K]

/-- Insertion into a list sorted by a key, before the first greater element. -/
def insertKey (key : String → Flt K) (n : String) : List String → List String
  | [] => [n]
  | m :: ms => if (key n).lt (key m) then n :: m :: ms else m :: insertKey key n ms

/-- Stable ascending sort by a key that is never NaN. -/
def sortKey (key : String → Flt K) (l : List String) : List String :=
  l.foldl (fun acc n => insertKey key n acc) []

/-- `df.sort_values(by=…, ascending=…)` (comparisons.py 202): NaN last; descending order sorts the
reversed rows and reverses the result. Simplification: a stable sort, whereas pandas' default
sorting does not specify the order of equal keys. -/
def sortValues (key : String → Flt K) (descending : Bool) (l : List String) : List String :=
  let isNan := fun n => match key n with | .nan => true | _ => false
  let fins := l.filter fun n => !isNan n
  let nans := l.filter isNan
  (if descending then (sortKey key fins.reverse).reverse else sortKey key fins) ++ nans

end

/-- The line of one chain, comparisons.py 204-213; `fmt` is `f"{x:5.1f}"`. -/
def compLine {K : Type} (o : CompOpts) (fmt : Flt K → String) (a b d : String → Flt K)
    (n : String) : String :=
  "\t" ++ n ++ (if o.aic then "  &  " ++ fmt (a n) ++ "  " else "") ++
    (if o.bic then "  &  " ++ fmt (b n) ++ "  " else "") ++
    (if o.dic then "  &  " ++ fmt (d n) ++ "  " else "") ++ " \\\\ \n"

/-- The header line, comparisons.py 188-190. -/
def compHeader (o : CompOpts) : String :=
  "\tModel" ++ (if o.aic then " & AIC" else "") ++ (if o.bic then " & BIC " else "") ++
    (if o.dic then " & DIC " else "") ++ " \\\\ \n"

/-- `if flag: series[name] = self.criterion()`, comparisons.py 195-200. -/
def onlyIf {α : Type} (b : Bool) (r : Res (List α)) : Res (List α) := if b then r else .ok []

/-- `comparison_table` up to the final assembly, comparisons.py 167-213. -/
noncomputable def compParts (tie : List (List ℝ) → List ℝ → Nat) (fmt : Flt ℝ → String)
    (o : CompOpts) (cs : List (String × Chain ℝ)) : Res CompParts := do
  ensure .assertion (o.on o.sort)
  let a ← onlyIf o.aic (aic cs)
  let b ← onlyIf o.bic (bic cs)
  let d ← onlyIf o.dic (dic tie cs)
  let key := cellOf (match o.sort with | .aic => a | .bic => b | .dic => d)
  let names := sortValues key o.descending (unionKeys [a, b, d])
  let numCols := 1 + (if o.aic then 1 else 0) + (if o.bic then 1 else 0)
  return { columnText := repeatChar 'c' (numCols + 1)
           header := compHeader o
           names := names
           lines := names.map (compLine o fmt (cellOf a) (cellOf b) (cellOf d)) }

/-- `comparison_table`, comparisons.py 139-217. -/
noncomputable def comparisonTable (tie : List (List ℝ) → List ℝ → Nat) (fmt : Flt ℝ → String)
    (o : CompOpts) (cs : List (String × Chain ℝ)) : Res String := do
  let p ← compParts tie fmt o cs
  let center := (if o.hlines then "\\hline\n" else "") ++ p.header ++
    (if o.hlines then "\t\\hline\n" else "") ++ String.join p.lines ++
    (if o.hlines then "\t\\hline\n" else "")
  pyMod (latexFrame (o.caption.getD "") o.label) [p.columnText, center]

end CC
