import Verif.Model.Request
import Verif.Model.Format
import Verif.Model.Latex
import Verif.Model.Covariance

/-! # analysis.py: LaTeX tables of parameters, covariances and correlations -/

namespace CC

/-- `PlotConfig.get_label`, plotting/config.py 75-76. -/
def getLabel (labels : List (String × String)) (col : String) : String := (labels.lookup col).getD col

/-- The arguments of `get_latex_table`, analysis.py 88-98, and the plot configuration it reads.
`filename` is not modelled: the same text is also written to a file. -/
structure TableOpts where
  columns : Option (List String) := none
  transpose : Bool := false
  caption : Option String := none
  label : Option String := some "tab:model_params"
  hlines : Bool := true
  blankFill : String := "--"
  labels : List (String × String) := []
  blind : Blind := .bool false

/-- The pieces of the table: column specification, header cells, row cells. -/
structure TableParts where
  columnText : String
  header : List String
  rows : List (List String)

/-- The cell of one parameter in one chain's results, analysis.py 157-160, 171-174. -/
noncomputable def tableCell (blank : String) (res : List (String × Summary ℝ)) (p : String) :
    Res String :=
  match res.lookup p with
  | some s => parameterText (some s) true none
  | none => .ok blank

/-- `get_latex_table` from the final chains, their results and the unblinded columns, analysis.py
135-175. The first cell of each row starts with two tabs. -/
noncomputable def tableParts (o : TableOpts) (names : List String)
    (fit : List (String × List (String × Summary ℝ))) (cols : List String) : Res TableParts := do
  if o.transpose then
    let rows ← cols.mapM fun p => do
      let cells ← fit.mapM fun e => tableCell o.blankFill e.2 p
      return ("\t\t" ++ getLabel o.labels p) :: cells
    return { columnText := repeatChar 'c' (names.length + 1)
             header := "Parameter" :: names
             rows := rows }
  else
    let rows ← fit.mapM fun e => do
      let cells ← cols.mapM (tableCell o.blankFill e.2)
      return ("\t\t" ++ e.1) :: cells
    return { columnText := repeatChar 'c' (cols.length + 1)
             header := "Model" :: cols.map (getLabel o.labels)
             rows := rows }

/-- `" & ".join(cells) + end_text`, analysis.py 151, 161, 163-165, 175. -/
def tableLine (cells : List String) : String := String.intercalate " & " cells ++ " \\\\ \n"

/-- `center_text`, analysis.py 146-177. -/
def tableCenter (hlines : Bool) (p : TableParts) : String :=
  (if hlines then "\\hline\n\t\t" else "") ++ tableLine p.header ++
    (if hlines then "\t\t\\hline\n" else "") ++ String.join (p.rows.map tableLine) ++
    (if hlines then "\t\t\\hline\n" else "")

/-- The pieces of `get_latex_table`, analysis.py 130-175. -/
noncomputable def latexTableParts (kde : KdeFn) (h : Heap ℝ) (s : Consumer ℝ) (req : ChainReq ℝ)
    (o : TableOpts) : Res TableParts := do
  let final ← finalDict h s
  let chains ← plotChains final req false
  let all := sanitiseColumns o.columns chains
  let blind := sanitiseBlinds o.blind all
  let cols := all.filter fun c => c ∉ blind
  let fit ← getSummary kde h s (some chains) none
  tableParts o (chains.map Chain.name) fit cols

/-- `get_latex_table`, analysis.py 88-186. -/
noncomputable def latexTable (kde : KdeFn) (h : Heap ℝ) (s : Consumer ℝ) (req : ChainReq ℝ)
    (o : TableOpts) : Res String := do
  let p ← latexTableParts kde h s req o
  pyMod (latexFrame (o.caption.getD "") (o.label.getD "")) [p.columnText, tableCenter o.hlines p]

section
variable {K : Type} [Field K] [LinearOrder K] [FloorRing K]

/-- One row of `_get_2d_latex_table`, analysis.py 375-378. -/
def matrixLine (width : Nat) (p : String) (row : List (Flt K)) : String :=
  "        " ++ String.ofList (padLeft width p.toList) ++
    String.join (row.map fun r => " & " ++ fixedWidth 5 2 r) ++ " \\\\ \n"

/-- `_get_2d_latex_table`, analysis.py 362-380. `max([])` raises ValueError; iterating over the 0-d
array of a single column raises TypeError. -/
def matrixTable (labels : List (String × String)) (m : NamedMatrix K) (caption label : String) :
    Res String := do
  let params := m.columns.map (getLabel labels)
  match params.map String.length with
  | [] => .error .value
  | n :: ns =>
    let width := ns.foldl max n
    match m.array with
    | .scalar _ => .error .type
    | .matrix rows =>
      let table := String.intercalate " & " ("" :: params) ++ "\\\\ \n" ++ "        \\hline\n" ++
        String.join (List.zipWith (matrixLine width) params rows) ++ "        \\hline\n"
      pyMod (latexFrame caption label) ["c|" ++ repeatChar 'c' params.length, table]

/-- The `chain` argument of the two tables, analysis.py 268, 297. -/
inductive ChainArg (K : Type)
  | name (n : String)
  | obj (c : Chain K)
  | none

/-- Its resolution, analysis.py 285-290, 314-319: unknown names and an unspecified chain among
several fail an assertion. Registered references point to heap objects. -/
def tableChain (h : Heap K) (s : Consumer K) : ChainArg K → Res (Chain K)
  | .name n => do
    let r ← s.getChain n
    match h[r]? with
    | some c => return c
    | .none => .error .type
  | .obj c => .ok c
  | .none => match s.chains with
    | [e] => match h[e.2]? with
      | some c => .ok c
      | .none => .error .type
    | _ => .error .assertion

/-- `get_covariance_table`, analysis.py 295-322. -/
def covarianceTable (h : Heap K) (s : Consumer K) (labels : List (String × String)) (arg : ChainArg K)
    (columns : Option (List String)) (caption label : String) : Res String := do
  let c ← tableChain h s arg
  let m ← c.getCovariance columns
  matrixTable labels m caption label

end

/-- `get_correlation_table`, analysis.py 266-293. -/
noncomputable def correlationTable (h : Heap ℝ) (s : Consumer ℝ) (labels : List (String × String))
    (arg : ChainArg ℝ) (columns : Option (List String)) (caption label : String) : Res String := do
  let c ← tableChain h s arg
  let m ← c.getCorrelation columns
  matrixTable labels m caption label

end CC
