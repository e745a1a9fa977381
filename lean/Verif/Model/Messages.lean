import Verif.Model.Comparison
import Verif.Model.Diagnostic
import Verif.Model.Format
import Verif.Model.Request

/-! # Messages to the user: comparisons.py, diagnostic.py, analysis.py and chain.py

The messages are lists of texts in the order in which they are issued, up to an exception if there is one. Python's handling of
repeated warnings and the levels of loggers are not modelled: a message is what is passed to `logger.warning`, `logger.info`,
`logging.warning` or `warnings.warn`. -/

namespace CC

/-- Python `s[:-2]` (comparisons.py 85, 129). -/
def dropLastTwo (s : String) : String := String.ofList s.toList.dropLast.dropLast

section
variable {K : Type} [Field K] [LinearOrder K]

/-- The text of what is missing, comparisons.py 77-85 and 121-129. -/
def missingText (c : Chain K) : String :=
  let m := ""
  let m := if c.logPosterior.isNone then m ++ "posterior, " else m
  let m := if c.numEffDataPoints.isNone then m ++ "num_eff_data_points, " else m
  let m := if c.numFreeParams.isNone then m ++ "num_free_params, " else m
  dropLastTwo m

/-- The messages of the loop over the registry for one criterion (comparisons.py 39-50, 74-87, 118-132): one for each chain
without a value, until a value raises. -/
def criterionMessages (value : Chain K → Res (Option (Flt K))) (text : String × Chain K → String) :
    List (String × Chain K) → List String
  | [] => []
  | e :: es => match value e.2 with
    | .error _ => []
    | .ok none => text e :: criterionMessages value text es
    | .ok (some _) => criterionMessages value text es

/-- The messages of `aic`, comparisons.py 118-132: the chain is named by its attribute `name`. -/
def aicMessages (cs : List (String × Chain K)) : List String :=
  criterionMessages Chain.aicValue
    (fun e => "You need to set " ++ missingText e.2 ++ " for chain " ++ e.2.name ++ " to get the AIC") cs

/-- The messages of `dic`, comparisons.py 39-50. -/
def dicMessages (tie : List (List K) → List K → Nat) (cs : List (String × Chain K)) : List String :=
  criterionMessages (Chain.dicValue tie)
    (fun e => "You need to set the posterior for chain " ++ e.2.name ++ " to get the DIC") cs

/-- The messages of `max_posterior_row`, chain.py 196-198. -/
def rowMessages (c : Chain K) : List String :=
  if c.posteriorColumn ∉ c.samples.columns then ["No posterior column found, cannot find max posterior"] else []

end

/-- The messages of `bic`, comparisons.py 74-87: the chain is named by its key in the registry. -/
noncomputable def bicMessages (cs : List (String × Chain ℝ)) : List String :=
  criterionMessages Chain.bicValue
    (fun e => "You need to set " ++ missingText e.2 ++ " for chain " ++ e.1 ++ " to get the BIC") cs

/-- The messages of `gelman_rubin` for one chain, diagnostic.py 70-93: a header and a line for each parameter. -/
noncomputable def gelmanMessages (threshold : ℝ) (c : Chain ℝ) : List String :=
  match c.samples.getMany c.dataColumns with
  | .error _ => []
  | .ok X =>
    if c.samples.index.length % c.walkers ≠ 0 then []
    else if c.walkers ≤ 1 then []
    else ("Gelman-Rubin Statistic values for chain " ++ c.name) ::
      (c.dataColumns.zip X).map fun e =>
        let r := gelmanR c.walkers e.2
        let pas := (fltAbs (r.sub (.fin 1))).lt (.fin threshold)
        e.1 ++ ": " ++ fixedWidth 7 5 r ++ " (" ++ (if pas then "Passed" else "Failed") ++ ")"

/-- The messages of `gelman_rubin`, diagnostic.py 62-95: chain by chain, until one raises. -/
noncomputable def gelmanLog (threshold : ℝ) : List (Chain ℝ) → List String
  | [] => []
  | c :: cs => match gelmanOne threshold c with
    | .error _ => gelmanMessages threshold c
    | .ok _ => gelmanMessages threshold c ++ gelmanLog threshold cs

/-- The warning of `get_parameter_summary_hdi`, analysis.py 509-522. -/
def hdiWarning (c : Chain ℝ) (col : String) : List String :=
  match c.samples.get col with
  | .error _ => []
  | .ok data =>
    if data.length ≤ 512 then
      ["Only " ++ toString data.length ++ " samples available to compute an HDI for column '" ++ col ++ "' in chain '" ++ c.name ++
        "'. Results may be unreliable; consider enabling KDE or providing more samples."]
    else []

/-- The warning of `get_parameter_summary_max`, analysis.py 659-684: issued where `ValueError("Failed to converge")` is caught. -/
noncomputable def maxWarning (kde : KdeFn) (c : Chain ℝ) (col : String) : Res (List String) := do
  let m ← smoothedHistogram kde c col false none
  let p ← padded m padSize
  let total ← arrMax (cumsum p.2)
  ensure .unmodelled (decide (total ≠ 0))
  let cs := (cumsum p.2).map (· / total)
  let start ← arrArgmax p.2
  let top ← atIndex p.2 start
  match ← maxLoop p.2 cs start (c.cfg .summaryArea : ℝ) 50 top 0 with
  | none => return ["Parameter " ++ col ++ " in chain " ++ c.name ++ " is not constrained"]
  | some _ => return []

/-- The messages of `get_parameter_summary`, analysis.py 262-264 with 80-86. The intervals of multimodal summaries
(lines 218-228) issue none. -/
noncomputable def parameterMessages (kde : KdeFn) (c : Chain ℝ) (col : String) : List String :=
  match c.cfg .statistics with
  | some .hdi => hdiWarning c col
  | some .max => match maxWarning kde c col with
    | .error _ => []
    | .ok l => l
  | _ => []

/-- The messages of the inner loop of `get_summary`, analysis.py 209-230, and whether it was left by an exception. -/
noncomputable def chainMessages (kde : KdeFn) (c : Chain ℝ) : List String → List String × Bool
  | [] => ([], false)
  | p :: ps =>
    if p ∉ c.samples.columns then chainMessages kde c ps
    else match summaryEntry kde c p with
      | .error _ => (parameterMessages kde c p, true)
      | .ok _ => let r := chainMessages kde c ps; (parameterMessages kde c p ++ r.1, r.2)

/-- The messages of the outer loop of `get_summary`, analysis.py 208-232. -/
noncomputable def loopMessages (kde : KdeFn) (columns : List String) : List (Chain ℝ) → List String
  | [] => []
  | c :: cs =>
    let r := chainMessages kde c columns
    if r.2 then r.1 else r.1 ++ loopMessages kde columns cs

/-- The messages of `get_summary`, analysis.py 188-234. -/
noncomputable def summaryMessages (kde : KdeFn) (h : Heap ℝ) (s : Consumer ℝ) (chains : Option (List (Chain ℝ)))
    (columns : Option (List String)) : List String :=
  let r : Res (List (Chain ℝ)) := match chains with
    | some cs => pure cs
    | none => finalDict h s >>= fun d => plotChains d .all true
  match r with
  | .error _ => []
  | .ok cs => loopMessages kde (sanitiseColumns columns cs) cs

end CC
