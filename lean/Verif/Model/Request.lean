import Verif.Model.Consumer
import Verif.Model.Summary

/-! # plotter.py: which chains and columns a request means; analysis.py: `get_summary` -/

namespace CC

/-- The `chains` argument of the plotting functions, plotter.py 906-917: nothing, a list of names and
chains, or a dictionary of chains. -/
inductive ChainReq (K : Type)
  | all
  | list (l : List (String ⊕ Chain K))
  | dict (d : List (String × Chain K))

/-- The dictionary returned by `_get_final_chains` with its references followed (plotter.py 909). -/
noncomputable def finalDict (h : Heap ℝ) (s : Consumer ℝ) : Res (List (String × Chain ℝ)) := do
  let d ← (finalChains h s).1
  return d.filterMap fun e => ((finalChains h s).2[e.2]?).map fun c => (e.1, c)

/-- `overriden_chains[name]`, plotter.py 912, 914. -/
def dictGet {K : Type} (d : List (String × Chain K)) (n : String) : Res (Chain K) :=
  match d.lookup n with
  | none => .error .key
  | some c => .ok c

/-- The name under which an entry of the request is looked up, plotter.py 912. -/
def reqName {K : Type} : String ⊕ Chain K → String
  | .inl n => n
  | .inr c => c.name

/-- `Plotter._sanitise_chains`, plotter.py 906-917, for the dictionary of final chains. -/
def plotChains {K : Type} (final : List (String × Chain K)) (req : ChainReq K) (includeSkip : Bool) :
    Res (List (Chain K)) := do
  let cs ← match req with
    | .all => pure (final.map Prod.snd)
    | .list l => l.mapM fun r => dictGet final (reqName r)
    | .dict d => d.mapM fun e => dictGet final e.2.name
  return cs.filter fun c => includeSkip || !c.skip

/-- `Plotter._sanitise_columns`, plotter.py 690-698. -/
def sanitiseColumns {K : Type} (columns : Option (List String)) (chains : List (Chain K)) :
    List String :=
  match columns with
  | some cols => cols
  | none => chains.foldl (fun res c =>
      c.plottingColumns.foldl (fun res col => if col ∈ res then res else res ++ [col]) res) []

/-- The `blind` setting, plotting/config.py: nothing, a boolean, or a list of names. -/
inductive Blind
  | none
  | bool (b : Bool)
  | cols (l : List String)

/-- `Plotter._sanitise_blinds`, plotter.py 707-712. -/
def sanitiseBlinds (blind : Blind) (columns : List String) : List String :=
  match blind with
  | .none => []
  | .bool false => []
  | .bool true => columns
  | .cols l => l

/-- The inner loop of `get_summary`, analysis.py 209-230: the dictionary of one chain. -/
noncomputable def chainSummary (kde : KdeFn) (c : Chain ℝ) :
    List String → List (String × Summary ℝ) → Res (List (String × Summary ℝ))
  | [], res => .ok res
  | p :: ps, res =>
    if p ∉ c.samples.columns then chainSummary kde c ps res
    else do
      let s ← summaryEntry kde c p
      chainSummary kde c ps (dictSet res p s)

/-- The outer loop of `get_summary`, analysis.py 208-232. -/
noncomputable def summaryLoop (kde : KdeFn) (columns : List String) :
    List (Chain ℝ) → List (String × List (String × Summary ℝ)) →
      Res (List (String × List (String × Summary ℝ)))
  | [], res => .ok res
  | c :: cs, res => do
    let r ← chainSummary kde c columns []
    summaryLoop kde columns cs (dictSet res c.name r)

/-- `get_summary`, analysis.py 188-234. Chains are given as objects; names or dictionaries, which the
docstring also mentions, fail at line 211. -/
noncomputable def getSummary (kde : KdeFn) (h : Heap ℝ) (s : Consumer ℝ) (chains : Option (List (Chain ℝ)))
    (columns : Option (List String)) : Res (List (String × List (String × Summary ℝ))) := do
  let cs ← match chains with
    | some cs => pure cs
    | none => finalDict h s >>= fun d => plotChains d .all true
  summaryLoop kde (sanitiseColumns columns cs) cs []

end CC
