import Verif.Model.Figure

/-! # plotter.py: requests as documented

The documentation of the plotting functions lets a caller name one chain, give its index, and give the number of columns
(plotter.py 147-154, 313-321, 445-453, 549-557). -/

namespace CC

/-- An entry of a list of chains: a name, a chain or an index (plotter.py 912). -/
inductive AskedChain
  | name (n : String)
  | chain (c : Chain ℝ)
  | index (i : Int)

/-- The `chains` argument as documented, plotter.py 147-151. -/
inductive AskedChains
  | all
  | one (a : AskedChain)
  | list (l : List AskedChain)
  | dict (d : List (String × Chain ℝ))

/-- The `columns` argument as documented, plotter.py 152-154. -/
inductive AskedColumns
  | all
  | list (l : List String)
  | count (n : Int)

/-- `overriden_chains[c if isinstance(c, ChainName) else c.name]`, plotter.py 912: an integer has no attribute `name`. -/
def askedEntry (final : List (String × Chain ℝ)) : AskedChain → Res (Chain ℝ)
  | .name n => dictGet final n
  | .chain c => dictGet final c.name
  | .index _ => .error .type

/-- `_sanitise_chains`, plotter.py 906-917: whatever is neither a list nor a dictionary means all chains. -/
def askedChains (final : List (String × Chain ℝ)) : AskedChains → Res (List (Chain ℝ))
  | .all => plotChains final .all false
  | .one _ => plotChains final .all false
  | .list l => do return (← l.mapM (askedEntry final)).filter fun c => !c.skip
  | .dict d => plotChains final (.dict d) false

/-- The columns, plotter.py 690-698 and 762: `_sanitise_columns` returns anything but `None` as it is, and `_get_custom_extents`
iterates over it: TypeError for an integer. -/
def askedColumns (chains : List (Chain ℝ)) : AskedColumns → Res (List String)
  | .all => .ok (sanitiseColumns none chains)
  | .list l => .ok (sanitiseColumns (some l) chains)
  | .count _ => .error .type

/-- `_sanitise`, plotter.py 714-734. -/
noncomputable def askedBase (cfg : PlotConfig) (final : List (String × Chain ℝ)) (req : AskedChains) (columns : AskedColumns)
    (wide : Bool) : Res PlottingBase := do
  let chains ← askedChains final req
  let columns ← askedColumns chains columns
  let extents ← customExtents columns chains cfg.extents wide
  return ⟨chains, columns, extents, sanitiseBlinds cfg.blind columns, cfg.logScales⟩

end CC
