import Verif.Model.Frame
import Verif.Model.Colors
import Mathlib.Logic.Function.Basic
import Mathlib.Algebra.Order.Ring.Defs
import Mathlib.Tactic.NormNum

/-! # chain.py: configuration, construction and accessors of chains -/

namespace CC

/-- `SummaryStatistic`, statistics.py 4-23. -/
inductive Stat
  | max | maxCentral | cumulative | mean | hdi
deriving DecidableEq, Repr

/-- The field names of `ChainConfig`, chain.py 51-81. -/
inductive Key
  | statistics | summaryArea | sigmas | color | linestyle | linewidth | showContourLabels | shade
  | shadeAlpha | shadeGradient | barShade | multimodal | bins | kde | smooth | colorParam | cmap
  | numCloud | plotCloud | plotContour | plotPoint | markerStyle | markerSize | markerAlpha
  | zorder | shiftParams
deriving DecidableEq, Repr

/-- All field names of `ChainConfig` in declaration order, chain.py 51-81. -/
def Key.all : List Key :=
  [.statistics, .summaryArea, .sigmas, .color, .linestyle, .linewidth, .showContourLabels, .shade,
   .shadeAlpha, .shadeGradient, .barShade, .multimodal, .bins, .kde, .smooth, .colorParam, .cmap,
   .numCloud, .plotCloud, .plotContour, .plotPoint, .markerStyle, .markerSize, .markerAlpha,
   .zorder, .shiftParams]

/-- The type of each field, chain.py 51-81. `kde: int | float | bool` is a number with `False = 0`
and `True = 1` (both are Python ints). `shade_alpha` may be infinite (chainconsumer.py 162). -/
@[reducible] def Key.Ty (K : Type) : Key → Type
  | .statistics => Option Stat
  | .summaryArea => K
  | .sigmas => List K
  | .color => Option String
  | .linestyle => String
  | .linewidth => K
  | .showContourLabels => Bool
  | .shade => Bool
  | .shadeAlpha => Flt K
  | .shadeGradient => K
  | .barShade => Bool
  | .multimodal => Bool
  | .bins => Option Int
  | .kde => K
  | .smooth => Option Int
  | .colorParam => Option String
  | .cmap => String
  | .numCloud => K
  | .plotCloud => Bool
  | .plotContour => Bool
  | .plotPoint => Bool
  | .markerStyle => String
  | .markerSize => K
  | .markerAlpha => K
  | .zorder => Int
  | .shiftParams => Bool

/-- The attribute values of a configuration object. -/
abbrev Cfg (K : Type) := (k : Key) → k.Ty K

/-- One keyword argument: a field name and a value of its type. -/
abbrev Kwarg (K : Type) := (k : Key) × k.Ty K

/-- `setattr(self, key, value)`. -/
def Cfg.set {K : Type} (c : Cfg K) (kv : Kwarg K) : Cfg K := Function.update c kv.1 kv.2

/-- The defaults of `ChainConfig`, chain.py 51-81. -/
def Cfg.default (K : Type) [Field K] : Cfg K
  | .statistics => none
  | .summaryArea => (6827 / 10000 : K)
  | .sigmas => ([0, 1, 2] : List K)
  | .color => none
  | .linestyle => "-"
  | .linewidth => (1 : K)
  | .showContourLabels => false
  | .shade => true
  | .shadeAlpha => Flt.fin (1 / 2 : K)
  | .shadeGradient => (1 : K)
  | .barShade => true
  | .multimodal => false
  | .bins => none
  | .kde => (0 : K)
  | .smooth => none
  | .colorParam => none
  | .cmap => "viridis"
  | .numCloud => (10000 : K)
  | .plotCloud => false
  | .plotContour => true
  | .plotPoint => false
  | .markerStyle => "."
  | .markerSize => (10 : K)
  | .markerAlpha => (1 : K)
  | .zorder => 10
  | .shiftParams => false

/-- A `ChainConfig` instance: values plus `_user_specified` (base.py 7-11), restricted to the
configuration fields. -/
structure Config (K : Type) where
  vals : Cfg K
  userSet : List Key

/-- `_apply(**kwargs)`, chain.py 95-97 (also pydantic's assignment of given fields). -/
def Cfg.apply {K : Type} (c : Cfg K) (kw : List (Kwarg K)) : Cfg K := kw.foldl Cfg.set c

/-- `_apply_if_not_user_set(**kwargs)`, chain.py 90-93. -/
def Cfg.applyIfNotUserSet {K : Type} (user : List Key) (c : Cfg K) (kw : List (Kwarg K)) : Cfg K :=
  kw.foldl (fun c kv => if kv.1 ∈ user then c else c.set kv) c

/-- `get_user_specified_dump`, base.py 15-16. -/
def Config.userDump {K : Type} (c : Config K) : List (Kwarg K) :=
  c.userSet.map fun k => ⟨k, c.vals k⟩

/-- Validation of a given colour: `_convert_color` and (for `Chain`) `_validate_color` both run,
chain.py 83-88 and 231-236. ValueError becomes a validation error; KeyError/IndexError raised by
`colors.format` are not caught by pydantic. -/
def validateColor (v : Option String) : Res (Option String) :=
  match v with
  | none => .ok none
  | some s =>
    match (do Colors.format (some (← Colors.format (some s)))) with
    | .ok c => .ok (some c)
    | .error .value => .error .validation
    | .error e => .error e

section
variable {K : Type} [Field K] [LinearOrder K]

/-- Field constraints of `ChainConfig` (`summary_area` ge/le, `marker_size` ge), chain.py 52, 75. -/
def Cfg.constraintsOk (c : Cfg K) : Bool :=
  decide ((0 : K) ≤ c .summaryArea) && decide (c .summaryArea ≤ (1 : K))
    && decide ((1 : K) ≤ c .markerSize)

/-- `ChainConfig(**kwargs)`, chain.py 41-88 with base.py 9-11. -/
def Config.make (kw : List (Kwarg K)) : Res (Config K) := do
  let c := (Cfg.default K).apply kw
  let col ← validateColor (c .color)
  ensure .validation c.constraintsOk
  return { vals := c.set ⟨.color, col⟩, userSet := kw.map (·.1) }

/-- A `Chain` instance, chain.py 100-151. `power` is never `None`. Simplification: `power` and the
float fields of `ChainConfig` other than `shade_alpha` are finite. -/
structure Chain (K : Type) where
  cfg : Cfg K
  userSet : List Key
  samples : Frame K
  name : String
  weightColumn : String
  posteriorColumn : String
  walkers : Nat
  grid : Bool
  numFreeParams : Option Nat
  numEffDataPoints : Option K
  power : K
  showLabelInLegend : Bool
  histogramRelativeHeight : Flt K

/-- The arguments of `Chain(...)`, chain.py 103-151; `config` are the given `ChainConfig` fields. -/
structure Args (K : Type) [Field K] where
  samples : RawFrame K
  name : String
  config : List (Kwarg K) := []
  weightColumn : String := "weight"
  posteriorColumn : String := "log_posterior"
  walkers : Int := 1
  grid : Bool := false
  numFreeParams : Option Int := none
  numEffDataPoints : Option (Flt K) := none
  power : K := 1
  showLabelInLegend : Bool := true
  histogramRelativeHeight : Flt K := .fin 1

/-- Field constraints of `Chain` beyond `ChainConfig`, chain.py 120-124, 129-138, 147-151. -/
def Args.constraintsOk (a : Args K) : Bool :=
  decide (1 ≤ a.walkers)
    && a.numFreeParams.all (fun n => decide (0 ≤ n))
    && a.numEffDataPoints.all Flt.geZero
    && a.histogramRelativeHeight.geZero

/-- The weight step of `_validate_model`, chain.py 248-255: a missing default weight column is
added as ones (at the end), a missing custom one and non-positive weights are errors. -/
def addWeights (f : RawFrame K) (wc : String) : Res (RawFrame K) :=
  match f.cols.lookup (.str wc) with
  | none =>
    if wc = "weight" then
      .ok { f with cols := f.cols ++ [(.str wc, List.replicate f.index.length (.fin 1))] }
    else .error .validation
  | some w => if w.all Flt.gtZero then .ok f else .error .validation

/-- The column check of `_validate_model`, chain.py 257-259, for one column. -/
def checkColumn (c : ColLabel × List (Flt K)) : Res (String × List K) :=
  match c.1 with
  | .other _ => .error .validation
  | .str s => match c.2.mapM Flt.toFin? with
    | none => .error .validation
    | some v => .ok (s, v)

/-- The column check of `_validate_model`, chain.py 257-259: string labels, finite values. -/
def checkColumns (f : RawFrame K) : Res (Frame K) := do
  let cols ← f.cols.mapM checkColumn
  return { index := f.index, cols := cols }

/-- One iteration of the mean shift, chain.py 264: subtract from column `p` its average under the
*current* weights. -/
def shiftColumn (wc : String) (f : Frame K) (p : String) : Res (Frame K) := do
  let w ← f.get wc
  let x ← f.get p
  let m ← average x w
  return f.set p (x.map (· - m))

/-- The mean shift of `_validate_model`, chain.py 262-264, over *all* columns in order. -/
def shiftParams (wc : String) (f : Frame K) : Res (Frame K) :=
  f.columns.foldlM (shiftColumn wc) f

/-- The guarded mean shift, chain.py 262-264. -/
def shiftIf (b : Bool) (wc : String) (f : Frame K) : Res (Frame K) :=
  if b then shiftParams wc f else .ok f

/-- Default for `statistics`, chain.py 285-289. -/
def resolveStatistics (c : Cfg K) : Cfg K :=
  match c .statistics with
  | none => c.set ⟨.statistics, if c .multimodal then some .hdi else some .max⟩
  | some _ => c

/-- `Chain(...)`: pydantic field validation, then `_copy_df` and `_validate_model`,
chain.py 231-297. AssertionError and ValueError surface as validation errors. -/
def Chain.make (a : Args K) : Res (Chain K) := do
  let c := (Cfg.default K).apply a.config
  let col ← validateColor (c .color)
  ensure .validation (c.constraintsOk && a.constraintsOk)
  let c := c.set ⟨.color, col⟩
  ensure .validation (!a.samples.empty)
  let raw ← addWeights a.samples a.weightColumn
  let f ← checkColumns raw
  let f ← shiftIf (c .shiftParams) a.weightColumn f
  ensure .validation (f.index.length % a.walkers.toNat == 0)
  ensure .validation (Option.all (fun p => decide (p ∈ f.columns)) (c .colorParam))
  ensure .validation (a.numEffDataPoints.all Flt.isFinite)
  let c := resolveStatistics c
  ensure .validation (!(c .multimodal && decide (c .statistics ≠ some .hdi)))
  return {
    cfg := c
    userSet := a.config.map (·.1)
    samples := f
    name := a.name
    weightColumn := a.weightColumn
    posteriorColumn := a.posteriorColumn
    walkers := a.walkers.toNat
    grid := a.grid
    numFreeParams := a.numFreeParams.map Int.toNat
    numEffDataPoints := a.numEffDataPoints.bind Flt.toFin?
    power := a.power
    showLabelInLegend := a.showLabelInLegend
    histogramRelativeHeight := a.histogramRelativeHeight }

end

namespace Chain
variable {K : Type}

/-- The lower-case names excluded from the data columns, chain.py 160-168. -/
def reserved : List String :=
  ["weight", "weights", "posterior", "posteriors", "log_weights", "log_posterior",
   "log_posteriors"]

/-- `data_columns`, chain.py 153-171. -/
def dataColumns (c : Chain K) : List String :=
  c.samples.columns.filter fun n =>
    !(n == c.weightColumn || n == c.posteriorColumn) && !(pyLower n ∈ reserved)

/-- `plotting_columns`, chain.py 178-185. -/
def plottingColumns (c : Chain K) : List String :=
  if !(c.cfg .plotCloud) then c.dataColumns
  else c.dataColumns.filter fun n => some n ≠ c.cfg .colorParam

/-- `skip`, chain.py 187-190. -/
def skip (c : Chain K) : Bool :=
  c.samples.empty || !(c.cfg .plotContour || c.cfg .plotCloud || c.cfg .plotPoint)

/-- `weights`, chain.py 202-205. -/
def weights (c : Chain K) : Res (List K) := c.samples.get c.weightColumn

/-- `log_posterior`, chain.py 207-212. -/
def logPosterior (c : Chain K) : Option (List K) := c.samples.cols.lookup c.posteriorColumn

/-- `smooth_value`, chain.py 221-229. -/
def smoothValue (c : Chain K) : Int :=
  match c.cfg .smooth with
  | some s => s
  | none => if c.grid then 0 else 3

/-- `MaxPosterior`, chain.py 485-490. -/
structure MaxPosterior (K : Type) where
  logPosterior : K
  coordinate : List (String × K)

/-- `max_posterior_row` followed by `get_max_posterior_point`, chain.py 192-200 and 358-369.
The row is looked up by *label* with the *position* of the maximum. No such label: KeyError.
Several rows with that label: `to_dict` yields nested dicts and `MaxPosterior` rejects them. -/
def maxPosteriorPoint [LT K] [DecidableLT K] (c : Chain K) : Res (Option (MaxPosterior K)) :=
  match c.logPosterior with
  | none => .ok none
  | some p => match argmax p with
    | none => .error .value
    | some a => match c.samples.positions (.int a) with
      | [] => .error .key
      | [i] =>
        let row := c.samples.row i
        match row.lookup c.posteriorColumn with
        | none => .error .key
        | some lp => .ok (some {
            logPosterior := lp
            coordinate := (row.filter fun e => e.1 ≠ c.posteriorColumn).filter
              fun e => e.1 ∈ c.plottingColumns })
      | _ => .error .validation

end Chain

section
variable {K : Type} [Field K] [LinearOrder K]

/-- The keyword arguments `divide` passes on: every configuration field except `color`,
chain.py 350-352. -/
def Chain.dumpConfig (c : Chain K) : List (Kwarg K) :=
  (Key.all.filter (· ≠ .color)).map fun k => ⟨k, c.cfg k⟩

/-- The constructor call for walker `i`, chain.py 349-353. -/
def Chain.walkerArgs (c : Chain K) (i : Nat) (f : Frame K) : Args K :=
  { samples := f.toRaw
    name := c.name ++ " Walker " ++ toString i
    config := c.dumpConfig
    weightColumn := c.weightColumn
    posteriorColumn := c.posteriorColumn
    grid := c.grid
    numFreeParams := c.numFreeParams.map Int.ofNat
    numEffDataPoints := c.numEffDataPoints.map .fin
    power := c.power
    showLabelInLegend := c.showLabelInLegend
    histogramRelativeHeight := c.histogramRelativeHeight }

/-- `divide`, chain.py 330-356. -/
def Chain.divide (c : Chain K) : Res (List (Chain K)) := do
  ensure .assertion (decide (1 < c.walkers))
  ensure .assertion (!c.grid)
  let splits ← c.samples.split c.walkers
  splits.zipIdx.mapM fun fi => Chain.make (c.walkerArgs fi.2 fi.1)

end

/-- Does the Python string start with `~`? (chain.py 506). -/
def startsTilde (s : String) : Bool := s.toList.head? = some '~'

/-- `var[1:]` (chain.py 515). -/
def dropFirst (s : String) : String := String.ofList (s.toList.drop 1)

/-- `_filter_var_names`, chain.py 498-523. -/
def filterVarNames (varNames : Option (List String)) (allVars : List String) :
    Res (List String) :=
  match varNames with
  | none => .ok allVars
  | some vs =>
    -- the set {startswith("~")} must have exactly one element
    let negs := (vs.map startsTilde).dedup
    if negs.length ≠ 1 then .error .value
    else if true ∈ negs then
      let ex := vs.map dropFirst
      .ok (allVars.filter fun v => v ∉ ex)
    else .ok (allVars.filter fun v => v ∈ vs)

/-- `from_emcee`'s frame: `zip(columns, chain.T, strict=False)` into a dict, chain.py 423-424.
`chainT` are the sample columns. Later duplicates of a column name overwrite earlier values. -/
def emceeFrame {K : Type} (columns : List String) (chainT : List (List (Flt K))) : RawFrame K :=
  let cols := dictMerge [] (List.zip columns chainT)
  { index := (List.range (match cols with | [] => 0 | c :: _ => c.2.length)).map
      fun i => Label.int i
    cols := cols.map fun c => (.str c.1, c.2) }

/-- Number of rows of a table given by its columns. -/
def rowCount {α β : Type} : List (α × List β) → Nat
  | [] => 0
  | c :: _ => c.2.length

/-- `from_numpyro`'s frame, chain.py 449-452: the filtered sample dict, arrays flattened;
`DataFrame.from_dict` raises ValueError for arrays of different lengths. -/
def numpyroFrame {K : Type} (varNames : Option (List String))
    (samples : List (String × List (Flt K))) : Res (RawFrame K) := do
  let vs ← filterVarNames varNames (samples.map Prod.fst)
  let cols := samples.filter fun c => c.1 ∈ vs
  ensure .value (cols.all fun c => c.2.length == rowCount cols)
  return { index := (List.range (rowCount cols)).map fun i => Label.int i
           cols := cols.map fun c => (.str c.1, c.2) }

end CC
