import Verif.Model.Chain

/-!
# Specification: which inputs the chain constructor accepts, and parameter names
-/

namespace CC.Spec
variable {K : Type} [Field K] [LinearOrder K]

/-- The value of a setting after construction arguments are taken into account: the value given,
or the documented default. -/
def setting (a : Args K) (k : Key) : k.Ty K := (Cfg.default K).apply a.config k

/-- The columns of the finished table: the user's, plus `weight` if there was none. -/
def finalLabels (a : Args K) : List ColLabel :=
  if ColLabel.str a.weightColumn ∈ a.samples.cols.map Prod.fst then a.samples.cols.map Prod.fst
  else a.samples.cols.map Prod.fst ++ [.str a.weightColumn]

/-- A colour the constructor understands: none at all, a hex code, a palette name or an alias
other than the broken alias `e`. -/
def ColourOk : Option String → Prop
  | none => True
  | some s => s.toList.head? = some '#' ∨ s ∈ Colors.allColours.map Prod.fst ∨
      (s ∈ Colors.aliases.map Prod.fst ∧ s ≠ "e")

/-- The documented conditions on the arguments of `Chain(...)` (without `shift_params`). -/
structure Acceptable (a : Args K) : Prop where
  colour : ColourOk (setting a .color)
  area : 0 ≤ setting a .summaryArea ∧ setting a .summaryArea ≤ 1
  markerSize : 1 ≤ setting a .markerSize
  walkersPos : 1 ≤ a.walkers
  freeParams : ∀ n, a.numFreeParams = some n → 0 ≤ n
  effPoints : ∀ x, a.numEffDataPoints = some x → ∃ v, x = .fin v ∧ 0 ≤ v
  height : a.histogramRelativeHeight = .posInf ∨ ∃ v, a.histogramRelativeHeight = .fin v ∧ 0 ≤ v
  hasRow : a.samples.index ≠ []
  hasColumn : a.samples.cols ≠ []
  labels : ∀ c ∈ a.samples.cols, ∃ s, c.1 = .str s
  finite : ∀ c ∈ a.samples.cols, ∀ x ∈ c.2, ∃ v, x = .fin v
  weights : ∀ c ∈ a.samples.cols, c.1 = .str a.weightColumn → ∀ v, Flt.fin v ∈ c.2 → 0 < v
  weightColumn : ColLabel.str a.weightColumn ∈ a.samples.cols.map Prod.fst ∨ a.weightColumn = "weight"
  walkers : a.walkers ∣ a.samples.index.length
  colourColumn : ∀ p, setting a .colorParam = some p → ColLabel.str p ∈ finalLabels a
  multimodal : setting a .multimodal = true →
    setting a .statistics = none ∨ setting a .statistics = some .hdi

/-- Equality of column names up to ASCII letter case with one of the seven reserved names. -/
def Reserved (n : String) : Prop :=
  ∃ r ∈ ["weight", "weights", "posterior", "posteriors", "log_weights", "log_posterior",
    "log_posteriors"], n.toList.map Char.toLower = r.toList

end CC.Spec
