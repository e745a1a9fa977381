import Verif.Model.Chain
import Verif.Model.Truth
import Mathlib.Analysis.Real.Sqrt

/-!
# chainconsumer.py: the registry of chains and the resolution of their configuration

Chains are mutable Python objects; the model keeps them in a heap and refers to them by `Ref`.
-/

namespace CC

/-- A reference to a `Chain` object: its position in the heap. -/
abbrev Ref := Nat

/-- All `Chain` objects allocated so far. -/
abbrev Heap (K : Type) := List (Chain K)

/-- The state of a `ChainConsumer`, chainconsumer.py 20-23. -/
structure Consumer (K : Type) where
  chains : List (String × Ref) := []
  truths : List (Truth K) := []
  override : Option (Config K) := none

namespace Consumer
variable {K : Type}

/-- `add_chain`, chainconsumer.py 51-63. The object's name is read when the call happens. -/
def addChain (h : Heap K) (s : Consumer K) (r : Ref) : Res (Consumer K) :=
  match h[r]? with
  | none => .error .type
  | some c =>
    if c.name ∈ s.chains.map Prod.fst then .error .assertion
    else .ok { s with chains := dictSet s.chains c.name r }

/-- `remove_chain` with a string argument, chainconsumer.py 132-134. -/
def removeName (s : Consumer K) (n : String) : Res (Consumer K) :=
  if n ∈ s.chains.map Prod.fst then .ok { s with chains := dictPop s.chains n }
  else .error .assertion

/-- `remove_chain` with a `Chain` argument, chainconsumer.py 129-134: by its current name. -/
def removeObj (h : Heap K) (s : Consumer K) (r : Ref) : Res (Consumer K) :=
  match h[r]? with
  | none => .error .type
  | some c => s.removeName c.name

/-- `add_truth`, chainconsumer.py 39-49. -/
def addTruth (s : Consumer K) (t : Truth K) : Consumer K :=
  { s with truths := s.truths ++ [t] }

/-- `set_override`, chainconsumer.py 136-149. -/
def setOverride (s : Consumer K) (o : Config K) : Consumer K := { s with override := some o }

/-- `get_chain`, chainconsumer.py 186-196. -/
def getChain (s : Consumer K) (n : String) : Res Ref :=
  match s.chains.lookup n with
  | none => .error .assertion
  | some r => .ok r

/-- `get_names`, chainconsumer.py 198-203. -/
def getNames (s : Consumer K) : List String := s.chains.map Prod.fst

section
variable [Field K] [LinearOrder K]

/-- The constructor arguments built by `add_marker`, chainconsumer.py 103-117. `kwargs` are the
further configuration keywords. -/
def markerArgs (location : List (String × Flt K)) (name : String) (color : Option String)
    (markerSize : K) (markerStyle : String) (markerAlpha : K) (kwargs : List (Kwarg K)) : Args K :=
  let base := location.map fun e => (e.1, [e.2])
  let cols := dictSet (dictSet base "weight" [.fin 1]) "log_posterior" [.fin 1]
  let kwargs := match color with
    | none => kwargs
    | some c => kwargs ++ [⟨.color, some c⟩]
  { samples := { index := [.int 0], cols := cols.map fun c => (.str c.1, c.2) }
    name := name
    config := [⟨.markerSize, markerSize⟩, ⟨.markerStyle, markerStyle⟩,
      ⟨.markerAlpha, markerAlpha⟩, ⟨.plotContour, false⟩, ⟨.plotPoint, true⟩] ++ kwargs }

/-- `add_marker`, chainconsumer.py 77-118: the new chain object is allocated, then added. -/
def addMarker (h : Heap K) (s : Consumer K) (a : Args K) : Res (Heap K × Consumer K) := do
  let c ← Chain.make a
  let h' := h ++ [c]
  let s' ← addChain h' s h.length
  return (h', s')

end

end Consumer

/-- The colour iterator's remaining output after `n` uses (`next(color_iter)`,
chainconsumer.py 164, 176): StopIteration when exhausted. -/
def nextColour (n : Nat) : Res String :=
  match Colors.nextColours[n]? with
  | none => .error .stopIteration
  | some c => c

/-- Number of registered chains that plot contours, chainconsumer.py 154. -/
def numContourChains {K : Type} (h : Heap K) (s : Consumer K) : Nat :=
  (s.chains.filter fun e => (h[e.2]?).any fun c => c.cfg .plotContour).length

/-- `global_config`, chainconsumer.py 158-162. `1.0 / np.sqrt(0)` is `inf`. -/
noncomputable def globalConfig (numChains : Nat) : List (Kwarg ℝ) :=
  [⟨.barShade, decide (numChains < 5)⟩, ⟨.sigmas, ([0, 1, 2] : List ℝ)⟩,
   ⟨.shade, decide (numChains < 5)⟩]

/-- `1.0 / np.sqrt(num_chains)`, chainconsumer.py 162. -/
noncomputable def globalAlpha (numChains : Nat) : Flt ℝ :=
  if numChains = 0 then .posInf else .fin (1 / Real.sqrt numChains)

/-- One iteration of the loop in `_get_final_chains`, chainconsumer.py 166-182: the new attribute
values of a chain `c`, and the number of colours drawn from the iterator afterwards, when `used`
have been drawn before. -/
noncomputable def finaliseCfg (numChains : Nat) (override : Option (Config ℝ))
    (c : Chain ℝ) (used : Nat) : Res (Cfg ℝ × Nat) := do
  let alpha := if c.cfg .showContourLabels then (globalAlpha numChains).scalePos (1 / 2)
    else globalAlpha numChains
  let localCfg := globalConfig numChains ++ [⟨.shadeAlpha, alpha⟩]
  let (localCfg, used') ← match c.cfg .color with
    | none => do
      let col ← nextColour used
      pure (localCfg ++ [⟨.color, some col⟩], used + 1)
    | some _ => pure (localCfg, used)
  let cfg := Cfg.applyIfNotUserSet c.userSet c.cfg localCfg
  let cfg := match override with
    | none => cfg
    | some o => cfg.apply o.userDump
  return (cfg, used')

/-- A chain with other attribute values (`setattr` on the copied object, chain.py 90-97). -/
def Chain.withCfg {K : Type} (c : Chain K) (cfg : Cfg K) : Chain K := { c with cfg := cfg }

/-- The loop of `_get_final_chains`, chainconsumer.py 166-182: attributes are written to the heap
objects `refs`, one after the other. The heap is returned also when an exception is raised. -/
noncomputable def finaliseLoop (numChains : Nat) (override : Option (Config ℝ)) :
    List Ref → Nat → Heap ℝ → Res Unit × Heap ℝ
  | [], _, h => (.ok (), h)
  | r :: rest, used, h =>
    match h[r]? with
    | none => (.error .type, h)
    | some c => match finaliseCfg numChains override c used with
      | .error e => (.error e, h)
      | .ok (cfg, used') => finaliseLoop numChains override rest used' (h.set r (c.withCfg cfg))

/-- `model_copy` of every registered chain, chainconsumer.py 153: name and copied value. -/
def copyChains {K : Type} (h : Heap K) (s : Consumer K) : List (String × Chain K) :=
  s.chains.filterMap fun e => (h[e.2]?).map fun c => (e.1, c)

/-- `_get_final_chains`, chainconsumer.py 151-184: copies are allocated after the existing
objects, then configured in place. Returns the final dictionary and the heap. Simplification: the
shallow copies share their DataFrame with the original; no modelled code writes to it. -/
noncomputable def finalChains (h : Heap ℝ) (s : Consumer ℝ) :
    Res (List (String × Ref)) × Heap ℝ :=
  let copies := copyChains h s
  let refs := (List.range copies.length).map (h.length + ·)
  let out := finaliseLoop (numContourChains h s) s.override refs 0 (h ++ copies.map Prod.snd)
  (out.1.map fun _ => (copies.map Prod.fst).zip refs, out.2)

/-- `_all_columns`, chainconsumer.py 34-37, up to order (a Python `set`). -/
def allColumns {K : Type} (h : Heap K) (s : Consumer K) : List String :=
  ((copyChains h s).flatMap fun e => e.2.dataColumns).dedup

end CC
