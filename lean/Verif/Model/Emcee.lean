import Verif.Model.Plotter

/-! # chain.py: `from_emcee` -/

namespace CC

/-- What `sampler.get_chain(flat=True, thin=thin, discard=discard)` returns, chain.py 423: `steps` holds for every step
one row of values per walker; emcee keeps the steps `discard + thin - 1`, `discard + 2 * thin - 1`, … and reshapes
them to one table, the walkers of a step next to each other. A step of zero is a ValueError of the slice. -/
def emceeRows {α : Type} (steps : List (List (List α))) (thin discard : Nat) : Res (List (List α)) := do
  ensure .value (decide (thin ≠ 0))
  return (everyNth thin (steps.drop (discard + thin - 1))).flatten

/-- `chain.T` for a table with `ndim` columns, chain.py 424. -/
def tableColumns {K : Type} (ndim : Nat) (rows : List (List (Flt K))) : List (List (Flt K)) :=
  (List.range ndim).map fun k => rows.map fun r => r.getD k .nan

/-- `from_emcee`, chain.py 400-426, for a sampler with `ndim` parameters; `args` are the further arguments. -/
def fromEmcee {K : Type} [Field K] [LinearOrder K] (ndim : Nat) (steps : List (List (List (Flt K)))) (columns : List String)
    (thin discard : Nat) (args : Args K) : Res (Chain K) := do
  let rows ← emceeRows steps thin discard
  Chain.make { args with samples := emceeFrame columns (tableColumns ndim rows) }

end CC
