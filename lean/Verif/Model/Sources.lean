import Verif.Model.Emcee

/-! # chain.py: `from_covariance`, `from_numpyro`, `from_arviz` -/

namespace CC

/-- The number of samples asked from the random generator, chain.py 326. -/
@[irreducible] def covarianceSize : Nat := 1000000

/-- `pd.DataFrame(samples, columns=columns)`, chain.py 327: a table of rows with `ndim` values each. pandas raises a
ValueError unless there is one name for each column. Simplification: names are distinct, as everywhere in the model. -/
def covarianceFrame {K : Type} (ndim : Nat) (rows : List (List (Flt K))) (columns : List String) : Res (RawFrame K) := do
  ensure .value (decide (columns.length = ndim))
  ensure .unmodelled (decide columns.Nodup)
  return { index := (List.range rows.length).map fun (i : Nat) => Label.int i
           cols := (List.zip columns (tableColumns ndim rows)).map fun c => (.str c.1, c.2) }

section
variable {K : Type} [Field K] [LinearOrder K]

/-- `from_covariance`, chain.py 303-328. `draws` is `rng.multivariate_normal(mean, covariance, size=·)` for a mean with
`ndim` entries; `args` are the further arguments. -/
def fromCovariance (ndim : Nat) (draws : Nat → List (List (Flt K))) (columns : List String) (args : Args K) :
    Res (Chain K) := do
  let f ← covarianceFrame ndim (draws covarianceSize) columns
  Chain.make { args with samples := f }

/-- `from_numpyro`, chain.py 428-453. A variable is given by its draws, a draw by its components (one for a scalar);
`np.ravel` lays all of them out in one row, chain.py 451. -/
def fromNumpyro (varNames : Option (List String)) (samples : List (String × List (List (Flt K)))) (args : Args K) :
    Res (Chain K) := do
  let f ← numpyroFrame varNames (samples.map fun s => (s.1, s.2.flatten))
  Chain.make { args with samples := f }

/-- The labels of the stacked draws: chain and draw, chain.py 479-480. Simplification: the pair is written as a text. -/
def stackedIndex {α : Type} (chains : List (List α)) : List Label :=
  chains.zipIdx.flatMap fun c => (List.range c.1.length).map fun d => Label.str (toString c.2 ++ "," ++ toString d)

/-- The table of `from_arviz`, chain.py 478-480: `az.extract` stacks the chains one after the other, `to_dataframe` has
one column for each variable. Simplification: scalar variables only, each given by its chains of draws. -/
def arvizFrame (varNames : Option (List String)) (posterior : List (String × List (List (Flt K)))) :
    Res (RawFrame K) := do
  let vs ← filterVarNames varNames (posterior.map Prod.fst)
  return { index := stackedIndex ((posterior.map Prod.snd).headD [])
           cols := (posterior.filter fun c => c.1 ∈ vs).map fun c => (.str c.1, c.2.flatten) }

/-- `from_arviz`, chain.py 455-482. -/
def fromArviz (varNames : Option (List String)) (posterior : List (String × List (List (Flt K)))) (args : Args K) :
    Res (Chain K) := do
  let f ← arvizFrame varNames posterior
  Chain.make { args with samples := f }

end

end CC
