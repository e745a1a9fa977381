import Verif.Model.Chain
import Mathlib.Analysis.Real.Sqrt
import Mathlib.Algebra.BigOperators.Fin

/-! # examples.py: `make_sample` -/

namespace CC

/-- What the generator of a seed yields, examples.py 12-13 and 20: the numbers of `gen.random` and those of `gen.uniform`. -/
structure ExampleDraws where
  unit : Nat → Nat → ℝ
  shift : Nat → ℝ

/-- `cov`, examples.py 13-14. -/
noncomputable def exampleCov (g : ExampleDraws) (d : Nat) (i j : Nat) : ℝ :=
  ∑ k : Fin d, (g.unit i k - 1 / 2) * (g.unit j k - 1 / 2)

/-- `cor`, examples.py 15-17. -/
noncomputable def exampleCor (g : ExampleDraws) (d : Nat) (i j : Nat) : ℝ :=
  exampleCov g d i j / (√(exampleCov g d i i) * √(exampleCov g d j j))

/-- `means`, examples.py 18-20. -/
noncomputable def exampleMean (g : ExampleDraws) (randomise : Bool) (i : Nat) : ℝ :=
  i * 5 + if randomise then g.shift i else 0

/-- `chr(65 + i)`, examples.py 24. Simplification: as in Lean, from 0xD800 on there are no single characters for the numbers up to
0xDFFF; the properties are about fewer columns than that. -/
def exampleColumn (i : Nat) : String := String.ofList [Char.ofNat (65 + i)]

/-- What scipy does, examples.py 21-22 and 25: `mv(mean, cor)` refuses matrices that are not positive definite (LinAlgError, a
ValueError), `rvs` draws rows from numpy's *global* random state, `logpdf` is the logarithm of the density. -/
structure NormalLib (G : Type) where
  rvs : G → (Nat → ℝ) → (Nat → Nat → ℝ) → (d n : Nat) → List (List ℝ)
  logpdf : (Nat → ℝ) → (Nat → Nat → ℝ) → Nat → List ℝ → ℝ
  regular : (Nat → Nat → ℝ) → Nat → Bool

/-- `make_sample`, examples.py 6-25. `gen` gives the draws of each seed, `state` is numpy's global random state. scipy squeezes the
array of rows, so that a single row comes without its second dimension, which `pd.DataFrame` refuses with ValueError. A number of
dimensions of zero is not modelled. -/
noncomputable def makeSample {G : Type} (lib : NormalLib G) (gen : Option Nat → ExampleDraws) (state : G) (d : Nat)
    (seed : Option Nat) (randomise : Bool) (n : Nat) : Res (Frame ℝ) := do
  ensure .unmodelled (decide (1 ≤ d))
  let g := gen seed
  let cor := exampleCor g d
  let mean := exampleMean g randomise
  ensure .value (lib.regular cor d)
  let rows := lib.rvs state mean cor d n
  ensure .value (decide (n ≠ 1))
  return { index := (List.range rows.length).map fun (i : Nat) => Label.int i
           cols := ((List.range d).map fun i => (exampleColumn i, rows.map fun r => r.getD i 0)) ++
             [("log_posterior", rows.map (lib.logpdf mean cor d))] }

end CC
