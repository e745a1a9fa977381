import Verif.Model.Covariance
import Verif.Model.Flt

/-! # diagnostic.py: Gelman-Rubin and Geweke -/

namespace CC

/-- `TestResult`, diagnostic.py 10-17. -/
structure TestResult where
  passed : Bool
  results : List (String × Bool)
deriving DecidableEq, Repr

/-- The `chains` argument of the diagnostics, diagnostic.py 20-22: nothing, a list of chains and
names, or a single one. -/
inductive ChainSel (K : Type)
  | all
  | list (l : List (Chain K ⊕ String))
  | one (c : Chain K ⊕ String)

/-- A chain given by itself or by name (`get_chain`, chainconsumer.py 186-196). -/
def resolveChain {K : Type} (parent : List (String × Chain K)) : Chain K ⊕ String → Res (Chain K)
  | .inl c => .ok c
  | .inr n => match parent.lookup n with
    | none => .error .assertion
    | some c => .ok c

/-- `_sanitise_chains`, diagnostic.py 20-27. The registry is the list of its items. -/
def sanitiseChains {K : Type} (parent : List (String × Chain K)) : ChainSel K → Res (List (Chain K))
  | .all => .ok (parent.map Prod.snd)
  | .list l => l.mapM (resolveChain parent)
  | .one c => do return [← resolveChain parent c]

/-- The common shape of `gelman_rubin` and `geweke` around the single-chain computation `f`,
diagnostic.py 62-70, 95 and 115-123, 147. -/
def runDiagnostic {K : Type} (f : Chain K → Res Bool) (chains : List (Chain K)) :
    Res TestResult :=
  match chains with
  | [] => .error .index
  | [c] => do
    let b ← f c
    return { passed := b, results := [(c.name, b)] }
  | cs => do
    let results ← cs.mapM fun c => do
      let b ← f c
      return ({ passed := b, results := [(c.name, b)] } : TestResult)
    return { passed := results.all (·.passed)
             results := results.foldl (fun acc r => dictMerge acc r.results) [] }

section
variable {K : Type} [Field K]

/-- The consecutive blocks of one column after `np.split(data, m)`, diagnostic.py 76, 131. -/
def walkerBlocks (m : Nat) (x : List K) : List (List K) :=
  (List.range m).map fun i => (x.drop (i * (x.length / m))).take (x.length / m)

/-- `np.mean` of a non-empty array (diagnostic.py 80, 81, 135, 139). -/
def meanOf (x : List K) : K := x.sum / (x.length : K)

/-- `Σ (x - mean)²`. -/
def sumSqDev (x : List K) : K := (x.map fun v => (v - meanOf x) * (v - meanOf x)).sum

end

/-- `np.abs`. -/
noncomputable def fltAbs : Flt ℝ → Flt ℝ
  | .fin x => .fin |x|
  | .posInf => .posInf
  | .negInf => .posInf
  | .nan => .nan

/-- Sum of doubles. -/
noncomputable def fltSum (l : List (Flt ℝ)) : Flt ℝ := l.foldr Flt.add (.fin 0)

/-- The statistic `r` of one parameter, diagnostic.py 78-87; `x` is its column. `np.var` with
`ddof=1` divides by `n - 1`. -/
noncomputable def gelmanR (walkers : Nat) (x : List ℝ) : Flt ℝ :=
  let blocks := walkerBlocks walkers x
  let m : ℝ := blocks.length
  let n : ℝ := (x.length / walkers : Nat)
  let allMean := meanOf x
  let chainVar := blocks.map fun b => Flt.div (.fin (sumSqDev b)) (.fin (n - 1))
  let b := n / (m - 1) * ((blocks.map meanOf).map fun y => (y - allMean) * (y - allMean)).sum
  let w := Flt.mul (.fin (1 / m)) (fltSum chainVar)
  let var := Flt.add (Flt.div (Flt.mul (.fin (n - 1)) w) (.fin n)) (.fin (b / n))
  let v := Flt.add var (.fin (b / (n * m)))
  fltSqrt (Flt.div v w)

/-- `gelman_rubin` for a single chain, diagnostic.py 70-95. -/
noncomputable def gelmanOne (threshold : ℝ) (c : Chain ℝ) : Res Bool := do
  let X ← c.samples.getMany c.dataColumns
  ensure .value (c.samples.index.length % c.walkers == 0)
  ensure .assertion (decide (1 < c.walkers))
  return X.all fun x =>
    (fltAbs ((gelmanR c.walkers x).sub (.fin 1))).lt (.fin threshold)

/-- `gelman_rubin`, diagnostic.py 34-95. -/
noncomputable def gelmanRubin (parent : List (String × Chain ℝ)) (sel : ChainSel ℝ)
    (threshold : ℝ) : Res TestResult := do
  runDiagnostic (gelmanOne threshold) (← sanitiseChains parent sel)

/-- Python `x[:k]` (diagnostic.py 135, 137). -/
def pyTake {α : Type} (k : Int) (x : List α) : List α :=
  if 0 ≤ k then x.take k.toNat else x.take (x.length - (-k).toNat)

/-- Python `x[k:]` (diagnostic.py 139, 141). -/
def pyDrop {α : Type} (k : Int) (x : List α) : List α :=
  if 0 ≤ k then x.drop k.toNat else x.drop (x.length - (-k).toNat)

/-- `n_start` and `n_end`, diagnostic.py 132-134. -/
noncomputable def gewekeBounds (first last : ℝ) (n : Nat) : Int × Int :=
  (⌊first * (n : ℝ)⌋, ⌊(1 - last) * (n : ℝ)⌋)

/-- The pairs of windows compared, walker by walker and parameter by parameter,
diagnostic.py 131-142; `X` are the columns. -/
noncomputable def gewekeWindows (first last : ℝ) (walkers rows : Nat) (X : List (List ℝ)) :
    List (List ℝ × List ℝ) :=
  let n := rows / walkers
  let be := gewekeBounds first last n
  (List.range walkers).flatMap fun k => X.map fun x =>
    let c := (x.drop (k * n)).take n
    (pyTake be.1 c, pyDrop be.2 c)

/-- `np.mean`, NaN on an empty array (diagnostic.py 135, 139). -/
noncomputable def fltMean (x : List ℝ) : Flt ℝ := Flt.div (.fin x.sum) (.fin (x.length : ℝ))

/-- One z score, diagnostic.py 135-143. `spec` is `_spec` (lines 151-155), the spectral density
estimate built on statsmodels' `yule_walker`, modelled as `gewekeSpec` in `Model/Spectral`. -/
noncomputable def gewekeZ (spec : List ℝ → Flt ℝ) (w : List ℝ × List ℝ) : Flt ℝ :=
  let varStart := Flt.div (spec w.1) (.fin (w.1.length : ℝ))
  let varEnd := Flt.div (spec w.2) (.fin (w.2.length : ℝ))
  Flt.div ((fltMean w.1).sub (fltMean w.2)) (fltSqrt (varStart.add varEnd))

/-- `geweke` for a single chain, diagnostic.py 123-147. `normaltest` returns the p-value of scipy's
test, which is not modelled. -/
noncomputable def gewekeOne (spec : List ℝ → Flt ℝ) (normaltest : List (Flt ℝ) → Flt ℝ)
    (first last threshold : ℝ) (c : Chain ℝ) : Res Bool := do
  ensure .assertion (decide (0 < c.walkers))
  let X ← c.samples.getMany c.dataColumns
  ensure .value (c.samples.index.length % c.walkers == 0)
  let zs := (gewekeWindows first last c.walkers c.samples.index.length X).map (gewekeZ spec)
  return Flt.lt (.fin threshold) (normaltest zs)

/-- `geweke`, diagnostic.py 97-147. -/
noncomputable def geweke (spec : List ℝ → Flt ℝ) (normaltest : List (Flt ℝ) → Flt ℝ)
    (parent : List (String × Chain ℝ)) (sel : ChainSel ℝ) (first last threshold : ℝ) :
    Res TestResult := do
  runDiagnostic (gewekeOne spec normaltest first last threshold) (← sanitiseChains parent sel)

end CC
