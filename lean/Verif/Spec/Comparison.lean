import Verif.Model.Chain
import Verif.Spec.Covariance
import Verif.Spec.Chain
import Mathlib.Analysis.SpecialFunctions.Log.Basic

/-! # Specification: information criteria -/

namespace CC.Spec
variable {K : Type} [Field K] [LinearOrder K]

/-- A chain returned by the constructor for a table with distinct column labels. -/
def Accepted (c : Chain K) : Prop := ∃ a : Args K, a.samples.WF ∧ Chain.make a = .ok c

/-- The same with `shift_params` off (with it the weights are destroyed, see C08). -/
def AcceptedNoShift (c : Chain K) : Prop :=
  ∃ a : Args K, a.samples.WF ∧ setting a .shiftParams = false ∧ Chain.make a = .ok c

/-- The table has a posterior column, and both counts were given. -/
def eligible (c : Chain K) : Bool :=
  decide (c.posteriorColumn ∈ c.samples.columns) && c.numEffDataPoints.isSome &&
    c.numFreeParams.isSome

/-- The largest value of the posterior column. -/
def MaxLogPosterior (c : Chain K) (M : K) : Prop :=
  ∃ p, (c.posteriorColumn, p) ∈ c.samples.cols ∧ M ∈ p ∧ ∀ y ∈ p, y ≤ M

/-- The corrected Akaike criterion of the docstring, comparisons.py 101-108. -/
def AICc (c : Chain K) (v : K) : Prop :=
  ∃ (k : Nat) (N M : K), c.numFreeParams = some k ∧ c.numEffDataPoints = some N ∧
    MaxLogPosterior c M ∧ v = -2 * M + 2 * k + 2 * k * (k + 1) / (N - k - 1)

/-- The Bayesian criterion of the docstring, comparisons.py 63-67. -/
def BIC (c : Chain ℝ) (v : ℝ) : Prop :=
  ∃ (k : Nat) (N M : ℝ), c.numFreeParams = some k ∧ c.numEffDataPoints = some N ∧
    MaxLogPosterior c M ∧ v = -2 * M + k * Real.log N

/-- The deviance criterion of the docstring, comparisons.py 22-29, with the deviance at the mean
taken at a sample nearest to the mean: `DIC = D̄ + (D̄ - D(θ̄))`, `D = -2 ln P`. -/
def DIC (c : Chain K) (v : K) : Prop :=
  ∃ (n : Nat) (w p : Fin n → K) (x : Fin c.dataColumns.length → Fin n → K) (i : Fin n),
    (c.weightColumn, List.ofFn w) ∈ c.samples.cols ∧
    (c.posteriorColumn, List.ofFn p) ∈ c.samples.cols ∧
    (∀ j, (c.dataColumns[j], List.ofFn (x j)) ∈ c.samples.cols) ∧
    (∀ i', ∑ j, (x j i - wmean w (x j)) ^ 2 ≤ ∑ j, (x j i' - wmean w (x j)) ^ 2) ∧
    v = wmean w (fun i => -2 * p i) + (wmean w (fun i => -2 * p i) - -2 * p i)

/-- `r` holds, in registry order, one entry for exactly the eligible chains; the values are
non-negative, the smallest is zero, and their differences are those of the criterion. -/
def RelativeCriterion (elig : Chain K → Bool) (crit : Chain K → K → Prop)
    (cs : List (String × Chain K)) (r : List (String × Flt K)) : Prop :=
  ∃ vals : List (String × K), r = vals.map (fun e => (e.1, .fin e.2)) ∧
    (∀ e ∈ vals, 0 ≤ e.2) ∧ (vals ≠ [] → ∃ e ∈ vals, e.2 = 0) ∧
    ∃ b, List.Forall₂ (fun (e : String × Chain K) v => v.1 = e.1 ∧ crit e.2 (v.2 + b))
      (cs.filter fun e => elig e.2) vals

end CC.Spec
