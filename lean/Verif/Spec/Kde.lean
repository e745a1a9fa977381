import Mathlib.Analysis.SpecialFunctions.Pow.Real
import Mathlib.LinearAlgebra.Matrix.NonsingularInverse

/-! # Specification: matched elliptical kernel density estimates -/

namespace CC.Spec
open Matrix

/-- The weighted mean of points. -/
noncomputable def ellMean {n p : ℕ} (x : Fin n → Fin p → ℝ) (w : Fin n → ℝ) : Fin p → ℝ :=
  fun j => (∑ i, w i * x i j) / ∑ i, w i

/-- The weighted covariance of points, normalised by `W - ∑ w² / W`. -/
noncomputable def ellCov {n p : ℕ} (x : Fin n → Fin p → ℝ) (w : Fin n → ℝ) : Matrix (Fin p) (Fin p) ℝ :=
  fun j k => (∑ i, w i * (x i j - ellMean x w j) * (x i k - ellMean x w k)) /
    ((∑ i, w i) - (∑ i, w i ^ 2) / ∑ i, w i)

/-- The squared Mahalanobis distance for a covariance matrix. -/
noncomputable def mahaSq {p : ℕ} (C : Matrix (Fin p) (Fin p) ℝ) (u v : Fin p → ℝ) : ℝ :=
  (u - v) ⬝ᵥ (C⁻¹ *ᵥ (u - v))

/-- The kernel width in units of the covariance. -/
noncomputable def bandwidth (n p : ℕ) (factor : ℝ) : ℝ := 2 * factor * (n : ℝ) ^ (-1 / (4 + (p : ℝ)))

/-- Data for which the estimator is defined. -/
structure Trainable {n p : ℕ} (x : Fin n → Fin p → ℝ) (w : Fin n → ℝ) : Prop where
  mass : ∑ i, w i ≠ 0
  nonneg : ∀ i, 0 ≤ w i
  spread : 0 < (∑ i, w i) - (∑ i, w i ^ 2) / ∑ i, w i
  regular : (ellCov x w).det ≠ 0

/-- The rows within `truncation` kernel widths of the target. -/
noncomputable def inRadius {n p : ℕ} (x : Fin n → Fin p → ℝ) (w : Fin n → ℝ) (truncation factor : ℝ)
    (t : Fin p → ℝ) : Finset (Fin n) :=
  Finset.univ.filter fun i => 0 ≤ bandwidth n p factor * truncation ∧
    mahaSq (ellCov x w) (x i) t ≤ (bandwidth n p factor * truncation) ^ 2

/-- A set of `k` rows none of which is further from the target than a row outside. -/
def Nearest {n p : ℕ} (x : Fin n → Fin p → ℝ) (w : Fin n → ℝ) (t : Fin p → ℝ) (k : ℕ) (s : Finset (Fin n)) :
    Prop :=
  s.card = k ∧ ∀ i ∈ s, ∀ j, j ∉ s → mahaSq (ellCov x w) (x i) t ≤ mahaSq (ellCov x w) (x j) t

/-- The rows that contribute at a target: those within the truncation radius, or if these are fewer than
`nmin`, some `nmin` nearest ones. -/
def Contributing {n p : ℕ} (x : Fin n → Fin p → ℝ) (w : Fin n → ℝ) (truncation : ℝ) (nmin : ℕ) (factor : ℝ)
    (t : Fin p → ℝ) (s : Finset (Fin n)) : Prop :=
  nmin ≤ (inRadius x w truncation factor t).card ∧ s = inRadius x w truncation factor t ∨
  (inRadius x w truncation factor t).card < nmin ∧ Nearest x w t nmin s

/-- The Gaussian kernel sum over a set of rows. -/
noncomputable def gaussSum {n p : ℕ} (x : Fin n → Fin p → ℝ) (w : Fin n → ℝ) (factor : ℝ) (t : Fin p → ℝ)
    (s : Finset (Fin n)) : ℝ :=
  ∑ i ∈ s, w i * Real.exp (-(mahaSq (ellCov x w) (x i) t / (2 * bandwidth n p factor ^ 2)))

/-- The admissible values of the estimate at a target. -/
def IsKdeValue {n p : ℕ} (x : Fin n → Fin p → ℝ) (w : Fin n → ℝ) (truncation : ℝ) (nmin : ℕ) (factor : ℝ)
    (t : Fin p → ℝ) (v : ℝ) : Prop :=
  ∃ s, Contributing x w truncation nmin factor t s ∧ v = gaussSum x w factor t s

/-- The value is determined: enough rows within the truncation radius, or rows at the same distance from
the target have the same weight. -/
def NoTies {n p : ℕ} (x : Fin n → Fin p → ℝ) (w : Fin n → ℝ) (truncation : ℝ) (nmin : ℕ) (factor : ℝ)
    (t : Fin p → ℝ) : Prop :=
  nmin ≤ (inRadius x w truncation factor t).card ∨
  ∀ i j, mahaSq (ellCov x w) (x i) t = mahaSq (ellCov x w) (x j) t → w i = w j

end CC.Spec
