import Verif.Lemmas.Covariance
import Verif.Lemmas.Demo
import Mathlib.Data.Real.Basic

/-! # C13, C14, C15: covariance and correlation matrices -/

namespace CC
open Spec

section
variable {K : Type} [Field K] [LinearOrder K] [IsStrictOrderedRing K]

/-- The weights and the columns of an accepted chain as functions of the row number. -/
theorem accepted_columns {a : Args K} {c : Chain K} (hwf : a.samples.WF)
    (hshift : setting a .shiftParams = false) (h : Chain.make a = .ok c)
    (cols : List String) (hcols : ∀ p ∈ cols, p ∈ c.samples.columns) :
    ∃ (w : Fin c.samples.index.length → K)
      (x : Fin cols.length → Fin c.samples.index.length → K),
      c.weights = .ok (List.ofFn w) ∧ (∀ i, 0 < w i) ∧
      ∀ j, c.samples.get cols[j] = .ok (List.ofFn (x j)) := by
  obtain ⟨hWF, -, -, -, ⟨w, hw, hwl, hpos⟩, -⟩ := C07_accepted_chain_guarantees a c hwf hshift h
  have hx : ∀ j : Fin cols.length, ∃ y : Fin c.samples.index.length → K,
      c.samples.get cols[j] = .ok (List.ofFn y) := by
    intro j
    obtain ⟨y, hy⟩ := get_ok_of_mem (hcols cols[j] (List.getElem_mem _))
    have hl : y.length = c.samples.index.length := hWF.2 _ (get_mem hy)
    refine ⟨fun i => y[i]'(by rw [hl]; exact i.2), ?_⟩
    rw [hy]
    congr 1
    apply List.ext_getElem <;> simp [hl]
  choose x hx using hx
  refine ⟨fun i => w[i]'(by rw [hwl]; exact i.2), x, ?_, fun i => hpos _ (List.getElem_mem _), hx⟩
  rw [hw]
  congr 1
  apply List.ext_getElem <;> simp [hwl]

/-- `get_covariance` on given rows. -/
theorem getCovariance_eq {c : Chain K} {cols : List String} {n : Nat} {w : Fin n → K}
    {x : Fin cols.length → Fin n → K} (hw : c.weights = .ok (List.ofFn w)) (hpos : ∀ i, 0 < w i)
    (hx : ∀ j, c.samples.get cols[j] = .ok (List.ofFn (x j))) (hn : 2 ≤ n)
    (hp : 2 ≤ cols.length) :
    c.getCovariance (some cols) = .ok ⟨cols,
      .matrix (List.ofFn fun i => List.ofFn fun j => .fin (wcov w (x i) (x j)))⟩ := by
  have hm : c.samples.getMany cols = .ok (List.ofFn fun j => List.ofFn (x j)) := by
    have := getMany_ofFn (f := c.samples) (name := fun j : Fin cols.length => cols[j])
      (x := fun j => List.ofFn (x j)) hx
    rwa [← eq_ofFn] at this
  simp only [Chain.getCovariance, Option.getD_some, hm, hw, npCov_eq hpos hn hp, bind, Except.bind,
    pure, Except.pure]

/-- **C13, partial** (value). For every accepted chain with at least two rows and every list of at least two
of its columns, `get_covariance` is the matrix of weighted sample covariances in the requested
order; it is symmetric and positive semidefinite. Missing: chains with `shift_params` (`C13_violated_shift`). -/
theorem C13_covariance_matrix_partial (a : Args K) (c : Chain K) (hwf : a.samples.WF)
    (hshift : setting a .shiftParams = false) (h : Chain.make a = .ok c)
    (cols : List String) (hcols : ∀ p ∈ cols, p ∈ c.samples.columns)
    (hrows : 2 ≤ c.samples.index.length) (hp : 2 ≤ cols.length) :
    ∃ (w : Fin c.samples.index.length → K)
      (x : Fin cols.length → Fin c.samples.index.length → K)
      (M : Fin cols.length → Fin cols.length → K),
      c.weights = .ok (List.ofFn w) ∧ (∀ i, 0 < w i) ∧
      (∀ j, c.samples.get cols[j] = .ok (List.ofFn (x j))) ∧
      c.getCovariance (some cols) = .ok ⟨cols,
        .matrix (List.ofFn fun i => List.ofFn fun j => .fin (M i j))⟩ ∧
      (∀ i j, M i j = wcov w (x i) (x j)) ∧
      (∀ i j, M i j = M j i) ∧
      ∀ v : Fin cols.length → K, 0 ≤ ∑ i, ∑ j, v i * M i j * v j := by
  obtain ⟨w, x, hw, hpos, hx⟩ := accepted_columns hwf hshift h cols hcols
  exact ⟨w, x, fun i j => wcov w (x i) (x j), hw, hpos, hx, getCovariance_eq hw hpos hx hrows hp,
    fun _ _ => rfl, fun i j => wcov_comm _ _ _, fun v => wcov_psd hpos hrows x v⟩

omit [IsStrictOrderedRing K] in
/-- The default column list is the data columns. -/
theorem C13_default_columns (c : Chain K) :
    c.getCovariance none = c.getCovariance (some c.dataColumns) := rfl

/-- **C13** (invariance). A second chain whose rows are a permutation of the first, with all weights
multiplied by `t > 0` and a constant added to each column, has the same covariance matrix. -/
theorem C13_covariance_invariant (c c' : Chain K) (cols : List String) {n : Nat} (w : Fin n → K)
    (x : Fin cols.length → Fin n → K) (hw : c.weights = .ok (List.ofFn w)) (hpos : ∀ i, 0 < w i)
    (hx : ∀ j, c.samples.get cols[j] = .ok (List.ofFn (x j)))
    (hrows : 2 ≤ n) (hp : 2 ≤ cols.length)
    (σ : Equiv.Perm (Fin n)) (t : K) (ht : 0 < t) (b : Fin cols.length → K)
    (hw' : c'.weights = .ok (List.ofFn fun i => t * w (σ i)))
    (hx' : ∀ j, c'.samples.get cols[j] = .ok (List.ofFn fun i => x j (σ i) + b j)) :
    c'.getCovariance (some cols) = c.getCovariance (some cols) := by
  have hS : ∑ i, (w ∘ σ) i ≠ 0 := by
    have : 0 < ∑ i, w (σ i) :=
      Finset.sum_pos (fun i _ => hpos _) ⟨⟨0, by omega⟩, Finset.mem_univ _⟩
    exact this.ne'
  rw [getCovariance_eq hw hpos hx hrows hp,
    getCovariance_eq hw' (fun i => mul_pos ht (hpos _)) hx' hrows hp]
  congr 5
  funext i
  congr 1
  funext j
  congr 1
  have h1 := wcov_smul t ht.ne' (w ∘ σ) (fun k => x i (σ k) + b i) (fun k => x j (σ k) + b j)
  have h2 := wcov_affine hS 1 (b i) 1 (b j) (x i ∘ σ) (x j ∘ σ)
  simp only [one_mul, Function.comp_apply] at h1 h2
  rw [h1, h2]
  exact wcov_perm σ w (x i) (x j)

end

/-! ## Correlation -/

theorem wcov_self_pos {n : Nat} {w x : Fin n → ℝ} (hpos : ∀ i, 0 < w i) (hn : 2 ≤ n)
    (hx : ∃ a b, x a ≠ x b) : 0 < wcov w x x := by
  rw [wcov]
  refine div_pos ?_ (fact_pos hpos hn)
  obtain ⟨a, b, hab⟩ := hx
  have : ∃ k, x k - wmean w x ≠ 0 := by
    by_contra hall
    push Not at hall
    exact hab (by linarith [hall a, hall b])
  obtain ⟨k, hk⟩ := this
  refine Finset.sum_pos' (fun i _ => ?_) ⟨k, Finset.mem_univ _, ?_⟩
  · rw [mul_assoc]
    exact mul_nonneg (hpos i).le (mul_self_nonneg _)
  · rw [mul_assoc]
    exact mul_pos (hpos k) (mul_self_pos.2 hk)

/-- Cauchy–Schwarz for the weighted covariance. -/
theorem wcov_sq_le {n : Nat} {w : Fin n → ℝ} (hpos : ∀ i, 0 < w i) (hn : 2 ≤ n)
    (x y : Fin n → ℝ) : wcov w x y ^ 2 ≤ wcov w x x * wcov w y y := by
  have hpsd := fun v : Fin 2 → ℝ => wcov_psd hpos hn (fun i : Fin 2 => if i = 0 then x else y) v
  simp only [Fin.sum_univ_two, if_true, Fin.isValue, one_ne_zero, if_false] at hpsd
  have hxx : 0 ≤ wcov w x x := by simpa using hpsd fun i => if i = 0 then 1 else 0
  have key := hpsd fun i => if i = 0 then wcov w x y else -wcov w x x
  have key2 := hpsd fun i => if i = 0 then 1 else -wcov w x y
  simp only [if_true, Fin.isValue, one_ne_zero, if_false, wcov_comm w y x] at key key2
  rcases hxx.eq_or_lt with h0 | h0
  · rw [← h0] at key2 ⊢
    -- wcov x x = 0: every deviation vanishes, hence the covariance is zero
    by_contra hlt
    push Not at hlt
    have hc : wcov w x y ≠ 0 := by rintro h; simp [h] at hlt
    have key3 := hpsd fun i => if i = 0 then -(wcov w y y + 1) else wcov w x y
    simp only [if_true, Fin.isValue, one_ne_zero, if_false, wcov_comm w y x, ← h0] at key3
    have hyy : 0 ≤ wcov w y y := by simpa using hpsd fun i => if i = 0 then 0 else 1
    nlinarith [sq_pos_of_ne_zero hc, mul_nonneg hyy (sq_nonneg (wcov w x y))]
  · have : 0 ≤ wcov w x x * (wcov w x x * wcov w y y - wcov w x y ^ 2) := by nlinarith
    linarith [(mul_nonneg_iff_of_pos_left h0).1 this]

theorem diagOf_ofFn {α : Type} {p : Nat} (f : Fin p → Fin p → α) :
    diagOf (List.ofFn fun i => List.ofFn (f i)) = List.ofFn fun i => f i i := by
  have hgen : ∀ (k : Nat) (g : Fin k → List α) (s : Nat) (h : Fin k → α)
      (_ : ∀ i : Fin k, (g i)[s + i.val]? = some (h i)),
      ((List.ofFn g).zipIdx s).filterMap (fun ri => ri.1[ri.2]?) = List.ofFn h := by
    intro k
    induction k with
    | zero => intros; simp
    | succ k ih =>
      intro g s h hg
      rw [List.ofFn_succ, List.ofFn_succ, List.zipIdx_cons, List.filterMap_cons]
      have h0 := hg 0
      simp only [Fin.val_zero, Nat.add_zero] at h0
      simp only [h0]
      rw [ih (fun i => g i.succ) (s + 1) (fun i => h i.succ) (fun i => ?_)]
      have := hg i.succ
      simp only [Fin.val_succ] at this
      rw [← this]
      congr 1
      omega
  apply hgen
  intro i
  simp

/-- The correlation coefficient of two columns. -/
noncomputable def Spec.wcorr {n : Nat} (w x y : Fin n → ℝ) : ℝ :=
  wcov w x y / (√(wcov w x x) * √(wcov w y y))

theorem getCorrelation_eq {c : Chain ℝ} {cols : List String} {n : Nat} {w : Fin n → ℝ}
    {x : Fin cols.length → Fin n → ℝ} (hw : c.weights = .ok (List.ofFn w)) (hpos : ∀ i, 0 < w i)
    (hx : ∀ j, c.samples.get cols[j] = .ok (List.ofFn (x j))) (hn : 2 ≤ n)
    (hp : 2 ≤ cols.length) (hnc : ∀ j, ∃ a b, x j a ≠ x j b) :
    c.getCorrelation (some cols) = .ok ⟨cols,
      .matrix (List.ofFn fun i => List.ofFn fun j => .fin (wcorr w (x i) (x j)))⟩ := by
  have hv := fun j => wcov_self_pos hpos hn (hnc j)
  simp only [Chain.getCorrelation, getCovariance_eq hw hpos hx hn hp, bind, Except.bind, pure,
    Except.pure, diagOf_ofFn, List.map_ofFn]
  congr 3
  rw [zipWith_ofFn]
  congr 1
  funext i
  simp only [Function.comp_apply]
  rw [zipWith_ofFn]
  congr 1
  funext j
  simp only [Function.comp_apply, fltSqrt, if_neg (not_lt.2 (hv _).le), fltMulNN, fltDivNN]
  have : √(wcov w (x j) (x j)) * √(wcov w (x i) (x i)) ≠ 0 :=
    mul_ne_zero (Real.sqrt_pos.2 (hv j)).ne' (Real.sqrt_pos.2 (hv i)).ne'
  rw [if_neg this, wcorr, mul_comm √(wcov w (x j) (x j))]

/-- **C14, partial** (value). For every accepted chain with at least two rows and every list of at least two
non-constant columns, `get_correlation` is a symmetric matrix with ones on the diagonal and entries
in `[-1, 1]`: the covariances divided by the standard deviations. Missing: chains with `shift_params`
(`C14_violated_shift`). -/
theorem C14_correlation_matrix_partial (a : Args ℝ) (c : Chain ℝ) (hwf : a.samples.WF)
    (hshift : setting a .shiftParams = false) (h : Chain.make a = .ok c)
    (cols : List String) (hcols : ∀ p ∈ cols, p ∈ c.samples.columns)
    (hrows : 2 ≤ c.samples.index.length) (hp : 2 ≤ cols.length)
    (hnc : ∀ p ∈ cols, ∀ v, c.samples.get p = .ok v → ∃ y ∈ v, ∃ z ∈ v, y ≠ z) :
    ∃ (w : Fin c.samples.index.length → ℝ)
      (x : Fin cols.length → Fin c.samples.index.length → ℝ)
      (R : Fin cols.length → Fin cols.length → ℝ),
      c.weights = .ok (List.ofFn w) ∧ (∀ i, 0 < w i) ∧
      (∀ j, c.samples.get cols[j] = .ok (List.ofFn (x j))) ∧
      c.getCorrelation (some cols) = .ok ⟨cols,
        .matrix (List.ofFn fun i => List.ofFn fun j => .fin (R i j))⟩ ∧
      (∀ i j, R i j = wcov w (x i) (x j) / (√(wcov w (x i) (x i)) * √(wcov w (x j) (x j)))) ∧
      (∀ i j, R i j = R j i) ∧ (∀ i, R i i = 1) ∧ ∀ i j, -1 ≤ R i j ∧ R i j ≤ 1 := by
  obtain ⟨w, x, hw, hpos, hx⟩ := accepted_columns hwf hshift h cols hcols
  have hnc' : ∀ j, ∃ a b, x j a ≠ x j b := by
    intro j
    obtain ⟨y, hy, z, hz, hyz⟩ := hnc cols[j] (List.getElem_mem _) _ (hx j)
    obtain ⟨p, rfl⟩ := List.mem_ofFn.1 hy
    obtain ⟨q, rfl⟩ := List.mem_ofFn.1 hz
    exact ⟨p, q, hyz⟩
  have hv := fun j => wcov_self_pos hpos hrows (hnc' j)
  refine ⟨w, x, fun i j => wcorr w (x i) (x j), hw, hpos, hx,
    getCorrelation_eq hw hpos hx hrows hp hnc', fun _ _ => rfl, fun i j => ?_, fun i => ?_,
    fun i j => ?_⟩
  · simp only [wcorr]
    rw [wcov_comm, mul_comm]
  · simp only [wcorr]
    rw [Real.mul_self_sqrt (hv i).le, div_self (hv i).ne']
  · have hD : 0 < √(wcov w (x i) (x i)) * √(wcov w (x j) (x j)) :=
      mul_pos (Real.sqrt_pos.2 (hv i)) (Real.sqrt_pos.2 (hv j))
    have habs : |wcov w (x i) (x j)| ≤ √(wcov w (x i) (x i)) * √(wcov w (x j) (x j)) := by
      rw [← Real.sqrt_mul (hv i).le]
      exact Real.abs_le_sqrt (wcov_sq_le hpos hrows _ _)
    simp only [wcorr]
    rw [le_div_iff₀ hD, div_le_iff₀ hD]
    have := abs_le.1 habs
    constructor <;> linarith [this.1, this.2]

/-- **C14** (invariance). Rescaling each column by a positive affine map leaves the correlation
matrix unchanged. -/
theorem C14_correlation_invariant (c c' : Chain ℝ) (cols : List String) {n : Nat} (w : Fin n → ℝ)
    (x : Fin cols.length → Fin n → ℝ) (hw : c.weights = .ok (List.ofFn w)) (hpos : ∀ i, 0 < w i)
    (hx : ∀ j, c.samples.get cols[j] = .ok (List.ofFn (x j)))
    (hrows : 2 ≤ n) (hp : 2 ≤ cols.length) (hnc : ∀ j, ∃ a b, x j a ≠ x j b)
    (s b : Fin cols.length → ℝ) (hs : ∀ j, 0 < s j)
    (hw' : c'.weights = .ok (List.ofFn w))
    (hx' : ∀ j, c'.samples.get cols[j] = .ok (List.ofFn fun i => s j * x j i + b j)) :
    c'.getCorrelation (some cols) = c.getCorrelation (some cols) := by
  have hS : ∑ i, w i ≠ 0 :=
    (Finset.sum_pos (fun i _ => hpos i) ⟨⟨0, by omega⟩, Finset.mem_univ _⟩).ne'
  have hnc' : ∀ j, ∃ p q, s j * x j p + b j ≠ s j * x j q + b j := by
    intro j
    obtain ⟨p, q, hpq⟩ := hnc j
    refine ⟨p, q, fun h => hpq ?_⟩
    exact mul_left_cancel₀ (hs j).ne' (add_right_cancel h)
  have hv := fun j => wcov_self_pos hpos hrows (hnc j)
  rw [getCorrelation_eq hw hpos hx hrows hp hnc, getCorrelation_eq hw' hpos hx' hrows hp hnc']
  congr 5
  funext i
  congr 1
  funext j
  congr 1
  simp only [wcorr, wcov_affine hS]
  have hsq : ∀ j, √(s j * s j * wcov w (x j) (x j)) = s j * √(wcov w (x j) (x j)) := by
    intro j
    rw [Real.sqrt_mul (mul_self_nonneg _), Real.sqrt_mul_self (hs j).le]
  rw [hsq, hsq]
  have h1 := (Real.sqrt_pos.2 (hv i)).ne'
  have h2 := (Real.sqrt_pos.2 (hv j)).ne'
  have h3 := (hs i).ne'
  have h4 := (hs j).ne'
  field_simp

/-! ## A single column -/

/-- **C15** (violation). For every accepted chain and every one of its columns, the correlation of
that single column raises ValueError, and the covariance is a 0-d array. -/
theorem C15_single_column_fails (a : Args ℝ) (c : Chain ℝ) (hwf : a.samples.WF)
    (hshift : setting a .shiftParams = false) (h : Chain.make a = .ok c)
    (p : String) (hp : p ∈ c.samples.columns) :
    c.getCorrelation (some [p]) = .error .value ∧
      ∃ v, c.getCovariance (some [p]) = .ok ⟨[p], .scalar v⟩ := by
  obtain ⟨hWF, -, hne, -, ⟨w, hw, hwl, hpos⟩, -⟩ := C07_accepted_chain_guarantees a c hwf hshift h
  obtain ⟨x, hx⟩ := get_ok_of_mem hp
  have hm : c.samples.getMany [p] = .ok [x] := by
    simp only [Frame.getMany, hx, bind, Except.bind, pure, Except.pure]
  have hneg : (w.any fun v => decide (v < 0)) = false := by
    rw [List.any_eq_false]
    intro v hv
    simp [(hpos v hv).le]
  have hsum : w.sum ≠ 0 := by
    refine (sum_pos_of_pos (fun x hx => hpos x hx) ?_).ne'
    rintro rfl
    exact hne (List.length_eq_zero_iff.1 hwl.symm)
  have hcov : ∃ v, npCov [x] w = .ok (.scalar v) := by
    unfold npCov
    rw [if_neg (by simp), if_neg (by rw [hneg]; simp), if_neg hsum]
    exact ⟨_, rfl⟩
  obtain ⟨v, hv⟩ := hcov
  have hc : c.getCovariance (some [p]) = .ok ⟨[p], .scalar v⟩ := by
    simp only [Chain.getCovariance, Option.getD_some, hm, hw, hv, bind, Except.bind, pure,
      Except.pure]
  refine ⟨?_, v, hc⟩
  simp only [Chain.getCorrelation, hc, bind, Except.bind]

/-- **C15** (what holds). Every other list of existing columns works, with constant columns or a
single row included. What is missing from the full property is the single column, see
`C15_single_column_fails`. -/
theorem C15_correlation_succeeds_partial (a : Args ℝ) (c : Chain ℝ) (hwf : a.samples.WF)
    (hshift : setting a .shiftParams = false) (h : Chain.make a = .ok c)
    (cols : List String) (hcols : ∀ p ∈ cols, p ∈ c.samples.columns) (hl : cols.length ≠ 1) :
    (∃ m, c.getCorrelation (some cols) = .ok ⟨cols, .matrix m⟩) ∧
      ∃ m, c.getCovariance (some cols) = .ok ⟨cols, .matrix m⟩ := by
  obtain ⟨w, x, hw, hpos, hx⟩ := accepted_columns hwf hshift h cols hcols
  obtain ⟨-, -, hne, -⟩ := C07_accepted_chain_guarantees a c hwf hshift h
  have hm : c.samples.getMany cols = .ok (List.ofFn fun j => List.ofFn (x j)) := by
    have := getMany_ofFn (f := c.samples) (name := fun j : Fin cols.length => cols[j])
      (x := fun j => List.ofFn (x j)) hx
    rwa [← eq_ofFn] at this
  have hneg : ((List.ofFn w).any fun v => decide (v < 0)) = false := by
    rw [List.any_eq_false]
    intro v hv
    obtain ⟨i, rfl⟩ := List.mem_ofFn.1 hv
    simp [(hpos i).le]
  have hsum : (List.ofFn w).sum ≠ 0 := by
    refine (sum_pos_of_pos (fun x hx => ?_) ?_).ne'
    · obtain ⟨i, rfl⟩ := List.mem_ofFn.1 hx
      exact hpos i
    · intro h0
      have := congrArg List.length h0
      rw [List.length_ofFn] at this
      exact hne (List.length_eq_zero_iff.1 this)
  have hcov : ∃ m, npCov (List.ofFn fun j => List.ofFn (x j)) (List.ofFn w) = .ok (.matrix m) := by
    unfold npCov
    split
    · exact ⟨_, rfl⟩
    · rw [if_neg (by rw [hneg]; simp)]
      simp only []
      split
      · rename_i d hd
        have := congrArg List.length hd
        rw [List.length_map, List.length_ofFn] at this
        exact absurd this hl
      · exact ⟨_, rfl⟩
  obtain ⟨m, hv⟩ := hcov
  have hc : c.getCovariance (some cols) = .ok ⟨cols, .matrix m⟩ := by
    simp only [Chain.getCovariance, Option.getD_some, hm, hw, hv, bind, Except.bind, pure,
      Except.pure]
  refine ⟨?_, m, hc⟩
  simp only [Chain.getCorrelation, hc, bind, Except.bind, pure, Except.pure]
  exact ⟨_, rfl⟩

/-! ### Concrete inputs meeting the hypotheses -/

/-- Three weighted rows of two columns. -/
def covDemo : Args ℚ :=
  { samples := { index := [.int 0, .int 1, .int 2], cols := [(.str "a", [.fin 1, .fin 2, .fin 4]),
      (.str "b", [.fin 3, .fin 5, .fin 0]), (.str "weight", [.fin 1, .fin 2, .fin 1])] }
    name := "demo" }

example : covDemo.samples.WF ∧ setting covDemo .shiftParams = false ∧
    ∃ c, Chain.make covDemo = .ok c ∧ c.dataColumns = ["a", "b"] ∧
      2 ≤ c.samples.index.length ∧ 2 ≤ ["a", "b"].length ∧
      ∀ p ∈ ["a", "b"], p ∈ c.samples.columns := by
  refine ⟨⟨by decide, by simp [covDemo]⟩, by decide +kernel, ?_⟩
  match hc : Chain.make covDemo with
  | .ok c =>
    refine ⟨c, rfl, ?_⟩
    have key : (match Chain.make covDemo with
      | .ok c => decide (c.dataColumns = ["a", "b"] ∧ 2 ≤ c.samples.index.length ∧
          2 ≤ ["a", "b"].length ∧ ∀ p ∈ ["a", "b"], p ∈ c.samples.columns)
      | .error _ => false) = true := by decide +kernel
    rw [hc] at key
    exact of_decide_eq_true key
  | .error e =>
    exfalso
    have key : (Chain.make covDemo).isOk = true := by decide +kernel
    rw [hc] at key
    cases key

/-- A chain over the reals to which the correlation theorems apply. -/
example : ∃ (a : Args ℝ) (c : Chain ℝ), a.samples.WF ∧ setting a .shiftParams = false ∧
    Chain.make a = .ok c ∧ (∀ p ∈ ["a", "b"], p ∈ c.samples.columns) ∧
    2 ≤ c.samples.index.length ∧
    ∀ p ∈ ["a", "b"], ∀ v, c.samples.get p = .ok v → ∃ y ∈ v, ∃ z ∈ v, y ≠ z := by
  let f : Frame ℝ := { index := [.int 0, .int 1],
                       cols := [("a", [1, 2]), ("b", [3, 5]), ("weight", [1, 2])] }
  have hf : f.WF := ⟨by simp [f], by simp [f]⟩
  obtain ⟨c, hc, hcs, -⟩ := plain_chain f hf (by simp [f]) (w := [1, 2]) rfl (by simp) "demo"
  refine ⟨_, c, toRaw_WF.2 hf, rfl, hc, ?_, ?_, ?_⟩
  · rw [hcs]; simp [f, Frame.columns]
  · rw [hcs]; simp [f]
  · rw [hcs]
    simp [f, Frame.get, List.lookup]

end CC
