import Verif.Props.Geweke

/-! # C121: what the diagnostics make of weights, and what passing them means

Every sample stands for its weight. A chain that passes `gelman_rubin` should have walkers whose means are close in units of
their standard deviations. -/

set_option linter.unusedSectionVars false

namespace CC
open Spec

section
variable {m n : Nat}

/-- Mean of walker `j` with weights. -/
noncomputable def Spec.weightedMean (w θ : Fin m → Fin n → ℝ) (j : Fin m) : ℝ := (∑ i, w j i * θ j i) / ∑ i, w j i

/-- Variance of walker `j` with weights. -/
noncomputable def Spec.weightedVar (w θ : Fin m → Fin n → ℝ) (j : Fin m) : ℝ :=
  (∑ i, w j i * (θ j i - weightedMean w θ j) ^ 2) / ∑ i, w j i

/-- The chain with other weights. -/
def Spec.withWeights (c : Chain ℝ) (w : List ℝ) : Chain ℝ :=
  { c with samples := { c.samples with cols := c.samples.cols.map fun e => if e.1 = c.weightColumn then (e.1, w) else e } }

theorem withWeights_columns (c : Chain ℝ) (w : List ℝ) : (withWeights c w).samples.columns = c.samples.columns := by
  simp only [withWeights, Frame.columns, List.map_map]
  refine List.map_congr_left fun e _ => ?_
  simp only [Function.comp]
  split <;> rfl

theorem withWeights_get (c : Chain ℝ) (w : List ℝ) {col : String} (h : col ≠ c.weightColumn) :
    (withWeights c w).samples.get col = c.samples.get col := by
  unfold Frame.get withWeights
  simp only
  congr 1
  induction c.samples.cols with
  | nil => rfl
  | cons e l ih =>
    obtain ⟨k, v⟩ := e
    simp only [List.map_cons]
    by_cases hk : k = c.weightColumn
    · rw [if_pos hk, List.lookup_cons, List.lookup_cons, ih]
      have : (col == k) = false := by
        rw [hk]; exact beq_false_of_ne h
      simp only [this]
    · rw [if_neg hk, List.lookup_cons, List.lookup_cons, ih]

theorem withWeights_dataColumns (c : Chain ℝ) (w : List ℝ) : (withWeights c w).dataColumns = c.dataColumns := by
  unfold Chain.dataColumns
  rw [withWeights_columns]
  rfl

theorem withWeights_getMany (c : Chain ℝ) (w : List ℝ) {cols : List String} (h : c.weightColumn ∉ cols) :
    (withWeights c w).samples.getMany cols = c.samples.getMany cols := by
  induction cols with
  | nil => rfl
  | cons p ps ih =>
    simp only [List.mem_cons, not_or] at h
    simp only [Frame.getMany, withWeights_get c w (Ne.symm h.1), ih h.2]

/-- **C121** (weights, negation for every chain). Neither `gelman_rubin` nor `geweke` looks at the weights: with any others they come to
the same verdict. -/
theorem C121_ignored (spec : List ℝ → Flt ℝ) (normaltest : List (Flt ℝ) → Flt ℝ) (first last threshold : ℝ) (c : Chain ℝ)
    (w : List ℝ) : gelmanOne threshold (withWeights c w) = gelmanOne threshold c ∧
    gewekeOne spec normaltest first last threshold (withWeights c w) = gewekeOne spec normaltest first last threshold c := by
  have h1 := withWeights_dataColumns c w
  have h2 := withWeights_getMany c w (cols := c.dataColumns) (by simp [Chain.dataColumns, Chain.reserved])
  constructor
  · unfold gelmanOne
    rw [h1, h2]
    rfl
  · unfold gewekeOne
    rw [h1, h2]
    rfl

/-- Reordering the steps of each walker does not change the ratio. -/
theorem ratio_steps (θ : Fin m → Fin n → ℝ) (τ : Fin m → Equiv.Perm (Fin n)) :
    within (fun j i => θ j (τ j i)) = within θ ∧ ratioSq (fun j i => θ j (τ j i)) = ratioSq θ := by
  have h1 : ∀ j, walkerMean (fun j i => θ j (τ j i)) j = walkerMean θ j := fun j => by
    unfold walkerMean
    congr 1
    exact Equiv.sum_comp (τ j) fun i => θ j i
  have h2 : grandMean (fun j i => θ j (τ j i)) = grandMean θ := by
    unfold grandMean
    simp only [h1]
  have h3 : between (fun j i => θ j (τ j i)) = between θ := by
    unfold between
    simp only [h1, h2]
  have h4 : within (fun j i => θ j (τ j i)) = within θ := by
    unfold within
    simp only [h1]
    congr 1
    refine Finset.sum_congr rfl fun j _ => ?_
    congr 1
    exact Equiv.sum_comp (τ j) fun i => (θ j i - walkerMean θ j) ^ 2
  exact ⟨h4, by unfold ratioSq; rw [h3, h4]⟩

/-- **C121** (order, units). The verdict of `gelman_rubin` depends neither on the order of the walkers, nor on that of the steps of a
walker, nor on the units and the origin of each parameter. -/
theorem C121_order (a a' : Args ℝ) (c c' : Chain ℝ) (hwf : a.samples.WF) (h : Chain.make a = .ok c) (hwf' : a'.samples.WF)
    (h' : Chain.make a' = .ok c') (hm : 1 < m) (hn : 1 < n) (hwalk : c.walkers = m) (hrows : c.samples.index.length = m * n)
    (hwalk' : c'.walkers = m) (hrows' : c'.samples.index.length = m * n) (hcols : c'.dataColumns = c.dataColumns)
    (σ : Equiv.Perm (Fin m)) (τ : Fin m → Equiv.Perm (Fin n)) (s b : String → ℝ) (hs : ∀ p, s p ≠ 0)
    (hσ : ∀ p ∈ c.dataColumns, ∀ x x', (p, x) ∈ c.samples.cols → (p, x') ∈ c'.samples.cols →
      ∀ j i, steps x' m n j i = s p * steps x m n (σ j) (τ (σ j) i) + b p) (threshold : ℝ) :
    gelmanOne threshold c' = gelmanOne threshold c := by
  obtain ⟨v, hv, hiff⟩ := C21_gelman_rubin_verdict a c hwf h m n hm hn hwalk hrows threshold
  obtain ⟨v', hv', hiff'⟩ := C21_gelman_rubin_verdict a' c' hwf' h' m n hm hn hwalk' hrows' threshold
  obtain ⟨hW, -⟩ := make_WF hwf h
  obtain ⟨hW', -⟩ := make_WF hwf' h'
  rw [hv, hv']
  congr 1
  rw [Bool.eq_iff_iff, hiff, hiff', hcols]
  have key : ∀ p ∈ c.dataColumns, ∀ x x', (p, x) ∈ c.samples.cols → (p, x') ∈ c'.samples.cols →
      (Converged threshold (steps x' m n) ↔ Converged threshold (steps x m n)) := by
    intro p hp x x' hx hx'
    have e : steps x' m n = fun j i => s p * (fun j i => (fun j => steps x m n (σ j)) j ((fun j => τ (σ j)) j i)) j i + b p := by
      funext j i
      exact hσ p hp x x' hx hx' j i
    obtain ⟨e1, e2⟩ := C21_affine (fun j i => (fun j => steps x m n (σ j)) j ((fun j => τ (σ j)) j i)) hm hn (s p) (b p) (hs p)
    obtain ⟨e3, e4⟩ := ratio_steps (fun j => steps x m n (σ j)) fun j => τ (σ j)
    obtain ⟨e5, e6⟩ := C21_reorder_walkers (steps x m n) σ
    rw [e]
    unfold Converged
    rw [e1, e2, e3, e4, e5, e6]
    have : s p ^ 2 * within (steps x m n) ≠ 0 ↔ within (steps x m n) ≠ 0 := by
      rw [ne_eq, mul_eq_zero, not_or]
      exact ⟨fun h => h.2, fun h => ⟨pow_ne_zero 2 (hs p), h⟩⟩
    rw [this]
  have hmem : ∀ p ∈ c.dataColumns, (∃ x, (p, x) ∈ c.samples.cols) ∧ ∃ x', (p, x') ∈ c'.samples.cols := by
    intro p hp
    have h1 : p ∈ c.samples.columns := (List.mem_filter.1 hp).1
    have h2 : p ∈ c'.samples.columns := by
      rw [← hcols] at hp
      exact (List.mem_filter.1 hp).1
    obtain ⟨e, he, rfl⟩ := List.mem_map.1 h1
    obtain ⟨e', he', hee⟩ := List.mem_map.1 h2
    exact ⟨⟨e.2, he⟩, ⟨e'.2, by rw [← hee]; exact he'⟩⟩
  constructor
  · intro H p hp x hx
    obtain ⟨-, x', hx'⟩ := hmem p hp
    exact (key p hp x x' hx hx').1 (H p hp x' hx')
  · intro H p hp x' hx'
    obtain ⟨⟨x, hx⟩, -⟩ := hmem p hp
    exact (key p hp x x' hx hx').2 (H p hp x hx)

/-- A converged parameter has walkers with close means. -/
theorem converged_close (hm : 1 < m) (hn : 1 < n) {threshold : ℝ} {θ : Fin m → Fin n → ℝ} (h : Converged threshold θ) (j j' : Fin m) :
    (walkerMean θ j - walkerMean θ j') ^ 2 ≤
      2 * m * (m - 1) / (m + 1) * ((1 + threshold) ^ 2 - 1 + 1 / n) * within θ := by
  obtain ⟨hW, hr⟩ := h
  have hm1 : (1 : ℝ) < m := by exact_mod_cast hm
  have hn1 : (1 : ℝ) < n := by exact_mod_cast hn
  have hWp : 0 < within θ := lt_of_le_of_ne (within_nonneg θ hn) (Ne.symm hW)
  have hR : ratioSq θ ≤ (1 + threshold) ^ 2 := by
    have h1 : √(ratioSq θ) < 1 + threshold := by have := (abs_lt.1 hr).2; linarith
    have h2 : 0 ≤ 1 + threshold := (Real.sqrt_nonneg _).trans h1.le
    have h3 := Real.sqrt_le_left h2 |>.1 h1.le
    exact h3
  set S := ∑ k, (walkerMean θ k - grandMean θ) ^ 2 with hS
  have e : ratioSq θ = 1 - 1 / n + (m + 1) / (m * (m - 1)) * S / within θ := by
    unfold ratioSq between
    rw [← hS]
    have : (m : ℝ) - 1 ≠ 0 := by linarith
    have : (m : ℝ) ≠ 0 := by linarith
    have : (n : ℝ) ≠ 0 := by linarith
    field_simp
    ring
  have hSb : S ≤ m * (m - 1) / (m + 1) * ((1 + threshold) ^ 2 - 1 + 1 / n) * within θ := by
    have h1 : (m + 1) / (m * (m - 1)) * S / within θ ≤ (1 + threshold) ^ 2 - 1 + 1 / n := by rw [e] at hR; linarith
    rw [div_le_iff₀ hWp] at h1
    have hc : (0 : ℝ) < (m + 1) / (m * (m - 1)) := div_pos (by linarith) (mul_pos (by linarith) (by linarith))
    have h2 : S ≤ ((1 + threshold) ^ 2 - 1 + 1 / n) * within θ / ((m + 1) / (m * (m - 1))) := by
      rw [le_div_iff₀ hc]; linarith
    refine h2.trans (le_of_eq ?_)
    rw [div_div_eq_mul_div]
    ring
  have hle : (walkerMean θ j - walkerMean θ j') ^ 2 ≤ 2 * S := by
    by_cases hjj : j = j'
    · rw [hjj, sub_self]
      have : 0 ≤ S := Finset.sum_nonneg fun _ _ => sq_nonneg _
      nlinarith
    · have h1 : (walkerMean θ j - grandMean θ) ^ 2 + (walkerMean θ j' - grandMean θ) ^ 2 ≤ S := by
        rw [← Finset.sum_pair (f := fun k => (walkerMean θ k - grandMean θ) ^ 2) hjj]
        exact Finset.sum_le_sum_of_subset_of_nonneg (Finset.subset_univ _) fun _ _ _ => sq_nonneg _
      nlinarith [sq_nonneg (walkerMean θ j - grandMean θ + (walkerMean θ j' - grandMean θ))]
  calc _ ≤ 2 * S := hle
    _ ≤ 2 * (m * (m - 1) / (m + 1) * ((1 + threshold) ^ 2 - 1 + 1 / n) * within θ) := by linarith
    _ = _ := by ring

/-- **C121** (closeness, partial). If an accepted chain of `m` walkers with `n` steps passes `gelman_rubin`, the means of any two walkers
differ, for each parameter, by at most the square root of `2m(m-1)/(m+1) ((1+t)² - 1 + 1/n)` in units of the root of the average variance
of the walkers. Missing: means and variances that take the weights into account (`C121_violated`). -/
theorem C121_close_partial (a : Args ℝ) (c : Chain ℝ) (hwf : a.samples.WF) (h : Chain.make a = .ok c) (hm : 1 < m) (hn : 1 < n)
    (hwalk : c.walkers = m) (hrows : c.samples.index.length = m * n) {threshold : ℝ} (hpass : gelmanOne threshold c = .ok true)
    {p : String} {x : List ℝ} (hp : p ∈ c.dataColumns) (hx : (p, x) ∈ c.samples.cols) (j j' : Fin m) :
    (walkerMean (steps x m n) j - walkerMean (steps x m n) j') ^ 2 ≤
      2 * m * (m - 1) / (m + 1) * ((1 + threshold) ^ 2 - 1 + 1 / n) * within (steps x m n) := by
  obtain ⟨v, hv, hiff⟩ := C21_gelman_rubin_verdict a c hwf h m n hm hn hwalk hrows threshold
  rw [hpass] at hv
  cases hv
  exact converged_close hm hn (hiff.1 rfl p hp x hx) j j'

end

/-- Six steps at 0 and six at 1. -/
def halves : List ℝ := [0, 0, 0, 0, 0, 0, 1, 1, 1, 1, 1, 1]

/-- Two walkers of such steps; the weights are `k` for the zeros of the first and the ones of the second, and 1 for the others. -/
def apartWalkers (k : ℝ) : Frame ℝ :=
  { index := (List.range 24).map fun i => .int i
    cols := [("a", halves ++ halves), ("weight", [k, k, k, k, k, k, 1, 1, 1, 1, 1, 1, 1, 1, 1, 1, 1, 1, k, k, k, k, k, k])] }

theorem apart_steps : steps (halves ++ halves) 2 12 = fun _ i => if i.val < 6 then 0 else 1 := by
  funext j i
  fin_cases j <;> fin_cases i <;> simp [steps, halves]

/-- **C121**, negation. For every bound there is an accepted chain of two walkers with 12 steps each that passes `gelman_rubin` with the
default threshold, though the weighted means of the walkers differ by more than the bound, in units of the weighted standard deviation of
either. -/
theorem C121_violated (bound : ℝ) : ∃ (a : Args ℝ) (c : Chain ℝ) (x w : List ℝ), a.samples.WF ∧ Chain.make a = .ok c ∧
    c.walkers = 2 ∧ c.samples.index.length = 2 * 12 ∧ "a" ∈ c.dataColumns ∧ c.samples.get "a" = .ok x ∧ c.weights = .ok w ∧
    gelmanOne (1 / 20) c = .ok true ∧
    ∀ j, bound ^ 2 * weightedVar (steps w 2 12) (steps x 2 12) j <
      (weightedMean (steps w 2 12) (steps x 2 12) 0 - weightedMean (steps w 2 12) (steps x 2 12) 1) ^ 2 := by
  set k := bound ^ 2 + 3 with hk
  have hkp : 0 < k := by positivity
  have hf : (apartWalkers k).WF := ⟨by simp [apartWalkers], by simp [apartWalkers, halves]⟩
  obtain ⟨c, hc, hcs, h1, h2, -, -, hw, -⟩ := plain_chain_walkers (apartWalkers k) hf
    (by simp [apartWalkers]; exact ⟨0, by norm_num⟩)
    (w := [k, k, k, k, k, k, 1, 1, 1, 1, 1, 1, 1, 1, 1, 1, 1, 1, k, k, k, k, k, k]) rfl (by simp [hkp]) "apart" 2 (by simp)
    (by simp [apartWalkers])
  have hrows : c.samples.index.length = 2 * 12 := by rw [hcs]; simp [apartWalkers]
  have hdc : c.dataColumns = ["a"] := by
    simp [Chain.dataColumns, hcs, apartWalkers, Frame.columns, Chain.reserved, h1, h2]
    decide
  refine ⟨_, c, halves ++ halves, [k, k, k, k, k, k, 1, 1, 1, 1, 1, 1, 1, 1, 1, 1, 1, 1, k, k, k, k, k, k], toRaw_WF.2 hf, hc, hw, hrows,
    by rw [hdc]; simp, by rw [hcs]; rfl, by unfold Chain.weights; rw [hcs, h1]; rfl, ?_, ?_⟩
  · obtain ⟨v, hv, hiff⟩ := C21_gelman_rubin_verdict _ c (toRaw_WF.2 hf) hc 2 12 (by norm_num) (by norm_num) hw hrows (1 / 20)
    rw [hv]
    congr 1
    refine hiff.2 ?_
    rw [hdc]
    intro p hp x hx
    rw [List.mem_singleton] at hp
    subst hp
    have : x = halves ++ halves := by
      rw [hcs] at hx
      simpa [apartWalkers] using hx
    subst this
    rw [apart_steps]
    have hWn : within (fun (_ : Fin 2) (i : Fin 12) => if i.val < 6 then (0 : ℝ) else 1) ≠ 0 := by
      rw [ne_eq, within_eq_zero_iff _ (by norm_num) (by norm_num)]
      intro h
      have := h 0 0 6
      simp at this
    have hb := ((C21_ratio_bound _ (by norm_num) (by norm_num) hWn).2.2 fun j j' => rfl)
    refine ⟨hWn, ?_⟩
    rw [hb]
    rw [abs_lt]
    have hs1 : √(((12 : ℕ) - 1 : ℝ) / (12 : ℕ)) < 1 := by
      rw [Real.sqrt_lt' one_pos]; norm_num
    have hs2 : 19 / 20 < √(((12 : ℕ) - 1 : ℝ) / (12 : ℕ)) := by
      rw [Real.lt_sqrt (by norm_num)]; norm_num
    constructor <;> linarith
  · rw [apart_steps]
    have hw0 : ∀ i : Fin 12, steps [k, k, k, k, k, k, 1, 1, 1, 1, 1, 1, 1, 1, 1, 1, 1, 1, k, k, k, k, k, k] 2 12 0 i =
        if i.val < 6 then k else 1 := by
      intro i
      fin_cases i <;> simp [steps]
    have hw1 : ∀ i : Fin 12, steps [k, k, k, k, k, k, 1, 1, 1, 1, 1, 1, 1, 1, 1, 1, 1, 1, k, k, k, k, k, k] 2 12 1 i =
        if i.val < 6 then 1 else k := by
      intro i
      fin_cases i <;> simp [steps]
    set W := steps [k, k, k, k, k, k, 1, 1, 1, 1, 1, 1, 1, 1, 1, 1, 1, 1, k, k, k, k, k, k] 2 12 with hW
    set θ : Fin 2 → Fin 12 → ℝ := fun _ i => if i.val < 6 then 0 else 1 with hθ
    have hk1 : k + 1 ≠ 0 := by positivity
    have hm0 : weightedMean W θ 0 = 1 / (k + 1) := by
      unfold weightedMean
      simp only [hw0, hθ, Fin.sum_univ_succ]
      simp
      field_simp
      ring
    have hm1 : weightedMean W θ 1 = k / (k + 1) := by
      unfold weightedMean
      simp only [hw1, hθ, Fin.sum_univ_succ]
      simp
      field_simp
      ring
    have hv0 : weightedVar W θ 0 = k / (k + 1) ^ 2 := by
      unfold weightedVar
      rw [hm0]
      simp only [hw0, hθ, Fin.sum_univ_succ]
      simp
      field_simp
      ring
    have hv1 : weightedVar W θ 1 = k / (k + 1) ^ 2 := by
      unfold weightedVar
      rw [hm1]
      simp only [hw1, hθ, Fin.sum_univ_succ]
      simp
      field_simp
      ring
    have key : bound ^ 2 * (k / (k + 1) ^ 2) < (1 / (k + 1) - k / (k + 1)) ^ 2 := by
      rw [← sub_div, div_pow, ← mul_div_assoc]
      refine div_lt_div_of_pos_right ?_ (by positivity)
      rw [hk]
      nlinarith [sq_nonneg bound, sq_nonneg (bound ^ 2)]
    intro j
    rw [hm0, hm1]
    fin_cases j
    · exact hv0 ▸ key
    · exact hv1 ▸ key

/-- Two chains of two walkers that differ in the order of walkers and steps and in units and origin; the first of them and the chains of
`C121_violated` meet the hypotheses of the other theorems. -/
example : ∃ (a a' : Args ℝ) (c c' : Chain ℝ), a.samples.WF ∧ Chain.make a = .ok c ∧ a'.samples.WF ∧ Chain.make a' = .ok c' ∧
    c.walkers = 2 ∧ c.samples.index.length = 2 * 3 ∧ c'.walkers = 2 ∧ c'.samples.index.length = 2 * 3 ∧ c.dataColumns = ["a"] ∧
    c'.dataColumns = c.dataColumns ∧ ∀ p ∈ c.dataColumns, ∀ x x', (p, x) ∈ c.samples.cols → (p, x') ∈ c'.samples.cols →
      ∀ j i, steps x' 2 3 j i = 2 * steps x 2 3 (Equiv.swap 0 1 j) (Fin.revPerm i) + 1 := by
  let f : Frame ℝ := { index := [.int 0, .int 1, .int 2, .int 3, .int 4, .int 5],
                       cols := [("a", [1, 2, 3, 2, 3, 4]), ("weight", [1, 2, 1, 1, 1, 1])] }
  let f' : Frame ℝ := { index := [.int 0, .int 1, .int 2, .int 3, .int 4, .int 5],
                        cols := [("a", [9, 7, 5, 7, 5, 3]), ("weight", [1, 1, 1, 1, 1, 2])] }
  have hf : f.WF := ⟨by simp [f], by simp [f]⟩
  have hf' : f'.WF := ⟨by simp [f'], by simp [f']⟩
  obtain ⟨c, hc, hcs, h1, h2, -, -, hw, -⟩ := plain_chain_walkers f hf (by simp [f])
    (w := [1, 2, 1, 1, 1, 1]) rfl (by simp) "demo" 2 (by simp) (by simp [f])
  obtain ⟨c', hc', hcs', h1', h2', -, -, hw', -⟩ := plain_chain_walkers f' hf' (by simp [f'])
    (w := [1, 1, 1, 1, 1, 2]) rfl (by simp) "demo" 2 (by simp) (by simp [f'])
  have hdc : c.dataColumns = ["a"] := by
    simp [Chain.dataColumns, hcs, f, Frame.columns, Chain.reserved, h1, h2]
    decide
  have hdc' : c'.dataColumns = ["a"] := by
    simp [Chain.dataColumns, hcs', f', Frame.columns, Chain.reserved, h1', h2']
    decide
  refine ⟨_, _, c, c', toRaw_WF.2 hf, hc, toRaw_WF.2 hf', hc', hw, by rw [hcs]; simp [f], hw', by rw [hcs']; simp [f'], hdc,
    hdc'.trans hdc.symm, ?_⟩
  rw [hdc]
  intro p hp x x' hx hx'
  rw [List.mem_singleton] at hp
  subst hp
  have e : x = [1, 2, 3, 2, 3, 4] := by
    rw [hcs] at hx
    simpa [f] using hx
  have e' : x' = [9, 7, 5, 7, 5, 3] := by
    rw [hcs'] at hx'
    simpa [f'] using hx'
  subst e e'
  intro j i
  fin_cases j <;> fin_cases i <;> simp [steps, Fin.rev] <;> norm_num

end CC
