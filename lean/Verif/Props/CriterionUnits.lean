import Verif.Props.Affine
import Verif.Props.Comparison
import Verif.Props.Covariance
import Verif.Lemmas.Demo

/-! # C128: models compare the same, whatever the units of their parameters

Giving one parameter of one chain in other units (`x` becomes `a x + b`, `a` of any sign) changes neither AIC nor BIC, and moves the
maximum posterior point along. The DIC takes the deviance of the sample nearest to the mean, by distances that mix the units of all
parameters, so it may change with the units, and with it the order of preference. -/

set_option linter.unusedSectionVars false

namespace CC
open Spec

section
variable {K : Type} [Field K] [LinearOrder K] [IsStrictOrderedRing K]

/-- The registry in which parameter `col` of the chain named `n` is given in other units. -/
def Spec.inUnits (cs : List (String × Chain K)) (n col : String) (a b : K) : List (String × Chain K) :=
  cs.map fun e => if e.1 = n then (e.1, rescaled e.2 col a b) else e

/-- All samples nearest to the weighted mean of the parameters have the same log posterior; this is so when there is only one. -/
def Spec.NearestAgree (c : Chain K) : Prop :=
  ∀ (m : Nat) (w p : Fin m → K) (x : Fin c.dataColumns.length → Fin m → K),
    (c.weightColumn, List.ofFn w) ∈ c.samples.cols → (c.posteriorColumn, List.ofFn p) ∈ c.samples.cols →
    (∀ j, (c.dataColumns[j], List.ofFn (x j)) ∈ c.samples.cols) →
    ∀ i i', (∀ k, ∑ j, (x j i - wmean w (x j)) ^ 2 ≤ ∑ j, (x j k - wmean w (x j)) ^ 2) →
      (∀ k, ∑ j, (x j i' - wmean w (x j)) ^ 2 ≤ ∑ j, (x j k - wmean w (x j)) ^ 2) → p i = p i'

/-! ## Reading a chain in other units -/

theorem rescaled_columns (c : Chain K) (col : String) (a b : K) :
    (rescaled c col a b).samples.columns = c.samples.columns := by
  simp only [Frame.columns, rescaled, List.map_map]
  congr 1
  funext e
  simp only [Function.comp_apply]
  split <;> rfl

theorem rescaled_dataColumns (c : Chain K) (col : String) (a b : K) : (rescaled c col a b).dataColumns = c.dataColumns := by
  simp only [Chain.dataColumns, rescaled_columns]
  rfl

theorem rescaled_plottingColumns (c : Chain K) (col : String) (a b : K) :
    (rescaled c col a b).plottingColumns = c.plottingColumns := by
  simp only [Chain.plottingColumns, rescaled_dataColumns]
  rfl

theorem rescaled_logPosterior (c : Chain K) (col : String) (a b : K) (h : col ≠ c.posteriorColumn) :
    (rescaled c col a b).logPosterior = c.logPosterior := by
  simp only [Chain.logPosterior, rescaled]
  rw [lookup_modify c.samples.cols col (List.map fun x => a * x + b), if_neg h.symm]

theorem rescaled_row (c : Chain K) (col : String) (a b : K) (i : Nat) : (rescaled c col a b).samples.row i =
    (c.samples.row i).map fun e => if e.1 = col then (e.1, a * e.2 + b) else e := by
  simp only [Frame.row, rescaled, List.filterMap_map, List.map_filterMap]
  congr 1
  funext e
  simp only [Function.comp_apply]
  by_cases h : e.1 = col
  · cases h' : e.2[i]? <;> simp [h, h']
  · cases h' : e.2[i]? <;> simp [h, h']

/-! ## AIC and BIC -/

theorem loop_inUnits (f : Chain K → Res (Option (Flt K))) (cs : List (String × Chain K)) (n col : String) (a b : K)
    (h : ∀ e ∈ cs, e.1 = n → f (rescaled e.2 col a b) = f e.2) :
    criterionLoop f (inUnits cs n col a b) = criterionLoop f cs := by
  induction cs with
  | nil => rfl
  | cons e es ih =>
    have ih := ih fun d hd => h d (List.mem_cons_of_mem _ hd)
    have he : f (if e.1 = n then (e.1, rescaled e.2 col a b) else e).2 = f e.2 ∧
        (if e.1 = n then (e.1, rescaled e.2 col a b) else e).1 = e.1 := by
      split
      · rename_i hn
        exact ⟨h e (List.mem_cons_self ..) hn, rfl⟩
      · exact ⟨rfl, rfl⟩
    simp only [inUnits, List.map_cons, criterionLoop] at ih ⊢
    rw [he.1, he.2, ih]

/-- **C128** (AIC). Giving a parameter of a chain in other units does not change what `aic()` returns. -/
theorem C128_aic (cs : List (String × Chain K)) (n col : String) (a b : K)
    (hcol : ∀ e ∈ cs, e.1 = n → col ≠ e.2.posteriorColumn) : aic (inUnits cs n col a b) = aic cs := by
  simp only [aic]
  rw [loop_inUnits]
  intro e he hn
  simp only [Chain.aicValue, rescaled_logPosterior e.2 col a b (hcol e he hn)]
  rfl

/-! ## The maximum posterior point -/

/-- **C128** (best point). The maximum posterior point of the chain in other units is the maximum posterior point of the chain, in
other units; the log posterior is the same. -/
theorem C128_max_posterior (c : Chain K) (col : String) (a b : K) (hcol : col ≠ c.posteriorColumn) :
    (rescaled c col a b).maxPosteriorPoint = c.maxPosteriorPoint.map (Option.map fun m =>
      ⟨m.logPosterior, m.coordinate.map fun e => if e.1 = col then (e.1, a * e.2 + b) else e⟩) := by
  have hpos : ∀ l, (rescaled c col a b).samples.positions l = c.samples.positions l := fun _ => rfl
  simp only [Chain.maxPosteriorPoint, rescaled_logPosterior c col a b hcol, hpos, rescaled_row, rescaled_plottingColumns]
  cases c.logPosterior with
  | none => rfl
  | some p =>
    dsimp only
    cases argmax p with
    | none => rfl
    | some i =>
      dsimp only
      rcases c.samples.positions (.int i) with _ | ⟨k, _ | ⟨k', ks⟩⟩
      · rfl
      · dsimp only
        have hl : ((c.samples.row k).map fun e => if e.1 = col then (e.1, a * e.2 + b) else e).lookup
            (rescaled c col a b).posteriorColumn = (c.samples.row k).lookup c.posteriorColumn := by
          rw [lookup_modify (c.samples.row k) col fun x => a * x + b]
          exact if_neg hcol.symm
        rw [hl]
        cases (c.samples.row k).lookup c.posteriorColumn with
        | none => rfl
        | some lp =>
          simp only [Except.map, Option.map]
          congr 3
          rw [List.filter_map, List.filter_map]
          have hfst : ∀ e : String × K, (if e.1 = col then (e.1, a * e.2 + b) else e).1 = e.1 := by
            intro e; split <;> rfl
          congr 1
          simp only [Function.comp_def, hfst]
          rfl
      · rfl

/-! ## DIC -/

theorem dicValue_core (tie : List (List K) → List K → Nat) {c : Chain K} {n : Nat} {w q : Fin n → K} {D : List String}
    {x : Fin D.length → Fin n → K} (hD : c.dataColumns = D) (hn : c.samples.index.length = n) (hnpos : 0 < n) (hS : ∑ i, w i ≠ 0)
    (hw : c.weights = .ok (List.ofFn w)) (hp : c.logPosterior = some (List.ofFn q))
    (hx : ∀ j : Fin D.length, c.samples.get D[j] = .ok (List.ofFn (x j))) :
    ∃ i : Fin n, (∀ k, ∑ j, (x j i - wmean w (x j)) ^ 2 ≤ ∑ j, (x j k - wmean w (x j)) ^ 2) ∧
      c.dicValue tie = .ok (some (.fin (wmean w (fun i => -2 * q i) + (wmean w (fun i => -2 * q i) - -2 * q i)))) := by
  have hX : c.samples.getMany D = .ok (List.ofFn fun j => List.ofFn (x j)) := by
    have := getMany_ofFn (f := c.samples) (name := fun j : Fin D.length => D[j]) (x := fun j => List.ofFn (x j)) hx
    rwa [← eq_ofFn] at this
  have hd : (List.ofFn q).map (-2 * ·) = List.ofFn fun i => -2 * q i := by
    rw [List.map_ofFn]; rfl
  obtain ⟨i, pt, v, hpt, hv, hnear, hmin⟩ := nearestValue_spec tie
    (points := List.ofFn fun i => List.ofFn fun j => x j i) (values := List.ofFn fun i => -2 * q i)
    (List.ofFn fun j => wmean w (x j))
    (by intro h; have := congrArg List.length h; simp only [List.length_ofFn, List.length_nil] at this; omega) (by simp)
  obtain ⟨hi, hpt⟩ := List.getElem?_eq_some_iff.1 hpt
  obtain ⟨_, hv'⟩ := List.getElem?_eq_some_iff.1 hv
  rw [List.getElem_ofFn] at hpt hv'
  rw [List.length_ofFn] at hi
  refine ⟨⟨i, hi⟩, fun i' => ?_, ?_⟩
  · have := hmin (List.ofFn fun j => x j i') (List.mem_ofFn.2 ⟨i', rfl⟩)
    rw [← hpt, sqDist_ofFn, sqDist_ofFn] at this
    exact this
  · rw [← hv'] at hnear
    simp only [Chain.dicValue, hp, hD, hX, hw, averages_ofFn hS, hn, rowsOf_ofFn, hd, hnear,
      average_ofFn hS, bind, Except.bind, pure, Except.pure]

theorem dicValue_rescaled (tie : List (List K) → List K → Nat) {c : Chain K} (hc : AcceptedNoShift c) {col : String} {a : K} (b : K)
    (hp : col ≠ c.posteriorColumn) (hwc : col ≠ c.weightColumn)
    (hu : a = 1 ∨ a = -1 ∨ a ≠ 0 ∧ c.dataColumns = [col]) (hnear : NearestAgree c) :
    (rescaled c col a b).dicValue tie = c.dicValue tie := by
  by_cases hpc : c.posteriorColumn ∈ c.samples.columns
  swap
  · have h1 : c.logPosterior = none := by
      rw [← Option.not_isSome_iff_eq_none, logPosterior_isSome]
      exact hpc
    have h2 := (rescaled_logPosterior c col a b hp).trans h1
    simp only [Chain.dicValue, h1, h2]
  have hacc := AcceptedNoShift.accepted hc
  obtain ⟨args, hwf, hs, hm⟩ := hc
  obtain ⟨p, hpp⟩ := Option.isSome_iff_exists.1 (logPosterior_isSome.2 hpc)
  obtain ⟨w, x, hw, hpos, hx⟩ := accepted_columns hwf hs hm c.dataColumns data_mem_columns
  obtain ⟨hpl, hpne⟩ := posterior_length hacc hpp
  obtain ⟨-, -, hne, -⟩ := make_WF hwf hm
  have hnpos : 0 < c.samples.index.length := List.length_pos_iff.2 hne
  have hS : ∑ i, w i ≠ 0 :=
    (Finset.sum_pos (fun i _ => hpos i) ⟨⟨0, hnpos⟩, Finset.mem_univ _⟩).ne'
  obtain ⟨q, hq⟩ : ∃ q : Fin c.samples.index.length → K, p = List.ofFn q := by
    refine ⟨fun i => p[i]'(by rw [hpl]; exact i.2), ?_⟩
    apply List.ext_getElem <;> simp [hpl]
  subst hq
  obtain ⟨i, hi, hv⟩ := dicValue_core tie rfl rfl hnpos hS hw hpp hx
  have hw' : (rescaled c col a b).weights = .ok (List.ofFn w) := by
    have := rescaled_get c col c.weightColumn a b
    rw [if_neg hwc.symm] at this
    exact this.trans hw
  let x' : Fin c.dataColumns.length → Fin c.samples.index.length → K :=
    fun j k => if c.dataColumns[j] = col then a * x j k + b else x j k
  have hx' : ∀ j : Fin c.dataColumns.length, (rescaled c col a b).samples.get c.dataColumns[j] = .ok (List.ofFn (x' j)) := by
    intro j
    rw [rescaled_get, hx j]
    by_cases h : c.dataColumns[j] = col
    · rw [if_pos h, Except.map]
      simp only [List.map_ofFn, x', if_pos h]
      rfl
    · simp only [x', if_neg h]
  have hdc := rescaled_dataColumns c col a b
  obtain ⟨k, hk, hv'⟩ : ∃ k, (∀ k', ∑ j, (x' j k - wmean w (x' j)) ^ 2 ≤ ∑ j, (x' j k' - wmean w (x' j)) ^ 2) ∧
      (rescaled c col a b).dicValue tie =
        .ok (some (.fin (wmean w (fun i => -2 * q i) + (wmean w (fun i => -2 * q i) - -2 * q k)))) := by
    exact dicValue_core tie hdc rfl hnpos hS hw' ((rescaled_logPosterior c col a b hp).trans hpp) hx'
  have hmean : ∀ j, wmean w (x' j) = if c.dataColumns[j] = col then a * wmean w (x j) + b else wmean w (x j) := by
    intro j
    simp only [x']
    split
    · exact wmean_affine hS a b (x j)
    · rfl
  obtain ⟨t, ht, hscale⟩ : ∃ t : K, 0 < t ∧ ∀ k, ∑ j, (x' j k - wmean w (x' j)) ^ 2 = t * ∑ j, (x j k - wmean w (x j)) ^ 2 := by
    have hone : a * a = 1 → ∃ t : K, 0 < t ∧
        ∀ k, ∑ j, (x' j k - wmean w (x' j)) ^ 2 = t * ∑ j, (x j k - wmean w (x j)) ^ 2 := by
      intro haa
      refine ⟨1, one_pos, fun k => ?_⟩
      rw [one_mul]
      refine Finset.sum_congr rfl fun j _ => ?_
      rw [hmean]
      simp only [x']
      split
      · linear_combination (x j k - wmean w (x j)) ^ 2 * haa
      · rfl
    rcases hu with rfl | rfl | ⟨ha, hd⟩
    · exact hone (by ring)
    · exact hone (by ring)
    · refine ⟨a * a, mul_self_pos.2 ha, fun k => ?_⟩
      rw [Finset.mul_sum]
      refine Finset.sum_congr rfl fun j _ => ?_
      have hj : c.dataColumns[j] = col := by
        have : ∀ y ∈ c.dataColumns, y = col := by rw [hd]; simp
        exact this _ (List.getElem_mem _)
      rw [hmean]
      simp only [x', if_pos hj]
      ring
  have hk2 : ∀ k', ∑ j, (x j k - wmean w (x j)) ^ 2 ≤ ∑ j, (x j k' - wmean w (x j)) ^ 2 := by
    intro k'
    have := hk k'
    rw [hscale, hscale] at this
    exact le_of_mul_le_mul_left this ht
  have := hnear _ w q x (get_mem hw) (logPosterior_some hpp) (fun j => get_mem (hx j)) i k hi hk2
  rw [hv, hv', this]

/-- **C128, partial** (DIC). Moving the origin of a parameter or changing its sign does not change what `dic()` returns, nor do other
units of the only parameter of a chain, when the samples nearest to the mean agree on the log posterior. Missing: other units of one of
several parameters (`C128_violated_dic`). -/
theorem C128_dic_partial (tie : List (List K) → List K → Nat) (cs : List (String × Chain K)) (n col : String) (a b : K)
    (h : ∀ e ∈ cs, e.1 = n → AcceptedNoShift e.2 ∧ col ≠ e.2.posteriorColumn ∧ col ≠ e.2.weightColumn ∧ NearestAgree e.2 ∧
      (a = 1 ∨ a = -1 ∨ a ≠ 0 ∧ e.2.dataColumns = [col])) : dic tie (inUnits cs n col a b) = dic tie cs := by
  simp only [dic]
  rw [loop_inUnits]
  intro e he hn
  obtain ⟨h1, h2, h3, h4, h5⟩ := h e he hn
  exact dicValue_rescaled tie h1 b h2 h3 h5 h4

end

/-- **C128** (BIC). Giving a parameter of a chain in other units does not change what `bic()` returns. -/
theorem C128_bic (cs : List (String × Chain ℝ)) (n col : String) (a b : ℝ)
    (hcol : ∀ e ∈ cs, e.1 = n → col ≠ e.2.posteriorColumn) : bic (inUnits cs n col a b) = bic cs := by
  simp only [bic]
  rw [loop_inUnits]
  intro e he hn
  simp only [Chain.bicValue, rescaled_logPosterior e.2 col a b (hcol e he hn)]
  rfl

/-! ## Covariances and correlations -/

/-- **C128** (covariance). Giving parameter `j` as `s j x + b j` multiplies the covariance of `i` and `j` by `s i s j`. -/
theorem C128_covariance {K : Type} [Field K] [LinearOrder K] [IsStrictOrderedRing K] (c c' : Chain K) (cols : List String) {n : Nat}
    (w : Fin n → K) (x : Fin cols.length → Fin n → K) (hw : c.weights = .ok (List.ofFn w)) (hpos : ∀ i, 0 < w i)
    (hx : ∀ j, c.samples.get cols[j] = .ok (List.ofFn (x j))) (hrows : 2 ≤ n) (hp : 2 ≤ cols.length)
    (s b : Fin cols.length → K) (hw' : c'.weights = .ok (List.ofFn w))
    (hx' : ∀ j, c'.samples.get cols[j] = .ok (List.ofFn fun i => s j * x j i + b j)) :
    ∃ M : Fin cols.length → Fin cols.length → K,
      c.getCovariance (some cols) = .ok ⟨cols, .matrix (List.ofFn fun i => List.ofFn fun j => .fin (M i j))⟩ ∧
      c'.getCovariance (some cols) = .ok ⟨cols, .matrix (List.ofFn fun i => List.ofFn fun j => .fin (s i * s j * M i j))⟩ := by
  have hS : ∑ i, w i ≠ 0 :=
    (Finset.sum_pos (fun i _ => hpos i) ⟨⟨0, by omega⟩, Finset.mem_univ _⟩).ne'
  refine ⟨fun i j => wcov w (x i) (x j), getCovariance_eq hw hpos hx hrows hp, ?_⟩
  rw [getCovariance_eq hw' hpos hx' hrows hp]
  simp only [wcov_affine hS]

/-- **C128** (correlation). Changing units, of any sign, changes at most the signs of correlations: that of `i` and `j` is multiplied by
the signs of `s i` and `s j`. -/
theorem C128_correlation (c c' : Chain ℝ) (cols : List String) {n : Nat} (w : Fin n → ℝ)
    (x : Fin cols.length → Fin n → ℝ) (hw : c.weights = .ok (List.ofFn w)) (hpos : ∀ i, 0 < w i)
    (hx : ∀ j, c.samples.get cols[j] = .ok (List.ofFn (x j))) (hrows : 2 ≤ n) (hp : 2 ≤ cols.length)
    (hnc : ∀ j, ∃ a b, x j a ≠ x j b) (s b : Fin cols.length → ℝ) (hs : ∀ j, s j ≠ 0) (hw' : c'.weights = .ok (List.ofFn w))
    (hx' : ∀ j, c'.samples.get cols[j] = .ok (List.ofFn fun i => s j * x j i + b j)) :
    ∃ R : Fin cols.length → Fin cols.length → ℝ,
      c.getCorrelation (some cols) = .ok ⟨cols, .matrix (List.ofFn fun i => List.ofFn fun j => .fin (R i j))⟩ ∧
      c'.getCorrelation (some cols) = .ok ⟨cols, .matrix (List.ofFn fun i => List.ofFn fun j =>
        .fin (s i / |s i| * (s j / |s j|) * R i j))⟩ := by
  have hS : ∑ i, w i ≠ 0 :=
    (Finset.sum_pos (fun i _ => hpos i) ⟨⟨0, by omega⟩, Finset.mem_univ _⟩).ne'
  have hnc' : ∀ j, ∃ p q, s j * x j p + b j ≠ s j * x j q + b j := by
    intro j
    obtain ⟨p, q, hpq⟩ := hnc j
    refine ⟨p, q, fun h => hpq ?_⟩
    exact mul_left_cancel₀ (hs j) (add_right_cancel h)
  have hv := fun j => wcov_self_pos hpos hrows (hnc j)
  refine ⟨fun i j => wcorr w (x i) (x j), getCorrelation_eq hw hpos hx hrows hp hnc, ?_⟩
  rw [getCorrelation_eq hw' hpos hx' hrows hp hnc']
  congr 5
  funext i
  congr 1
  funext j
  congr 1
  simp only [wcorr, wcov_affine hS]
  have hsq : ∀ j, √(s j * s j * wcov w (x j) (x j)) = |s j| * √(wcov w (x j) (x j)) := by
    intro j
    rw [Real.sqrt_mul (mul_self_nonneg _), Real.sqrt_mul_self_eq_abs]
  rw [hsq, hsq]
  have h1 := (Real.sqrt_pos.2 (hv i)).ne'
  have h2 := (Real.sqrt_pos.2 (hv j)).ne'
  have h3 := abs_ne_zero.2 (hs i)
  have h4 := abs_ne_zero.2 (hs j)
  field_simp

/-! ## The DIC depends on the units -/

/-- Three samples of two parameters around their mean `(0, 0)`; the log posteriors are 0, -1, -3. -/
def unitsDemo : Args ℚ :=
  { samples := { index := [.int 0, .int 1, .int 2], cols := [(.str "a", [.fin 1, .fin 0, .fin (-1)]),
      (.str "b", [.fin 0, .fin 2, .fin (-2)]), (.str "log_posterior", [.fin 0, .fin (-1), .fin (-3)])] }
    name := "one" }

/-- A rival with constant log posterior. -/
def rivalDemo : Args ℚ :=
  { samples := { index := [.int 0, .int 1, .int 2], cols := [(.str "a", [.fin 0, .fin 1, .fin 2]),
      (.str "log_posterior", [.fin (-13 / 6), .fin (-13 / 6), .fin (-13 / 6)])] }
    name := "two" }

/-- Outcome of `dic()` for chains given by their constructor arguments, parameter `col` of the chain `n` in other units. -/
def dicUnits (n col : String) (a b : ℚ) (as : List (Args ℚ)) : Res (List (String × Flt ℚ)) := do
  let cs ← as.mapM fun a => do
    let c ← Chain.make a
    return (c.name, c)
  dic (fun _ _ => 0) (inUnits cs n col a b)

/-- **C128** (violation). Of two chains, the second is preferred by 1. With parameter `a` of the first chain in units ten times smaller,
the first is preferred by 1. Neither chain has two samples equally near to its mean with different log posteriors. -/
theorem C128_violated_dic :
    dicUnits "one" "a" 1 0 [unitsDemo, rivalDemo] = .ok [("one", .fin 1), ("two", .fin 0)] ∧
      dicUnits "one" "a" 10 0 [unitsDemo, rivalDemo] = .ok [("one", .fin 0), ("two", .fin 1)] := by decide +kernel

/-- `C128_dic_partial` at work: the origin moved, the sign changed, and other units of the only parameter of the rival. -/
example : dicUnits "one" "a" (-1) 7 [unitsDemo, rivalDemo] = .ok [("one", .fin 1), ("two", .fin 0)] ∧
    dicUnits "two" "a" 10 3 [unitsDemo, rivalDemo] = .ok [("one", .fin 1), ("two", .fin 0)] := by decide +kernel

/-- The hypotheses of `C128_dic_partial` are met: an accepted chain of two parameters with one sample nearest to the mean. -/
example : ∃ c : Chain ℚ, AcceptedNoShift c ∧ c.dataColumns = ["a", "b"] ∧ "a" ≠ c.posteriorColumn ∧ "a" ≠ c.weightColumn ∧
    NearestAgree c := by
  let f : Frame ℚ := { index := [.int 0, .int 1, .int 2], cols := [("a", [1, 0, -1]), ("b", [0, 2, -2]), ("weight", [1, 1, 1]),
    ("log_posterior", [0, -1, -3])] }
  have hf : f.WF := ⟨by simp [f], by simp [f]⟩
  obtain ⟨c, hc, hcs, hw, hp, -⟩ := plain_chain f hf (by simp [f]) (w := [1, 1, 1]) rfl (by simp) "one"
  have hd : c.dataColumns = ["a", "b"] := by
    simp only [Chain.dataColumns, hcs, hw, hp]
    decide +kernel
  refine ⟨c, ⟨_, toRaw_WF.2 hf, rfl, hc⟩, hd, by rw [hp]; decide, by rw [hw]; decide, ?_⟩
  unfold NearestAgree
  rw [hcs, hw, hp]
  suffices gen : ∀ D : List String, D = ["a", "b"] → ∀ (m : Nat) (w p : Fin m → ℚ) (x : Fin D.length → Fin m → ℚ),
      ("weight", List.ofFn w) ∈ f.cols → (∀ j : Fin D.length, (D[j], List.ofFn (x j)) ∈ f.cols) →
      ∀ i i', (∀ k, ∑ j, (x j i - wmean w (x j)) ^ 2 ≤ ∑ j, (x j k - wmean w (x j)) ^ 2) →
        (∀ k, ∑ j, (x j i' - wmean w (x j)) ^ 2 ≤ ∑ j, (x j k - wmean w (x j)) ^ 2) → p i = p i' from
    fun m w p x h1 _ h3 => gen _ hd m w p x h1 h3
  rintro _ rfl m w p x h1 h3 i i' hi hi'
  have ew : List.ofFn w = [1, 1, 1] := by simpa [f] using h1
  have ea : List.ofFn (x 0) = [1, 0, -1] := by simpa [f] using h3 0
  have eb : List.ofFn (x 1) = [0, 2, -2] := by simpa [f] using h3 1
  obtain rfl : m = 3 := by simpa using congrArg List.length ew
  simp only [List.ofFn_succ, List.ofFn_zero, List.cons.injEq, and_true] at ew ea eb
  obtain ⟨w0, w1, w2⟩ := ew
  obtain ⟨a0, a1, a2⟩ := ea
  obtain ⟨b0, b1, b2⟩ := eb
  have key : ∀ i : Fin 3, (∀ k, ∑ j, (x j i - wmean w (x j)) ^ 2 ≤ ∑ j, (x j k - wmean w (x j)) ^ 2) → i = 0 := by
    intro i hi
    have h := hi 0
    have e2 : ∀ g : Fin ["a", "b"].length → ℚ, ∑ j, g j = g 0 + g 1 := fun g => Fin.sum_univ_two g
    simp only [e2, wmean, Fin.sum_univ_three] at h
    simp only [Fin.succ_zero_eq_one, Fin.succ_one_eq_two] at w0 w1 w2 a0 a1 a2 b0 b1 b2
    fin_cases i
    · rfl
    · exfalso
      simp only [Fin.mk_one, Fin.isValue, w0, w1, w2, a0, a1, a2, b0, b1, b2] at h
      norm_num at h
    · exfalso
      simp only [Fin.reduceFinMk, Fin.isValue, w0, w1, w2, a0, a1, a2, b0, b1, b2] at h
      norm_num at h
  rw [key i hi, key i' hi']

end CC
