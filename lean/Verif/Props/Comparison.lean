import Verif.Lemmas.Comparison
import Verif.Lemmas.Demo
import Verif.Props.Covariance
import Mathlib.Tactic.FieldSimp

/-! # C17, C18, C19: information criteria -/

set_option linter.unusedSectionVars false

namespace CC
open Spec

section
variable {K : Type} [Field K] [LinearOrder K] [IsStrictOrderedRing K]

theorem AcceptedNoShift.accepted {c : Chain K} (h : AcceptedNoShift c) : Accepted c := by
  obtain ⟨a, h1, -, h3⟩ := h
  exact ⟨a, h1, h3⟩

/-! ## AIC -/

theorem aicValue_spec {c : Chain K} (hc : Accepted c) (he : eligible c = true)
    (hN : ∀ N k, c.numEffDataPoints = some N → c.numFreeParams = some k → N ≠ k + 1) :
    ∃ v, c.aicValue = .ok (some (.fin v)) ∧ AICc c v := by
  obtain ⟨p, N, k, hp, hN', hk⟩ := eligible_iff.1 he
  obtain ⟨M, hM, hM1, hM2⟩ := npMax_spec (posterior_length hc hp).2
  have hne : N - (k : K) - 1 ≠ 0 := by
    intro h
    exact hN N k hN' hk (by linear_combination h)
  refine ⟨2 * ((k : K) + 1 * k * (k + 1) / (N - k - 1) - M), ?_, k, N, M, hk, hN',
    ⟨p, logPosterior_some hp, hM1, hM2⟩, ?_⟩
  · simp only [Chain.aicValue, hp, hN', hk, if_neg hne, hM, bind, Except.bind, pure, Except.pure]
  · field_simp
    ring

theorem aicValue_none {c : Chain K} (he : eligible c = false) : c.aicValue = .ok none := by
  unfold Chain.aicValue
  rcases not_eligible he with h | h | h <;> rw [h] <;>
    cases c.logPosterior <;> cases c.numEffDataPoints <;> rfl

/-- **C17** (AIC). If no eligible chain has exactly `num_free_params + 1` data points, `aic()`
returns the textbook AICc relative to the best eligible chain. What is missing from the full
property is that case, see `C17_aic_raises`. -/
theorem C17_aic_partial (cs : List (String × Chain K)) (hcs : ∀ e ∈ cs, Accepted e.2)
    (hN : ∀ e ∈ cs, ∀ N k, e.2.numEffDataPoints = some N → e.2.numFreeParams = some k →
      N ≠ k + 1) :
    ∃ r, aic cs = .ok r ∧ RelativeCriterion eligible AICc cs r := by
  obtain ⟨l, hl, h⟩ := relative_criterion (f := Chain.aicValue) (elig := eligible) (crit := AICc)
    (fun e he hel => aicValue_spec (hcs e he) hel (hN e he))
    (fun e _ hel => aicValue_none hel)
  exact ⟨_, by simp only [aic, hl, bind, Except.bind, pure, Except.pure], h⟩

/-- **C17** (violation, AIC). One eligible chain with `num_free_params + 1` data points makes
`aic()` raise for the whole registry. -/
theorem C17_aic_raises (cs : List (String × Chain K)) (hcs : ∀ e ∈ cs, Accepted e.2)
    (e : String × Chain K) (he : e ∈ cs) (hel : eligible e.2 = true) (k : Nat)
    (hN : e.2.numEffDataPoints = some (k + 1 : K)) (hk : e.2.numFreeParams = some k) :
    aic cs = .error .zeroDivision := by
  have hz : e.2.aicValue = .error .zeroDivision := by
    obtain ⟨p, N', k', hp, -, -⟩ := eligible_iff.1 hel
    simp only [Chain.aicValue, hp, hN, hk]
    rw [if_pos (by ring)]
  have hval : ∀ c : Chain K, Accepted c → (∃ v, c.aicValue = .ok v) ∨
      c.aicValue = .error .zeroDivision := by
    intro c hc
    cases hcel : eligible c with
    | false => exact Or.inl ⟨_, aicValue_none hcel⟩
    | true =>
      obtain ⟨p, N, k, hp, hN', hk⟩ := eligible_iff.1 hcel
      obtain ⟨M, hM, -⟩ := npMax_spec (posterior_length hc hp).2
      simp only [Chain.aicValue, hp, hN', hk, hM]
      split
      · exact Or.inr rfl
      · exact Or.inl ⟨_, rfl⟩
  have hloop : criterionLoop Chain.aicValue cs = .error .zeroDivision := by
    induction cs with
    | nil => cases he
    | cons d ds ih =>
      simp only [criterionLoop]
      rcases hval d.2 (hcs d (List.mem_cons_self ..)) with ⟨v, hv⟩ | hv
      · rcases List.mem_cons.1 he with rfl | he'
        · rw [hz] at hv; cases hv
        · have := ih (fun e he => hcs e (List.mem_cons_of_mem _ he)) he'
          simp only [hv, this, bind, Except.bind]
      · simp only [hv, bind, Except.bind]
  simp only [aic, hloop, bind, Except.bind]

/-! ## DIC -/

theorem argminBy_spec {α : Type} (f : α → K) (l : List α) :
    (l = [] → argminBy f l = none) ∧
    (l ≠ [] → ∃ (i : Nat) (y : α), argminBy f l = some i ∧ l[i]? = some y ∧ ∀ z ∈ l, f y ≤ f z) := by
  induction l with
  | nil => simp [argminBy]
  | cons x xs ih =>
    refine ⟨by simp, fun _ => ?_⟩
    rcases eq_or_ne xs [] with rfl | hne
    · exact ⟨0, x, by simp [argminBy], rfl, by simp⟩
    · obtain ⟨j, y, hj, hy, hmin⟩ := ih.2 hne
      simp only [argminBy, hj, hy]
      split
      · rename_i hlt
        refine ⟨j + 1, y, rfl, by simpa using hy, fun z hz => ?_⟩
        rcases List.mem_cons.1 hz with rfl | hz
        · exact hlt.le
        · exact hmin z hz
      · rename_i hlt
        refine ⟨0, x, rfl, rfl, fun z hz => ?_⟩
        rcases List.mem_cons.1 hz with rfl | hz
        · exact le_rfl
        · exact (not_lt.1 hlt).trans (hmin z hz)

/-- Whatever the tie rule, the value returned belongs to a nearest sample. -/
theorem nearestValue_spec (tie : List (List K) → List K → Nat) {points : List (List K)}
    {values : List K} (xi : List K) (hne : points ≠ []) (hl : points.length = values.length) :
    ∃ (i : Nat) (p : List K) (v : K), points[i]? = some p ∧ values[i]? = some v ∧
      nearestValue tie points values xi = .ok v ∧ ∀ q ∈ points, sqDist p xi ≤ sqDist q xi := by
  obtain ⟨j, q, hj, hq, hmin⟩ := (argminBy_spec (fun p => sqDist p xi) points).2 hne
  have hval : ∀ {i : Nat} {p : List K}, points[i]? = some p → ∃ v, values[i]? = some v := by
    intro i p h
    obtain ⟨hlt, -⟩ := List.getElem?_eq_some_iff.1 h
    exact ⟨_, List.getElem?_eq_getElem (hl ▸ hlt)⟩
  simp only [nearestValue, hj, hq]
  cases hi : points[tie points xi]? with
  | none =>
    obtain ⟨v, hv⟩ := hval hq
    refine ⟨j, q, v, hq, hv, ?_, hmin⟩
    simp only [valueAt, hv]
  | some p =>
    by_cases h : sqDist p xi = sqDist q xi
    · obtain ⟨v, hv⟩ := hval hi
      refine ⟨_, p, v, hi, hv, ?_, ?_⟩
      · simp only [if_pos h, valueAt, hv]
      · intro z hz; rw [h]; exact hmin z hz
    · obtain ⟨v, hv⟩ := hval hq
      refine ⟨j, q, v, hq, hv, ?_, hmin⟩
      simp only [if_neg h, valueAt, hv]

theorem average_ofFn {n : Nat} {w : Fin n → K} (hS : ∑ i, w i ≠ 0) (x : Fin n → K) :
    average (List.ofFn x) (List.ofFn w) = .ok (wmean w x) := by
  rw [average, List.sum_ofFn, if_neg hS, dot_ofFn, wmean]
  congr 2
  exact Finset.sum_congr rfl fun i _ => mul_comm _ _

theorem averages_ofFn {n p : Nat} {w : Fin n → K} (hS : ∑ i, w i ≠ 0) (x : Fin p → Fin n → K) :
    averages (List.ofFn w) (List.ofFn fun j => List.ofFn (x j)) =
      .ok (List.ofFn fun j => wmean w (x j)) := by
  induction p with
  | zero => rfl
  | succ p ih =>
    rw [List.ofFn_succ, List.ofFn_succ]
    simp only [averages, average_ofFn hS, ih (fun j => x j.succ), bind, Except.bind, pure,
      Except.pure]

theorem rowsOf_ofFn {n p : Nat} (x : Fin p → Fin n → K) :
    rowsOf n (List.ofFn fun j => List.ofFn (x j)) = List.ofFn fun i => List.ofFn fun j => x j i := by
  have h : ∀ (p : Nat) (x : Fin p → Fin n → K) (i : Fin n),
      (List.ofFn fun j => List.ofFn (x j)).filterMap (fun c => c[i.val]?) =
        List.ofFn fun j => x j i := by
    intro p x i
    induction p with
    | zero => rfl
    | succ p ih =>
      rw [List.ofFn_succ, List.ofFn_succ, List.filterMap_cons]
      have : (List.ofFn (x 0))[i.val]? = some (x 0 i) := by simp
      simp only [this, ih (fun j => x j.succ)]
  rw [rowsOf]
  apply List.ext_getElem
  · simp
  · intro i h1 h2
    simp only [List.getElem_map, List.getElem_range, List.getElem_ofFn]
    exact h p x ⟨i, by simpa using h1⟩

theorem sqDist_ofFn {p : Nat} (a b : Fin p → K) :
    sqDist (List.ofFn a) (List.ofFn b) = ∑ j, (a j - b j) ^ 2 := by
  rw [sqDist, zipWith_ofFn, List.sum_ofFn]
  exact Finset.sum_congr rfl fun i _ => (sq _).symm

theorem data_mem_columns {c : Chain K} : ∀ p ∈ c.dataColumns, p ∈ c.samples.columns := by
  intro p hp
  exact (List.mem_filter.1 hp).1

theorem dicValue_spec (tie : List (List K) → List K → Nat) {c : Chain K} (hc : AcceptedNoShift c)
    (hp : c.posteriorColumn ∈ c.samples.columns) :
    ∃ v, c.dicValue tie = .ok (some (.fin v)) ∧ DIC c v := by
  have hacc := AcceptedNoShift.accepted hc
  obtain ⟨a, hwf, hs, hm⟩ := hc
  obtain ⟨p, hp⟩ := Option.isSome_iff_exists.1 (logPosterior_isSome.2 hp)
  obtain ⟨w, x, hw, hpos, hx⟩ := accepted_columns hwf hs hm c.dataColumns data_mem_columns
  obtain ⟨hpl, hpne⟩ := posterior_length hacc hp
  obtain ⟨-, -, hne, -⟩ := make_WF hwf hm
  have hnpos : 0 < c.samples.index.length := List.length_pos_iff.2 hne
  have hS : ∑ i, w i ≠ 0 :=
    (Finset.sum_pos (fun i _ => hpos i) ⟨⟨0, hnpos⟩, Finset.mem_univ _⟩).ne'
  obtain ⟨q, hq⟩ : ∃ q : Fin c.samples.index.length → K, p = List.ofFn q := by
    refine ⟨fun i => p[i]'(by rw [hpl]; exact i.2), ?_⟩
    apply List.ext_getElem <;> simp [hpl]
  subst hq
  have hX : c.samples.getMany c.dataColumns = .ok (List.ofFn fun j => List.ofFn (x j)) := by
    have := getMany_ofFn (f := c.samples) (name := fun j : Fin c.dataColumns.length =>
      c.dataColumns[j]) (x := fun j => List.ofFn (x j)) hx
    rwa [← eq_ofFn] at this
  have hd : (List.ofFn q).map (-2 * ·) = List.ofFn fun i => -2 * q i := by
    rw [List.map_ofFn]; rfl
  obtain ⟨i, pt, v, hpt, hv, hnear, hmin⟩ := nearestValue_spec tie
    (points := List.ofFn fun i => List.ofFn fun j => x j i) (values := List.ofFn fun i => -2 * q i)
    (List.ofFn fun j => wmean w (x j))
    (by intro h; have := congrArg List.length h; simp only [List.length_ofFn, List.length_nil] at this; omega) (by simp)
  obtain ⟨hi, hpt⟩ := List.getElem?_eq_some_iff.1 hpt
  obtain ⟨_, hv'⟩ := List.getElem?_eq_some_iff.1 hv
  rw [List.getElem_ofFn] at hpt hv'
  rw [List.length_ofFn] at hi
  refine ⟨wmean w (fun i => -2 * q i) + (wmean w (fun i => -2 * q i) - v), ?_,
    c.samples.index.length, w, q, x, ⟨i, hi⟩, get_mem hw, logPosterior_some hp,
    fun j => get_mem (hx j), fun i' => ?_, by rw [← hv']⟩
  · simp only [Chain.dicValue, hp, hX, hw, averages_ofFn hS, rowsOf_ofFn, hd, hnear,
      average_ofFn hS, bind, Except.bind, pure, Except.pure]
  · have := hmin (List.ofFn fun j => x j i') (List.mem_ofFn.2 ⟨i', rfl⟩)
    rw [← hpt, sqDist_ofFn, sqDist_ofFn] at this
    exact this

/-- **C17** (DIC). `dic()` returns the DIC relative to the best chain for exactly the chains with a
posterior; the deviance at the mean is that of a sample nearest to the mean, however ties are
resolved. -/
theorem C17_dic (tie : List (List K) → List K → Nat) (cs : List (String × Chain K))
    (hcs : ∀ e ∈ cs, AcceptedNoShift e.2) (_hcols : ∀ e ∈ cs, e.2.dataColumns ≠ []) :
    ∃ r, dic tie cs = .ok r ∧
      RelativeCriterion (fun c => decide (c.posteriorColumn ∈ c.samples.columns)) DIC cs r := by
  have hnone : ∀ e ∈ cs, decide (e.2.posteriorColumn ∈ e.2.samples.columns) = false →
      e.2.dicValue tie = .ok none := by
    intro e _ hel
    have : e.2.logPosterior = none := by
      rw [← Option.not_isSome_iff_eq_none, logPosterior_isSome]
      exact of_decide_eq_false hel
    simp only [Chain.dicValue, this]
  obtain ⟨l, hl, h⟩ := relative_criterion (f := Chain.dicValue tie)
    (elig := fun c => decide (c.posteriorColumn ∈ c.samples.columns)) (crit := DIC)
    (fun e he hel => dicValue_spec tie (hcs e he) (of_decide_eq_true hel)) hnone
  exact ⟨_, by simp only [dic, hl, bind, Except.bind, pure, Except.pure], h⟩

/-! ## Adding a constant to every log posterior -/

/-- The chain with `k` added to its posterior column. -/
def Spec.addLogPosterior (k : K) (c : Chain K) : Chain K :=
  { c with samples := { c.samples with
      cols := c.samples.cols.map fun e =>
        if e.1 = c.posteriorColumn then (e.1, e.2.map (· + k)) else e } }

theorem lookup_modify {α β : Type} [BEq α] [LawfulBEq α] [DecidableEq α] (l : List (α × β)) (a : α)
    (f : β → β) (b : α) :
    (l.map fun e => if e.1 = a then (e.1, f e.2) else e).lookup b =
      if b = a then (l.lookup b).map f else l.lookup b := by
  induction l with
  | nil => simp
  | cons e es ih =>
    rw [List.map_cons, List.lookup_cons, List.lookup_cons]
    have h1 : (if e.1 = a then (e.1, f e.2) else e).1 = e.1 := by split <;> rfl
    rw [h1, ih]
    by_cases hbe : b = e.1
    · subst hbe
      by_cases hba : e.1 = a <;> simp [hba]
    · have : (b == e.1) = false := beq_eq_false_iff_ne.2 hbe
      simp only [this]

theorem addLogPosterior_logPosterior (k : K) (c : Chain K) :
    (addLogPosterior k c).logPosterior = c.logPosterior.map (·.map (· + k)) := by
  simp only [Chain.logPosterior, addLogPosterior]
  rw [lookup_modify, if_pos rfl]

theorem addLogPosterior_get (k : K) (c : Chain K) {p : String} (h : p ≠ c.posteriorColumn) :
    (addLogPosterior k c).samples.get p = c.samples.get p := by
  simp only [Frame.get, addLogPosterior]
  rw [lookup_modify, if_neg h]

theorem addLogPosterior_columns (k : K) (c : Chain K) :
    (addLogPosterior k c).samples.columns = c.samples.columns := by
  simp only [Frame.columns, addLogPosterior, List.map_map]
  congr 1
  funext e
  simp only [Function.comp_apply]
  split <;> rfl

theorem addLogPosterior_dataColumns (k : K) (c : Chain K) :
    (addLogPosterior k c).dataColumns = c.dataColumns := by
  simp only [Chain.dataColumns, addLogPosterior_columns]
  rfl

theorem npMax_add (k : K) (p : List K) :
    npMax (p.map (· + k)) = (npMax p).map (· + k) := by
  cases p with
  | nil => rfl
  | cons x xs =>
    simp only [List.map_cons, npMax, Except.map]
    congr 1
    induction xs generalizing x with
    | nil => rfl
    | cons y ys ih =>
      rw [List.map_cons, List.foldl_cons, List.foldl_cons, max_add_add_right, ih]

theorem minNan_add (s : K) (x y : Flt K) :
    (x.add (.fin s)).minNan (y.add (.fin s)) = (x.minNan y).add (.fin s) := by
  cases x <;> cases y <;> simp only [Flt.add, Flt.minNan, Flt.lt, Bool.false_eq_true, if_true,
    if_false, add_lt_add_iff_right, decide_eq_true_eq]
  split <;> rfl

theorem sub_add_add (s : K) (x y : Flt K) :
    (x.add (.fin s)).sub (y.add (.fin s)) = x.sub y := by
  cases x <;> cases y <;> simp only [Flt.add, Flt.sub, Flt.neg]
  congr 1
  ring

theorem relativeToMin_add (s : K) (d : List (String × Flt K)) :
    relativeToMin (d.map fun e => (e.1, e.2.add (.fin s))) = relativeToMin d := by
  cases d with
  | nil => rfl
  | cons e es =>
    have hfold : ∀ (es : List (String × Flt K)) (m : Flt K),
        (es.map fun e => (e.1, e.2.add (.fin s))).foldl (fun m e => Flt.minNan m e.2)
          (m.add (.fin s)) = (es.foldl (fun m e => Flt.minNan m e.2) m).add (.fin s) := by
      intro es
      induction es with
      | nil => intro m; rfl
      | cons e es ih =>
        intro m
        rw [List.map_cons, List.foldl_cons, List.foldl_cons, minNan_add, ih]
    simp only [List.map_cons, relativeToMin, hfold, sub_add_add, List.map_map, List.cons.injEq,
      true_and]
    congr 1
    funext e
    simp only [Function.comp_apply, sub_add_add]

theorem criterionLoop_shift {f : Chain K → Res (Option (Flt K))} {T : Chain K → Chain K} {s : K}
    {cs : List (String × Chain K)}
    (h : ∀ e ∈ cs, f (T e.2) = (f e.2).map (Option.map (·.add (.fin s)))) :
    criterionLoop f (cs.map fun e => (e.1, T e.2)) =
      (criterionLoop f cs).map (·.map fun e => (e.1, e.2.add (.fin s))) := by
  induction cs with
  | nil => rfl
  | cons e es ih =>
    simp only [List.map_cons, criterionLoop, h e (List.mem_cons_self ..),
      ih fun e he => h e (List.mem_cons_of_mem _ he)]
    cases hf : f e.2 with
    | error _ => rfl
    | ok v =>
      cases hl : criterionLoop f es with
      | error _ => rfl
      | ok l => cases v <;> rfl

theorem criterion_shift {f : Chain K → Res (Option (Flt K))} {T : Chain K → Chain K} {s : K}
    {cs : List (String × Chain K)}
    (h : ∀ e ∈ cs, f (T e.2) = (f e.2).map (Option.map (·.add (.fin s)))) :
    (criterionLoop f (cs.map fun e => (e.1, T e.2)) >>= fun l => pure (relativeToMin l)) =
      (criterionLoop f cs >>= fun l => pure (relativeToMin l)) := by
  rw [criterionLoop_shift h]
  cases criterionLoop f cs with
  | error _ => rfl
  | ok l =>
    simp only [Except.map, bind, Except.bind, relativeToMin_add]

/-- **C18** (AIC). Adding the same constant to all log posteriors leaves `aic()` unchanged. -/
theorem C18_aic (cs : List (String × Chain K)) (k : K) :
    aic (cs.map fun e => (e.1, addLogPosterior k e.2)) = aic cs := by
  refine criterion_shift (s := -2 * k) fun e _ => ?_
  simp only [Chain.aicValue, addLogPosterior_logPosterior]
  have h1 : (addLogPosterior k e.2).numEffDataPoints = e.2.numEffDataPoints := rfl
  have h2 : (addLogPosterior k e.2).numFreeParams = e.2.numFreeParams := rfl
  rw [h1, h2]
  cases e.2.logPosterior with
  | none => rfl
  | some p =>
    cases e.2.numEffDataPoints with
    | none => rfl
    | some N =>
      cases e.2.numFreeParams with
      | none => rfl
      | some n =>
        simp only [Option.map_some]
        split
        · rfl
        · rw [npMax_add]
          cases npMax p with
          | error _ => rfl
          | ok m =>
            simp only [Except.map, bind, Except.bind, pure, Except.pure, Option.map_some, Flt.add]
            congr 3
            ring

theorem average_add {x w : List K} (hl : x.length = w.length) (k : K) :
    average (x.map (· + k)) w = (average x w).map (· + k) := by
  unfold average
  split
  · rfl
  · rename_i h
    have hd : dot (x.map (· + k)) w = dot x w + k * w.sum := by
      have := dot_sub_const hl (-k)
      simp only [sub_neg_eq_add, neg_mul] at this
      exact this
    simp only [Except.map]
    rw [hd, add_div, mul_div_cancel_right₀ _ h]

theorem nearestValue_add (tie : List (List K) → List K → Nat) (points : List (List K))
    (values : List K) (xi : List K) (k : K) :
    nearestValue tie points (values.map (· + k)) xi =
      (nearestValue tie points values xi).map (· + k) := by
  unfold nearestValue
  cases argminBy (fun p => sqDist p xi) points with
  | none => rfl
  | some j =>
    simp only []
    have key : ∀ i, valueAt (values.map (· + k)) i = (valueAt values i).map (· + k) := by
      intro i
      rw [valueAt, valueAt, List.getElem?_map]
      cases values[i]? <;> rfl
    exact key _

/-- **C18, partial** (DIC). Adding the same constant to all log posteriors leaves `dic()` unchanged, for
chains whose posterior column is not at the same time the weight column. Missing: those chains, whose weights change with the
log posteriors (`C18_violated`). -/
theorem C18_dic_partial (tie : List (List K) → List K → Nat) (cs : List (String × Chain K)) (k : K)
    (hcs : ∀ e ∈ cs, Accepted e.2) (hpw : ∀ e ∈ cs, e.2.weightColumn ≠ e.2.posteriorColumn) :
    dic tie (cs.map fun e => (e.1, addLogPosterior k e.2)) = dic tie cs := by
  refine criterion_shift (s := -2 * k) fun e he => ?_
  have hw : (addLogPosterior k e.2).weights = e.2.weights :=
    addLogPosterior_get k e.2 (hpw e he)
  have hX : (addLogPosterior k e.2).samples.getMany (addLogPosterior k e.2).dataColumns =
      e.2.samples.getMany e.2.dataColumns := by
    rw [addLogPosterior_dataColumns]
    have hne : ∀ p ∈ e.2.dataColumns, p ≠ e.2.posteriorColumn := by
      rintro p hp rfl
      simp [Chain.dataColumns] at hp
    generalize e.2.dataColumns = cols at hne
    induction cols with
    | nil => rfl
    | cons p ps ih =>
      simp only [Frame.getMany, addLogPosterior_get k e.2 (hne p (List.mem_cons_self ..)),
        ih fun q hq => hne q (List.mem_cons_of_mem _ hq)]
  have hidx : (addLogPosterior k e.2).samples.index = e.2.samples.index := rfl
  simp only [Chain.dicValue, addLogPosterior_logPosterior, hw, hX, hidx]
  cases hp : e.2.logPosterior with
  | none => rfl
  | some p =>
    have hmap : (p.map (· + k)).map (-2 * ·) = (p.map (-2 * ·)).map (· + -2 * k) := by
      rw [List.map_map, List.map_map]
      congr 1
      funext x
      simp only [Function.comp_apply]
      ring
    simp only [Option.map_some, hmap, nearestValue_add]
    cases e.2.samples.getMany e.2.dataColumns with
    | error _ => rfl
    | ok X =>
      cases hww : e.2.weights with
      | error _ => rfl
      | ok w =>
        have hl : (p.map (-2 * ·)).length = w.length := by
          obtain ⟨a, hwf, hm⟩ := hcs e he
          rw [List.length_map, (posterior_length (hcs e he) hp).1]
          exact ((make_WF hwf hm).1.2 _ (get_mem hww)).symm
        simp only [bind, Except.bind]
        cases averages w X with
        | error _ => rfl
        | ok m =>
          simp only [average_add hl]
          cases nearestValue tie (rowsOf e.2.samples.index.length X) (p.map (-2 * ·)) m with
          | error _ => rfl
          | ok v =>
            cases average (p.map (-2 * ·)) w with
            | error _ => rfl
            | ok u =>
              simp only [Except.map, pure, Except.pure, Option.map_some, Flt.add]
              congr 3
              ring

/-! ## AIC and the number of parameters -/

theorem relative_lookup {elig : Chain K → Bool} {crit : Chain K → K → Prop}
    {cs : List (String × Chain K)} {r : List (String × Flt K)}
    (h : RelativeCriterion elig crit cs r) (hnd : (cs.map Prod.fst).Nodup) :
    ∃ b, ∀ e ∈ cs, elig e.2 = true → ∃ v, r.lookup e.1 = some (.fin v) ∧ crit e.2 (v + b) := by
  obtain ⟨vals, rfl, -, -, b, hF⟩ := h
  refine ⟨b, fun e he hel => ?_⟩
  have hmem : e ∈ cs.filter fun e => elig e.2 := List.mem_filter.2 ⟨he, hel⟩
  have hnd' : ((cs.filter fun e => elig e.2).map Prod.fst).Nodup :=
    hnd.sublist (List.filter_sublist.map _)
  revert hF hmem hnd'
  generalize (cs.filter fun e => elig e.2) = A
  intro hF
  induction hF with
  | nil => intro h; cases h
  | cons h1 _ ih =>
    rename_i d v ds vs _
    intro hmem hnd'
    rw [List.map_cons, List.nodup_cons] at hnd'
    rw [List.map_cons, List.lookup_cons]
    rcases List.mem_cons.1 hmem with rfl | hmem
    · refine ⟨v.2, ?_, h1.2⟩
      simp [h1.1]
    · have hne : e.1 ≠ v.1 := by
        rw [h1.1]
        rintro h
        exact hnd'.1 (h ▸ List.mem_map.2 ⟨e, hmem, rfl⟩)
      simp only [beq_eq_false_iff_ne.2 hne]
      exact ih hmem hnd'.2

theorem MaxLogPosterior.unique {c : Chain K} (hWF : c.samples.WF) {M M' : K}
    (h : MaxLogPosterior c M) (h' : MaxLogPosterior c M') : M = M' := by
  obtain ⟨p, hp, h1, h2⟩ := h
  obtain ⟨p', hp', h1', h2'⟩ := h'
  have e1 := get_of_mem hWF.1 hp
  rw [get_of_mem hWF.1 hp'] at e1
  cases e1
  exact le_antisymm (h2' M h1) (h2 M' h1')

theorem aicc_strict_mono {N k₁ k₂ : K} (h0 : 0 ≤ k₁) (h : k₁ < k₂) (hN : k₂ + 1 < N) :
    2 * k₁ + 2 * k₁ * (k₁ + 1) / (N - k₁ - 1) < 2 * k₂ + 2 * k₂ * (k₂ + 1) / (N - k₂ - 1) := by
  have hd1 : 0 < N - k₁ - 1 := by linarith
  have hd2 : 0 < N - k₂ - 1 := by linarith
  have hle : 2 * k₁ * (k₁ + 1) / (N - k₁ - 1) ≤ 2 * k₂ * (k₂ + 1) / (N - k₂ - 1) := by
    apply div_le_div₀
    · have : 0 ≤ k₂ := h0.trans h.le
      positivity
    · nlinarith
    · exact hd2
    · linarith
  linarith

/-- **C19.** With more than `num_free_params + 1` data points, the chain with more free parameters
and the same maximum posterior has the larger AIC. What is missing is the case of fewer data
points, see `C19_violated`. -/
theorem C19_more_parameters_partial (cs : List (String × Chain K)) (r : List (String × Flt K))
    (hcs : ∀ e ∈ cs, Accepted e.2) (hnd : (cs.map Prod.fst).Nodup) (hr : aic cs = .ok r)
    (e₁ e₂ : String × Chain K) (h₁ : e₁ ∈ cs) (h₂ : e₂ ∈ cs) (k₁ k₂ : Nat) (N M : K)
    (hk₁ : e₁.2.numFreeParams = some k₁) (hk₂ : e₂.2.numFreeParams = some k₂)
    (hN₁ : e₁.2.numEffDataPoints = some N) (hN₂ : e₂.2.numEffDataPoints = some N)
    (hM₁ : MaxLogPosterior e₁.2 M) (hM₂ : MaxLogPosterior e₂.2 M)
    (hlt : k₁ < k₂) (hN : (k₂ : K) + 1 < N) :
    ∃ v₁ v₂, r.lookup e₁.1 = some (.fin v₁) ∧ r.lookup e₂.1 = some (.fin v₂) ∧ v₁ < v₂ := by
  have hel : ∀ e ∈ cs, ∀ k M, e.2.numFreeParams = some k → e.2.numEffDataPoints = some N →
      MaxLogPosterior e.2 M → eligible e.2 = true := by
    rintro e - k M hk hN ⟨p, hp, -⟩
    simp only [eligible, hk, hN, Option.isSome_some, Bool.and_true, decide_eq_true_eq]
    exact List.mem_map.2 ⟨_, hp, rfl⟩
  have hNne : ∀ e ∈ cs, ∀ N k, e.2.numEffDataPoints = some N → e.2.numFreeParams = some k →
      eligible e.2 = true → N ≠ k + 1 := by
    rintro e he N k hN hk hel rfl
    rw [C17_aic_raises cs hcs e he hel k hN hk] at hr
    cases hr
  obtain ⟨l, hl, h⟩ := relative_criterion (f := Chain.aicValue) (elig := eligible) (crit := AICc)
    (fun e he hel => aicValue_spec (hcs e he) hel (fun N k hN hk => hNne e he N k hN hk hel))
    (fun e _ hel => aicValue_none hel) (cs := cs)
  have hrr : r = relativeToMin l := by
    simp only [aic, hl, bind, Except.bind, pure, Except.pure] at hr
    exact (Except.ok.inj hr).symm
  rw [← hrr] at h
  obtain ⟨b, hb⟩ := relative_lookup h hnd
  obtain ⟨v₁, hv₁, K1, N1, M1, q1, q2, q3, q4⟩ := hb e₁ h₁ (hel e₁ h₁ k₁ M hk₁ hN₁ hM₁)
  obtain ⟨v₂, hv₂, K2, N2, M2, s1, s2, s3, s4⟩ := hb e₂ h₂ (hel e₂ h₂ k₂ M hk₂ hN₂ hM₂)
  refine ⟨v₁, v₂, hv₁, hv₂, ?_⟩
  have hW : ∀ e ∈ cs, e.2.samples.WF := by
    intro e he
    obtain ⟨a, hwf, hm⟩ := hcs e he
    exact (make_WF hwf hm).1
  have t1 := MaxLogPosterior.unique (hW e₁ h₁) hM₁ q3
  have t2 := MaxLogPosterior.unique (hW e₂ h₂) hM₂ s3
  rw [hk₁] at q1; rw [hk₂] at s1; rw [hN₁] at q2; rw [hN₂] at s2
  cases q1; cases s1; cases q2; cases s2
  have := aicc_strict_mono (N := N) (k₁ := (k₁ : K)) (k₂ := k₂) (Nat.cast_nonneg _)
    (by exact_mod_cast hlt) hN
  rw [← t1] at q4
  rw [← t2] at s4
  linarith

end

/-- Two rows with a posterior; 3 data points and `k` free parameters. -/
def aicDemo (k : Int) (name : String) : Args ℚ :=
  { samples := { index := [.int 0, .int 1], cols := [(.str "a", [.fin 1, .fin 2]),
      (.str "log_posterior", [.fin 0, .fin (-1)])] }
    name := name, numFreeParams := some k, numEffDataPoints := some (.fin 3) }

/-- Outcome of `aic()` for chains given by their constructor arguments. -/
def aicOf (as : List (Args ℚ)) : Res (List (String × Flt ℚ)) := do
  let cs ← as.mapM fun a => do
    let c ← Chain.make a
    return (c.name, c)
  aic cs

/-- Two rows whose log posteriors are also the weights. -/
def dicDemo (name : String) (ps : List (Flt ℚ)) : Args ℚ :=
  { samples := { index := [.int 0, .int 1], cols := [(.str "a", [.fin 0, .fin 1]), (.str "p", ps)] }
    name := name, weightColumn := "p", posteriorColumn := "p" }

/-- Outcome of `dic()` for chains given by their constructor arguments, with `k` added to all log posteriors. -/
def dicOf (k : ℚ) (as : List (Args ℚ)) : Res (List (String × Flt ℚ)) := do
  let cs ← as.mapM fun a => do
    let c ← Chain.make a
    return (c.name, c)
  dic (fun _ _ => 0) (cs.map fun e => (e.1, addLogPosterior k e.2))

/-- **C18** (violation). With the same column as weights and log posteriors, adding 4 to all log posteriors changes the DIC. -/
theorem C18_violated : dicOf 0 [dicDemo "one" [.fin 1, .fin 3], dicDemo "two" [.fin 2, .fin 2]] =
      .ok [("one", .fin 0), ("two", .fin 0)] ∧
    dicOf 4 [dicDemo "one" [.fin 1, .fin 3], dicDemo "two" [.fin 2, .fin 2]] = .ok [("one", .fin (4 / 3)), ("two", .fin 0)] := by
  constructor <;> decide +kernel

/-- **C19** (violation). Same posterior and 3 data points: the chain with 3 free parameters beats
the chain with 1, because the correction term is negative. -/
theorem C19_violated : aicOf [aicDemo 1 "one", aicDemo 3 "three"] =
    .ok [("one", .fin 24), ("three", .fin 0)] := by decide +kernel

/-- The AIC of a chain with 2 free parameters and 3 data points raises. -/
theorem C17_aic_raises_witness : aicOf [aicDemo 1 "one", aicDemo 2 "two"] =
    .error .zeroDivision := by decide +kernel

/-- An ordinary comparison, to which `C17_aic_partial` and `C19_more_parameters_partial` apply. -/
example : aicOf [aicDemo 0 "zero", aicDemo 1 "one"] =
    .ok [("zero", .fin 0), ("one", .fin 6)] := by decide +kernel

example : (aicDemo 1 "one").samples.WF := ⟨by decide, by simp [aicDemo]⟩

/-! ## BIC -/

theorem bicValue_spec {c : Chain ℝ} (hc : Accepted c) (he : eligible c = true)
    (hN : c.numEffDataPoints ≠ some 0) :
    ∃ v, c.bicValue = .ok (some (.fin v)) ∧ BIC c v := by
  obtain ⟨p, N, k, hp, hN', hk⟩ := eligible_iff.1 he
  obtain ⟨M, hM, hM1, hM2⟩ := npMax_spec (posterior_length hc hp).2
  have hne : N ≠ 0 := by rintro rfl; exact hN hN'
  refine ⟨k * Real.log N + -(2 * M), ?_, k, N, M, hk, hN',
    ⟨p, logPosterior_some hp, hM1, hM2⟩, by ring⟩
  simp only [Chain.bicValue, hp, hN', hk, hM, bind, Except.bind, pure, Except.pure, npLog,
    if_neg hne, Flt.mul, Flt.sub, Flt.neg, Flt.add]

theorem bicValue_none {c : Chain ℝ} (he : eligible c = false) : c.bicValue = .ok none := by
  unfold Chain.bicValue
  rcases not_eligible he with h | h | h <;> rw [h] <;>
    cases c.logPosterior <;> cases c.numEffDataPoints <;> rfl

/-- **C17** (BIC). If no eligible chain has zero data points, `bic()` returns the textbook BIC
relative to the best eligible chain. What is missing from the full property is that case, see
`C17_bic_nan`. -/
theorem C17_bic_partial (cs : List (String × Chain ℝ)) (hcs : ∀ e ∈ cs, Accepted e.2)
    (hN : ∀ e ∈ cs, e.2.numEffDataPoints ≠ some 0) :
    ∃ r, bic cs = .ok r ∧ RelativeCriterion eligible BIC cs r := by
  obtain ⟨l, hl, h⟩ := relative_criterion (f := Chain.bicValue) (elig := eligible) (crit := BIC)
    (fun e he hel => bicValue_spec (hcs e he) hel (hN e he))
    (fun e _ hel => bicValue_none hel)
  exact ⟨_, by simp only [bic, hl, bind, Except.bind, pure, Except.pure], h⟩

/-- **C18** (BIC). Adding the same constant to all log posteriors leaves `bic()` unchanged. -/
theorem C18_bic (cs : List (String × Chain ℝ)) (k : ℝ) :
    bic (cs.map fun e => (e.1, addLogPosterior k e.2)) = bic cs := by
  refine criterion_shift (s := -2 * k) fun e _ => ?_
  simp only [Chain.bicValue, addLogPosterior_logPosterior]
  have h1 : (addLogPosterior k e.2).numEffDataPoints = e.2.numEffDataPoints := rfl
  have h2 : (addLogPosterior k e.2).numFreeParams = e.2.numFreeParams := rfl
  rw [h1, h2]
  cases e.2.logPosterior with
  | none => rfl
  | some p =>
    cases e.2.numEffDataPoints with
    | none => rfl
    | some N =>
      cases e.2.numFreeParams with
      | none => rfl
      | some n =>
        simp only [Option.map_some, npMax_add]
        cases npMax p with
        | error _ => rfl
        | ok m =>
          simp only [Except.map, bind, Except.bind, pure, Except.pure, Option.map_some]
          congr 2
          generalize Flt.mul (Flt.fin (n : ℝ)) (npLog N) = z
          cases z <;> simp only [Flt.sub, Flt.neg, Flt.add]
          congr 1
          ring

theorem foldl_minNan_nan (l : List (String × Flt ℝ)) :
    l.foldl (fun m e => Flt.minNan m e.2) .nan = .nan := by
  induction l with
  | nil => rfl
  | cons e es ih => rw [List.foldl_cons]; exact ih

theorem foldl_minNan_low (l : List (String × Flt ℝ)) (x : Flt ℝ)
    (h : x = .nan ∨ x = .negInf ∨ ∃ e ∈ l, e.2 = .nan ∨ e.2 = .negInf) :
    l.foldl (fun m e => Flt.minNan m e.2) x = .nan ∨
      l.foldl (fun m e => Flt.minNan m e.2) x = .negInf := by
  induction l generalizing x with
  | nil => simpa using h
  | cons e es ih =>
    rw [List.foldl_cons]
    apply ih
    rcases h with rfl | rfl | ⟨e', he', h⟩
    · left; rfl
    · rcases e with ⟨n, _ | _ | _ | _⟩ <;> simp [Flt.minNan, Flt.lt]
    · rcases List.mem_cons.1 he' with rfl | he'
      · rcases h with h | h <;> rw [h] <;> cases x <;> simp [Flt.minNan, Flt.lt]
      · exact Or.inr (Or.inr ⟨e', he', h⟩)

/-- **C17** (violation, BIC). An eligible chain with `num_eff_data_points = 0`, which the
constructor accepts, gets the BIC value NaN. -/
theorem C17_bic_nan (cs : List (String × Chain ℝ)) (hcs : ∀ e ∈ cs, Accepted e.2)
    (e : String × Chain ℝ) (he : e ∈ cs) (hel : eligible e.2 = true)
    (hN : e.2.numEffDataPoints = some 0) :
    ∃ r, bic cs = .ok r ∧ (e.1, Flt.nan) ∈ r := by
  have hval : ∀ d ∈ cs, ∃ v, d.2.bicValue = .ok v := by
    intro d hd
    cases hdel : eligible d.2 with
    | false => exact ⟨_, bicValue_none hdel⟩
    | true =>
      obtain ⟨p, N, k, hp, hN', hk⟩ := eligible_iff.1 hdel
      obtain ⟨M, hM, -⟩ := npMax_spec (posterior_length (hcs d hd) hp).2
      simp only [Chain.bicValue, hp, hN', hk, hM, bind, Except.bind, pure, Except.pure]
      exact ⟨_, rfl⟩
  have hlow : ∃ v, e.2.bicValue = .ok (some v) ∧ (v = .nan ∨ v = .negInf) := by
    obtain ⟨p, N, k, hp, hN', hk⟩ := eligible_iff.1 hel
    obtain ⟨M, hM, -⟩ := npMax_spec (posterior_length (hcs e he) hp).2
    rw [hN] at hN'
    cases hN'
    refine ⟨(Flt.mul (.fin (k : ℝ)) (npLog 0)).sub (.fin (2 * M)), by
      simp only [Chain.bicValue, hp, hN, hk, hM, bind, Except.bind, pure, Except.pure], ?_⟩
    simp only [npLog, if_true, Flt.mul, Flt.infTimes]
    split
    · right; rfl
    · split
      · rename_i h
        exact absurd h (not_lt.2 (Nat.cast_nonneg _))
      · left; rfl
  have hloop : ∃ l, criterionLoop Chain.bicValue cs = .ok l ∧
      ∃ v, (e.1, v) ∈ l ∧ (v = .nan ∨ v = .negInf) := by
    clear hel hN
    induction cs with
    | nil => cases he
    | cons d ds ih =>
      have hds : ∃ l, criterionLoop Chain.bicValue ds = .ok l := by
        have : ∀ d' ∈ ds, ∃ v, d'.2.bicValue = .ok v :=
          fun d' h => hval d' (List.mem_cons_of_mem _ h)
        clear ih he hval hcs
        induction ds with
        | nil => exact ⟨[], rfl⟩
        | cons d' ds ih =>
          obtain ⟨v, hv⟩ := this d' (List.mem_cons_self ..)
          obtain ⟨l, hl⟩ := ih fun x hx => this x (List.mem_cons_of_mem _ hx)
          simp only [criterionLoop, hv, hl, bind, Except.bind, pure, Except.pure]
          exact ⟨_, rfl⟩
      obtain ⟨l, hl⟩ := hds
      rcases List.mem_cons.1 he with rfl | he'
      · obtain ⟨v, hv, hv'⟩ := hlow
        refine ⟨(e.1, v) :: l, ?_, v, List.mem_cons_self .., hv'⟩
        simp only [criterionLoop, hv, hl, bind, Except.bind, pure, Except.pure]
      · obtain ⟨l', hl', u, hu, hu'⟩ := ih (fun x hx => hcs x (List.mem_cons_of_mem _ hx)) he'
          (fun x hx => hval x (List.mem_cons_of_mem _ hx))
        rw [hl] at hl'
        cases hl'
        obtain ⟨v, hv⟩ := hval d (List.mem_cons_self ..)
        simp only [criterionLoop, hv, hl, bind, Except.bind, pure, Except.pure]
        cases v with
        | none => exact ⟨_, rfl, u, hu, hu'⟩
        | some x => exact ⟨_, rfl, u, List.mem_cons_of_mem _ hu, hu'⟩
  obtain ⟨l, hl, v, hv, hv'⟩ := hloop
  refine ⟨relativeToMin l, by simp only [bic, hl, bind, Except.bind, pure, Except.pure], ?_⟩
  cases l with
  | nil => cases hv
  | cons d ds =>
    have hm := foldl_minNan_low ds d.2 (by
      rcases List.mem_cons.1 hv with rfl | hv
      · rcases hv' with h | h
        · exact Or.inl h
        · exact Or.inr (Or.inl h)
      · exact Or.inr (Or.inr ⟨_, hv, hv'⟩))
    simp only [relativeToMin]
    refine List.mem_map.2 ⟨(e.1, v), hv, ?_⟩
    rcases hm with hm | hm <;> rw [hm] <;> rcases hv' with rfl | rfl <;> rfl

/-- A chain over the reals with a posterior, meeting the hypotheses of the DIC theorems; with the
counts filled in it is eligible for BIC. -/
example : ∃ c : Chain ℝ, AcceptedNoShift c ∧ c.dataColumns ≠ [] ∧
    c.posteriorColumn ∈ c.samples.columns ∧ c.weightColumn ≠ c.posteriorColumn := by
  let f : Frame ℝ := { index := [.int 0, .int 1],
                       cols := [("a", [1, 2]), ("weight", [1, 2]), ("log_posterior", [0, -1])] }
  have hf : f.WF := ⟨by simp [f], by simp [f]⟩
  obtain ⟨c, hc, hcs, hw, hp, -⟩ := plain_chain f hf (by simp [f]) (w := [1, 2]) rfl (by simp) "demo"
  refine ⟨c, ⟨_, toRaw_WF.2 hf, rfl, hc⟩, ?_, ?_, ?_⟩
  · have : "a" ∈ c.dataColumns := by
      simp only [Chain.dataColumns, hcs, hw, hp, f, Frame.columns]
      decide +kernel
    exact List.ne_nil_of_mem this
  · rw [hcs, hp]; simp [f, Frame.columns]
  · rw [hw, hp]; decide

end CC
