import Verif.Props.Affine
import Verif.Lemmas.Divide
import Verif.Spec.Comparison

/-! # C39: row order and weight normalisation -/

set_option linter.unusedSectionVars false

namespace CC
open Spec

section
variable {K : Type} [Field K] [LinearOrder K] [IsStrictOrderedRing K]

/-- The same weighted samples in another order, all weights multiplied by `k`. -/
structure Spec.SameSamples (k : K) (data w data' w' : List K) : Prop where
  lengths : w.length = data.length
  lengths' : w'.length = data'.length
  perm : ((data.zip w).map fun p => (p.1, k * p.2)).Perm (data'.zip w')

theorem Spec.SameSamples.data_perm {k : K} {data w data' w' : List K} (h : SameSamples k data w data' w') :
    data.Perm data' := by
  have := h.perm.map Prod.fst
  rw [List.map_map] at this
  have e : (Prod.fst ∘ fun p : K × K => (p.1, k * p.2)) = Prod.fst := rfl
  rwa [e, List.map_fst_zip (by rw [h.lengths]), List.map_fst_zip (by rw [h.lengths'])] at this

theorem binMass_zip (edges data w : List K) (i : Nat) :
    binMass edges data w i = ((data.zip w).map fun p => if inBin edges i p.1 then p.2 else 0).sum := by
  unfold binMass
  rw [List.zip, List.map_zipWith]

theorem binMass_same {k : K} {data w data' w' : List K} (h : SameSamples k data w data' w') (edges : List K)
    (i : Nat) : binMass edges data' w' i = k * binMass edges data w i := by
  rw [binMass_zip, binMass_zip, ← (h.perm.map _).sum_eq, List.map_map, ← List.sum_map_mul_left]
  congr 1
  refine List.map_congr_left fun p _ => ?_
  simp only [Function.comp, mul_ite, mul_zero]

theorem histogram_same {k : K} {data w data' w' : List K} (h : SameSamples k data w data' w') (edges : List K) :
    histogram edges data' w' = (histogram edges data w).map (List.map (k * ·)) := by
  unfold histogram
  rw [map_bind]
  refine bind_congr fun _ _ => ?_
  simp only [pure, Except.pure, Except.map, List.map_map]
  congr 1
  exact List.map_congr_left fun i _ => binMass_same h edges i

theorem autoEdges_perm {data data' : List K} (h : data.Perm data') (n : Nat) :
    autoEdges n data' = autoEdges n data := by
  cases data with
  | nil => rw [List.nil_perm.1 h]
  | cons x xs =>
    cases data' with
    | nil => exact absurd h.symm (by simp)
    | cons y ys =>
      obtain ⟨m1, m2⟩ := foldl_min_map_spec x xs
      obtain ⟨m1', m2'⟩ := foldl_min_map_spec y ys
      obtain ⟨M1, M2⟩ := foldl_max_map_spec x xs
      obtain ⟨M1', M2'⟩ := foldl_max_map_spec y ys
      have e1 : ys.foldl min y = xs.foldl min x :=
        le_antisymm (m2' _ (h.mem_iff.1 m1)) (m2 _ (h.mem_iff.2 m1'))
      have e2 : ys.foldl max y = xs.foldl max x :=
        le_antisymm (M2 _ (h.mem_iff.2 M1')) (M2' _ (h.mem_iff.1 M1))
      simp only [autoEdges, e1, e2]

theorem extentCurves_scale {k : K} (hk : 0 < k) (hist : List K) :
    extentCurves (hist.map (k * ·)) = extentCurves hist := by
  unfold extentCurves
  simp only [cumsum_scale, arrMax, npMax_scale hk, bind_map, List.map_map]
  refine bind_congr fun m _ => ?_
  have e : ((fun x => x / (k * m)) ∘ fun x => k * x) = fun x => x / m := by
    funext x
    exact mul_div_mul_left _ _ hk.ne'
  simp only [ne_eq, mul_eq_zero, hk.ne', false_or, ← List.map_map, e]

theorem getExtents_same {k : K} (hk : 0 < k) {data w data' w' : List K} (h : SameSamples k data w data' w')
    (plot wide tiny pad : Bool) :
    getExtents data' w' plot wide tiny pad = getExtents data w plot wide tiny pad := by
  unfold getExtents
  rw [autoEdges_perm h.data_perm]
  refine bind_congr fun be _ => ?_
  rw [histogram_same h, bind_map]
  simp only [extentCurves_scale hk]

theorem getGridBins_perm {data data' : List K} (h : data.Perm data') : getGridBins data' = getGridBins data := by
  have : sortUnique data' = sortUnique data :=
    increasing_unique (sortUnique_increasing _) (sortUnique_increasing _) fun x => by
      rw [mem_sortUnique, mem_sortUnique, h.mem_iff]
  unfold getGridBins
  rw [this]

theorem histDensity_same {k : K} (hk : 0 < k) {data w data' w' : List K} (h : SameSamples k data w data' w')
    (edges : List K) : histDensity edges data' w' = histDensity edges data w := by
  unfold histDensity
  rw [histogram_same h, bind_map]
  refine bind_congr fun n _ => bind_congr fun _ _ => ?_
  have hs : (n.map (k * ·)).sum = k * n.sum := by rw [List.sum_map_mul_left]; simp
  simp only [hs, ne_eq, mul_eq_zero, hk.ne', false_or, List.zipWith_map_left]
  refine bind_congr fun _ _ => ?_
  congr 2
  funext m d
  rw [mul_div_assoc, mul_div_mul_left _ _ hk.ne']

end

/-- Multiplying all weights by a positive number multiplies the estimate by it. -/
def Spec.KdeHomogeneous (kde : KdeFn) : Prop := ∀ k, 0 < k → ∀ data w factor targets,
  kde data (w.map (k * ·)) factor targets = (kde data w factor targets).map (List.map (k * ·))

/-- The estimate from these samples does not depend on their order. -/
def Spec.KdeOrderFree (kde : KdeFn) (data w : List ℝ) (factor : ℝ) : Prop := ∀ data' w',
  SameSamples 1 data w data' w' → ∀ targets, kde data' w' factor targets = kde data w factor targets

theorem simpsonOdd_scale (k h : ℝ) : ∀ ys : List ℝ, simpsonOdd h (ys.map (k * ·)) = k * simpsonOdd h ys
  | [] => by simp [simpsonOdd]
  | [_] => by simp [simpsonOdd]
  | [_, _] => by simp [simpsonOdd]
  | a :: b :: c :: rest => by
    have ih := simpsonOdd_scale k h (c :: rest)
    simp only [List.map_cons] at ih
    simp only [List.map_cons, simpsonOdd, ih]
    ring

theorem simpson_scale (k : ℝ) (ys xs : List ℝ) : simpson (ys.map (k * ·)) xs = k * simpson ys xs := by
  have hg : ∀ i, (ys.map (k * ·)).getD i 0 = k * ys.getD i 0 := by
    intro i
    rw [List.getD_eq_getElem?_getD, List.getD_eq_getElem?_getD, List.getElem?_map]
    cases ys[i]? <;> simp
  unfold simpson
  simp only [hg, List.length_map, ← List.map_take, simpsonOdd_scale]
  by_cases h1 : ys.length % 2 = 1
  · rw [if_pos h1, if_pos h1]
  · rw [if_neg h1, if_neg h1]
    by_cases h2 : ys.length = 2
    · rw [if_pos h2, if_pos h2]; ring
    · rw [if_neg h2, if_neg h2]; ring

theorem kdeDensity_scale {k : ℝ} (hk : 0 < k) (kde : KdeFn) (f : ℝ) {data w data' w' : List ℝ}
    (h : ∀ ts, kde data' w' f ts = (kde data w f ts).map (List.map (k * ·))) (bins : List ℝ) (a b : ℝ)
    (xs : List ℝ) : kdeDensity kde f data' w' bins a b xs = kdeDensity kde f data w bins a b xs := by
  unfold kdeDensity
  refine bind_congr fun n _ => ?_
  simp only [h, bind_map, simpson_scale, List.map_map]
  refine bind_congr fun ys _ => ?_
  have e : ((fun y => y / (k * simpson ys (linspace a b n))) ∘ fun y => k * y) =
      fun y => y / simpson ys (linspace a b n) := by
    funext y
    exact mul_div_mul_left _ _ hk.ne'
  simp only [ne_eq, mul_eq_zero, hk.ne', false_or, e]

theorem smoothedHistogram_same (kde : KdeFn) (c c' : Chain ℝ) (col col' : String) (pad : Bool) (u : Option Bool)
    (hcfg : c'.cfg = c.cfg) (hgrid : c'.grid = c.grid) (hpow : c'.power = c.power)
    (hbins : getBins c' = getBins c) {k : ℝ} (hk : 0 < k)
    (h : (∃ e, c.samples.get col = .error e ∧ c'.samples.get col' = .error e) ∨
      ∃ data w data' w', c.samples.get col = .ok data ∧ c.weights = .ok w ∧ c'.samples.get col' = .ok data' ∧
        c'.weights = .ok w' ∧ SameSamples k data w data' w' ∧
        (u.getD (decide (c.cfg .kde ≠ (0 : ℝ))) = false ∨
          ∀ ts, kde data' w' (c.cfg .kde) ts = (kde data w (c.cfg .kde) ts).map (List.map (k * ·)))) :
    smoothedHistogram kde c' col' pad u = smoothedHistogram kde c col pad u := by
  rcases h with ⟨e, h1, h2⟩ | ⟨data, w, data', w', h1, h2, h3, h4, hs, hkde⟩
  · simp only [smoothedHistogram, h1, h2, bind, Except.bind]
  · have hsm : c'.smoothValue = c.smoothValue := by
      unfold Chain.smoothValue; rw [hcfg, hgrid]
    have hb : marginalBins c' data' w' pad = marginalBins c data w pad := by
      unfold marginalBins getSmoothedBins
      rw [hgrid, getGridBins_perm hs.data_perm, hsm, hbins, getExtents_same hk hs]
    unfold smoothedHistogram
    simp only [h1, h2, h3, h4]
    change (marginalBins c' data' w' pad >>= _) = (marginalBins c data w pad >>= _)
    rw [hb]
    refine bind_congr fun bins _ => ?_
    rw [histDensity_same hk hs, hpow]
    refine bind_congr fun hist _ => bind_congr fun hist' _ => bind_congr fun ab _ => bind_congr fun _ _ => ?_
    have hys : ∀ xs, marginalYs kde c' u data' w' bins hist' ab.1 ab.2 xs =
        marginalYs kde c u data w bins hist' ab.1 ab.2 xs := by
      intro xs
      unfold marginalYs
      rw [hsm, hcfg]
      refine bind_congr fun h _ => ?_
      rcases hkde with hkde | hkde
      · simp only [hkde, Bool.false_eq_true, if_false]
      · rw [kdeDensity_scale hk kde _ hkde]
    simp only [hys]

theorem summaryEntry_same (kde : KdeFn) (c c' : Chain ℝ) (col : String) (hcfg : c'.cfg = c.cfg)
    (h : ∀ pad, smoothedHistogram kde c' col pad none = smoothedHistogram kde c col pad none) :
    summaryEntry kde c' col = summaryEntry kde c col := by
  unfold summaryEntry parameterSummary
  simp only [h, hcfg]

/-- The chain with its rows in the order `p` (row labels move along). -/
def Spec.reordered {K : Type} (c : Chain K) (p : List Nat) : Chain K :=
  { c with samples :=
    { index := p.filterMap (c.samples.index[·]?)
      cols := c.samples.cols.map fun e => (e.1, p.filterMap (e.2[·]?)) } }

/-- The chain with all weights multiplied by `k`. -/
def Spec.reweighted {K : Type} [Mul K] (c : Chain K) (k : K) : Chain K :=
  { c with samples := { c.samples with
      cols := c.samples.cols.map fun e => if e.1 = c.weightColumn then (e.1, e.2.map (k * ·)) else e } }

theorem reordered_get {K : Type} (c : Chain K) (p : List Nat) (n : String) :
    (reordered c p).samples.get n = (c.samples.get n).map fun v => p.filterMap (v[·]?) := by
  simp only [reordered, Frame.get]
  induction c.samples.cols with
  | nil => rfl
  | cons e es ih =>
    obtain ⟨m, v⟩ := e
    simp only [List.map_cons, List.lookup_cons]
    by_cases hn : n = m
    · subst hn; simp [Except.map]
    · have : (n == m) = false := by simpa using hn
      simp only [this]
      exact ih

theorem reweighted_get {K : Type} [Mul K] (c : Chain K) (k : K) (n : String) :
    (reweighted c k).samples.get n =
      if n = c.weightColumn then (c.samples.get n).map (List.map (k * ·)) else c.samples.get n := by
  simp only [reweighted, Frame.get]
  induction c.samples.cols with
  | nil => simp [Except.map]
  | cons e es ih =>
    obtain ⟨m, v⟩ := e
    by_cases hm : m = c.weightColumn
    · subst hm
      simp only [List.map_cons, if_true, List.lookup_cons]
      by_cases hn : n = c.weightColumn
      · subst hn; simp [Except.map]
      · have : (n == c.weightColumn) = false := by simpa using hn
        simp only [this, hn, if_false] at ih ⊢
        exact ih
    · simp only [List.map_cons, if_neg hm, List.lookup_cons]
      by_cases hn : n = m
      · subst hn; simp [hm]
      · have : (n == m) = false := by simpa using hn
        simp only [this]
        exact ih

theorem filterMap_getElem_perm {α : Type} {p : List Nat} {v : List α} (hp : p.Perm (List.range v.length)) :
    (p.filterMap (v[·]?)).Perm v := by
  have h1 := hp.filterMap (v[·]?)
  have h2 : (List.range v.length).filterMap (v[·]?) = v := by
    clear h1 hp
    induction v using List.reverseRecOn with
    | nil => rfl
    | append_singleton v a ih =>
      rw [List.length_append, List.length_singleton, List.range_succ, List.filterMap_append]
      congr 1
      · refine Eq.trans (List.filterMap_congr fun i hi => ?_) ih
        rw [List.getElem?_append_left (List.mem_range.1 hi)]
      · simp
  rw [h2] at h1
  exact h1

theorem filterMap_zip {α β : Type} (p : List Nat) (v : List α) (w : List β) (h : w.length = v.length) :
    (p.filterMap (v[·]?)).zip (p.filterMap (w[·]?)) = p.filterMap ((v.zip w)[·]?) := by
  induction p with
  | nil => rfl
  | cons i p ih =>
    by_cases hi : i < v.length
    · rw [List.filterMap_cons, List.filterMap_cons, List.filterMap_cons, List.getElem?_eq_getElem hi,
        List.getElem?_eq_getElem (by omega : i < w.length), List.getElem?_eq_getElem (by simp; omega)]
      simp only [List.zip_cons_cons, ih, List.getElem_zip]
    · rw [List.filterMap_cons, List.filterMap_cons, List.filterMap_cons,
        List.getElem?_eq_none (by omega : v.length ≤ i), List.getElem?_eq_none (by omega : w.length ≤ i),
        List.getElem?_eq_none (by simp; omega)]
      exact ih

/-- The columns of a chain returned by the constructor have as many entries as there are rows, with or
without `shift_params`. -/
theorem accepted_lengths {K : Type} [Field K] [LinearOrder K] [IsStrictOrderedRing K] {c : Chain K}
    (hc : Accepted c) : ∃ w, c.weights = .ok w ∧ w.length = c.samples.index.length ∧
      ∀ col data, c.samples.get col = .ok data → data.length = c.samples.index.length := by
  obtain ⟨a, hwf, hmk⟩ := hc
  obtain ⟨hWF, -, -, hm, -⟩ := make_WF hwf hmk
  obtain ⟨w, hw⟩ := get_ok_of_mem hm
  exact ⟨w, hw, hWF.2 _ (get_mem hw), fun col data hd => hWF.2 _ (get_mem hd)⟩

/-- **C39** (row order). Reordering the rows of an accepted chain changes nothing that `get_summary`
reports for any parameter. (With KDE: if the estimate from the samples does not depend on their order.) -/
theorem C39_row_order (kde : KdeFn) (c : Chain ℝ) (hc : Accepted c) (col : String)
    (hkde : c.cfg .kde = (0 : ℝ) ∨
      ∀ data w, c.samples.get col = .ok data → c.weights = .ok w → KdeOrderFree kde data w (c.cfg .kde))
    (p : List Nat) (hp : p.Perm (List.range c.samples.index.length)) :
    summaryEntry kde (reordered c p) col = summaryEntry kde c col := by
  obtain ⟨w, hw, hwl, hl⟩ := accepted_lengths hc
  refine summaryEntry_same kde c _ col rfl fun pad =>
    smoothedHistogram_same kde c _ col col pad none rfl rfl rfl ?_ one_pos ?_
  · have : (p.filterMap (c.samples.index[·]?)).length = c.samples.index.length :=
      (filterMap_getElem_perm hp).length_eq
    simp only [getBins, reordered, List.length_map, this]
    rfl
  · rw [reordered_get]
    have hwt : (reordered c p).weights = .ok (p.filterMap (w[·]?)) := by
      have := reordered_get c p c.weightColumn
      rw [show c.samples.get c.weightColumn = .ok w from hw] at this
      exact this
    cases hd : c.samples.get col with
    | error e => exact Or.inl ⟨e, rfl, rfl⟩
    | ok data =>
      have hln : w.length = data.length := hwl.trans (hl col data hd).symm
      rw [← hwl] at hp
      have hsame : SameSamples 1 data w (p.filterMap (data[·]?)) (p.filterMap (w[·]?)) := by
        refine ⟨hln, ?_, ?_⟩
        · rw [(filterMap_getElem_perm hp).length_eq]
          rw [hln] at hp
          rw [(filterMap_getElem_perm hp).length_eq, hln]
        rw [filterMap_zip p data w hln]
        have e : (fun q : ℝ × ℝ => (q.1, 1 * q.2)) = id := by funext q; simp
        rw [e, List.map_id]
        refine (filterMap_getElem_perm ?_).symm
        simpa [hln] using hp
      refine Or.inr ⟨data, w, _, _, rfl, hw, rfl, hwt, hsame, ?_⟩
      rcases hkde with h | h
      · left; simp [h]
      · right
        intro ts
        rw [h data w hd hw _ _ hsame]
        cases kde data w (c.cfg .kde) ts <;> simp [Except.map]

/-- **C39** (weights). Multiplying all weights of an accepted chain by the same positive number changes
nothing that `get_summary` reports for any parameter. (With KDE: if the estimator is homogeneous in the
weights.) -/
theorem C39_weight_scale (kde : KdeFn) (c : Chain ℝ) (hc : Accepted c)
    (hkde : c.cfg .kde = (0 : ℝ) ∨ KdeHomogeneous kde) (k : ℝ) (hk : 0 < k) (col : String)
    (hcol : col ≠ c.weightColumn) :
    summaryEntry kde (reweighted c k) col = summaryEntry kde c col := by
  obtain ⟨w, hw, hwl, hl⟩ := accepted_lengths hc
  refine summaryEntry_same kde c _ col rfl fun pad =>
    smoothedHistogram_same kde c _ col col pad none rfl rfl rfl ?_ hk ?_
  · simp only [getBins, reweighted, List.length_map]
    rfl
  · rw [reweighted_get, if_neg hcol]
    have hwt : (reweighted c k).weights = .ok (w.map (k * ·)) := by
      have := reweighted_get c k c.weightColumn
      rw [if_pos rfl, show c.samples.get c.weightColumn = .ok w from hw] at this
      exact this
    cases hd : c.samples.get col with
    | error e => exact Or.inl ⟨e, rfl, rfl⟩
    | ok data =>
      have hln : w.length = data.length := hwl.trans (hl col data hd).symm
      refine Or.inr ⟨data, w, _, _, rfl, hw, rfl, hwt, ⟨hln, by simpa using hln, ?_⟩, ?_⟩
      · rw [List.zip_map_right]
        exact List.Perm.refl _
      · rcases hkde with h | h
        · left; simp [h]
        · right
          exact h k hk data w _

/-- The hypotheses of both are met by an accepted chain with a marginal. -/
example (kde : KdeFn) (hk : KdeOk kde) (s : Stat) : ∃ c m, Chain.make (skewArgs s) = .ok c ∧
    smoothedHistogram kde c "x" false none = .ok m ∧
    summaryEntry kde (reordered c [1, 0]) "x" = summaryEntry kde c "x" ∧
    summaryEntry kde (reweighted c 5) "x" = summaryEntry kde c "x" := by
  obtain ⟨c, m, hc, hst, har, -, hsm, hw, -, hm, -⟩ := skew_chain kde hk s
  have hwf : (skewArgs s).samples.WF := by
    refine ⟨by simp [skewArgs, Frame.toRaw, skewFrame], ?_⟩
    simp [skewArgs, Frame.toRaw, skewFrame]
  have hk0 := (C07_accepted_chain_guarantees (skewArgs s) c hwf rfl hc).2.2.2.2.2.2.2.2 .kde (by simp) (by simp)
  refine ⟨c, m, hc, hm false, C39_row_order kde c ⟨_, hwf, hc⟩ "x" (Or.inl hk0) _ ?_,
    C39_weight_scale kde c ⟨_, hwf, hc⟩ (Or.inl hk0) 5 (by norm_num) "x" ?_⟩
  · rw [hsm]; decide
  · obtain ⟨col, raw, f0, f, h1, h2, h3, h4, h5, h6, h7, h8, h9, h10, rfl⟩ := Chain.make_ok_iff.1 hc
    change "x" ≠ "weight"
    decide

end CC
