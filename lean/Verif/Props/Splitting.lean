import Verif.Props.ContourRuns
import Verif.Props.RowCriteria
import Verif.Props.Kde

/-! # C120: a sample of weight u + v is two samples of weights u and v -/

set_option linter.unusedSectionVars false

namespace CC
open Spec

/-! ## Statement -/

section
variable {K : Type} [Field K] [LinearOrder K] [IsStrictOrderedRing K]

/-- The rows `p` (numbers of rows, possibly repeated) with the weights `w'` share out the weights `w`: every row
has copies, and their weights add up to its weight. -/
structure Spec.Shares (p : List Nat) (w w' : List K) : Prop where
  length : w'.length = p.length
  rows : ∀ i ∈ p, i < w.length
  every : ∀ i < w.length, i ∈ p
  total : ∀ i (h : i < w.length), (((p.zip w').filter fun e => e.1 = i).map Prod.snd).sum = w[i]

/-- The chain with the rows `p` and the weights `w'`. -/
def Spec.shared (c : Chain K) (p : List Nat) (w' : List K) : Chain K :=
  { c with samples :=
    { index := p.filterMap (c.samples.index[·]?)
      cols := c.samples.cols.map fun e => if e.1 = c.weightColumn then (e.1, w') else (e.1, p.filterMap (e.2[·]?)) } }

/-! ## Sums -/

theorem sum_by_row (n : Nat) (g : Nat → K) : ∀ z : List (Nat × K), (∀ e ∈ z, e.1 < n) →
    (z.map fun e => g e.1 * e.2).sum =
      ((List.range n).map fun i => g i * ((z.filter fun e => e.1 = i).map Prod.snd).sum).sum
  | [], _ => by simp
  | e :: z, h => by
    have ih := sum_by_row n g z fun e he => h e (List.mem_cons_of_mem _ he)
    have he := h e List.mem_cons_self
    rw [List.map_cons, List.sum_cons, ih]
    have hs : ∀ i, g i * (((e :: z).filter fun e => e.1 = i).map Prod.snd).sum =
        (if i = e.1 then g e.1 * e.2 else 0) + g i * ((z.filter fun e => e.1 = i).map Prod.snd).sum := by
      intro i
      by_cases hi : i = e.1
      · subst hi
        simp [mul_add]
      · have : ¬ e.1 = i := fun h => hi h.symm
        simp [hi, this]
    simp only [hs, List.sum_map_add]
    congr 1
    clear hs ih h
    induction n with
    | zero => omega
    | succ n ihn =>
      rw [List.range_succ, List.map_append, List.sum_append]
      by_cases hn : n = e.1
      · have : ((List.range n).map fun i => if i = e.1 then g e.1 * e.2 else 0).sum = 0 := by
          refine List.sum_eq_zero fun v hv => ?_
          obtain ⟨i, hi, rfl⟩ := List.mem_map.1 hv
          rw [if_neg (by have := List.mem_range.1 hi; omega)]
        rw [this]
        simp [hn]
      · rw [← ihn (by omega)]
        simp [hn]

/-- The same values, with the same total for every function of them. -/
structure SameMass {α : Type} (data : List α) (w : List K) (data' : List α) (w' : List K) : Prop where
  lengths : w.length = data.length
  lengths' : w'.length = data'.length
  mem : ∀ x, x ∈ data' ↔ x ∈ data
  sums : ∀ g : α → K, ((data'.zip w').map fun e => g e.1 * e.2).sum = ((data.zip w).map fun e => g e.1 * e.2).sum

theorem filterMap_rows {α : Type} [Inhabited α] {p : List Nat} {v : List α} (h : ∀ i ∈ p, i < v.length) :
    p.filterMap (v[·]?) = p.map fun i => v.getD i default := by
  rw [← List.filterMap_eq_map]
  refine List.filterMap_congr fun i hi => ?_
  simp [h i hi]

theorem Spec.Shares.mass {α : Type} [Inhabited α] {p : List Nat} {w w' : List K} (h : Shares p w w')
    {data : List α} (hd : data.length = w.length) : SameMass data w (p.filterMap (data[·]?)) w' := by
  have hr : ∀ i ∈ p, i < data.length := fun i hi => by rw [hd]; exact h.rows i hi
  have he := filterMap_rows hr
  refine ⟨hd.symm, by rw [he, List.length_map, h.length], fun x => ?_, fun g => ?_⟩
  · simp only [List.mem_filterMap]
    constructor
    · rintro ⟨i, -, hx⟩
      exact List.mem_of_getElem? hx
    · intro hx
      obtain ⟨i, hi, rfl⟩ := List.mem_iff_getElem.1 hx
      exact ⟨i, h.every i (by omega), List.getElem?_eq_getElem hi⟩
  · rw [he, List.zip_map_left, List.map_map]
    have h1 := sum_by_row w.length (fun i => g (data.getD i default)) (p.zip w')
      fun e he => h.rows _ (List.of_mem_zip he).1
    refine Eq.trans h1 (congrArg List.sum ?_)
    apply List.ext_getElem (by simp [hd])
    intro i hi hi'
    have hiw : i < w.length := by simpa using hi
    have hid : i < data.length := by omega
    simp only [List.getElem_map, List.getElem_range, List.getElem_zip, h.total i hiw]
    simp [hid]

theorem binMass_mass {data w data' w' : List K} (h : SameMass data w data' w') (edges : List K) (i : Nat) :
    binMass edges data' w' i = binMass edges data w i := by
  rw [binMass_zip, binMass_zip]
  have := h.sums fun x => if inBin edges i x then 1 else 0
  simpa only [ite_mul, one_mul, zero_mul] using this

theorem histogram_mass {data w data' w' : List K} (h : SameMass data w data' w') (edges : List K) :
    histogram edges data' w' = histogram edges data w := by
  unfold histogram
  refine bind_congr fun _ _ => ?_
  exact congrArg Except.ok (List.map_congr_left fun i _ => binMass_mass h edges i)

theorem autoEdges_mem {data data' : List K} (h : ∀ x, x ∈ data' ↔ x ∈ data) (n : Nat) :
    autoEdges n data' = autoEdges n data := by
  cases data with
  | nil =>
    have : data' = [] := List.eq_nil_iff_forall_not_mem.2 fun x hx => by simpa using (h x).1 hx
    rw [this]
  | cons x xs =>
    cases data' with
    | nil => exact absurd ((h x).2 List.mem_cons_self) (by simp)
    | cons y ys =>
      obtain ⟨m1, m2⟩ := foldl_min_map_spec x xs
      obtain ⟨m1', m2'⟩ := foldl_min_map_spec y ys
      obtain ⟨M1, M2⟩ := foldl_max_map_spec x xs
      obtain ⟨M1', M2'⟩ := foldl_max_map_spec y ys
      have e1 : ys.foldl min y = xs.foldl min x :=
        le_antisymm (m2' _ ((h _).2 m1)) (m2 _ ((h _).1 m1'))
      have e2 : ys.foldl max y = xs.foldl max x :=
        le_antisymm (M2 _ ((h _).1 M1')) (M2' _ ((h _).2 M1))
      simp only [autoEdges, e1, e2]

theorem getExtents_mass {data w data' w' : List K} (h : SameMass data w data' w') (plot wide tiny pad : Bool) :
    getExtents data' w' plot wide tiny pad = getExtents data w plot wide tiny pad := by
  unfold getExtents
  rw [autoEdges_mem h.mem]
  refine bind_congr fun be _ => ?_
  rw [histogram_mass h]

theorem getGridBins_mem {data data' : List K} (h : ∀ x, x ∈ data' ↔ x ∈ data) : getGridBins data' = getGridBins data := by
  have : sortUnique data' = sortUnique data :=
    increasing_unique (sortUnique_increasing _) (sortUnique_increasing _) fun x => by
      rw [mem_sortUnique, mem_sortUnique, h]
  unfold getGridBins
  rw [this]

theorem histDensity_mass {data w data' w' : List K} (h : SameMass data w data' w') (edges : List K) :
    histDensity edges data' w' = histDensity edges data w := by
  unfold histDensity
  rw [histogram_mass h]

/-! ## The columns of the new chain -/

theorem shared_get (c : Chain K) (p : List Nat) (w' : List K) (n : String) (hn : n ≠ c.weightColumn) :
    (shared c p w').samples.get n = (c.samples.get n).map fun v => p.filterMap (v[·]?) := by
  simp only [shared, Frame.get]
  induction c.samples.cols with
  | nil => rfl
  | cons e es ih =>
    obtain ⟨m, v⟩ := e
    by_cases hm : m = c.weightColumn
    · subst hm
      have : (n == c.weightColumn) = false := by simpa using hn
      simp only [List.map_cons, if_true, List.lookup_cons, this]
      exact ih
    · simp only [List.map_cons, if_neg hm, List.lookup_cons]
      by_cases hnm : n = m
      · subst hnm; simp [Except.map]
      · have : (n == m) = false := by simpa using hnm
        simp only [this]
        exact ih

theorem shared_weights (c : Chain K) (p : List Nat) (w' : List K) {w : List K} (hw : c.weights = .ok w) :
    (shared c p w').weights = .ok w' := by
  change c.samples.get c.weightColumn = .ok w at hw
  change (shared c p w').samples.get c.weightColumn = .ok w'
  simp only [shared, Frame.get] at hw ⊢
  revert hw
  induction c.samples.cols with
  | nil => intro hw; cases hw
  | cons e es ih =>
    intro hw
    obtain ⟨m, v⟩ := e
    by_cases hm : m = c.weightColumn
    · subst hm
      simp
    · have : (c.weightColumn == m) = false := by simpa using fun h : c.weightColumn = m => hm h.symm
      simp only [List.map_cons, if_neg hm, List.lookup_cons, this] at hw ⊢
      exact ih hw

end

/-- The copies are not so many that `get_bins` reacts to their number: the chain is a grid, or has its number
of bins set, or fewer than 36 ** 4 = 1679616 rows per column afterwards. -/
def Spec.FewRows (c : Chain ℝ) (p : List Nat) : Prop :=
  c.grid = true ∨ c.cfg .bins ≠ none ∨ p.length < 36 ^ 4 * c.samples.cols.length

theorem sqrt_sqrt_le {n m : Nat} (h : n < 36 ^ 4 * m) : Nat.sqrt (Nat.sqrt (n / m)) ≤ 35 := by
  have : n / m < 36 ^ 4 := Nat.div_lt_of_lt_mul (by rwa [Nat.mul_comm] at h)
  have h1 : Nat.sqrt (n / m) < 36 ^ 2 := Nat.sqrt_lt'.2 (by omega)
  have h2 : Nat.sqrt (Nat.sqrt (n / m)) < 36 := Nat.sqrt_lt'.2 h1
  omega

theorem shared_bins {c : Chain ℝ} {p : List Nat} {w w' : List ℝ} (hw : w.length = c.samples.index.length)
    (h : Shares p w w') (hf : FewRows c p) :
    c.grid = true ∨ getBins (shared c p w') = getBins c := by
  rcases hf with h1 | h1 | h1
  · exact .inl h1
  · right
    unfold getBins
    have hcfg : (shared c p w').cfg = c.cfg := rfl
    rw [hcfg]
    cases hb : c.cfg .bins with
    | none => exact absurd hb h1
    | some b => rfl
  · right
    have hlen : c.samples.index.length ≤ p.length := by
      have : (List.range w.length).Subperm p :=
        List.subperm_of_subset List.nodup_range fun i hi => h.every i (List.mem_range.1 hi)
      have := this.length_le
      rw [List.length_range] at this
      omega
    have hl : (p.filterMap (c.samples.index[·]?)).length = p.length := by
      have : Inhabited Label := ⟨.int 0⟩
      rw [filterMap_rows (fun i hi => by rw [← hw]; exact h.rows i hi), List.length_map]
    have e1 := sqrt_sqrt_le h1
    have e2 := sqrt_sqrt_le (lt_of_le_of_lt hlen h1)
    have hs : (shared c p w').smoothValue = c.smoothValue := rfl
    have hcfg : (shared c p w').cfg = c.cfg := rfl
    unfold getBins
    rw [hs, hcfg]
    cases c.cfg .bins with
    | some b => rfl
    | none =>
      change max _ ((Nat.sqrt (Nat.sqrt ((p.filterMap (c.samples.index[·]?)).length / (c.samples.cols.map _).length)) : Nat) : Int) = max _ _
      rw [hl, List.length_map]
      split_ifs <;> omega

/-- **C120**, negation for very many rows. Without `bins` set the number of bins follows the number of rows, so
the restriction `FewRows` is needed: a sample of weight 2 * 37 ** 4 given as that many samples of weight 1 gets
more bins than before. -/
theorem C120_bins_violated : ∃ (c : Chain ℝ) (p : List Nat) (w w' : List ℝ), Accepted c ∧ c.weights = .ok w ∧
    Shares p w w' ∧ (∀ v ∈ w', 0 < v) ∧ getBins c < getBins (shared c p w') := by
  let f : Frame ℝ := { index := [.int 0], cols := [("a", [1]), ("weight", [((2 * 37 ^ 4 : ℕ) : ℝ)])] }
  have hf : f.WF := ⟨by simp [f], by simp [f]⟩
  obtain ⟨c, hc, hcs, hw, -, -, hg, -, -, hcfg⟩ := plain_chain_cfg (K := ℝ) false [] rfl
      (by change (0 : ℝ) ≤ 6827 / 10000 ∧ (6827 / 10000 : ℝ) ≤ 1; constructor <;> norm_num)
      (by change (1 : ℝ) ≤ 10; norm_num) rfl rfl (by intro h; cases h) f hf
      (by simp [f]) (w := [((2 * 37 ^ 4 : ℕ) : ℝ)]) rfl (by simp) "many" 1 le_rfl (one_dvd _)
  refine ⟨c, List.replicate (2 * 37 ^ 4) 0, _, List.replicate (2 * 37 ^ 4) 1, ⟨_, toRaw_WF.2 hf, hc⟩,
    (by unfold Chain.weights; rw [hcs, hw]; rfl : c.weights = .ok [((2 * 37 ^ 4 : ℕ) : ℝ)]), ⟨by rw [List.length_replicate, List.length_replicate], ?_, ?_, ?_⟩, ?_, ?_⟩
  · intro i hi
    rw [List.eq_of_mem_replicate hi]
    simp
  · intro i hi
    have : i = 0 := by simpa using hi
    rw [this]
    exact List.mem_replicate.2 ⟨by norm_num, rfl⟩
  · intro i hi
    have : i = 0 := by simpa using hi
    subst this
    generalize 2 * 37 ^ 4 = n
    simp
  · intro v hv
    rw [List.eq_of_mem_replicate hv]
    exact one_pos
  · have hb : c.cfg .bins = none := by rw [hcfg]; rfl
    have hsm : 0 < c.smoothValue := by
      unfold Chain.smoothValue
      rw [hg, hcfg]
      norm_num
      try decide
    have hl : ((List.replicate (2 * 37 ^ 4) 0).filterMap (c.samples.index[·]?)).length = 2 * 37 ^ 4 := by
      rw [hcs]
      generalize 2 * 37 ^ 4 = n
      induction n with
      | zero => rfl
      | succ n ih => rw [List.replicate_succ]; simp only [f, List.filterMap_cons]; simp
    have e1 : getBins c = 35 := by
      unfold getBins
      simp only [hb, hsm, if_true, hcs]
      simp [f]
    have e2 : getBins (shared c (List.replicate (2 * 37 ^ 4) 0) (List.replicate (2 * 37 ^ 4) 1)) = 37 := by
      have hb' : (shared c (List.replicate (2 * 37 ^ 4) 0) (List.replicate (2 * 37 ^ 4) 1)).cfg = c.cfg := rfl
      have hs' : (shared c (List.replicate (2 * 37 ^ 4) 0) (List.replicate (2 * 37 ^ 4) 1)).smoothValue = c.smoothValue := rfl
      unfold getBins
      rw [hb', hb, hs', if_pos hsm]
      change max _ ((Nat.sqrt (Nat.sqrt (((List.replicate (2 * 37 ^ 4) 0).filterMap (c.samples.index[·]?)).length /
        (c.samples.cols.map _).length)) : Nat) : Int) = _
      rw [hl, List.length_map, hcs]
      have : (2 * 37 ^ 4) / f.cols.length = (37 ^ 2) * (37 ^ 2) := by simp [f]
      rw [this, Nat.sqrt_eq, show 37 ^ 2 = 37 * 37 from rfl, Nat.sqrt_eq]
      rfl
    rw [e1, e2]
    norm_num

/-! ## Marginals and summaries -/

theorem smoothedHistogram_mass (kde : KdeFn) (c c' : Chain ℝ) (col : String) (pad : Bool) (hcfg : c'.cfg = c.cfg)
    (hgrid : c'.grid = c.grid) (hpow : c'.power = c.power) (hbins : c.grid = true ∨ getBins c' = getBins c)
    (h0 : c.cfg .kde = (0 : ℝ)) {data w data' w' : List ℝ} (h1 : c.samples.get col = .ok data) (h2 : c.weights = .ok w)
    (h3 : c'.samples.get col = .ok data') (h4 : c'.weights = .ok w') (hs : SameMass data w data' w') :
    smoothedHistogram kde c' col pad none = smoothedHistogram kde c col pad none := by
  have hsm : c'.smoothValue = c.smoothValue := by
    unfold Chain.smoothValue; rw [hcfg, hgrid]
  have hb : marginalBins c' data' w' pad = marginalBins c data w pad := by
    unfold marginalBins getSmoothedBins
    rw [hgrid, getGridBins_mem hs.mem, hsm, getExtents_mass hs]
    rcases hbins with hg | hbins
    · simp only [hg, if_true]
    · rw [hbins]
  unfold smoothedHistogram
  simp only [h1, h2, h3, h4]
  change (marginalBins c' data' w' pad >>= _) = (marginalBins c data w pad >>= _)
  rw [hb]
  refine bind_congr fun bins _ => ?_
  rw [histDensity_mass hs, hpow]
  refine bind_congr fun hist _ => bind_congr fun hist' _ => bind_congr fun ab _ => bind_congr fun _ _ => ?_
  have hys : ∀ xs, marginalYs kde c' none data' w' bins hist' ab.1 ab.2 xs =
      marginalYs kde c none data w bins hist' ab.1 ab.2 xs := by
    intro xs
    unfold marginalYs
    rw [hsm, hcfg]
    simp [h0]
  simp only [hys]

/-- **C120** (summaries). Sharing out the weights of the samples of an accepted chain without KDE over copies of
them, in any order, changes nothing that `get_summary` reports for any parameter. -/
theorem C120_summary (kde : KdeFn) (c : Chain ℝ) (hc : Accepted c) (hkde : c.cfg .kde = (0 : ℝ)) {p : List Nat}
    {w w' : List ℝ} (hw : c.weights = .ok w) (h : Shares p w w') (hf : FewRows c p) (col : String)
    (hcol : col ≠ c.weightColumn) : summaryEntry kde (shared c p w') col = summaryEntry kde c col := by
  obtain ⟨w0, hw0, hwl, hl⟩ := accepted_lengths hc
  rw [hw] at hw0
  cases hw0
  replace hl : ∀ col data, c.samples.get col = .ok data → data.length = w.length := fun col data hd =>
    (hl col data hd).trans hwl.symm
  refine summaryEntry_same kde c _ col rfl fun pad => ?_
  have hg := shared_get c p w' col hcol
  cases hd : c.samples.get col with
  | error e =>
    rw [hd] at hg
    have hg : (shared c p w').samples.get col = .error e := hg
    simp only [smoothedHistogram, hd, hg, bind, Except.bind]
  | ok data =>
    rw [hd] at hg
    exact smoothedHistogram_mass kde c _ col pad rfl rfl rfl (shared_bins hwl h hf) hkde hd hw hg
      (shared_weights c p w' hw) (h.mass (hl col data hd))

/-! ## Contours -/

theorem zip_assoc_map {α β γ : Type} (x : List α) (y : List β) (w : List γ) :
    x.zip (y.zip w) = ((x.zip y).zip w).map fun e => (e.1.1, e.1.2, e.2) := by
  induction x generalizing y w with
  | nil => rfl
  | cons a x ih =>
    cases y with
    | nil => rfl
    | cons b y =>
      cases w with
      | nil => rfl
      | cons v w => simp [ih]

theorem cellMass_mass {x y w x' y' w' : List ℝ} (h : SameMass (x.zip y) w (x'.zip y') w') (ex ey : List ℝ) (i j : Nat) :
    cellMass ex ey x' y' w' i j = cellMass ex ey x y w i j := by
  unfold cellMass
  rw [zip_assoc_map, zip_assoc_map, List.map_map, List.map_map]
  have := h.sums fun q => if inBin ex i q.1 ∧ inBin ey j q.2 then 1 else 0
  simp only [ite_mul, one_mul, zero_mul] at this
  simpa [Function.comp_def] using this

theorem histogram2d_mass {x y w x' y' w' : List ℝ} (h : SameMass (x.zip y) w (x'.zip y') w') (ex ey : List ℝ) :
    histogram2d ex ey x' y' w' = histogram2d ex ey x y w := by
  unfold histogram2d
  simp only [cellMass_mass h]

theorem smoothedHistogram2d_mass (near : NearFn) (c c' : Chain ℝ) (px py : String) (hcfg : c'.cfg = c.cfg) (hgrid : c'.grid = c.grid)
    (hpow : c'.power = c.power) (hbins : c.grid = true ∨ getBins c' = getBins c) (h0 : c.cfg .kde = (0 : ℝ))
    {x y w x' y' w' : List ℝ} (h1 : c.samples.get px = .ok x) (h2 : c.samples.get py = .ok y) (h3 : c.weights = .ok w)
    (h4 : c'.samples.get px = .ok x') (h5 : c'.samples.get py = .ok y') (h6 : c'.weights = .ok w')
    (hx : SameMass x w x' w') (hy : SameMass y w y' w') (hxy : SameMass (x.zip y) w (x'.zip y') w') :
    smoothedHistogram2d near c' px py = smoothedHistogram2d near c px py := by
  have hsm : c'.smoothValue = c.smoothValue := by
    unfold Chain.smoothValue; rw [hcfg, hgrid]
  have hb : bins2d c' x' y' w' = bins2d c x y w := by
    unfold bins2d getSmoothedBins
    rw [hgrid, getGridBins_mem hx.mem, getGridBins_mem hy.mem, hsm, getExtents_mass hx, getExtents_mass hy]
    rcases hbins with hg | hbins
    · simp only [hg, if_true]
    · rw [hbins]
  unfold smoothedHistogram2d
  simp only [h1, h2, h3, h4, h5, h6]
  change (bins2d c' x' y' w' >>= _) = (bins2d c x y w >>= _)
  rw [hb]
  refine bind_congr fun b _ => ?_
  obtain ⟨bx, by'⟩ := b
  simp only
  rw [histogram2d_mass hxy]
  refine bind_congr fun h _ => ?_
  rw [hpow]
  refine bind_congr fun h' _ => ?_
  rw [hcfg, hsm]
  simp only [h0, ne_eq, not_true_eq_false, if_false]

/-- **C120** (contours). Nor does it change the contours drawn for any two parameters. -/
theorem C120_contours (lib : Lib) (cfg : PlotConfig) (c : Chain ℝ) (hc : Accepted c) (hkde : c.cfg .kde = (0 : ℝ))
    {p : List Nat} {w w' : List ℝ} (hw : c.weights = .ok w) (h : Shares p w w') (hf : FewRows c p) (px py : String)
    (hpx : px ≠ c.weightColumn) (hpy : py ≠ c.weightColumn) :
    plotContour lib cfg (shared c p w') px py = plotContour lib cfg c px py := by
  obtain ⟨w0, hw0, hwl, hl⟩ := accepted_lengths hc
  rw [hw] at hw0
  cases hw0
  replace hl : ∀ col data, c.samples.get col = .ok data → data.length = w.length := fun col data hd =>
    (hl col data hd).trans hwl.symm
  refine plotContour_scale cfg px py rfl rfl one_pos ?_ (.inl rfl)
  have hone : (smoothedHistogram2d lib.near c px py).map (scaleHist 1) = smoothedHistogram2d lib.near c px py := by
    cases smoothedHistogram2d lib.near c px py with
    | error e => rfl
    | ok r => simp only [Except.map, scaleHist, scaleRows_one]
  rw [hone]
  have hgx := shared_get c p w' px hpx
  have hgy := shared_get c p w' py hpy
  cases hx : c.samples.get px with
  | error e =>
    rw [hx] at hgx
    have hgx : (shared c p w').samples.get px = .error e := hgx
    simp only [smoothedHistogram2d, hx, hgx, bind, Except.bind]
  | ok x =>
    rw [hx] at hgx
    have hgx : (shared c p w').samples.get px = .ok _ := hgx
    cases hy : c.samples.get py with
    | error e =>
      rw [hy] at hgy
      have hgy : (shared c p w').samples.get py = .error e := hgy
      simp only [smoothedHistogram2d, hx, hy, hgx, hgy, bind, Except.bind]
    | ok y =>
      rw [hy] at hgy
      have hxl := hl px x hx
      have hyl := hl py y hy
      have hxy := h.mass (data := x.zip y) (by rw [List.length_zip]; omega)
      rw [← filterMap_zip p x y (by omega)] at hxy
      exact smoothedHistogram2d_mass lib.near c _ px py rfl rfl rfl (shared_bins hwl h hf) hkde hx hy hw hgx hgy
        (shared_weights c p w' hw) (h.mass hxl) (h.mass hyl) hxy

/-! ## Criteria -/

section
variable {K : Type} [Field K] [LinearOrder K] [IsStrictOrderedRing K]

theorem shared_columns (c : Chain K) (p : List Nat) (w' : List K) : (shared c p w').samples.columns = c.samples.columns := by
  simp only [Frame.columns, shared, List.map_map]
  refine List.map_congr_left fun e _ => ?_
  simp only [Function.comp]
  split_ifs <;> rfl

theorem shared_dataColumns (c : Chain K) (p : List Nat) (w' : List K) : (shared c p w').dataColumns = c.dataColumns := by
  unfold Chain.dataColumns
  rw [shared_columns]
  rfl

theorem shared_logPosterior (c : Chain K) (p : List Nat) (w' : List K) (h : c.posteriorColumn ≠ c.weightColumn) :
    (shared c p w').logPosterior = c.logPosterior.map fun v => p.filterMap (v[·]?) := by
  have := shared_get c p w' c.posteriorColumn h
  unfold Frame.get at this
  change (shared c p w').samples.cols.lookup c.posteriorColumn = (c.samples.cols.lookup c.posteriorColumn).map _
  cases h1 : (shared c p w').samples.cols.lookup c.posteriorColumn <;>
    cases h2 : c.samples.cols.lookup c.posteriorColumn <;> rw [h1, h2] at this <;> simp_all [Except.map]

theorem npMax_mem {l l' : List K} (h : ∀ x, x ∈ l' ↔ x ∈ l) : npMax l' = npMax l := by
  by_cases hne : l = []
  · subst hne
    have : l' = [] := List.eq_nil_iff_forall_not_mem.2 fun x hx => by simpa using (h x).1 hx
    rw [this]
  · have hne' : l' ≠ [] := by
      obtain ⟨x, hx⟩ := List.exists_mem_of_ne_nil _ hne
      exact List.ne_nil_of_mem ((h x).2 hx)
    obtain ⟨M, h1, h2, h3⟩ := npMax_spec hne
    obtain ⟨M', h1', h2', h3'⟩ := npMax_spec hne'
    rw [h1, h1']
    exact congrArg _ (le_antisymm (h3 _ ((h _).1 h2')) (h3' _ ((h _).2 h2)))

theorem posterior_max_shared {c : Chain K} (hc : Accepted c) {p : List Nat} {w w' : List K} (hw : c.weights = .ok w)
    (h : Shares p w w') {q : List K} (hq : c.logPosterior = some q) : npMax (p.filterMap (q[·]?)) = npMax q := by
  obtain ⟨w0, hw0, hwl, -⟩ := accepted_lengths hc
  rw [hw] at hw0
  cases hw0
  have : Inhabited K := ⟨0⟩
  exact npMax_mem (h.mass (by rw [(posterior_length hc hq).1, hwl])).mem

theorem aicValue_shared {c : Chain K} (hc : Accepted c) {p : List Nat} {w w' : List K} (hw : c.weights = .ok w)
    (h : Shares p w w') (hne : c.posteriorColumn ≠ c.weightColumn) : (shared c p w').aicValue = c.aicValue := by
  unfold Chain.aicValue
  have h1 : (shared c p w').numEffDataPoints = c.numEffDataPoints := rfl
  have h2 : (shared c p w').numFreeParams = c.numFreeParams := rfl
  rw [shared_logPosterior c p w' hne, h1, h2]
  cases hq : c.logPosterior with
  | none => rfl
  | some q =>
    cases c.numEffDataPoints with
    | none => rfl
    | some N =>
      cases c.numFreeParams with
      | none => rfl
      | some k =>
        simp only [Option.map_some]
        rw [posterior_max_shared hc hw h hq]

theorem zip_ofFn {α β : Type} {n : Nat} (f : Fin n → α) (g : Fin n → β) :
    (List.ofFn f).zip (List.ofFn g) = List.ofFn fun i => (f i, g i) := by
  apply List.ext_getElem (by simp)
  intro i h1 h2
  simp

/-- The criterion of the documentation of the new chain is one of the old chain. -/
theorem DIC_shared {c : Chain K} (hc : Accepted c) {p : List Nat} {w w' : List K} (hw : c.weights = .ok w)
    (h : Shares p w w') (hne : c.posteriorColumn ≠ c.weightColumn) {v : K} (hv : DIC (shared c p w') v) : DIC c v := by
  obtain ⟨a, hwf, hmk⟩ := hc
  obtain ⟨hWF, -⟩ := make_WF hwf hmk
  have hwm : (c.weightColumn, w) ∈ c.samples.cols := get_mem hw
  have hwl : w.length = c.samples.index.length := hWF.2 _ hwm
  obtain ⟨n, w1, q, x, i, hw1, hq, hx, hmin, rfl⟩ := hv
  have hdc : (shared c p w').dataColumns = c.dataColumns := shared_dataColumns c p w'
  have hmem : ∀ {s : String} {l : List K}, s ≠ c.weightColumn → (s, l) ∈ (shared c p w').samples.cols →
      ∃ l', (s, l') ∈ c.samples.cols ∧ l'.length = w.length ∧ p.filterMap (l'[·]?) = l := by
    intro s l hs hm
    obtain ⟨e, he, heq⟩ := List.mem_map.1 hm
    by_cases h1 : e.1 = c.weightColumn
    · rw [if_pos h1] at heq
      cases heq
      exact absurd h1 hs
    · rw [if_neg h1] at heq
      cases heq
      exact ⟨e.2, he, (hWF.2 _ he).trans hwl.symm, rfl⟩
  have hw2 : w' = List.ofFn w1 := by
    obtain ⟨e, he, heq⟩ := List.mem_map.1 hw1
    by_cases h1 : e.1 = c.weightColumn
    · rw [if_pos h1] at heq
      exact (Prod.mk.inj heq).2
    · rw [if_neg h1] at heq
      exact absurd (Prod.mk.inj heq).1 h1
  have hpn : p.length = n := by rw [← h.length, hw2, List.length_ofFn]
  let P : Fin n → Fin w.length := fun j => ⟨p[j.1]'(by omega), h.rows _ (List.getElem_mem _)⟩
  have hsel : ∀ {l : List K} {f : Fin n → K} (hl : l.length = w.length), p.filterMap (l[·]?) = List.ofFn f →
      ∀ j, f j = l[(P j).1]'(by rw [hl]; exact (P j).2) := by
    intro l f hl hf j
    have h1 : (p.filterMap (l[·]?))[j.1]? = some (f j) := by rw [hf]; simp
    rw [rows_getElem? (fun k hk => by rw [hl]; exact h.rows k hk), List.getElem?_eq_getElem (by omega)] at h1
    have h2 : l[(P j).1]? = some (f j) := h1
    rw [List.getElem?_eq_getElem (by rw [hl]; exact (P j).2)] at h2
    exact (Option.some.inj h2).symm
  have hsum : ∀ f : Fin w.length → K, ∑ j, w1 j * f (P j) = ∑ k, w[k] * f k := by
    intro f
    have : Inhabited K := ⟨0⟩
    have h1 := (h.mass (data := List.ofFn f) (by simp)).sums id
    have h2 : p.filterMap ((List.ofFn f)[·]?) = List.ofFn fun j => f (P j) := by
      apply List.ext_getElem?
      intro j
      rw [rows_getElem? (fun k hk => by rw [List.length_ofFn]; exact h.rows k hk)]
      by_cases hj : j < n
      · rw [List.getElem?_eq_getElem (by omega)]
        have : p[j]'(by omega) < w.length := h.rows _ (List.getElem_mem _)
        simp [hj, this, P]
      · simp [hj, hpn]
    have h3 : (List.ofFn f).zip w = List.ofFn fun k : Fin w.length => (f k, w[k]) := by
      rw [← zip_ofFn]
      simp
    rw [h2, h3, hw2, zip_ofFn, List.map_ofFn, List.sum_ofFn, List.map_ofFn, List.sum_ofFn] at h1
    simp only [Function.comp, id] at h1
    simpa only [mul_comm] using h1
  have hone : ∑ j, w1 j = ∑ k : Fin w.length, w[k] := by simpa using hsum fun _ => 1
  have hmean : ∀ f : Fin w.length → K, wmean w1 (fun j => f (P j)) = wmean (fun k : Fin w.length => w[k]) f := by
    intro f
    unfold wmean
    rw [hsum, hone]
  obtain ⟨q', hq1, hq2, hq3⟩ := hmem hne hq
  have hxs : ∀ j, ∃ l', ((shared c p w').dataColumns[j], l') ∈ c.samples.cols ∧ l'.length = w.length ∧
      p.filterMap (l'[·]?) = List.ofFn (x j) := by
    intro j
    refine hmem (fun he => ?_) (hx j)
    have : (shared c p w').dataColumns[j] ∈ (shared c p w').dataColumns := List.getElem_mem _
    rw [he, hdc] at this
    exact weight_not_data c this
  choose X hX1 hX2 hX3 using hxs
  have hlist : ∀ {l : List K} (hl : l.length = w.length), l = List.ofFn fun k : Fin w.length => l[k.1]'(by rw [hl]; exact k.2) := by
    intro l hl
    apply List.ext_getElem (by simp [hl])
    intro i h1 h2
    simp
  have hqf : q = fun j => (fun k : Fin w.length => q'[k.1]'(by rw [hq2]; exact k.2)) (P j) := funext (hsel hq2 hq3)
  have hxf : ∀ m, x m = fun j => (fun k : Fin w.length => (X m)[k.1]'(by rw [hX2]; exact k.2)) (P j) :=
    fun m => funext (hsel (hX2 m) (hX3 m))
  refine ⟨w.length, fun k => w[k], fun k => q'[k.1]'(by rw [hq2]; exact k.2),
    fun m k => (X (m.cast (by rw [hdc])))[k.1]'(by rw [hX2]; exact k.2), P i, ?_, ?_, ?_, ?_, ?_⟩
  · simpa using hwm
  · rw [← hlist hq2]; exact hq1
  · intro m
    rw [← hlist (hX2 _)]
    have := hX1 (m.cast (by rw [hdc]))
    simpa [hdc] using this
  · intro k
    obtain ⟨j, hj⟩ : ∃ j, P j = k := by
      obtain ⟨j, hj, he⟩ := List.mem_iff_getElem.1 (h.every k.1 k.2)
      exact ⟨⟨j, by omega⟩, Fin.ext he⟩
    subst hj
    have hs : ∀ j, (∑ m : Fin c.dataColumns.length, ((X (m.cast (by rw [hdc])))[(P j).1]'(by rw [hX2]; exact (P j).2) -
        wmean (fun k : Fin w.length => w[k]) fun k => (X (m.cast (by rw [hdc])))[k.1]'(by rw [hX2]; exact k.2)) ^ 2) =
        ∑ m, (x m j - wmean w1 (x m)) ^ 2 := by
      intro j
      refine Fintype.sum_equiv (finCongr (by rw [hdc])) _ _ fun m => ?_
      have e := hmean fun k => (X (finCongr (by rw [hdc]) m))[k.1]'(by rw [hX2]; exact k.2)
      rw [hxf]
      beta_reduce
      rw [e]
      rfl
    have := hmin j
    rw [← hs, ← hs] at this
    exact this
  · rw [hqf]
    have e := hmean fun k => -2 * q'[k.1]'(by rw [hq2]; exact k.2)
    rw [e]

theorem dicValue_shared (tie : List (List K) → List K → Nat) {c : Chain K} (hc : AcceptedNoShift c)
    (hone : ∀ v v', DIC c v → DIC c v' → v = v') {p : List Nat} {w w' : List K} (hw : c.weights = .ok w)
    (h : Shares p w w') (hne : c.posteriorColumn ≠ c.weightColumn) (hc' : AcceptedNoShift (shared c p w')) :
    (shared c p w').dicValue tie = c.dicValue tie := by
  by_cases hm : c.posteriorColumn ∈ c.samples.columns
  · obtain ⟨v, h1, h2⟩ := dicValue_spec tie hc hm
    obtain ⟨v', h1', h2'⟩ := dicValue_spec tie hc' (by rw [shared_columns]; exact hm)
    rw [h1, h1', hone v v' h2 (DIC_shared (AcceptedNoShift.accepted hc) hw h hne h2')]
  · have h1 : c.logPosterior = none := by
      rw [← Option.not_isSome_iff_eq_none]
      exact fun h => hm (logPosterior_isSome.1 h)
    unfold Chain.dicValue
    rw [shared_logPosterior c p w' hne, h1]
    rfl

/-- One of the chains with the weights of its samples shared out over copies of them. -/
def Spec.SharedRun (c c' : Chain K) : Prop := ∃ (p : List Nat) (w w' : List K), c.weights = .ok w ∧ Shares p w w' ∧
  c.posteriorColumn ≠ c.weightColumn ∧ c' = shared c p w'

/-- **C120** (AIC). Doing so with any of the chains changes neither the result nor the error of `aic()`. -/
theorem C120_aic {cs cs' : List (String × Chain K)} (hcs : ∀ e ∈ cs, Accepted e.2)
    (h : List.Forall₂ (fun e e' => e'.1 = e.1 ∧ SharedRun e.2 e'.2) cs cs') : aic cs' = aic cs := by
  have h' : List.Forall₂ (fun e e' => e'.1 = e.1 ∧ Chain.aicValue e'.2 = Chain.aicValue e.2) cs cs' := by
    refine forall₂_of_left h hcs ?_
    rintro e e' he ⟨h1, p, w, w', hw, hs, hne, h2⟩
    exact ⟨h1, h2 ▸ aicValue_shared he hw hs hne⟩
  simp only [aic, criterionLoop_congr h']

/-- **C120** (DIC, partial). The same for `dic()`, for chains without `shift_params` whose criterion is
unambiguous (all samples nearest to the mean give the same value) and new chains that are accepted. Missing:
chains with several nearest samples of different posteriors, where already the order of the rows matters
(`C102_violated`). -/
theorem C120_dic_partial (tie : List (List K) → List K → Nat) {cs cs' : List (String × Chain K)}
    (hcs : ∀ e ∈ cs, AcceptedNoShift e.2 ∧ ∀ v v', DIC e.2 v → DIC e.2 v' → v = v')
    (h : List.Forall₂ (fun e e' => e'.1 = e.1 ∧ SharedRun e.2 e'.2 ∧ AcceptedNoShift e'.2) cs cs') :
    dic tie cs' = dic tie cs := by
  have h' : List.Forall₂ (fun e e' => e'.1 = e.1 ∧ Chain.dicValue tie e'.2 = Chain.dicValue tie e.2) cs cs' := by
    refine forall₂_of_left h hcs ?_
    rintro e e' he ⟨h1, ⟨p, w, w', hw, hs, hne, h2⟩, h3⟩
    rw [h2] at h3
    exact ⟨h1, h2 ▸ dicValue_shared tie he.1 he.2 hw hs hne h3⟩
  simp only [dic, criterionLoop_congr h']

end

theorem bicValue_shared {c : Chain ℝ} (hc : Accepted c) {p : List Nat} {w w' : List ℝ} (hw : c.weights = .ok w)
    (h : Shares p w w') (hne : c.posteriorColumn ≠ c.weightColumn) : (shared c p w').bicValue = c.bicValue := by
  unfold Chain.bicValue
  have h1 : (shared c p w').numEffDataPoints = c.numEffDataPoints := rfl
  have h2 : (shared c p w').numFreeParams = c.numFreeParams := rfl
  rw [shared_logPosterior c p w' hne, h1, h2]
  cases hq : c.logPosterior with
  | none => rfl
  | some q =>
    cases c.numEffDataPoints with
    | none => rfl
    | some N =>
      cases c.numFreeParams with
      | none => rfl
      | some k =>
        simp only [Option.map_some]
        rw [posterior_max_shared hc hw h hq]

/-- **C120** (BIC). The same for `bic()`. -/
theorem C120_bic {cs cs' : List (String × Chain ℝ)} (hcs : ∀ e ∈ cs, Accepted e.2)
    (h : List.Forall₂ (fun e e' => e'.1 = e.1 ∧ SharedRun e.2 e'.2) cs cs') : bic cs' = bic cs := by
  have h' : List.Forall₂ (fun e e' => e'.1 = e.1 ∧ Chain.bicValue e'.2 = Chain.bicValue e.2) cs cs' := by
    refine forall₂_of_left h hcs ?_
    rintro e e' he ⟨h1, p, w, w', hw, hs, hne, h2⟩
    exact ⟨h1, h2 ▸ bicValue_shared he hw hs hne⟩
  simp only [bic, criterionLoop_congr h']

/-! ## Covariances and correlations -/

section
variable {K : Type} [Field K] [LinearOrder K] [IsStrictOrderedRing K]

theorem dot_mass {a w a' w' : List K} (h : SameMass a w a' w') : dot a' w' = dot a w := by
  unfold dot
  have := h.sums id
  simp only [List.zip, List.map_zipWith] at this
  exact this

theorem sum_mass {α : Type} {a a' : List α} {w w' : List K} (h : SameMass a w a' w') : w'.sum = w.sum := by
  have := h.sums fun _ => 1
  simp only [one_mul] at this
  rwa [List.map_snd_zip (by rw [h.lengths']), List.map_snd_zip (by rw [h.lengths])] at this

theorem product_zip (m m' : K) (a b w : List K) :
    dot (a.map (· - m)) (List.zipWith (· * ·) (b.map (· - m')) w) =
      (((a.zip b).zip w).map fun e => (e.1.1 - m) * (e.1.2 - m') * e.2).sum := by
  unfold dot
  induction a generalizing b w with
  | nil => rfl
  | cons x a ih =>
    cases b with
    | nil => rfl
    | cons y b =>
      cases w with
      | nil => rfl
      | cons v w =>
        simp only [List.map_cons, List.zipWith_cons_cons, List.zip_cons_cons, List.sum_cons, ih, mul_assoc]

/-- A covariance, all finite values multiplied by a number. -/
def Spec.scaleFlt (r : K) : Flt K → Flt K
  | .fin x => .fin (r * x)
  | v => v

/-- The normalisation of a weighted covariance. -/
def Spec.normaliser (w : List K) : K := w.sum - dot w w / w.sum

theorem normaliser_pos {w : List K} (hw : ∀ v ∈ w, 0 < v) (hn : 2 ≤ w.length) : 0 < normaliser w := by
  have hsum : ∀ l : List K, (∀ v ∈ l, 0 < v) → 0 ≤ l.sum := fun l hl => List.sum_nonneg fun v hv => (hl v hv).le
  have key : ∀ l : List K, (∀ v ∈ l, 0 < v) → dot l l ≤ l.sum * l.sum := by
    intro l hl
    induction l with
    | nil => simp [dot]
    | cons a l ih =>
      have h1 := ih fun v hv => hl v (List.mem_cons_of_mem _ hv)
      have h2 := hsum l fun v hv => hl v (List.mem_cons_of_mem _ hv)
      have h3 := hl a List.mem_cons_self
      simp only [dot, List.zipWith_cons_cons, List.sum_cons] at h1 ⊢
      nlinarith [mul_nonneg h3.le h2]
  match w, hw, hn with
  | a :: b :: l, hw, _ =>
    have ha := hw a (by simp)
    have hb := hw b (by simp)
    have h1 := key (b :: l) fun v hv => hw v (List.mem_cons_of_mem _ hv)
    have h2 := hsum l fun v hv => hw v (by simp [hv])
    have hs : 0 < (a :: b :: l).sum := by simp only [List.sum_cons]; linarith
    unfold normaliser
    rw [sub_pos, div_lt_iff₀ hs]
    simp only [dot, List.zipWith_cons_cons, List.sum_cons] at h1 ⊢
    nlinarith [mul_pos ha hb, mul_nonneg ha.le h2]

theorem cov_ratio {F : K} (hF : F ≠ 0) (F' S : K) : S * (1 / F') = F / F' * (S * (1 / F)) := by
  rw [one_div, one_div, div_mul_eq_mul_div, mul_left_comm, mul_inv_cancel₀ hF, mul_one, div_eq_mul_inv]

theorem covEntry_shared {p : List Nat} {w w' : List K} (h : Shares p w w') (h1 : 0 < normaliser w) (h2 : 0 < normaliser w')
    {a b : List K} (ha : a.length = w.length) (hb : b.length = w.length) :
    covEntry w' (p.filterMap (a[·]?)) (p.filterMap (b[·]?)) = scaleFlt (normaliser w / normaliser w') (covEntry w a b) := by
  have : Inhabited K := ⟨0⟩
  have hma := h.mass ha
  have hmb := h.mass hb
  have hab := h.mass (data := a.zip b) (by rw [List.length_zip]; omega)
  rw [← filterMap_zip p a b (by omega)] at hab
  have hS := hab.sums fun e => (e.1 - dot a w / w.sum) * (e.2 - dot b w / w.sum)
  unfold normaliser at h1 h2
  unfold covEntry
  rw [if_neg (not_le.2 h1), if_neg (not_le.2 h2), dot_mass hma, dot_mass hmb, product_zip, product_zip, sum_mass hma, hS]
  rw [sum_mass hma] at h2
  unfold covScale
  rw [if_neg h1.ne', if_neg h2.ne']
  simp only [scaleFlt, normaliser, sum_mass hma]
  congr 1
  exact cov_ratio h1.ne' _ _

/-- A covariance array, all finite values multiplied by a number. -/
def Spec.scaleCov (r : K) : CovArray K → CovArray K
  | .matrix m => .matrix (m.map (List.map (scaleFlt r)))
  | .scalar x => .scalar (scaleFlt r x)

theorem npCov_entries (X : List (List K)) (w : List K) : npCov X w =
    if X = [] then .ok (.matrix []) else if w.any (fun v => decide (v < 0)) then .error .value else
    if w.sum = 0 then .error .zeroDivision else match X with
      | [x] => .ok (.scalar (covEntry w x x))
      | X => .ok (.matrix (X.map fun a => X.map fun b => covEntry w a b)) := by
  unfold npCov
  by_cases hX : X = []
  · rw [if_pos hX, if_pos hX]
  rw [if_neg hX, if_neg hX]
  by_cases hn : w.any (fun v => decide (v < 0)) = true
  · rw [if_pos hn, if_pos hn]
  rw [if_neg hn, if_neg hn]
  by_cases hs : w.sum = 0
  · rw [if_pos hs, if_pos hs]
  rw [if_neg hs, if_neg hs]
  match X, hX with
  | [], hX => exact absurd rfl hX
  | [x], _ => rfl
  | x :: y :: t, _ =>
    simp only [List.map_cons, covEntry, List.map_map, Function.comp_def]

theorem npCov_shared {p : List Nat} {w w' : List K} (h : Shares p w w') (hw : ∀ v ∈ w, 0 < v) (hw' : ∀ v ∈ w', 0 < v)
    (hn : 2 ≤ w.length) {X : List (List K)} (hX : ∀ x ∈ X, x.length = w.length) :
    npCov (X.map fun v => p.filterMap (v[·]?)) w' = (npCov X w).map (scaleCov (normaliser w / normaliser w')) := by
  have : Inhabited K := ⟨0⟩
  have hm := h.mass (data := w) rfl
  have hnn : ∀ l : List K, (∀ v ∈ l, 0 < v) → l.any (fun v => decide (v < 0)) = false := by
    intro l hl
    rw [List.any_eq_false]
    intro v hv
    simpa using (hl v hv).le
  have hlen : 2 ≤ w'.length := by
    rw [h.length]
    have : (List.range w.length).Subperm p :=
      List.subperm_of_subset List.nodup_range fun i hi => h.every i (List.mem_range.1 hi)
    have := this.length_le
    rw [List.length_range] at this
    omega
  have hN := normaliser_pos hw hn
  have hN' := normaliser_pos hw' hlen
  rw [npCov_entries, npCov_entries, hnn w hw, hnn w' hw', sum_mass hm]
  have hs : w.sum ≠ 0 := by
    intro h0
    unfold normaliser at hN
    rw [h0] at hN
    simp at hN
  simp only [Bool.false_eq_true, if_false, if_neg hs, List.map_eq_nil_iff]
  match X, hX with
  | [], _ => rfl
  | [x], hX =>
    simp only [List.map_cons, List.map_nil, Except.map, scaleCov]
    rw [covEntry_shared h hN hN' (hX x (by simp)) (hX x (by simp))]
    rfl
  | x :: y :: t, hX =>
    simp only [List.map_cons, reduceCtorEq, if_false, Except.map, scaleCov]
    have e : ∀ a ∈ x :: y :: t, ∀ b ∈ x :: y :: t, covEntry w' (p.filterMap (a[·]?)) (p.filterMap (b[·]?)) =
        scaleFlt (normaliser w / normaliser w') (covEntry w a b) :=
      fun a ha b hb => covEntry_shared h hN hN' (hX a ha) (hX b hb)
    have hrow : ∀ a ∈ x :: y :: t, ((x :: y :: t).map fun b => covEntry w' (p.filterMap (a[·]?)) (p.filterMap (b[·]?))) =
        ((x :: y :: t).map fun b => covEntry w a b).map (scaleFlt (normaliser w / normaliser w')) := by
      intro a ha
      rw [List.map_map]
      exact List.map_congr_left fun b hb => e a ha b hb
    have := List.map_congr_left (l := x :: y :: t) hrow
    simpa [List.map_map, Function.comp_def] using this

theorem getMany_shared (c : Chain K) (p : List Nat) (w' : List K) {ns : List String} (h : c.weightColumn ∉ ns) :
    (shared c p w').samples.getMany ns = (c.samples.getMany ns).map (List.map fun v => p.filterMap (v[·]?)) := by
  induction ns with
  | nil => rfl
  | cons n ns ih =>
    rw [List.mem_cons, not_or] at h
    simp only [Frame.getMany, shared_get c p w' n (Ne.symm h.1), ih h.2]
    cases c.samples.get n with
    | error e => rfl
    | ok v => cases c.samples.getMany ns <;> rfl

/-- **C120** (covariances). With positive weights and at least two samples, every covariance is multiplied by the
same number, the quotient of `W - ∑ w² / W` before and after. -/
theorem C120_covariance_partial {c : Chain K} (hc : Accepted c) {p : List Nat} {w w' : List K} (hw : c.weights = .ok w)
    (h : Shares p w w') (hpos : ∀ v ∈ w, 0 < v) (hpos' : ∀ v ∈ w', 0 < v) (hn : 2 ≤ w.length)
    (columns : Option (List String)) (hcols : c.weightColumn ∉ columns.getD []) :
    (shared c p w').getCovariance columns = (c.getCovariance columns).map fun m =>
      { m with array := scaleCov (normaliser w / normaliser w') m.array } := by
  obtain ⟨a, hwf, hmk⟩ := hc
  obtain ⟨hWF, -⟩ := make_WF hwf hmk
  have hwl : w.length = c.samples.index.length := hWF.2 _ (get_mem hw)
  have hn' : c.weightColumn ∉ columns.getD c.dataColumns := by
    cases columns with
    | none => exact weight_not_data c
    | some l => exact hcols
  unfold Chain.getCovariance
  simp only [shared_dataColumns, getMany_shared c p w' hn', shared_weights c p w' hw, hw]
  cases hX : c.samples.getMany (columns.getD c.dataColumns) with
  | error e => rfl
  | ok X =>
    change (npCov (X.map _) w' >>= _) = Except.map _ (npCov X w >>= _)
    rw [npCov_shared h hpos hpos' hn fun x hx => (getMany_column_length hWF hX x hx).trans hwl.symm]
    cases npCov X w <;> rfl

end

theorem fltSqrt_scale {r : ℝ} (hr : 0 < r) (x : Flt ℝ) : fltSqrt (scaleFlt r x) = scaleFlt (√r) (fltSqrt x) := by
  cases x with
  | fin x =>
    simp only [scaleFlt, fltSqrt]
    by_cases hx : x < 0
    · rw [if_pos hx, if_pos (mul_neg_of_pos_of_neg hr hx)]
    · rw [if_neg hx, if_neg (not_lt.2 (mul_nonneg hr.le (not_lt.1 hx))), Real.sqrt_mul hr.le]
  | _ => rfl

theorem fltMulNN_scale {s : ℝ} (hs : 0 < s) (x y : Flt ℝ) :
    fltMulNN (scaleFlt s x) (scaleFlt s y) = scaleFlt (s * s) (fltMulNN x y) := by
  cases x <;> cases y <;> simp only [scaleFlt, fltMulNN, mul_eq_zero, hs.ne', false_or]
  · congr 1; ring
  · split_ifs <;> rfl
  · split_ifs <;> rfl

theorem fltDivNN_scale {r : ℝ} (hr : 0 < r) (x y : Flt ℝ) :
    fltDivNN (scaleFlt r x) (scaleFlt r y) = fltDivNN x y := by
  cases x <;> cases y <;>
    simp only [scaleFlt, fltDivNN, mul_eq_zero, hr.ne', false_or, mul_pos_iff_of_pos_left hr,
      mul_neg_iff, hr, not_lt.2 hr.le, true_and, false_and, or_false]
  split_ifs <;> first | rfl | rw [mul_div_mul_left _ _ hr.ne']

theorem diagOf_map {α β : Type} (f : α → β) (m : List (List α)) : diagOf (m.map (List.map f)) = (diagOf m).map f := by
  unfold diagOf
  rw [List.zipIdx_map, List.filterMap_map, List.map_filterMap]
  refine List.filterMap_congr fun e _ => ?_
  simp

/-- **C120** (correlations). So correlations do not change. -/
theorem C120_correlation_partial {c : Chain ℝ} (hc : Accepted c) {p : List Nat} {w w' : List ℝ} (hw : c.weights = .ok w)
    (h : Shares p w w') (hpos : ∀ v ∈ w, 0 < v) (hpos' : ∀ v ∈ w', 0 < v) (hn : 2 ≤ w.length)
    (columns : Option (List String)) (hcols : c.weightColumn ∉ columns.getD []) :
    (shared c p w').getCorrelation columns = c.getCorrelation columns := by
  have hlen : 2 ≤ w'.length := by
    rw [h.length]
    have : (List.range w.length).Subperm p :=
      List.subperm_of_subset List.nodup_range fun i hi => h.every i (List.mem_range.1 hi)
    have := this.length_le
    rw [List.length_range] at this
    omega
  have hr : 0 < normaliser w / normaliser w' := div_pos (normaliser_pos hpos hn) (normaliser_pos hpos' hlen)
  unfold Chain.getCorrelation
  rw [C120_covariance_partial hc hw h hpos hpos' hn columns hcols, bind_map]
  refine bind_congr fun cov _ => ?_
  cases hm : cov.array with
  | scalar x => simp only [scaleCov]
  | matrix m =>
    simp only [scaleCov]
    generalize normaliser w / normaliser w' = r at hr
    have e : ∀ x y, fltMulNN (fltSqrt (scaleFlt r x)) (fltSqrt (scaleFlt r y)) =
        scaleFlt r (fltMulNN (fltSqrt x) (fltSqrt y)) := by
      intro x y
      rw [fltSqrt_scale hr, fltSqrt_scale hr, fltMulNN_scale (Real.sqrt_pos.2 hr), Real.mul_self_sqrt hr.le]
    have e2 : ∀ a b : List (Flt ℝ), List.zipWith fltDivNN (a.map (scaleFlt r)) (b.map (scaleFlt r)) = List.zipWith fltDivNN a b := by
      intro a b
      rw [List.zipWith_map]
      congr 1
      funext x y
      exact fltDivNN_scale hr x y
    have e3 : ((diagOf (m.map (List.map (scaleFlt r)))).map fltSqrt).map (fun di =>
        ((diagOf (m.map (List.map (scaleFlt r)))).map fltSqrt).map fun dj => fltMulNN dj di) =
        (((diagOf m).map fltSqrt).map fun di => ((diagOf m).map fltSqrt).map fun dj => fltMulNN dj di).map
          (List.map (scaleFlt r)) := by
      simp only [diagOf_map, List.map_map, Function.comp_def, e]
    rw [e3, List.zipWith_map]
    have e4 : (fun a b : List (Flt ℝ) => List.zipWith fltDivNN (a.map (scaleFlt r)) (b.map (scaleFlt r))) = List.zipWith fltDivNN :=
      funext fun a => funext fun b => e2 a b
    rw [e4]

/-! ## Violations -/

section
open Matrix

theorem kdeAt_all (near : NearFn) {n p : ℕ} {x : Fin n → Fin p → ℝ} {w : Fin n → ℝ} {tr f : ℝ} {m : ℕ} (hf : f ≠ 0)
    (ht : Trainable x w) (hm : m ≤ n) {t : Fin p → ℝ} (hr : inRadius x w tr f t = Finset.univ) :
    kdeAt near x w tr m f t = .ok (gaussSum x w f t Finset.univ) := by
  obtain ⟨k, hk⟩ := (Kde.make_exists_iff (tr := tr) (m := m)).2 ⟨hf, ht⟩
  obtain ⟨_, _, A, hA, hke⟩ := Kde.make_ok_iff.1 hk
  have em : k.nmin = m := by rw [hke]
  rw [← Kde.kernelSum_eq hk]
  unfold kdeAt
  rw [hk]
  change Kde.at near k t = _
  unfold Kde.at
  dsimp only
  rw [Kde.ball_eq hk t, em, hr, if_pos (by simpa using hm)]

/-- The estimate at 0 or 1 from points at 0 and 1. -/
theorem kdeAt_binary (near : NearFn) {n : ℕ} (hn : 4 ≤ n) (hn' : n < 32) {x : Fin n → Fin 1 → ℝ} {w : Fin n → ℝ}
    (ht : Trainable x w) {C : ℝ} (hC : ellCov x w = Matrix.of fun _ _ => C) (h0 : 0 < C) (h9 : C⁻¹ ≤ 9)
    {t : ℝ} (hd : ∀ i, x i 0 = t ∨ (x i 0 - t) ^ 2 = 1) : kdeAt near x w 3 4 1 (fun _ => t) =
      .ok (∑ i, w i * if x i 0 = t then 1 else Real.exp (-(C⁻¹ / (2 * bandwidth n 1 1 ^ 2)))) := by
  have hmaha : ∀ u v : Fin 1 → ℝ, mahaSq (ellCov x w) u v = C⁻¹ * (u 0 - v 0) ^ 2 := by
    intro u v
    have hinv : (ellCov x w)⁻¹ = Matrix.of fun _ _ => C⁻¹ := by
      refine Matrix.inv_eq_right_inv ?_
      ext i j
      rw [hC, Matrix.mul_apply, Fin.fin_one_eq_zero i, Fin.fin_one_eq_zero j]
      simp [h0.ne']
    unfold mahaSq
    rw [hinv]
    simp [dotProduct, mulVec]
    ring
  have hn0 : (0 : ℝ) < n := by exact_mod_cast (by omega : 0 < n)
  have hb : 1 ≤ bandwidth n 1 1 := by
    unfold bandwidth
    have h1 : ((n : ℝ) ^ (-1 / (4 + ((1 : ℕ) : ℝ)))) ^ 5 = (n : ℝ)⁻¹ := by
      rw [← Real.rpow_natCast, ← Real.rpow_mul hn0.le, ← Real.rpow_neg_one]
      congr 1
      norm_num
    have hp : 0 < (n : ℝ) ^ (-1 / (4 + ((1 : ℕ) : ℝ))) := Real.rpow_pos_of_pos hn0 _
    by_contra hlt
    have h2 : (n : ℝ) ^ (-1 / (4 + ((1 : ℕ) : ℝ))) < 1 / 2 := by linarith
    have h3 : ((n : ℝ) ^ (-1 / (4 + ((1 : ℕ) : ℝ)))) ^ 5 < (1 / 2) ^ 5 := pow_lt_pow_left₀ h2 hp.le (by norm_num)
    rw [h1] at h3
    have h4 : (n : ℝ) < 32 := by exact_mod_cast hn'
    have h5 : (1 / 2 : ℝ) ^ 5 = 32⁻¹ := by norm_num
    rw [h5, inv_lt_inv₀ hn0 (by norm_num)] at h3
    linarith
  have hr : inRadius x w 3 1 (fun _ => t) = Finset.univ := by
    refine Finset.filter_true_of_mem fun i _ => ⟨by linarith, ?_⟩
    rw [hmaha]
    have h1 : (x i 0 - t) ^ 2 ≤ 1 := by
      rcases hd i with h | h
      · rw [h]; norm_num
      · exact h.le
    have h2 : C⁻¹ * (x i 0 - t) ^ 2 ≤ 9 * 1 := mul_le_mul h9 h1 (sq_nonneg _) (by norm_num)
    nlinarith
  rw [kdeAt_all near one_ne_zero ht hn hr]
  unfold gaussSum
  refine congrArg Except.ok (Finset.sum_congr rfl fun i _ => ?_)
  rw [hmaha]
  by_cases h : x i 0 = t
  · simp [h]
  · rw [(hd i).resolve_left h, if_neg h, mul_one]

/-- **C120** (violation, KDE). The estimate from the samples 0, 0, 1, 1 of weights 2, 2, 1, 1 is another one, and
not by a constant factor, when the first sample is given as two samples of weight 1: the kernels become narrower. -/
theorem C120_kde_violated (near : NearFn) : ∃ (data w : List ℝ) (p : List Nat) (w' : List ℝ) (f0 f1 g0 g1 : ℝ),
    (∀ v ∈ w', 0 < v) ∧ Shares p w w' ∧ megKde near data w 1 [0, 1] = .ok [f0, f1] ∧
    megKde near (p.filterMap (data[·]?)) w' 1 [0, 1] = .ok [g0, g1] ∧ f0 / f1 ≠ g0 / g1 := by
  have hs : Shares [0, 0, 1, 2, 3] [(2 : ℝ), 2, 1, 1] [1, 1, 2, 1, 1] := by
    refine ⟨rfl, by simp, ?_, ?_⟩
    · intro i hi
      simp only [List.length_cons, List.length_nil] at hi
      interval_cases i <;> simp
    · intro i hi
      simp only [List.length_cons, List.length_nil] at hi
      interval_cases i <;> norm_num
  have hdata : ([0, 0, 1, 2, 3] : List Nat).filterMap ([(0 : ℝ), 0, 1, 1][·]?) = [0, 0, 0, 1, 1] := by simp
  have hm4 : ellMean (onePoints [(0 : ℝ), 0, 1, 1] (n := 4) rfl) (entries [2, 2, 1, 1] rfl) = fun _ => 1 / 3 := by
    funext j
    simp [ellMean, onePoints, entries, Fin.sum_univ_four]
    norm_num
  have hc4 : ellCov (onePoints [(0 : ℝ), 0, 1, 1] (n := 4) rfl) (entries [2, 2, 1, 1] rfl) = Matrix.of fun _ _ => 4 / 13 := by
    funext j k
    simp only [ellCov, hm4, Matrix.of_apply]
    simp [onePoints, entries, Fin.sum_univ_four]
    norm_num
  have hm5 : ellMean (onePoints [(0 : ℝ), 0, 0, 1, 1] (n := 5) rfl) (entries [1, 1, 2, 1, 1] rfl) = fun _ => 1 / 3 := by
    funext j
    simp [ellMean, onePoints, entries, Fin.sum_univ_five]
    norm_num
  have hc5 : ellCov (onePoints [(0 : ℝ), 0, 0, 1, 1] (n := 5) rfl) (entries [1, 1, 2, 1, 1] rfl) = Matrix.of fun _ _ => 2 / 7 := by
    funext j k
    simp only [ellCov, hm5, Matrix.of_apply]
    simp [onePoints, entries, Fin.sum_univ_five]
    norm_num
  have ht4 : Trainable (onePoints [(0 : ℝ), 0, 1, 1] (n := 4) rfl) (entries [2, 2, 1, 1] rfl) := by
    refine ⟨?_, ?_, ?_, by rw [hc4]; simp⟩
    · simp [entries, Fin.sum_univ_four]; norm_num
    · intro i; fin_cases i <;> norm_num [entries]
    · simp [entries, Fin.sum_univ_four]; norm_num
  have ht5 : Trainable (onePoints [(0 : ℝ), 0, 0, 1, 1] (n := 5) rfl) (entries [1, 1, 2, 1, 1] rfl) := by
    refine ⟨?_, ?_, ?_, by rw [hc5]; simp⟩
    · simp [entries, Fin.sum_univ_five]; norm_num
    · intro i; fin_cases i <;> norm_num [entries]
    · simp [entries, Fin.sum_univ_five]; norm_num
  have k4 : ∀ t : ℝ, (t = 0 ∨ t = 1) → _ := fun t h => kdeAt_binary near (by norm_num) (by norm_num) ht4 hc4 (by norm_num)
    (by norm_num) (t := t) (by intro i; rcases h with rfl | rfl <;> fin_cases i <;> norm_num [onePoints, entries])
  have k5 : ∀ t : ℝ, (t = 0 ∨ t = 1) → _ := fun t h => kdeAt_binary near (by norm_num) (by norm_num) ht5 hc5 (by norm_num)
    (by norm_num) (t := t) (by intro i; rcases h with rfl | rfl <;> fin_cases i <;> norm_num [onePoints, entries])
  have hb4 : 0 < bandwidth 4 1 1 := by unfold bandwidth; positivity
  have hb5 : 0 < bandwidth 5 1 1 := by unfold bandwidth; positivity
  have hlt : bandwidth 5 1 1 < bandwidth 4 1 1 := by
    unfold bandwidth
    have := Real.rpow_lt_rpow_of_neg (x := 4) (y := 5) (z := -1 / (4 + ((1 : ℕ) : ℝ))) (by norm_num) (by norm_num) (by norm_num)
    push_cast at this ⊢
    linarith
  have hexp : Real.exp (-((2 / 7)⁻¹ / (2 * bandwidth 5 1 1 ^ 2))) < Real.exp (-((4 / 13)⁻¹ / (2 * bandwidth 4 1 1 ^ 2))) := by
    refine Real.exp_lt_exp.2 (neg_lt_neg ?_)
    refine div_lt_div₀ (by norm_num) ?_ (by norm_num) (by positivity)
    nlinarith
  have hp5 := Real.exp_pos (-((2 / 7)⁻¹ / (2 * bandwidth 5 1 1 ^ 2)))
  set e4 := Real.exp (-((4 / 13)⁻¹ / (2 * bandwidth 4 1 1 ^ 2))) with he4
  set e5 := Real.exp (-((2 / 7)⁻¹ / (2 * bandwidth 5 1 1 ^ 2))) with he5
  refine ⟨[0, 0, 1, 1], [2, 2, 1, 1], [0, 0, 1, 2, 3], [1, 1, 2, 1, 1], 4 + 2 * e4, 2 + 4 * e4, 4 + 2 * e5, 2 + 4 * e5,
    by simp, hs, ?_, ?_, ?_⟩
  · rw [megKde_mapM near _ _ (n := 4) rfl rfl 1 (by simp)]
    simp only [List.mapM_cons, List.mapM_nil]
    rw [k4 0 (.inl rfl), k4 1 (.inr rfl)]
    refine congrArg Except.ok (congrArg₂ _ ?_ (congrArg₂ _ ?_ rfl))
    · simp only [Fin.sum_univ_four, onePoints, entries]
      norm_num
      ring
    · simp only [Fin.sum_univ_four, onePoints, entries]
      norm_num
      ring
  · rw [hdata, megKde_mapM near _ _ (n := 5) rfl rfl 1 (by simp)]
    simp only [List.mapM_cons, List.mapM_nil]
    rw [k5 0 (.inl rfl), k5 1 (.inr rfl)]
    refine congrArg Except.ok (congrArg₂ _ ?_ (congrArg₂ _ ?_ rfl))
    · simp only [Fin.sum_univ_five, onePoints, entries]
      norm_num
      ring
    · simp only [Fin.sum_univ_five, onePoints, entries]
      norm_num
      ring
  · rw [ne_eq, div_eq_div_iff (by linarith) (by linarith)]
    intro h
    nlinarith

end

/-- Three samples of a parameter with a log posterior and weights. -/
def splitArgs : Args ℚ :=
  { samples := { index := [.int 0, .int 1, .int 2], cols := [(.str "a", [.fin 0, .fin 1, .fin 2]),
      (.str "log_posterior", [.fin (-3), .fin 0, .fin (-1)]), (.str "weight", [.fin 2, .fin 1, .fin 2])] }
    name := "one", numFreeParams := some 1, numEffDataPoints := some (.fin 7) }

/-- The same, the first sample given twice with half its weight. -/
def splitArgs' : Args ℚ :=
  { samples := { index := [.int 0, .int 0, .int 1, .int 2], cols := [(.str "a", [.fin 0, .fin 0, .fin 1, .fin 2]),
      (.str "log_posterior", [.fin (-3), .fin (-3), .fin 0, .fin (-1)]),
      (.str "weight", [.fin 1, .fin 1, .fin 1, .fin 2])] }
    name := "one", numFreeParams := some 1, numEffDataPoints := some (.fin 7) }

theorem split_shares : Shares [0, 0, 1, 2] [(2 : ℚ), 1, 2] [1, 1, 1, 2] := by
  refine ⟨rfl, by simp, ?_, ?_⟩
  · intro i hi
    simp only [List.length_cons, List.length_nil] at hi
    interval_cases i <;> simp
  · intro i hi
    simp only [List.length_cons, List.length_nil] at hi
    interval_cases i <;> norm_num

theorem split_chain : ∃ c : Chain ℚ, Chain.make splitArgs = .ok c ∧
    Chain.make splitArgs' = .ok (shared c [0, 0, 1, 2] [1, 1, 1, 2]) := by
  have h1 : (Chain.make splitArgs).isOk = true := by decide +kernel
  have h2 : (Chain.make splitArgs').isOk = true := by decide +kernel
  cases hc : Chain.make splitArgs with
  | error e => rw [hc] at h1; cases h1
  | ok c =>
    cases hc' : Chain.make splitArgs' with
    | error e => rw [hc'] at h2; cases h2
    | ok c' =>
      refine ⟨c, rfl, congrArg _ ?_⟩
      have hs : (match Chain.make splitArgs, Chain.make splitArgs' with
        | .ok c, .ok c' => decide (c.weightColumn = "weight" ∧ c'.samples = (shared c [0, 0, 1, 2] [1, 1, 1, 2]).samples)
        | _, _ => false) = true := by decide +kernel
      rw [hc, hc'] at hs
      obtain ⟨-, hs⟩ := of_decide_eq_true hs
      obtain ⟨col, raw, f0, f, h1, -, -, -, -, -, -, -, -, -, rfl⟩ := Chain.make_ok_iff.1 hc
      obtain ⟨col', raw', f0', f', h1', -, -, -, -, -, -, -, -, -, rfl⟩ := Chain.make_ok_iff.1 hc'
      have hcol : col' = col := Except.ok.inj (h1'.symm.trans h1)
      subst hcol
      simp only at hs
      subst hs
      rfl

/-- **C120**, negation. The covariances are not preserved: they depend on how many samples the weight is
shared between. Samples 0, 1, 2 of weights 2, 1, 2 have variance 5/4; with the first of them given as two
samples of weight 1 it is 10/9. Both chains are accepted. -/
theorem C120_violated : ∃ (c : Chain ℚ) (p : List Nat) (w w' : List ℚ), AcceptedNoShift c ∧
    AcceptedNoShift (shared c p w') ∧ c.weights = .ok w ∧ Shares p w w' ∧
    c.getCovariance none = .ok ⟨["a"], .scalar (.fin (5 / 4))⟩ ∧
    (shared c p w').getCovariance none = .ok ⟨["a"], .scalar (.fin (10 / 9))⟩ := by
  obtain ⟨c, hc, hc'⟩ := split_chain
  refine ⟨c, _, [2, 1, 2], _, ⟨_, ⟨by decide, by simp [splitArgs]⟩, by decide +kernel, hc⟩,
    ⟨_, ⟨by decide, by simp [splitArgs']⟩, by decide +kernel, hc'⟩, ?_, split_shares, ?_, ?_⟩
  · have h : (match Chain.make splitArgs with
      | .ok c => (match c.weights with
        | .ok w => decide (w = [2, 1, 2])
        | .error _ => false)
      | .error _ => false) = true := by decide +kernel
    rw [hc] at h
    cases hw : c.weights with
    | error e => simp only [hw] at h; cases h
    | ok w => simp only [hw] at h; rw [of_decide_eq_true h]
  · have h : (match Chain.make splitArgs with
      | .ok c => (match c.getCovariance none with
        | .ok m => decide (m.columns = ["a"] ∧ m.array = .scalar (.fin (5 / 4)))
        | .error _ => false)
      | .error _ => false) = true := by decide +kernel
    rw [hc] at h
    cases hm : c.getCovariance none with
    | error e => simp only [hm] at h; cases h
    | ok m =>
      simp only [hm] at h
      obtain ⟨h1, h2⟩ := of_decide_eq_true h
      rw [← h1, ← h2]
  · have h : (match Chain.make splitArgs' with
      | .ok c => (match c.getCovariance none with
        | .ok m => decide (m.columns = ["a"] ∧ m.array = .scalar (.fin (10 / 9)))
        | .error _ => false)
      | .error _ => false) = true := by decide +kernel
    rw [hc'] at h
    cases hm : (shared c [0, 0, 1, 2] [1, 1, 1, 2]).getCovariance none with
    | error e => simp only [hm] at h; cases h
    | ok m =>
      simp only [hm] at h
      obtain ⟨h1, h2⟩ := of_decide_eq_true h
      rw [← h1, ← h2]

/-- The chain above meets the hypotheses of the theorems about the criteria and about covariances. -/
example : ∃ c : Chain ℚ, Accepted c ∧ AcceptedNoShift c ∧ AcceptedNoShift (shared c [0, 0, 1, 2] [1, 1, 1, 2]) ∧
    SharedRun c (shared c [0, 0, 1, 2] [1, 1, 1, 2]) ∧ (∀ v v', DIC c v → DIC c v' → v = v') ∧
    c.weights = .ok [2, 1, 2] ∧ (∀ v ∈ [(2 : ℚ), 1, 2], 0 < v) ∧ (∀ v ∈ [(1 : ℚ), 1, 1, 2], 0 < v) ∧
    2 ≤ [(2 : ℚ), 1, 2].length ∧ c.weightColumn ∉ (none : Option (List String)).getD [] := by
  obtain ⟨c, hc, hc'⟩ := split_chain
  have h : (match Chain.make splitArgs with
      | .ok c => decide (c.samples.cols = [("a", [0, 1, 2]), ("log_posterior", [-3, 0, -1]), ("weight", [2, 1, 2])] ∧
          c.dataColumns = ["a"] ∧ c.posteriorColumn = "log_posterior" ∧ c.weightColumn = "weight")
      | .error _ => false) = true := by decide +kernel
  rw [hc] at h
  obtain ⟨h1, h2, h4, h5⟩ := of_decide_eq_true h
  have hacc : AcceptedNoShift c := ⟨_, ⟨by decide, by simp [splitArgs]⟩, by decide +kernel, hc⟩
  have hw : c.weights = .ok [2, 1, 2] := by
    unfold Chain.weights Frame.get
    rw [h1, h5]
    rfl
  refine ⟨c, AcceptedNoShift.accepted hacc, hacc, ⟨_, ⟨by decide, by simp [splitArgs']⟩, by decide +kernel, hc'⟩,
    ⟨_, _, _, hw, split_shares, by rw [h4, h5]; decide, rfl⟩, ?_, hw, by simp, by simp, by simp, by simp⟩
  have key : ∀ v, DIC c v → v = 32 / 5 := by
    rintro v ⟨n, w, q, x, i, hw, hq, hx, hmin, hv⟩
    rw [h1, h5] at hw
    rw [h1, h4] at hq
    have hw' : List.ofFn w = [2, 1, 2] := by simpa using hw
    have hq' : List.ofFn q = [-3, 0, -1] := by simpa using hq
    have hn : n = 3 := by simpa using congrArg List.length hw'
    subst hn
    have hl : 0 < c.dataColumns.length := by rw [h2]; decide
    have hx' : List.ofFn (x ⟨0, hl⟩) = [0, 1, 2] := by
      have := hx ⟨0, hl⟩
      rw [h1] at this
      have hn : c.dataColumns[(⟨0, hl⟩ : Fin c.dataColumns.length)] = "a" := by simp [h2]
      rw [hn] at this
      simpa using this
    have hone : ∀ f : Fin c.dataColumns.length → ℚ, ∑ j, f j = f ⟨0, hl⟩ := by
      intro f
      refine Fintype.sum_eq_single _ fun j hj => absurd ?_ hj
      have := j.2
      simp only [h2, List.length_singleton] at this
      exact Fin.ext (by simp; omega)
    simp only [List.ofFn_succ, List.ofFn_zero, List.cons.injEq] at hw' hq' hx'
    have hmin1 := hmin 1
    simp only [hone, wmean, Fin.sum_univ_three] at hmin1 hv
    obtain ⟨w0, w1, w2, -⟩ := hw'
    obtain ⟨q0, q1, q2, -⟩ := hq'
    obtain ⟨x0, x1, x2, -⟩ := hx'
    have w0' : w 0 = 2 := w0
    have w1' : w 1 = 1 := w1
    have w2' : w 2 = 2 := w2
    have q0' : q 0 = -3 := q0
    have q1' : q 1 = 0 := q1
    have q2' : q 2 = -1 := q2
    have x0' : x ⟨0, hl⟩ 0 = 0 := x0
    have x1' : x ⟨0, hl⟩ 1 = 1 := x1
    have x2' : x ⟨0, hl⟩ 2 = 2 := x2
    rw [w0', w1', w2', x0', x1', x2'] at hmin1
    rw [w0', w1', w2', q0', q1', q2'] at hv
    fin_cases i
    · exfalso; norm_num [x0'] at hmin1
    · norm_num [q1'] at hv; exact hv
    · exfalso
      change (x ⟨0, hl⟩ 2 - _) ^ 2 ≤ _ at hmin1
      norm_num [x2'] at hmin1
  intro v v' hv hv'
  rw [key v hv, key v' hv']

/-- The summary of a chain with a marginal, its first sample of weight 3 given as two of weights 1 and 2. -/
example (kde : KdeFn) (hk : KdeOk kde) (s : Stat) : ∃ (c : Chain ℝ) (m : Marginal ℝ), Accepted c ∧
    c.cfg .kde = (0 : ℝ) ∧ c.weights = .ok [3, 1] ∧ Shares [0, 1, 0] [(3 : ℝ), 1] [1, 1, 2] ∧ FewRows c [0, 1, 0] ∧
    "x" ≠ c.weightColumn ∧ smoothedHistogram kde c "x" false none = .ok m ∧
    summaryEntry kde (shared c [0, 1, 0] [1, 1, 2]) "x" = summaryEntry kde c "x" := by
  obtain ⟨c, m, hc, hst, har, -, hsm, hw, -, hm, -⟩ := skew_chain kde hk s
  have hwf : (skewArgs s).samples.WF := by
    refine ⟨by simp [skewArgs, Frame.toRaw, skewFrame], ?_⟩
    simp [skewArgs, Frame.toRaw, skewFrame]
  have hk0 := (C07_accepted_chain_guarantees (skewArgs s) c hwf rfl hc).2.2.2.2.2.2.2.2 .kde (by simp) (by simp)
  have hs : Shares [0, 1, 0] [(3 : ℝ), 1] [1, 1, 2] := by
    refine ⟨rfl, by simp, ?_, ?_⟩
    · intro i hi
      simp only [List.length_cons, List.length_nil] at hi
      interval_cases i <;> simp
    · intro i hi
      simp only [List.length_cons, List.length_nil] at hi
      interval_cases i <;> norm_num
  have hf : FewRows c [0, 1, 0] := by
    refine .inr (.inr ?_)
    rw [hsm]
    simp [skewFrame]
  have hx : "x" ≠ c.weightColumn := by
    obtain ⟨col, raw, f0, f, h1, -, -, -, -, -, -, -, -, -, rfl⟩ := Chain.make_ok_iff.1 hc
    simp [skewArgs]
  have ha : Accepted c := ⟨_, hwf, hc⟩
  exact ⟨c, m, ha, hk0, hw, hs, hf, hx, hm false, C120_summary kde c ha hk0 hw hs hf "x" hx⟩

/-- Contours which are drawn, of four points the last of which may be given twice. -/
example : ∃ (lib : Lib) (c : Chain ℝ) (call : Call), Accepted c ∧ c.cfg .kde = (0 : ℝ) ∧
    c.weights = .ok [1, 1, 1, 1] ∧ Shares [0, 1, 2, 3, 3] [(1 : ℝ), 1, 1, 1] [1, 1, 1, 1 / 4, 3 / 4] ∧
    FewRows c [0, 1, 2, 3, 3] ∧ "x" ≠ c.weightColumn ∧ "y" ≠ c.weightColumn ∧
    plotContour lib {} (shared c [0, 1, 2, 3, 3] [1, 1, 1, 1 / 4, 3 / 4]) "x" "y" = .ok call := by
  obtain ⟨near, hn⟩ := nearOk_exists
  obtain ⟨argsort, ha, -⟩ := scaleFree_exists
  obtain ⟨c, hc, hacc, hwc, hp, hk, hsig, hal, hgr, hco, hwf, hwt, hname, hr, hcs⟩ :=
    step_chain { near := near, argsort := argsort, filled := [] }
  obtain ⟨call, hcall⟩ := C88_drawn_partial (lib := { near := near, argsort := argsort, filled := [] }) (cfg := {}) hn ha hwf hwt
    (by simp) hr (by simp [midpoints_length]) (by simp [midpoints_length]) (by rw [hsig]; simp) (by rw [hsig]; norm_num)
    (by rw [hsig]; simp) (.inr ⟨by rw [hsig]; simp, 1 / 2, by norm_num, hal⟩) (by rw [hco]; simp) (by rw [hgr]; norm_num)
    (by rw [hgr]; norm_num)
  have hs : Shares [0, 1, 2, 3, 3] [(1 : ℝ), 1, 1, 1] [1, 1, 1, 1 / 4, 3 / 4] := by
    refine ⟨rfl, by simp, ?_, ?_⟩
    · intro i hi
      simp only [List.length_cons, List.length_nil] at hi
      interval_cases i <;> simp
    · intro i hi
      simp only [List.length_cons, List.length_nil] at hi
      interval_cases i <;> norm_num
  have hf : FewRows c [0, 1, 2, 3, 3] := by
    refine .inr (.inr ?_)
    rw [hcs]
    simp [stepFrame]
  have hx : "x" ≠ c.weightColumn := by rw [hwc]; decide
  have hy : "y" ≠ c.weightColumn := by rw [hwc]; decide
  exact ⟨_, c, call, (AcceptedNoShift.accepted hacc), hk, hwt, hs, hf, hx, hy,
    (C120_contours _ {} c (AcceptedNoShift.accepted hacc) hk hwt hs hf "x" "y" hx hy).trans hcall⟩

/-- A chain over the reals with two columns, to which the theorem about correlations applies. -/
example : ∃ c : Chain ℝ, Accepted c ∧ c.weights = .ok [1, 2] ∧ Shares [1, 0, 1] [(1 : ℝ), 2] [1 / 2, 1, 3 / 2] ∧
    (∀ v ∈ [(1 : ℝ), 2], 0 < v) ∧ (∀ v ∈ [(1 / 2 : ℝ), 1, 3 / 2], 0 < v) ∧
    c.weightColumn ∉ (none : Option (List String)).getD [] ∧ c.dataColumns = ["a", "b"] := by
  let f : Frame ℝ := { index := [.int 0, .int 1],
                       cols := [("a", [1, 2]), ("b", [3, 5]), ("weight", [1, 2])] }
  have hf : f.WF := ⟨by simp [f], by simp [f]⟩
  obtain ⟨c, hc, hcs, hw, -⟩ := plain_chain f hf (by simp [f]) (w := [1, 2]) rfl (by simp) "demo"
  obtain ⟨col, raw, f0, f1, h1, -, -, -, -, -, -, -, -, -, hcc⟩ := Chain.make_ok_iff.1 hc
  refine ⟨c, ⟨_, toRaw_WF.2 hf, hc⟩, ?_, ?_, by simp, by norm_num, by simp, ?_⟩
  · unfold Chain.weights
    rw [hcs, hw]
    rfl
  · refine ⟨rfl, by simp, ?_, ?_⟩
    · intro i hi
      simp only [List.length_cons, List.length_nil] at hi
      interval_cases i <;> simp
    · intro i hi
      simp only [List.length_cons, List.length_nil] at hi
      interval_cases i <;> norm_num
  · unfold Chain.dataColumns
    rw [hcs, hcc]
    simp [f, Frame.columns]
    try decide

end CC
