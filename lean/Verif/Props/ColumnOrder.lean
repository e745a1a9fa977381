import Verif.Props.Columns
import Verif.Props.Emcee
import Verif.Props.RowCriteria
import Verif.Props.MegKde
import Verif.Model.Histogram2d

/-! # C132: the order of the columns of a table carries no meaning

The columns of a table may be given in any order: the same chains are accepted, and everything reported is the same up to the order in
which parameters are listed. Chains made with `shift_params` are the exception. -/

set_option linter.unusedSectionVars false

namespace CC
open Spec

/-- The same table with its columns in another order. -/
structure Spec.SameTable {K : Type} (f g : RawFrame K) : Prop where
  index : g.index = f.index
  cols : g.cols.Perm f.cols

/-- The same chain with the columns of its table in another order. -/
structure Spec.ColumnsMoved {K : Type} (c d : Chain K) : Prop where
  rest : d = { c with samples := d.samples }
  index : d.samples.index = c.samples.index
  cols : d.samples.cols.Perm c.samples.cols
  names : c.samples.columns.Nodup

section
variable {α β : Type} [DecidableEq α]

theorem lookup_of_perm {l l' : List (α × β)} (hn : (l.map Prod.fst).Nodup) (h : l'.Perm l) (k : α) : l'.lookup k = l.lookup k := by
  have hn' : (l'.map Prod.fst).Nodup := (h.map Prod.fst).nodup_iff.2 hn
  cases hl : l.lookup k with
  | some v => exact lookup_eq_some_of_mem hn' (h.mem_iff.2 (lookup_mem hl))
  | none =>
    cases hl' : l'.lookup k with
    | none => rfl
    | some v =>
      have := lookup_eq_some_of_mem hn (h.mem_iff.1 (lookup_mem hl'))
      rw [hl] at this
      cases this

end

section
variable {K : Type}

section
variable {c d : Chain K} (h : ColumnsMoved c d)
include h

theorem moved_get (p : String) : d.samples.get p = c.samples.get p := by
  simp only [Frame.get, lookup_of_perm h.names h.cols]

theorem moved_getMany (ps : List String) : d.samples.getMany ps = c.samples.getMany ps := getMany_congr fun p _ => moved_get h p

theorem moved_weights : d.weights = c.weights := by
  have hw : d.weightColumn = c.weightColumn := by rw [h.rest]
  simp only [Chain.weights, hw, moved_get h]

theorem moved_logPosterior : d.logPosterior = c.logPosterior := by
  have hp : d.posteriorColumn = c.posteriorColumn := by rw [h.rest]
  simp only [Chain.logPosterior, hp, lookup_of_perm h.names h.cols]

theorem moved_cfg : d.cfg = c.cfg := by rw [h.rest]

theorem moved_columns : d.samples.columns.Perm c.samples.columns := h.cols.map _

theorem moved_dataColumns : d.dataColumns.Perm c.dataColumns := by
  have h1 : d.weightColumn = c.weightColumn := by rw [h.rest]
  have h2 : d.posteriorColumn = c.posteriorColumn := by rw [h.rest]
  simp only [Chain.dataColumns, h1, h2]
  exact (moved_columns h).filter _

theorem moved_plottingColumns : d.plottingColumns.Perm c.plottingColumns := by
  simp only [Chain.plottingColumns, moved_cfg h]
  split
  · exact moved_dataColumns h
  · exact (moved_dataColumns h).filter _

theorem moved_symm : ColumnsMoved d c := by
  refine ⟨?_, h.index.symm, h.cols.symm, (moved_columns h).nodup_iff.2 h.names⟩
  rw [h.rest]

theorem dataColumns_nodup : c.dataColumns.Nodup := h.names.filter _

/-- The table of the parameters, in another order. -/
theorem moved_data : ∃ X X', c.samples.getMany c.dataColumns = .ok X ∧ d.samples.getMany d.dataColumns = .ok X' ∧ X'.Perm X := by
  have key : ∀ (f : Frame K) (l : List String), f.getMany l = l.mapM f.get := by
    intro f l
    induction l with
    | nil => rfl
    | cons p ps ih => rw [Frame.getMany, ih, List.mapM_cons]
  have hex : ∀ l : List String, (∀ p ∈ l, p ∈ c.samples.columns) → ∃ X, List.Forall₂ (fun p x => c.samples.get p = .ok x) l X := by
    intro l hl
    induction l with
    | nil => exact ⟨[], .nil⟩
    | cons p ps ih =>
      obtain ⟨X, hX⟩ := ih fun q hq => hl q (List.mem_cons_of_mem _ hq)
      obtain ⟨x, hx⟩ := mem_columns_iff_get.1 (hl p (by simp))
      exact ⟨x :: X, .cons hx hX⟩
  obtain ⟨X, hX⟩ := hex c.dataColumns fun p hp => (List.mem_filter.1 hp).1
  obtain ⟨X', h1, h2⟩ := List.perm_comp_forall₂ (moved_dataColumns h) hX
  refine ⟨X, X', by rw [key, mapM_ok_iff]; exact hX, ?_, h2⟩
  rw [moved_getMany h, key, mapM_ok_iff]
  exact h1

end

/-! ## Construction -/

section
variable [Field K] [LinearOrder K]

/-- **C132, partial** (construction). Without `shift_params` a table with its columns in another order makes the same chain with its
columns in another order. (So one of them is rejected if and only if the other is.) -/
theorem C132_construction_partial {a b : Args K} {c : Chain K} (hwf : a.samples.WF) (hab : b = { a with samples := b.samples })
    (hs : SameTable a.samples b.samples) (hshift : setting a .shiftParams = false) (hc : Chain.make a = .ok c) :
    ∃ d, Chain.make b = .ok d ∧ ColumnsMoved c d := by
  have hcfg : b.config = a.config := by rw [hab]
  have hwc : b.weightColumn = a.weightColumn := by rw [hab]
  have hpc : b.posteriorColumn = a.posteriorColumn := by rw [hab]
  have hnm : b.name = a.name := by rw [hab]
  have hwk : b.walkers = a.walkers := by rw [hab]
  have hgr : b.grid = a.grid := by rw [hab]
  have hnf : b.numFreeParams = a.numFreeParams := by rw [hab]
  have hne : b.numEffDataPoints = a.numEffDataPoints := by rw [hab]
  have hpw : b.power = a.power := by rw [hab]
  have hsl : b.showLabelInLegend = a.showLabelInLegend := by rw [hab]
  have hhr : b.histogramRelativeHeight = a.histogramRelativeHeight := by rw [hab]
  have hk : b.constraintsOk = a.constraintsOk := by
    simp only [Args.constraintsOk, hwk, hnf, hne, hhr]
  obtain ⟨col, raw, f0, f, h1, h2, h3, h4, h5, h6, h7, h8, h9, h10, rfl⟩ := Chain.make_ok_iff.1 hc
  have hsh : (((Cfg.default K).apply a.config).set ⟨.color, col⟩) .shiftParams = false := by
    rw [set_color_ne (by simp)]
    exact hshift
  rw [hsh, shiftIf, if_neg (by simp)] at h6
  cases h6
  obtain ⟨raw', h4', hr⟩ : ∃ raw', addWeights b.samples b.weightColumn = .ok raw' ∧ raw'.index = raw.index ∧ raw'.cols.Perm raw.cols := by
    have hl := lookup_of_perm hwf.1 hs.cols (.str a.weightColumn)
    rw [hwc]
    simp only [addWeights, hl] at h4 ⊢
    cases hx : a.samples.cols.lookup (.str a.weightColumn) with
    | none =>
      rw [hx] at h4
      dsimp only at h4 ⊢
      split at h4
      · rename_i hw
        cases h4
        refine ⟨⟨b.samples.index, b.samples.cols ++ [(.str a.weightColumn, List.replicate b.samples.index.length (.fin 1))]⟩,
          by rw [if_pos hw], hs.index, ?_⟩
        dsimp only
        rw [hs.index]
        exact hs.cols.append_right _
      · cases h4
    | some w =>
      rw [hx] at h4
      dsimp only at h4 ⊢
      split at h4
      · rename_i hw
        cases h4
        exact ⟨_, by rw [if_pos hw], hs.index, hs.cols⟩
      · cases h4
  obtain ⟨g, h5', hg1, hg2⟩ : ∃ g, checkColumns raw' = .ok g ∧ g.index = f0.index ∧ g.cols.Perm f0.cols := by
    simp only [checkColumns, bind_ok_iff, pure_ok_iff, mapM_ok_iff] at h5 ⊢
    obtain ⟨cols, hF, rfl⟩ := h5
    obtain ⟨cols', h1, h2⟩ := List.perm_comp_forall₂ hr.2 hF
    exact ⟨_, ⟨cols', h1, rfl⟩, hr.1, h2⟩
  have hWF : f0.columns.Nodup := by
    have h4w := addWeights_WF hwf h4
    have hraw := checkColumns_ok_iff.1 h5
    subst hraw
    exact (toRaw_WF.1 h4w.1).1
  refine ⟨_, Chain.make_ok_iff.2 ⟨col, raw', g, g, by rw [hcfg]; exact h1, by rw [hcfg, hk]; exact h2, ?_, h4', h5', ?_, ?_, ?_, ?_, ?_, rfl⟩, ?_⟩
  · have he : b.samples.cols.isEmpty = a.samples.cols.isEmpty := by
      rw [Bool.eq_iff_iff, List.isEmpty_iff_length_eq_zero, List.isEmpty_iff_length_eq_zero, hs.cols.length_eq]
    simp only [RawFrame.empty, hs.index, he]
    exact h3
  · rw [hcfg, hsh, shiftIf, if_neg (by simp)]
  · rw [hg1, hwk]
    exact h7
  · rw [hcfg]
    have : ∀ p, p ∈ g.columns ↔ p ∈ f0.columns := fun p => (hg2.map Prod.fst).mem_iff
    simp only [this]
    exact h8
  · rw [hne]
    exact h9
  · rw [hcfg]
    exact h10
  · refine ⟨?_, hg1, hg2, hWF⟩
    simp only [hcfg, hwc, hpc, hnm, hwk, hgr, hnf, hne, hpw, hsl, hhr]

/-- **C132** (violated, for every such table). With `shift_params`, if all samples have the same weight, a chain is rejected with the
weights in front of the parameters, whatever becomes of it with the weights behind them. -/
theorem C132_violated_weights_first [IsStrictOrderedRing K] {a b : Args K} {v : K} {cols : List (ColLabel × List (Flt K))} (hv : 0 < v)
    (hab : b = { a with samples := b.samples }) (hshift : setting a .shiftParams = true) (hne : cols ≠ [])
    (ha : a.samples.cols = cols ++ [(.str a.weightColumn, List.replicate a.samples.index.length (.fin v))])
    (hb : b.samples = ⟨a.samples.index, (.str a.weightColumn, List.replicate a.samples.index.length (.fin v)) :: cols⟩)
    (hwf : a.samples.WF) : SameTable a.samples b.samples ∧ ¬ ∃ d, Chain.make b = .ok d := by
  have hcfg : b.config = a.config := by rw [hab]
  have hwc : b.weightColumn = a.weightColumn := by rw [hab]
  have hperm : SameTable a.samples b.samples := by
    rw [hb]
    refine ⟨rfl, ?_⟩
    rw [ha]
    exact (List.perm_append_singleton _ _).symm
  refine ⟨hperm, ?_⟩
  rintro ⟨d, hd⟩
  have hbwf : b.samples.WF := by
    refine ⟨(hperm.cols.map Prod.fst).nodup_iff.2 hwf.1, fun e he => ?_⟩
    rw [hperm.index]
    exact hwf.2 e (hperm.cols.mem_iff.1 he)
  obtain ⟨col, raw, f0, f, h1, h2, h3, h4, h5, h6, -⟩ := Chain.make_ok_iff.1 hd
  have hsh : (((Cfg.default K).apply b.config).set ⟨.color, col⟩) .shiftParams = true := by
    rw [hcfg, set_color_ne (by simp)]
    exact hshift
  have hraw : raw = b.samples := by
    have hl : b.samples.cols.lookup (.str a.weightColumn) = some (List.replicate a.samples.index.length (.fin v)) := by
      rw [hb]
      simp
    rw [hwc, addWeights, hl] at h4
    dsimp only at h4
    split at h4
    · cases h4
      rfl
    · cases h4
  subst hraw
  have hn : a.samples.index.length ≠ 0 := by
    intro h0
    have : a.samples.index = [] := List.length_eq_zero_iff.1 h0
    simp [RawFrame.empty, hb, this] at h3
  have hf := checkColumns_ok_iff.1 h5
  have hnd : f0.columns.Nodup := by
    rw [hf] at hbwf
    exact (toRaw_WF.1 hbwf).1
  -- the columns of the checked table
  obtain ⟨e0, es, hcols⟩ : ∃ e0 es, f0.cols = e0 :: es := by
    cases h0 : f0.cols with
    | nil =>
      have := congrArg (fun g : RawFrame K => g.cols) hf
      simp [hb, Frame.toRaw, h0] at this
    | cons e0 es => exact ⟨e0, es, rfl⟩
  have hcc := congrArg (fun g : RawFrame K => g.cols) hf
  simp only [hb, Frame.toRaw, hcols, List.map_cons, List.cons.injEq, Prod.mk.injEq, ColLabel.str.injEq] at hcc
  obtain ⟨⟨hw0, hv0⟩, hes⟩ := hcc
  have hv0' : e0.2 = List.replicate a.samples.index.length v := by
    refine map_fin_injective ?_
    rw [← hv0]
    simp
  obtain ⟨e1, es', hes'⟩ : ∃ e1 es', es = e1 :: es' := by
    cases es with
    | nil => simp at hes; exact absurd hes hne
    | cons e1 es' => exact ⟨e1, es', rfl⟩
  subst hes'
  rw [hsh, shiftIf, if_pos rfl, shiftParams, hwc] at h6
  have hcolumns : f0.columns = e0.1 :: e1.1 :: es'.map Prod.fst := by
    simp [Frame.columns, hcols]
  rw [hcolumns, List.foldlM_cons, bind_ok_iff] at h6
  obtain ⟨f1, h61, h62⟩ := h6
  rw [List.foldlM_cons, bind_ok_iff] at h62
  obtain ⟨f2, h63, -⟩ := h62
  have hg0 : f0.get e0.1 = .ok (List.replicate a.samples.index.length v) :=
    get_of_mem hnd (by rw [hcols, ← hv0']; simp)
  simp only [shiftColumn, hw0, bind_ok_iff, pure_ok_iff] at h61 h63
  obtain ⟨w, g1, x, g2, m, g3, rfl⟩ := h61
  rw [hg0] at g1 g2
  cases g1
  cases g2
  have hm : m = v := by
    have hsum : (List.replicate a.samples.index.length v).sum = a.samples.index.length * v := by simp
    have hdot : dot (List.replicate a.samples.index.length v) (List.replicate a.samples.index.length v) = a.samples.index.length * v * v := by
      simp [dot, mul_assoc]
    have hnz : (a.samples.index.length : K) * v ≠ 0 := mul_ne_zero (Nat.cast_ne_zero.2 hn) hv.ne'
    rw [average, hsum, if_neg hnz, hdot] at g3
    cases g3
    field_simp
  obtain ⟨w, g4, x, -, m', g5, -⟩ := h63
  rw [get_set_self _ (by rw [hcolumns]; simp)] at g4
  cases g4
  rw [average, if_pos (by simp [hm])] at g5
  cases g5

end

end

/-! ## Reports -/

theorem chainSummary_perm (kde : KdeFn) {c d : Chain ℝ} (he : ∀ p, summaryEntry kde d p = summaryEntry kde c p)
    (hm : ∀ p, p ∈ d.samples.columns ↔ p ∈ c.samples.columns) {cols cols' : List String} (hn : cols.Nodup) (hp : cols'.Perm cols)
    {r : List (String × Summary ℝ)} (hr : chainSummary kde c cols [] = .ok r) : ∃ r', chainSummary kde d cols' [] = .ok r' ∧ r'.Perm r := by
  obtain ⟨kvs, h1, rfl⟩ := (chainSummary_ok_iff _ _ _ _ _).1 hr
  have hperm : (cols'.filter (· ∈ d.samples.columns)).Perm (cols.filter (· ∈ c.samples.columns)) := by
    have : (fun p => decide (p ∈ d.samples.columns)) = fun p => decide (p ∈ c.samples.columns) := by
      funext p
      rw [decide_eq_decide]
      exact hm p
    rw [this]
    exact hp.filter _
  obtain ⟨kvs', h2, h3⟩ := List.perm_comp_forall₂ hperm h1
  have keys : ∀ {l : List String} {k : List (String × Summary ℝ)},
      List.Forall₂ (fun p kv => kv.1 = p ∧ summaryEntry kde c p = .ok kv.2) l k → k.map Prod.fst = l := by
    intro l k hk
    induction hk with
    | nil => rfl
    | cons hh _ ih => rw [List.map_cons, ih, hh.1]
  have e1 : dictMerge [] kvs = kvs := by
    rw [dictMerge_nodup _ _ (by simpa [keys h1] using hn.filter _)]
    rfl
  have e2 : dictMerge [] kvs' = kvs' := by
    rw [dictMerge_nodup _ _ (by simpa [keys h2] using (hp.nodup_iff.2 hn).filter _)]
    rfl
  refine ⟨dictMerge [] kvs', (chainSummary_ok_iff _ _ _ _ _).2 ⟨kvs', ?_, rfl⟩, by rw [e1, e2]; exact h3⟩
  exact h2.imp fun p kv hh => ⟨hh.1, by rw [he]; exact hh.2⟩

section
variable {c d : Chain ℝ} (h : ColumnsMoved c d)
include h

theorem moved_bins : getBins d = getBins c := by
  have h1 : d.samples.cols.length = c.samples.cols.length := h.cols.length_eq
  have hs : d.smoothValue = c.smoothValue := by rw [h.rest]; rfl
  simp only [getBins, hs, moved_cfg h, h1, h.index]

theorem moved_entry (kde : KdeFn) (p : String) : summaryEntry kde d p = summaryEntry kde c p := by
  have hg : d.grid = c.grid := by rw [h.rest]
  have hp : d.power = c.power := by rw [h.rest]
  have := fun pad u => smoothedHistogram_column kde (moved_cfg h) hg hp (moved_bins h) (moved_weights h) (moved_get h p) pad u
  simp only [summaryEntry, parameterSummary, moved_cfg h, this]

theorem moved_chainSummary (kde : KdeFn) {cols cols' : List String} (hn : cols.Nodup) (hp : cols'.Perm cols) {r : List (String × Summary ℝ)}
    (hr : chainSummary kde c cols [] = .ok r) : ∃ r', chainSummary kde d cols' [] = .ok r' ∧ r'.Perm r :=
  chainSummary_perm kde (moved_entry h kde) (fun _ => (moved_columns h).mem_iff) hn hp hr

end

theorem moved_sanitise {cs ds : List (Chain ℝ)} (h : List.Forall₂ ColumnsMoved cs ds) :
    (sanitiseColumns none ds).Perm (sanitiseColumns none cs) ∧ (sanitiseColumns none cs).Nodup := by
  obtain ⟨h1, -⟩ := C55_columns cs
  obtain ⟨h2, -⟩ := C55_columns ds
  refine ⟨(List.perm_ext_iff_of_nodup h2.nodup h1.nodup).2 fun p => ?_, h1.nodup⟩
  rw [h2.mem, h1.mem]
  clear h1 h2
  induction h with
  | nil => rfl
  | cons hh _ ih => simp only [List.flatMap_cons, List.mem_append, ih, (moved_plottingColumns hh).mem_iff]

theorem dictSet_forall₂ {β : Type} {R : β → β → Prop} {l l' : List (String × β)} {v v' : β} {k : String}
    (h : List.Forall₂ (fun e e' => e'.1 = e.1 ∧ R e.2 e'.2) l l') (hv : R v v') :
    List.Forall₂ (fun e e' => e'.1 = e.1 ∧ R e.2 e'.2) (dictSet l k v) (dictSet l' k v') := by
  have hk : l'.map Prod.fst = l.map Prod.fst := by
    induction h with
    | nil => rfl
    | cons hh _ ih => rw [List.map_cons, List.map_cons, ih, hh.1]
  unfold dictSet
  rw [hk]
  split
  · rw [List.forall₂_map_left_iff, List.forall₂_map_right_iff]
    refine h.imp fun e e' hh => ?_
    rw [hh.1]
    split
    · exact ⟨rfl, hv⟩
    · exact hh
  · exact List.rel_append h (.cons ⟨rfl, hv⟩ .nil)

/-- **C132, partial** (`get_summary`). For given columns the summaries are the same. For all columns the same summaries are reported in
another order. -/
theorem C132_summary_partial (kde : KdeFn) {cs ds : List (Chain ℝ)} (h : List.Forall₂ ColumnsMoved cs ds) (hp hp' : Heap ℝ) (s s' : Consumer ℝ) :
    (∀ l, getSummary kde hp' s' (some ds) (some l) = getSummary kde hp s (some cs) (some l)) ∧
    ∀ r, getSummary kde hp s (some cs) none = .ok r → ∃ r', getSummary kde hp' s' (some ds) none = .ok r' ∧
      List.Forall₂ (fun e e' => e'.1 = e.1 ∧ e'.2.Perm e.2) r r' := by
  constructor
  · intro l
    change summaryLoop kde l ds [] = summaryLoop kde l cs []
    generalize ([] : List (String × List (String × Summary ℝ))) = res
    induction h generalizing res with
    | nil => rfl
    | cons hh _ ih =>
      have hn := congrArg Chain.name hh.rest
      have e := chainSummary_columns kde (cols := l) (fun p _ => moved_entry hh kde p) (fun p _ => (moved_columns hh).mem_iff) []
      simp only [summaryLoop, e, ih]
      rw [hn]
  · intro r hr
    change summaryLoop kde (sanitiseColumns none cs) cs [] = .ok r at hr
    change ∃ r', summaryLoop kde (sanitiseColumns none ds) ds [] = .ok r' ∧ _
    obtain ⟨hperm, hnod⟩ := moved_sanitise h
    revert hr
    generalize sanitiseColumns none cs = cols at hperm hnod
    generalize sanitiseColumns none ds = cols' at hperm
    have key : ∀ res res' : List (String × List (String × Summary ℝ)), List.Forall₂ (fun e e' => e'.1 = e.1 ∧ e'.2.Perm e.2) res res' →
        summaryLoop kde cols cs res = .ok r → ∃ r', summaryLoop kde cols' ds res' = .ok r' ∧
          List.Forall₂ (fun e e' => e'.1 = e.1 ∧ e'.2.Perm e.2) r r' := by
      induction h with
      | nil =>
        intro res res' hR hr
        cases hr
        exact ⟨res', rfl, hR⟩
      | cons hh _ ih =>
        intro res res' hR hr
        simp only [summaryLoop, bind_ok_iff] at hr ⊢
        obtain ⟨x, hx, hr⟩ := hr
        obtain ⟨x', hx', hpx⟩ := moved_chainSummary hh kde hnod hperm hx
        have hn := congrArg Chain.name hh.rest
        obtain ⟨r', h1, h2⟩ := ih _ _ (dictSet_forall₂ (R := fun a b : List (String × Summary ℝ) => b.Perm a) hR hpx) hr
        exact ⟨r', ⟨x', hx', by rw [hn]; exact h1⟩, h2⟩
    exact key [] [] .nil

/-- The covariance of two columns of a chain, as `np.cov` computes it. -/
noncomputable def covOf (w x y : List ℝ) : Flt ℝ :=
  covScale (if w.sum - dot w w / w.sum ≤ 0 then 0 else w.sum - dot w w / w.sum)
    (dot (x.map (· - dot x w / w.sum)) (List.zipWith (· * ·) (y.map (· - dot y w / w.sum)) w))

/-- The entry in row `i` and column `j` of a matrix that may have been squeezed. -/
def Spec.entry (m : CovArray ℝ) (i j : Nat) : Option (Flt ℝ) :=
  match m with
  | .matrix M => M[i]?.bind (·[j]?)
  | .scalar x => if i = 0 ∧ j = 0 then some x else none

theorem cov_entry {c : Chain ℝ} {cols : List String} {m : NamedMatrix ℝ} (hm : c.getCovariance (some cols) = .ok m) :
    m.columns = cols ∧ ∀ (i j : Nat) (p q : String), cols[i]? = some p → cols[j]? = some q → ∃ w x y, c.weights = .ok w ∧ c.samples.get p = .ok x ∧
      c.samples.get q = .ok y ∧ entry m.array i j = some (covOf w x y) := by
  simp only [Chain.getCovariance, Option.getD_some, bind_ok_iff, pure_ok_iff] at hm
  obtain ⟨X, hX, w, hw, A, hA, rfl⟩ := hm
  refine ⟨rfl, ?_⟩
  have hF : ∀ (l : List String) (X : List (List ℝ)), c.samples.getMany l = .ok X → ∀ (i : Nat) (p : String), l[i]? = some p →
      ∃ x, X[i]? = some x ∧ c.samples.get p = .ok x := by
    intro l
    induction l with
    | nil => intro X _ i p hi; simp at hi
    | cons q l ih =>
      intro X hX i p hi
      simp only [Frame.getMany, bind_ok_iff, pure_ok_iff] at hX
      obtain ⟨x, hx, Y, hY, rfl⟩ := hX
      cases i with
      | zero =>
        simp only [List.getElem?_cons_zero, Option.some.injEq] at hi
        exact ⟨x, rfl, by rw [← hi]; exact hx⟩
      | succ i => exact ih Y hY i p hi
  intro i j p q hi hj
  obtain ⟨x, hx, hxg⟩ := hF _ _ hX i p hi
  obtain ⟨y, hy, hyg⟩ := hF _ _ hX j q hj
  refine ⟨w, x, y, hw, hxg, hyg, ?_⟩
  unfold npCov at hA
  split at hA
  · rename_i h0
    rw [h0] at hx
    simp at hx
  · split at hA
    · cases hA
    · split at hA
      · cases hA
      · dsimp only at hA
        split at hA
        · rename_i d hd
          cases hA
          have hl : X.length = 1 := by
            have := congrArg List.length hd
            simpa using this
          obtain ⟨z, rfl⟩ := List.length_eq_one_iff.1 hl
          have hi0 : i = 0 := by
            by_contra h0
            rw [List.getElem?_eq_none (by simp; omega)] at hx
            cases hx
          have hj0 : j = 0 := by
            by_contra h0
            rw [List.getElem?_eq_none (by simp; omega)] at hy
            cases hy
          subst hi0
          subst hj0
          cases hx
          cases hy
          simp only [List.map_cons, List.map_nil, List.cons.injEq, and_true] at hd
          rw [← hd]
          rfl
        · cases hA
          simp only [entry, List.getElem?_map, hx, hy, Option.map_some, Option.bind_some]
          rfl

/-- **C132, partial** (covariance, correlation). For given columns the matrices are the same. For all columns the covariance of two
parameters is the same, in whichever row and column it stands. -/
theorem C132_covariance_partial {c d : Chain ℝ} (h : ColumnsMoved c d) :
    (∀ l, d.getCovariance (some l) = c.getCovariance (some l) ∧ d.getCorrelation (some l) = c.getCorrelation (some l)) ∧
    ∀ m m', c.getCovariance none = .ok m → d.getCovariance none = .ok m' → m'.columns.Perm m.columns ∧
      ∀ (p q : String) (i j i' j' : Nat), m.columns[i]? = some p → m.columns[j]? = some q → m'.columns[i']? = some p → m'.columns[j']? = some q →
        entry m'.array i' j' = entry m.array i j := by
  constructor
  · intro l
    have hcov : d.getCovariance (some l) = c.getCovariance (some l) := by
      simp only [Chain.getCovariance, Option.getD_some, moved_getMany h, moved_weights h]
    exact ⟨hcov, by simp only [Chain.getCorrelation, hcov]⟩
  · intro m m' hm hm'
    obtain ⟨e1, k1⟩ := cov_entry (cols := c.dataColumns) hm
    obtain ⟨e2, k2⟩ := cov_entry (cols := d.dataColumns) hm'
    rw [e1, e2]
    refine ⟨moved_dataColumns h, fun p q i j i' j' hi hj hi' hj' => ?_⟩
    obtain ⟨w, x, y, hw, hx, hy, he⟩ := k1 i j p q hi hj
    obtain ⟨w', x', y', hw', hx', hy', he'⟩ := k2 i' j' p q hi' hj'
    rw [moved_weights h, hw] at hw'
    rw [moved_get h, hx] at hx'
    rw [moved_get h, hy] at hy'
    cases hw'
    cases hx'
    cases hy'
    rw [he, he']

/-- **C132, partial** (diagnostics). The verdicts are the same, given that the test of normality does not depend on the order of the
scores. -/
theorem C132_diagnostics_partial (spec : List ℝ → Flt ℝ) (normaltest : List (Flt ℝ) → Flt ℝ)
    (hsym : ∀ z z' : List (Flt ℝ), z'.Perm z → normaltest z' = normaltest z) (t first last t' : ℝ) {c d : Chain ℝ} (h : ColumnsMoved c d) :
    gelmanOne t d = gelmanOne t c ∧ gewekeOne spec normaltest first last t' d = gewekeOne spec normaltest first last t' c := by
  obtain ⟨X, X', h1, h2, h3⟩ := moved_data h
  have hw : d.walkers = c.walkers := by rw [h.rest]
  refine ⟨?_, ?_⟩
  · simp only [gelmanOne, h1, h2, hw, h.index]
    change (ensure _ _ >>= _) = (ensure _ _ >>= _)
    simp only [all_perm h3]
  · have hz : ((gewekeWindows first last c.walkers c.samples.index.length X').map (gewekeZ spec)).Perm
        ((gewekeWindows first last c.walkers c.samples.index.length X).map (gewekeZ spec)) := by
      refine List.Perm.map _ ?_
      exact List.Perm.flatMap_left _ fun k _ => h3.map _
    simp only [gewekeOne, h1, h2, hw, h.index]
    simp only [bind, Except.bind, hsym _ _ hz]

/-- **C132, partial** (contours). The density over two parameters is the same. -/
theorem C132_density_partial (near : NearFn) {c d : Chain ℝ} (h : ColumnsMoved c d) (px py : String) :
    smoothedHistogram2d near d px py = smoothedHistogram2d near c px py := by
  have hs : d.smoothValue = c.smoothValue := by rw [h.rest]; rfl
  have hg : d.grid = c.grid := by rw [h.rest]
  have hpw : d.power = c.power := by rw [h.rest]
  have h1 : ∀ x y w, bins2d d x y w = bins2d c x y w := by
    intro x y w
    simp only [bins2d, hs, hg, moved_bins h]
  have h2 : ∀ x y w bx b, kde2d near d x y w bx b = kde2d near c x y w bx b := by
    intro x y w bx b
    simp only [kde2d, moved_cfg h, hpw]
  simp only [smoothedHistogram2d, moved_get h, moved_weights h, h1, h2, hs, hpw, moved_cfg h]

/-- **C132, partial** (best point). The best point has the same posterior and the same coordinates, in another order. -/
theorem C132_best_point_partial {c d : Chain ℝ} (h : ColumnsMoved c d) :
    (c.maxPosteriorPoint = .ok none → d.maxPosteriorPoint = .ok none) ∧
    (∀ e, c.maxPosteriorPoint = .error e → d.maxPosteriorPoint = .error e) ∧
    ∀ b, c.maxPosteriorPoint = .ok (some b) → ∃ b', d.maxPosteriorPoint = .ok (some b') ∧ b'.logPosterior = b.logPosterior ∧
      b'.coordinate.Perm b.coordinate := by
  have hpc : d.posteriorColumn = c.posteriorColumn := by rw [h.rest]
  have hpos : ∀ l, d.samples.positions l = c.samples.positions l := by
    intro l
    simp only [Frame.positions, h.index]
  have hrow : ∀ i, (d.samples.row i).Perm (c.samples.row i) := fun i => h.cols.filterMap _
  have hnd : ∀ i, ((c.samples.row i).map Prod.fst).Nodup := by
    intro i
    have : (c.samples.row i).map Prod.fst = (c.samples.cols.filterMap fun e => (e.2[i]?).map fun _ => e.1) := by
      simp only [Frame.row, List.map_filterMap]
      congr 1
      funext e
      cases e.2[i]? <;> rfl
    rw [this]
    have hsub : (c.samples.cols.filterMap fun e => (e.2[i]?).map fun _ => e.1).Sublist c.samples.columns := by
      rw [Frame.columns]
      induction c.samples.cols with
      | nil => exact .slnil
      | cons e es ih =>
        rw [List.filterMap_cons, List.map_cons]
        cases e.2[i]? with
        | none => exact ih.cons _
        | some v => exact ih.cons_cons _
    exact h.names.sublist hsub
  simp only [Chain.maxPosteriorPoint, moved_logPosterior h, hpc, hpos]
  cases c.logPosterior with
  | none =>
    refine ⟨fun _ => rfl, fun e he => (by cases he), fun b hb => (by cases hb)⟩
  | some p =>
    simp only
    cases argmax p with
    | none => exact ⟨fun hh => (by cases hh), fun e he => he, fun b hb => (by cases hb)⟩
    | some a =>
      simp only
      cases c.samples.positions (.int a) with
      | nil => exact ⟨fun hh => (by cases hh), fun e he => he, fun b hb => (by cases hb)⟩
      | cons i is =>
        cases is with
        | cons j js => exact ⟨fun hh => (by cases hh), fun e he => he, fun b hb => (by cases hb)⟩
        | nil =>
          simp only [lookup_of_perm (hnd i) (hrow i)]
          cases (c.samples.row i).lookup c.posteriorColumn with
          | none => exact ⟨fun hh => (by cases hh), fun e he => he, fun b hb => (by cases hb)⟩
          | some lp =>
            refine ⟨fun hh => (by cases hh), fun e he => (by cases he), fun b hb => ?_⟩
            cases hb
            refine ⟨_, rfl, rfl, ?_⟩
            dsimp only
            have : (fun e : String × ℝ => decide (e.1 ∈ d.plottingColumns)) = fun e : String × ℝ => decide (e.1 ∈ c.plottingColumns) := by
              funext e
              rw [decide_eq_decide]
              exact (moved_plottingColumns h).mem_iff
            rw [this]
            exact ((hrow i).filter _).filter _

/-- The values that the DIC may have, however ties among the samples nearest to the mean are broken. -/
theorem DIC_moved {c d : Chain ℝ} (h : ColumnsMoved c d) {v : ℝ} (hv : DIC d v) : DIC c v := by
  obtain ⟨n, w, p, x, i, hw, hp, hx, hmin, rfl⟩ := hv
  have hwc : d.weightColumn = c.weightColumn := by rw [h.rest]
  have hpc : d.posteriorColumn = c.posteriorColumn := by rw [h.rest]
  obtain ⟨e, he⟩ := perm_equiv (moved_dataColumns h)
  refine ⟨n, w, p, fun j => x (e j), i, h.cols.mem_iff.1 (hwc ▸ hw), h.cols.mem_iff.1 (hpc ▸ hp), fun j => ?_, fun i' => ?_, rfl⟩
  · have := hx (e j)
    have hj : c.dataColumns[j] = d.dataColumns[e j] := he j
    rw [hj]
    exact h.cols.mem_iff.1 this
  · have key : ∀ i, ∑ j, (x (e j) i - wmean w (x (e j))) ^ 2 = ∑ j, (x j i - wmean w (x j)) ^ 2 := fun i =>
      Equiv.sum_comp e fun j => (x j i - wmean w (x j)) ^ 2
    rw [key, key]
    exact hmin i'

/-- **C132, partial** (comparisons). AIC and BIC are the same. So are the values the DIC may have, and the DIC itself if it is
unambiguous. -/
theorem C132_criteria_partial (tie : List (List ℝ) → List ℝ → Nat) {cs ds : List (String × Chain ℝ)}
    (h : List.Forall₂ (fun e e' => e'.1 = e.1 ∧ ColumnsMoved e.2 e'.2) cs ds) :
    aic ds = aic cs ∧ bic ds = bic cs ∧ (List.Forall₂ (fun e e' => ∀ v, DIC e'.2 v ↔ DIC e.2 v) cs ds) ∧
    ((∀ e ∈ cs, AcceptedNoShift e.2 ∧ ∀ v v', DIC e.2 v → DIC e.2 v' → v = v') → (∀ e ∈ ds, AcceptedNoShift e.2) → dic tie ds = dic tie cs) := by
  refine ⟨?_, ?_, ?_, ?_⟩
  · simp only [aic]
    rw [criterionLoop_congr (h.imp fun e e' hh => ⟨hh.1, ?_⟩)]
    have h1 : e'.2.numEffDataPoints = e.2.numEffDataPoints := by rw [hh.2.rest]
    have h2 : e'.2.numFreeParams = e.2.numFreeParams := by rw [hh.2.rest]
    simp only [Chain.aicValue, moved_logPosterior hh.2, h1, h2]
  · simp only [bic]
    rw [criterionLoop_congr (h.imp fun e e' hh => ⟨hh.1, ?_⟩)]
    have h1 : e'.2.numEffDataPoints = e.2.numEffDataPoints := by rw [hh.2.rest]
    have h2 : e'.2.numFreeParams = e.2.numFreeParams := by rw [hh.2.rest]
    simp only [Chain.bicValue, moved_logPosterior hh.2, h1, h2]
  · exact h.imp fun e e' hh v => ⟨DIC_moved hh.2, DIC_moved (moved_symm hh.2)⟩
  · intro hcs hds
    have h' : List.Forall₂ (fun e e' => e'.1 = e.1 ∧ Chain.dicValue tie e'.2 = Chain.dicValue tie e.2) cs ds := by
      induction h with
      | nil => exact .nil
      | @cons e e' es es' hh _ ih =>
        refine .cons ⟨hh.1, ?_⟩ (ih (fun x hx => hcs x (List.mem_cons_of_mem _ hx)) fun x hx => hds x (List.mem_cons_of_mem _ hx))
        obtain ⟨ha, hone⟩ := hcs e List.mem_cons_self
        have hd := hds e' List.mem_cons_self
        have hpc : e'.2.posteriorColumn = e.2.posteriorColumn := by rw [hh.2.rest]
        by_cases hm : e.2.posteriorColumn ∈ e.2.samples.columns
        · obtain ⟨v, h1, h2⟩ := dicValue_spec tie ha hm
          obtain ⟨v', h1', h2'⟩ := dicValue_spec tie hd (by rw [hpc]; exact (moved_columns hh.2).mem_iff.2 hm)
          rw [h1, h1', hone v v' h2 (DIC_moved hh.2 h2')]
        · have h1 : e.2.logPosterior = none := by
            rw [← Option.not_isSome_iff_eq_none]
            exact fun h => hm (logPosterior_isSome.1 h)
          simp only [Chain.dicValue, moved_logPosterior hh.2, h1]
    simp only [dic, criterionLoop_congr h']

/-- **C132** (violated). A table is accepted with the weights behind the parameter and rejected with the weights in front of it. -/
theorem C132_violated : ∃ a b : Args ℚ, b = { a with samples := b.samples } ∧ SameTable a.samples b.samples ∧
    (∃ c, Chain.make a = .ok c) ∧ ¬ ∃ d, Chain.make b = .ok d := by
  obtain ⟨-, ⟨c, hc, -⟩, -⟩ := C69_violated
  obtain ⟨h1, h2⟩ := C132_violated_weights_first (a := orderWitness false) (b := orderWitness true) (v := 1)
    (cols := [(.str "a", [.fin 1, .fin 3])]) one_pos rfl rfl (by simp) rfl rfl ⟨by decide, by decide⟩
  exact ⟨_, _, rfl, h1, ⟨c, hc⟩, h2⟩

/-- The hypotheses of the theorems on reports are met by a table of two parameters, weights and a posterior. (That the DIC of a chain may
be unambiguous is shown by the example of `Props/RowCriteria`.) -/
example : ∃ c d : Chain ℝ, ColumnsMoved c d ∧ c.dataColumns = ["a", "b"] ∧ d.dataColumns = ["b", "a"] ∧ AcceptedNoShift c ∧ AcceptedNoShift d ∧
    c.samples.get "a" = .ok [1, 2] ∧ c.weights = .ok [1, 2] ∧ c.logPosterior = some [0, -1] := by
  let f : Frame ℝ := { index := [.int 0, .int 1], cols := [("a", [1, 2]), ("weight", [1, 2]), ("b", [5, 0]), ("log_posterior", [0, -1])] }
  have hf : f.WF := ⟨by simp [f], by simp [f]⟩
  obtain ⟨c, hc, hcs, hw, hp, -⟩ := plain_chain f hf (by simp [f]) (w := [1, 2]) rfl (by simp) "demo"
  let g : Frame ℝ := { index := [.int 0, .int 1], cols := [("log_posterior", [0, -1]), ("b", [5, 0]), ("weight", [1, 2]), ("a", [1, 2])] }
  have hg : g.WF := ⟨by simp [g], by simp [g]⟩
  have hfg : SameTable f.toRaw g.toRaw := ⟨rfl, by
    have : g.cols = f.cols.reverse := by simp [f, g]
    simp only [Frame.toRaw, this]
    exact (List.reverse_perm _).map _⟩
  obtain ⟨d, hd, hm⟩ := C132_construction_partial (b := { samples := g.toRaw, name := "demo" }) (toRaw_WF.2 hf) rfl hfg rfl hc
  obtain ⟨d', hd', hds, hw', hp', -⟩ := plain_chain g hg (by simp [g]) (w := [1, 2]) rfl (by simp) "demo"
  rw [hd] at hd'
  cases hd'
  refine ⟨c, d, hm, ?_, ?_, ⟨_, toRaw_WF.2 hf, rfl, hc⟩, ⟨_, toRaw_WF.2 hg, rfl, hd⟩, ?_, ?_, ?_⟩
  · simp only [Chain.dataColumns, hcs, hw, hp, f, Frame.columns]
    decide +kernel
  · simp only [Chain.dataColumns, hds, hw', hp', g, Frame.columns]
    decide +kernel
  · rw [hcs]; rfl
  · rw [Chain.weights, hw, hcs]; rfl
  · simp only [Chain.logPosterior, hp, hcs]; rfl

end CC
