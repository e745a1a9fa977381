import Verif.Props.SameView
import Verif.Props.ColumnOrder
import Verif.Props.MaxPosterior

/-! # C141: the labels of the rows carry no meaning -/

set_option linter.unusedSectionVars false

namespace CC
open Spec

/-- A chain with other labels for the rows of its table. -/
def Spec.relabelled {K : Type} (idx : List Label) (c : Chain K) : Chain K := { c with samples := { c.samples with index := idx } }

/-- Tables with the same columns of which only the labels of the rows differ. -/
def Spec.SameRows {K : Type} (f g : Frame K) : Prop := g.cols = f.cols ∧ g.index.length = f.index.length

section generic
variable {K : Type} [Field K] [LinearOrder K]

theorem relabel_columns {idx : List Label} (f : Frame K) : ({ f with index := idx } : Frame K).columns = f.columns := rfl

theorem relabel_shift (idx : List Label) (b : Bool) (wc : String) (f : Frame K) :
    shiftIf b wc { f with index := idx } = (shiftIf b wc f).map fun g => { g with index := idx } := by
  have key : ∀ (ps : List String) (f : Frame K), (ps.foldlM (shiftColumn wc) { f with index := idx } : Res _) =
      (ps.foldlM (shiftColumn wc) f : Res _).map fun g => { g with index := idx } := by
    intro ps
    induction ps with
    | nil => intro f; rfl
    | cons p ps ih =>
      intro f
      rw [List.foldlM_cons, List.foldlM_cons]
      have e : shiftColumn wc { f with index := idx } p = (shiftColumn wc f p).map fun g => { g with index := idx } := by
        unfold shiftColumn
        simp only [Res.map_bind]
        rfl
      rw [e]
      cases shiftColumn wc f p with
      | error _ => rfl
      | ok g => exact ih g
  unfold shiftIf
  split
  · exact key _ f
  · rfl

theorem shiftIf_index {b : Bool} {wc : String} {f g : Frame K} (h : shiftIf b wc f = .ok g) : g.index = f.index := by
  have := relabel_shift f.index b wc f
  rw [h] at this
  change Except.ok g = Except.ok (Frame.mk f.index g.cols) at this
  injection this with e
  rw [e]

/-- **C141** (construction). A chain of a table with other row labels is accepted if and only if the chain of the given table is, and is the
same chain with the other labels. -/
theorem C141_construction (a : Args K) (idx : List Label) (hl : idx.length = a.samples.index.length) :
    Chain.make { a with samples := { a.samples with index := idx } } = (Chain.make a).map (relabelled idx) := by
  have he : RawFrame.empty { a.samples with index := idx } = a.samples.empty := by
    simp only [RawFrame.empty]
    congr 1
    rw [Bool.eq_iff_iff, List.isEmpty_iff_length_eq_zero, List.isEmpty_iff_length_eq_zero, hl]
  have hw : addWeights { a.samples with index := idx } a.weightColumn =
      (addWeights a.samples a.weightColumn).map fun f => { f with index := idx } := by
    unfold addWeights
    dsimp only
    cases a.samples.cols.lookup (.str a.weightColumn) with
    | none =>
      dsimp only
      rw [hl]
      split <;> rfl
    | some w =>
      dsimp only
      split <;> rfl
  have hc : ∀ f : RawFrame K, checkColumns { f with index := idx } = (checkColumns f).map fun g => { g with index := idx } := by
    intro f
    unfold checkColumns
    rw [Res.map_bind]
    rfl
  have hk : Args.constraintsOk { a with samples := { a.samples with index := idx } } = a.constraintsOk := rfl
  unfold Chain.make
  simp only [hk, he, hw, hc, relabel_shift, Res.map_bind, Res.bind_map]
  refine congrArg (bind _) (funext fun col => congrArg (bind _) (funext fun _ => congrArg (bind _) (funext fun _ => ?_)))
  cases h1 : addWeights a.samples a.weightColumn with
  | error _ => rfl
  | ok raw =>
    have hr : raw.index = a.samples.index := by
      unfold addWeights at h1
      split at h1
      · split at h1
        · cases h1; rfl
        · cases h1
      · split at h1
        · cases h1; rfl
        · cases h1
    cases h2 : checkColumns raw with
    | error _ => simp only [bind, Except.bind, h2]
    | ok f =>
      have hf : f.index = a.samples.index := by
        simp only [checkColumns, bind_ok_iff, pure_ok_iff] at h2
        obtain ⟨cols, -, rfl⟩ := h2
        exact hr
      simp only [bind, Except.bind, h2]
      cases h3 : shiftIf ((((Cfg.default K).apply a.config).set ⟨.color, col⟩) .shiftParams) a.weightColumn f with
      | error _ => rfl
      | ok g =>
        have hg : g.index.length = idx.length := by rw [shiftIf_index h3, hf, hl]
        simp only [hg, relabel_columns]
        rfl

end generic

/-! ### reports -/

theorem rows_eq {c d : Chain ℝ} (h : Retabled SameRows c d) :
    ∃ idx : List Label, idx.length = c.samples.index.length ∧ d = relabelled idx c := by
  obtain ⟨h1, h2, h3⟩ := h
  refine ⟨d.samples.index, h3, ?_⟩
  have : d.samples = { c.samples with index := d.samples.index } := by
    change d.samples = Frame.mk d.samples.index c.samples.cols
    rw [← h2]
  unfold relabelled
  rw [← this]
  exact h1

theorem relabel_getMany (idx : List Label) (c : Chain ℝ) (ps : List String) :
    (relabelled idx c).samples.getMany ps = c.samples.getMany ps := getMany_congr fun _ _ => rfl

theorem relabel_data (idx : List Label) (c : Chain ℝ) : (relabelled idx c).dataColumns = c.dataColumns := rfl

theorem relabel_walkers (idx : List Label) (c : Chain ℝ) : (relabelled idx c).walkers = c.walkers := rfl

section one
variable {idx : List Label} {c : Chain ℝ} (hl : idx.length = c.samples.index.length)
include hl

theorem relabel_bins : getBins (relabelled idx c) = getBins c := by
  have h1 : (relabelled idx c).samples.index.length = c.samples.index.length := hl
  have h2 : (relabelled idx c).samples.cols = c.samples.cols := rfl
  have h3 : (relabelled idx c).smoothValue = c.smoothValue := rfl
  have h4 : (relabelled idx c).cfg = c.cfg := rfl
  simp only [getBins, h1, h2, h3, h4]

theorem relabel_entry (kde : KdeFn) (p : String) : summaryEntry kde (relabelled idx c) p = summaryEntry kde c p :=
  summaryEntry_same kde c (relabelled idx c) p rfl fun pad =>
    smoothedHistogram_column kde (c := c) (d := relabelled idx c) rfl rfl rfl (relabel_bins hl) rfl rfl pad none

theorem relabel_skip : (relabelled idx c).skip = c.skip := by
  have : idx.isEmpty = c.samples.index.isEmpty := by
    rw [Bool.eq_iff_iff, List.isEmpty_iff_length_eq_zero, List.isEmpty_iff_length_eq_zero, hl]
  simp only [Chain.skip, Frame.empty, relabelled, this]

theorem relabel_dic (tie : List (List ℝ) → List ℝ → Nat) : (relabelled idx c).dicValue tie = c.dicValue tie := by
  have h1 : (relabelled idx c).samples.index.length = c.samples.index.length := hl
  have h2 : (relabelled idx c).logPosterior = c.logPosterior := rfl
  have h3 : (relabelled idx c).weights = c.weights := rfl
  simp only [Chain.dicValue, h1, h2, h3, relabel_getMany, relabel_data]

theorem relabel_gelman (t : ℝ) : gelmanOne t (relabelled idx c) = gelmanOne t c := by
  have : (relabelled idx c).samples.index.length = c.samples.index.length := hl
  simp only [gelmanOne, this, relabel_getMany, relabel_data, relabel_walkers]
  rfl

theorem relabel_geweke (spec : List ℝ → Flt ℝ) (normaltest : List (Flt ℝ) → Flt ℝ) (first last t : ℝ) :
    gewekeOne spec normaltest first last t (relabelled idx c) = gewekeOne spec normaltest first last t c := by
  have : (relabelled idx c).samples.index.length = c.samples.index.length := hl
  simp only [gewekeOne, this, relabel_getMany, relabel_data, relabel_walkers]
  rfl

end one

theorem chainSummary_relabel (kde : KdeFn) {idx : List Label} {c : Chain ℝ} (hl : idx.length = c.samples.index.length) (cols : List String) :
    ∀ res, chainSummary kde (relabelled idx c) cols res = chainSummary kde c cols res := by
  induction cols with
  | nil => intro res; rfl
  | cons p ps ih =>
    intro res
    have : (relabelled idx c).samples.columns = c.samples.columns := rfl
    simp only [chainSummary, this, relabel_entry hl, ih]

theorem summaryLoop_relabel (kde : KdeFn) (cols : List String) {cs ds : List (Chain ℝ)} (h : List.Forall₂ (Retabled SameRows) cs ds) :
    ∀ res, summaryLoop kde cols ds res = summaryLoop kde cols cs res := by
  induction h with
  | nil => intro res; rfl
  | cons h1 _ ih =>
    intro res
    obtain ⟨idx, hl, rfl⟩ := rows_eq h1
    simp only [summaryLoop, chainSummary_relabel kde hl, ih]
    rfl

theorem sanitiseColumns_relabel {cs ds : List (Chain ℝ)} (h : List.Forall₂ (Retabled SameRows) cs ds) (columns : Option (List String)) :
    sanitiseColumns columns ds = sanitiseColumns columns cs := by
  cases columns with
  | some _ => rfl
  | none =>
    unfold sanitiseColumns
    dsimp only
    suffices ∀ res : List String, ds.foldl (fun res c => c.plottingColumns.foldl (fun res col => if col ∈ res then res else res ++ [col]) res) res =
        cs.foldl (fun res c => c.plottingColumns.foldl (fun res col => if col ∈ res then res else res ++ [col]) res) res from this []
    induction h with
    | nil => intro res; rfl
    | cons h1 _ ih =>
      intro res
      obtain ⟨idx, hl, rfl⟩ := rows_eq h1
      exact ih _

theorem names_relabel {cs ds : List (Chain ℝ)} (h : List.Forall₂ (Retabled SameRows) cs ds) : ds.map Chain.name = cs.map Chain.name := by
  induction h with
  | nil => rfl
  | cons h1 _ ih => rw [List.map_cons, List.map_cons, ih, h1.1]

/-- **C141** (summaries and tables). For registered chains that differ only in the labels of the rows, the summary of all chains and every
LaTeX table are the same, and so are the summaries of given chains. -/
theorem C141_summary (kde : KdeFn) {h h' : Heap ℝ} (hh : List.Forall₂ (Retabled SameRows) h h') (s : Consumer ℝ)
    (columns : Option (List String)) (req : ChainReq ℝ) (t : TableOpts) :
    getSummary kde h' s none columns = getSummary kde h s none columns ∧ latexTable kde h' s req t = latexTable kde h s req t ∧
    ∀ {cs ds : List (Chain ℝ)}, List.Forall₂ (Retabled SameRows) cs ds →
      getSummary kde h' s (some ds) columns = getSummary kde h s (some cs) columns := by
  have hgiven : ∀ {cs ds : List (Chain ℝ)}, List.Forall₂ (Retabled SameRows) cs ds → ∀ columns,
      getSummary kde h' s (some ds) columns = getSummary kde h s (some cs) columns := by
    intro cs ds hc columns
    change summaryLoop _ _ _ _ = summaryLoop _ _ _ _
    rw [sanitiseColumns_relabel hc, summaryLoop_relabel kde _ hc]
  have hskip : ∀ {c d : Chain ℝ}, Retabled SameRows c d → d.skip = c.skip := by
    intro c d hcd
    obtain ⟨idx, hl, rfl⟩ := rows_eq hcd
    exact relabel_skip hl
  refine ⟨?_, ?_, fun hc => hgiven hc columns⟩
  · rcases retabled_final hh s with ⟨e, h1, h2⟩ | ⟨d, d', h1, h2, hf⟩
    · simp only [getSummary, h1, h2]
    · rcases rel_plotChains hf hskip .all true with ⟨e, h3, h4⟩ | ⟨cs, ds, h3, h4, hc⟩
      · simp only [getSummary, h1, h2, bind, Except.bind, h3, h4]
      · simp only [getSummary, h1, h2, bind, Except.bind, h3, h4, sanitiseColumns_relabel hc, summaryLoop_relabel kde _ hc]
  · unfold latexTable
    congr 1
    unfold latexTableParts
    rcases retabled_final hh s with ⟨e, h1, h2⟩ | ⟨d, d', h1, h2, hf⟩
    · rw [h1, h2]
      rfl
    · rcases rel_plotChains hf hskip req false with ⟨e, h3, h4⟩ | ⟨cs, ds, h3, h4, hc⟩
      · simp only [h1, h2, bind, Except.bind, h3, h4]
      · simp only [h1, h2, bind, Except.bind, h3, h4, sanitiseColumns_relabel hc, hgiven hc, names_relabel hc]

theorem criterion_relabel {f : Chain ℝ → Res (Option (Flt ℝ))} (hf : ∀ {c d}, Retabled SameRows c d → f d = f c)
    {cs ds : List (String × Chain ℝ)} (h : List.Forall₂ (fun e e' => e'.1 = e.1 ∧ Retabled SameRows e.2 e'.2) cs ds) :
    criterionLoop f ds = criterionLoop f cs := by
  induction h with
  | nil => rfl
  | cons h1 _ ih => simp only [criterionLoop, hf h1.2, ih, h1.1]

theorem run_relabel {f : Chain ℝ → Res Bool} (hf : ∀ {c d}, Retabled SameRows c d → f d = f c) {cs ds : List (Chain ℝ)}
    (h : List.Forall₂ (Retabled SameRows) cs ds) : runDiagnostic f ds = runDiagnostic f cs := by
  have hn : ∀ {c d : Chain ℝ}, Retabled SameRows c d → d.name = c.name := fun h => by rw [h.1]
  have hmap : ∀ {cs ds : List (Chain ℝ)}, List.Forall₂ (Retabled SameRows) cs ds →
      (ds.mapM fun c => (do let b ← f c; return ({ passed := b, results := [(c.name, b)] } : TestResult) : Res TestResult)) =
      (cs.mapM fun c => (do let b ← f c; return ({ passed := b, results := [(c.name, b)] } : TestResult) : Res TestResult)) := by
    intro cs ds h
    induction h with
    | nil => rfl
    | cons h1 _ ih => simp only [List.mapM_cons, ih, hf h1, hn h1]
  cases h with
  | nil => rfl
  | cons h1 hr =>
    cases hr with
    | nil => simp only [runDiagnostic, hf h1, hn h1]
    | cons h2 hr => simp only [runDiagnostic, hmap (.cons h1 (.cons h2 hr))]

/-- The same selection of chains: the same names, and chains that differ only in the labels. -/
inductive Spec.SameSel : ChainSel ℝ → ChainSel ℝ → Prop
  | all : SameSel .all .all
  | one {x y : Chain ℝ ⊕ String} : Sum.LiftRel (Retabled SameRows) Eq x y → SameSel (.one x) (.one y)
  | list {xs ys : List (Chain ℝ ⊕ String)} : List.Forall₂ (Sum.LiftRel (Retabled SameRows) Eq) xs ys → SameSel (.list xs) (.list ys)

theorem sel_relabel {cs ds : List (String × Chain ℝ)} (h : List.Forall₂ (fun e e' => e'.1 = e.1 ∧ Retabled SameRows e.2 e'.2) cs ds)
    {f : Chain ℝ → Res Bool} (hf : ∀ {c d}, Retabled SameRows c d → f d = f c) {sel sel' : ChainSel ℝ} (hs : SameSel sel sel') :
    (do runDiagnostic f (← sanitiseChains ds sel')) = (do runDiagnostic f (← sanitiseChains cs sel)) := by
  have hg : ∀ {x y : Chain ℝ ⊕ String}, Sum.LiftRel (Retabled SameRows) Eq x y →
      (∃ e, resolveChain cs x = .error e ∧ resolveChain ds y = .error e) ∨
      ∃ c d, resolveChain cs x = .ok c ∧ resolveChain ds y = .ok d ∧ Retabled SameRows c d := by
    intro x y hxy
    cases hxy with
    | @inl c d hcd => exact Or.inr ⟨c, d, rfl, rfl, hcd⟩
    | @inr n n' hn =>
      subst hn
      unfold resolveChain
      dsimp only
      induction h with
      | nil => exact Or.inl ⟨_, rfl, rfl⟩
      | @cons e e' l l' h1 _ ih =>
        obtain ⟨k, c⟩ := e
        obtain ⟨k', d⟩ := e'
        obtain ⟨rfl, hv⟩ := h1
        rw [List.lookup_cons, List.lookup_cons]
        cases n == k' with
        | true => exact Or.inr ⟨c, d, rfl, rfl, hv⟩
        | false => exact ih
  cases hs with
  | all =>
    refine run_relabel hf ?_
    rw [List.forall₂_map_left_iff, List.forall₂_map_right_iff]
    exact h.imp fun _ _ h => h.2
  | one hxy =>
    rcases hg hxy with ⟨e, h1, h2⟩ | ⟨c, d, h1, h2, hv⟩
    · simp only [sanitiseChains, h1, h2]
    · simp only [sanitiseChains, h1, h2]
      exact run_relabel hf (.cons hv .nil)
  | @list xs ys hxy =>
    have : (∃ e, xs.mapM (resolveChain cs) = .error e ∧ ys.mapM (resolveChain ds) = .error e) ∨
        ∃ l l', xs.mapM (resolveChain cs) = .ok l ∧ ys.mapM (resolveChain ds) = .ok l' ∧ List.Forall₂ (Retabled SameRows) l l' := by
      induction hxy with
      | nil => exact Or.inr ⟨[], [], rfl, rfl, .nil⟩
      | cons h1 _ ih =>
        simp only [List.mapM_cons]
        rcases hg h1 with ⟨e, h1, h2⟩ | ⟨c, d, h1, h2, hv⟩
        · rw [h1, h2]
          exact Or.inl ⟨e, rfl, rfl⟩
        · rw [h1, h2]
          rcases ih with ⟨e, h3, h4⟩ | ⟨l, l', h3, h4, hvs⟩
          · rw [h3, h4]
            exact Or.inl ⟨e, rfl, rfl⟩
          · rw [h3, h4]
            exact Or.inr ⟨c :: l, d :: l', rfl, rfl, .cons hv hvs⟩
    rcases this with ⟨e, h1, h2⟩ | ⟨l, l', h1, h2, hv⟩
    · simp only [sanitiseChains, h1, h2]
    · simp only [sanitiseChains, h1, h2]
      exact run_relabel hf hv

/-- **C141** (matrices, criteria, diagnostics). Covariances and correlations of a chain, the criteria of all chains and the table that compares
them, and both diagnostics of the same chains, given as such or by name, are the same. -/
theorem C141_reports (tie : List (List ℝ) → List ℝ → Nat) (fmt : Flt ℝ → String) (co : CompOpts) (spec : List ℝ → Flt ℝ)
    (normaltest : List (Flt ℝ) → Flt ℝ) (t first last t' : ℝ) {cs ds : List (String × Chain ℝ)}
    (h : List.Forall₂ (fun e e' => e'.1 = e.1 ∧ Retabled SameRows e.2 e'.2) cs ds) :
    (∀ {c d : Chain ℝ}, Retabled SameRows c d → ∀ cols, d.getCovariance cols = c.getCovariance cols ∧ d.getCorrelation cols = c.getCorrelation cols) ∧
    aic ds = aic cs ∧ bic ds = bic cs ∧ dic tie ds = dic tie cs ∧ comparisonTable tie fmt co ds = comparisonTable tie fmt co cs ∧
    (∀ sel sel', SameSel sel sel' → gelmanRubin ds sel' t = gelmanRubin cs sel t ∧
      geweke spec normaltest ds sel' first last t' = geweke spec normaltest cs sel first last t') := by
  have ha : aic ds = aic cs := by
    unfold aic
    rw [criterion_relabel (fun hcd => ?_) h]
    obtain ⟨idx, hl, rfl⟩ := rows_eq hcd
    rfl
  have hb : bic ds = bic cs := by
    unfold bic
    rw [criterion_relabel (fun hcd => ?_) h]
    obtain ⟨idx, hl, rfl⟩ := rows_eq hcd
    rfl
  have hd : dic tie ds = dic tie cs := by
    unfold dic
    rw [criterion_relabel (fun hcd => ?_) h]
    obtain ⟨idx, hl, rfl⟩ := rows_eq hcd
    exact relabel_dic hl tie
  have hg : ∀ {c d : Chain ℝ}, Retabled SameRows c d → gelmanOne t d = gelmanOne t c := by
    intro c d hcd
    obtain ⟨idx, hl, rfl⟩ := rows_eq hcd
    exact relabel_gelman hl t
  have hw : ∀ {c d : Chain ℝ}, Retabled SameRows c d → gewekeOne spec normaltest first last t' d = gewekeOne spec normaltest first last t' c := by
    intro c d hcd
    obtain ⟨idx, hl, rfl⟩ := rows_eq hcd
    exact relabel_geweke hl _ _ _ _ _
  refine ⟨fun hcd cols => ?_, ha, hb, hd, ?_, fun sel sel' hsel => ⟨sel_relabel h hg hsel, sel_relabel h hw hsel⟩⟩
  · obtain ⟨idx, hl, rfl⟩ := rows_eq hcd
    have e : ∀ c : Chain ℝ, (relabelled idx c).getCovariance cols = c.getCovariance cols := fun c => by
      have hw : (relabelled idx c).weights = c.weights := rfl
      simp only [Chain.getCovariance, relabel_data, relabel_getMany, hw]
    refine ⟨e _, ?_⟩
    unfold Chain.getCorrelation
    rw [e]
  · simp only [comparisonTable, compParts, ha, hb, hd]

/-! ### figures -/

/-- **C141, partial** (figures). All figures and the legend are the same, if the best point of no drawn chain is needed: each has contours or
a cloud and no plotted point, or has no posterior. -/
theorem C141_figures_partial (lib : Lib) (cfg : PlotConfig) (lc : LegendConfig) (truths : List (Truth ℝ)) {h h' : Heap ℝ}
    (hh : List.Forall₂ (Retabled SameRows) h h') (s : Consumer ℝ) (req : ChainReq ℝ) (columns : Option (List String))
    (plotWeights plotPosterior logWeight errorbar : Bool) (colWrap : Nat)
    (hpt : ∀ d, finalDict h s = .ok d → ∀ e ∈ d, NeedsPoint e.2 → e.2.logPosterior = none) :
    (do plot lib cfg truths (← finalDict h' s) req columns) = (do plot lib cfg truths (← finalDict h s) req columns) ∧
    (do plotWalks cfg truths plotWeights plotPosterior logWeight (← finalDict h' s) req columns) =
      (do plotWalks cfg truths plotWeights plotPosterior logWeight (← finalDict h s) req columns) ∧
    (do plotDistributions lib cfg truths colWrap (← finalDict h' s) req columns) =
      (do plotDistributions lib cfg truths colWrap (← finalDict h s) req columns) ∧
    (do plotSummary lib cfg truths errorbar (← finalDict h' s) req columns) =
      (do plotSummary lib cfg truths errorbar (← finalDict h s) req columns) ∧
    (do plotLegend lc cfg (← sanitise cfg (← finalDict h' s) req columns true)) =
      (do plotLegend lc cfg (← sanitise cfg (← finalDict h s) req columns true)) := by
  rcases retabled_final hh s with ⟨e, h1, h2⟩ | ⟨d, d', h1, h2, hf⟩
  · rw [h1, h2]
    exact ⟨rfl, rfl, rfl, rfl, rfl⟩
  · have hv : SameFinal true d d' := by
      have hpt := hpt d h1
      clear h1 h2
      unfold SameFinal
      induction hf with
      | nil => exact .nil
      | cons h3 _ ih =>
        refine .cons ⟨h3.1, ?_⟩ (ih fun e he => hpt e (List.mem_cons_of_mem _ he))
        have hpt := hpt _ List.mem_cons_self
        obtain ⟨idx, hl, he⟩ := rows_eq h3.2
        refine ⟨h3.2.1, fun p => by rw [h3.2.2.1], h3.2.2.2, by rw [h3.2.2.1], fun hn => ?_, fun _ => by rw [he]; rfl⟩
        have h4 := hpt hn
        have h5 : (relabelled idx _).logPosterior = none := h4
        rw [he]
        simp only [bestAt, Chain.maxPosteriorPoint, h4, h5]
    simp only [h1, h2]
    exact view_figures hv lib cfg lc truths req columns (Or.inl rfl) plotWeights plotPosterior logWeight errorbar colWrap

theorem relabel_surface {idx : List Label} {c : Chain ℝ} (hl : idx.length = c.samples.index.length) (lib : Lib) (cfg : PlotConfig) (px py : String) :
    cloudCalls (relabelled idx c) px py = cloudCalls c px py ∧ contourCalls lib cfg (relabelled idx c) px py = contourCalls lib cfg c px py := by
  have hb := relabel_bins hl
  have hg : (relabelled idx c).grid = c.grid := rfl
  have hs : (relabelled idx c).smoothValue = c.smoothValue := rfl
  have hc : (relabelled idx c).cfg = c.cfg := rfl
  have hpw : (relabelled idx c).power = c.power := rfl
  have hn : (relabelled idx c).name = c.name := rfl
  have hw : (relabelled idx c).weights = c.weights := rfl
  have hget : ∀ p, (relabelled idx c).samples.get p = c.samples.get p := fun _ => rfl
  refine ⟨rfl, ?_⟩
  have h1 : ∀ x y w, bins2d (relabelled idx c) x y w = bins2d c x y w := by
    intro x y w
    simp only [bins2d, hs, hg, hb]
  have h2 : ∀ x y w bx b, kde2d lib.near (relabelled idx c) x y w bx b = kde2d lib.near c x y w bx b := by
    intro x y w bx b
    simp only [kde2d, hc, hpw]
  have h3 : smoothedHistogram2d lib.near (relabelled idx c) px py = smoothedHistogram2d lib.near c px py := by
    simp only [smoothedHistogram2d, hget, hw, h1, h2, hs, hpw, hc]
  classical
  have e1 : ∀ n, contourColours (relabelled idx c) n = contourColours c n := fun _ => rfl
  have e2 : ∀ n, decide ((relabelled idx c).fillable n) = decide (c.fillable n) := fun _ => decide_eq_decide.2 Iff.rfl
  simp only [contourCalls, plotContour, hc, h3, hn, e1, e2]

/-- **C141, violated.** Every chain that was made from a table with the default labels 0, 1, 2, … and a posterior has a best point. With labels
that are not integers, such as dates or names, asking for it raises KeyError; and if the best point is to be drawn, every panel of contours or
clouds that was drawn before fails, too. -/
theorem C141_violated (a : Args ℝ) (c : Chain ℝ) (hwf : a.samples.WF) (h : Chain.make a = .ok c) (hidx : DefaultIndex c.samples)
    (hp : c.posteriorColumn ∈ c.samples.columns) (idx : List Label) (hl : idx.length = c.samples.index.length) (hno : ∀ k : Int, Label.int k ∉ idx) :
    Retabled SameRows c (relabelled idx c) ∧ (∃ b, c.maxPosteriorPoint = .ok (some b)) ∧ (relabelled idx c).maxPosteriorPoint = .error .key ∧
    ∀ lib cfg px py r, c.cfg .plotPoint = true → px ∈ c.plottingColumns → py ∈ c.plottingColumns → surfaceChain lib cfg px py c = .ok r →
      surfaceChain lib cfg px py (relabelled idx c) = .error .key := by
  obtain ⟨x, hx⟩ := get_ok_of_mem hp
  obtain ⟨b, -, hb, -⟩ := C12_max_posterior_partial a c hwf h hidx x hx
  have hkey : (relabelled idx c).maxPosteriorPoint = .error .key := by
    have hlp : (relabelled idx c).logPosterior = c.logPosterior := rfl
    have hpos : ∀ k : Nat, (relabelled idx c).samples.positions (.int k) = [] := by
      intro k
      unfold Frame.positions
      rw [List.filter_eq_nil_iff]
      intro i _ hi
      exact hno k (List.mem_of_getElem? (of_decide_eq_true hi))
    simp only [Chain.maxPosteriorPoint] at hb
    simp only [Chain.maxPosteriorPoint, hlp, hpos]
    cases hq : c.logPosterior with
    | none => rw [hq] at hb; cases hb
    | some p =>
      rw [hq] at hb
      dsimp only at hb ⊢
      cases ha : argmax p with
      | none => rw [ha] at hb; cases hb
      | some k => rfl
  refine ⟨⟨rfl, rfl, hl⟩, ⟨b, hb⟩, hkey, fun lib cfg px py r hpp hpx hpy hr => ?_⟩
  have hcols : (relabelled idx c).plottingColumns = c.plottingColumns := rfl
  have hcfg : (relabelled idx c).cfg = c.cfg := rfl
  obtain ⟨e1, e2⟩ := relabel_surface hl lib cfg px py
  unfold surfaceChain at hr ⊢
  rw [if_neg (by simp [hpx, hpy])] at hr
  rw [hcols, if_neg (by simp [hpx, hpy]), e1, e2]
  obtain ⟨cl, h1, h2⟩ := bind_ok_iff.1 hr
  obtain ⟨ct, h3, h4⟩ := bind_ok_iff.1 h2
  rw [h1]
  simp only [bind, Except.bind, h3, pointCalls, hcfg, hpp, if_true, plotPoint, hkey]

/-- The hypotheses of `C141_construction` and `C141_violated` are met: two samples with a posterior, labels 0 and 1, to be called `x` and `y`,
and the best point is to be drawn. -/
example : ∃ (a : Args ℝ) (c : Chain ℝ) (idx : List Label), a.samples.WF ∧ Chain.make a = .ok c ∧ DefaultIndex c.samples ∧
    c.posteriorColumn ∈ c.samples.columns ∧ idx.length = c.samples.index.length ∧ (∀ k : Int, Label.int k ∉ idx) ∧
    idx.length = a.samples.index.length ∧ c.cfg .plotPoint = true ∧ "a" ∈ c.plottingColumns ∧
    ∀ lib cfg, ∃ r, surfaceChain lib cfg "a" "a" c = .ok r := by
  let fr : Frame ℝ := { index := [.int 0, .int 1], cols := [("a", [1, 2]), ("weight", [1, 1]), ("log_posterior", [0, 3])] }
  have hfr : fr.WF := ⟨by simp [fr], by simp [fr]⟩
  obtain ⟨c, hmk, hsam, hw, hp, -, -, -, -, hcfg⟩ :=
    plain_chain_cfg false [⟨.plotPoint, true⟩, ⟨.plotContour, false⟩] rfl
      (by change (0 : ℝ) ≤ 6827 / 10000 ∧ (6827 / 10000 : ℝ) ≤ 1; constructor <;> norm_num)
      (by change (1 : ℝ) ≤ 10; norm_num) rfl rfl (by intro h; cases h) fr hfr
      (by simp [fr]) (w := [1, 1]) rfl (by simp) "c" 1 le_rfl (one_dvd _)
  have hpt : c.cfg .plotPoint = true := by rw [hcfg]; rfl
  have hpc : c.cfg .plotContour = false := by rw [hcfg]; rfl
  have hcl : c.cfg .plotCloud = false := by rw [hcfg]; rfl
  have hmem : c.posteriorColumn ∈ c.samples.columns := by rw [hsam, hp]; simp [fr, Frame.columns]
  have hidx : DefaultIndex c.samples := by rw [hsam]; rfl
  have hcol : "a" ∈ c.plottingColumns := by
    have hap : c.cfg .plotContour = false := hpc
    simp only [Chain.plottingColumns, Chain.dataColumns, hsam, hw, hp, hcfg]
    decide +kernel
  refine ⟨_, c, [.str "x", .str "y"], toRaw_WF.2 hfr, hmk, hidx, hmem, by rw [hsam]; rfl, by simp, rfl, hpt, hcol, fun lib cfg => ?_⟩
  obtain ⟨-, ⟨b, hb⟩, -⟩ := C141_violated _ c (toRaw_WF.2 hfr) hmk hidx hmem [.str "x", .str "y"] (by rw [hsam]; rfl) (by simp)
  have : ∃ q, pointCalls c "a" "a" = .ok q := by
    simp only [pointCalls, hpt, if_true, plotPoint, hb, bind, Except.bind]
    cases b.coordinate.lookup "a" with
    | none => exact ⟨_, rfl⟩
    | some v => exact ⟨_, rfl⟩
  obtain ⟨q, hq⟩ := this
  refine ⟨([] ++ [] ++ q, []), ?_⟩
  rw [surfaceChain, if_neg (by simp [hcol])]
  simp only [cloudCalls, hcl, contourCalls, hpc, hq, bind, Except.bind, pure, Except.pure]
  rfl

/-- The hypotheses of the other theorems are met: a registered chain with labels 0 and 1 and contours to be drawn, and the same with labels
`x` and `y`. -/
example : ∃ (h h' : Heap ℝ) (s : Consumer ℝ) (d : List (String × Chain ℝ)), List.Forall₂ (Retabled SameRows) h h' ∧ h ≠ h' ∧ finalDict h s = .ok d ∧
    d ≠ [] ∧ ∀ e ∈ d, e.2.logPosterior.isSome ∧ ¬ NeedsPoint e.2 := by
  let fr : Frame ℝ := { index := [.int 0, .int 1], cols := [("a", [1, 2]), ("weight", [1, 1]), ("log_posterior", [0, 3])] }
  have hfr : fr.WF := ⟨by simp [fr], by simp [fr]⟩
  obtain ⟨c, hmk, hsam, hw, hp, -, -, -, hname, hcfg⟩ :=
    plain_chain_cfg false [] rfl
      (by change (0 : ℝ) ≤ 6827 / 10000 ∧ (6827 / 10000 : ℝ) ≤ 1; constructor <;> norm_num)
      (by change (1 : ℝ) ≤ 10; norm_num) rfl rfl (by intro h; cases h) fr hfr
      (by simp [fr]) (w := [1, 1]) rfl (by simp) "c" 1 le_rfl (one_dvd _)
  set s : Consumer ℝ := { chains := [("c", 0)] } with hs
  have hco : chainsOf [c] s = [c] := by simp [chainsOf, copyChains, hs]
  set n := numContourChains [c] s
  set g := Spec.resolved none c.userSet n c.cfg (Spec.autoColours.getD 0 "") with hg
  have hfd : finalDict [c] s = .ok [("c", c.withCfg g)] := by
    rw [finalDict_eq _ _ (by rw [hco]; exact le_trans (List.length_filter_le _ _) (by simp)), hco]
    simp [resolvedChains, copyChains, hs, n, hg]
  have h1 : (c.withCfg g).cfg .plotContour = true := by
    have : c.cfg .plotContour = true := by rw [hcfg]; rfl
    rw [← this]
    exact resolved_own _ _ _ _ _ rfl
  have h2 : (c.withCfg g).cfg .plotPoint = false := by
    have : c.cfg .plotPoint = false := by rw [hcfg]; rfl
    rw [← this]
    exact resolved_own _ _ _ _ _ rfl
  refine ⟨[c], [relabelled [.str "x", .str "y"] c], s, _, .cons ⟨rfl, rfl, by rw [hsam]; rfl⟩ .nil, ?_, hfd, by simp, ?_⟩
  · intro he
    have := congrArg (fun l : List (Chain ℝ) => l.map fun c => c.samples.index) he
    simp [relabelled, hsam, fr] at this
  · intro e he
    rw [List.mem_singleton] at he
    subst he
    refine ⟨?_, ?_⟩
    · change (c.samples.cols.lookup c.posteriorColumn).isSome = true
      rw [hsam, hp]
      rfl
    · unfold NeedsPoint
      simp [h1, h2]

end CC
