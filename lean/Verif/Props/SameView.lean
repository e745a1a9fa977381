import Verif.Props.NamedFigures
import Verif.Props.Columns

/-! # Figures of tables that hold the same columns

A figure uses of a chain its settings, the columns of its table by name, the size of the table and the best point. -/

namespace CC
open Spec

/-- Whether the best point of a chain is drawn or decides its ranges. -/
def Spec.NeedsPoint (c : Chain ℝ) : Prop :=
  c.cfg .plotPoint = true ∨ (c.cfg .plotContour = false ∧ c.cfg .plotCloud = false)

/-- The coordinates of the best point by name. -/
noncomputable def Spec.bestAt (c : Chain ℝ) : Res (Option (String → Option ℝ)) := c.maxPosteriorPoint.map (Option.map fun p k => p.coordinate.lookup k)

/-- Two chains that differ only in a table, whose columns and size are the same. -/
structure Spec.SameView (o : Bool) (c d : Chain ℝ) : Prop where
  rest : d = { c with samples := d.samples }
  cols : ∀ p, d.samples.cols.lookup p = c.samples.cols.lookup p
  rows : d.samples.index.length = c.samples.index.length
  width : d.samples.cols.length = c.samples.cols.length
  point : NeedsPoint c → bestAt d = bestAt c
  /-- the columns are in the same order, if this is asked for -/
  order : o = true → d.samples.columns = c.samples.columns

section one
variable {o : Bool} {c d : Chain ℝ} (h : SameView o c d)
include h

theorem view_cfg : d.cfg = c.cfg := by rw [h.rest]
theorem view_name : d.name = c.name := by rw [h.rest]
theorem view_grid : d.grid = c.grid := by rw [h.rest]
theorem view_power : d.power = c.power := by rw [h.rest]
theorem view_get (p : String) : d.samples.get p = c.samples.get p := by simp only [Frame.get, h.cols]
theorem view_smooth : d.smoothValue = c.smoothValue := by rw [h.rest]; rfl

theorem view_columns (p : String) : p ∈ d.samples.columns ↔ p ∈ c.samples.columns := by
  have key : ∀ l : List (String × List ℝ), p ∈ l.map Prod.fst ↔ (l.lookup p).isSome := by
    intro l
    induction l with
    | nil => simp
    | cons e l ih =>
      rw [List.map_cons, List.mem_cons, List.lookup_cons, ih]
      by_cases he : p = e.1
      · simp [he]
      · have : (p == e.1) = false := by simpa using he
        simp [this, he]
  rw [Frame.columns, key, h.cols, ← key]
  rfl

theorem view_dataColumns (p : String) : p ∈ d.dataColumns ↔ p ∈ c.dataColumns := by
  have h1 : d.weightColumn = c.weightColumn := by rw [h.rest]
  have h2 : d.posteriorColumn = c.posteriorColumn := by rw [h.rest]
  simp only [Chain.dataColumns, h1, h2, List.mem_filter, view_columns h]

theorem view_plottingColumns (p : String) : p ∈ d.plottingColumns ↔ p ∈ c.plottingColumns := by
  simp only [Chain.plottingColumns, view_cfg h]
  split
  · exact view_dataColumns h p
  · simp only [List.mem_filter, view_dataColumns h]

theorem view_plottingColumns_eq (ho : o = true) : d.plottingColumns = c.plottingColumns := by
  have h1 : d.weightColumn = c.weightColumn := by rw [h.rest]
  have h2 : d.posteriorColumn = c.posteriorColumn := by rw [h.rest]
  simp only [Chain.plottingColumns, Chain.dataColumns, h1, h2, h.order ho, view_cfg h]

theorem view_weights : d.weights = c.weights := by
  have hw : d.weightColumn = c.weightColumn := by rw [h.rest]
  simp only [Chain.weights, hw, view_get h]

theorem view_logPosterior : d.logPosterior = c.logPosterior := by
  have hp : d.posteriorColumn = c.posteriorColumn := by rw [h.rest]
  simp only [Chain.logPosterior, hp, h.cols]

theorem view_bins : getBins d = getBins c := by simp only [getBins, view_smooth h, view_cfg h, h.rows, h.width]

theorem view_skip : d.skip = c.skip := by
  have : d.samples.empty = c.samples.empty := by
    have e : ∀ {α β : Type} {l : List α} {m : List β}, l.length = m.length → l.isEmpty = m.isEmpty := by
      intro α β l m hl
      cases l <;> cases m <;> simp at hl ⊢
    simp only [Frame.empty, e h.rows, e h.width]
  simp only [Chain.skip, this, view_cfg h]

theorem view_histogram (kde : KdeFn) (p : String) (pad : Bool) (u : Option Bool) : smoothedHistogram kde d p pad u = smoothedHistogram kde c p pad u :=
  smoothedHistogram_column kde (view_cfg h) (view_grid h) (view_power h) (view_bins h) (view_weights h) (view_get h p) pad u

theorem view_summary (kde : KdeFn) (p : String) : parameterSummary kde d p = parameterSummary kde c p := by
  simp only [parameterSummary, view_cfg h, view_histogram h]

theorem view_entry (kde : KdeFn) (p : String) : summaryEntry kde d p = summaryEntry kde c p := by
  simp only [summaryEntry, view_summary h, view_cfg h, view_histogram h]

theorem view_bars (lib : Lib) (cfg : PlotConfig) (p : String) (flip summary : Bool) :
    plotBars lib cfg p d flip summary = plotBars lib cfg p c flip summary := by
  have hh : d.histogramRelativeHeight = c.histogramRelativeHeight := by rw [h.rest]
  have hm : ∀ x w pad, marginalBins d x w pad = marginalBins c x w pad := by
    intro x w pad
    simp only [marginalBins, view_grid h, view_smooth h, view_bins h]
  have hd : barData lib d p = barData lib c p := by
    simp only [barData, view_smooth h, view_cfg h, view_histogram h, view_get h, view_weights h, hm, view_power h]
  have hf : d.finHeight = c.finHeight := by simp only [Chain.finHeight, hh]
  have hs : ∀ xs, barShadeIf lib cfg d p xs flip summary = barShadeIf lib cfg c p xs flip summary := by
    intro xs
    simp only [barShadeIf, barShade, shadeBounds, view_cfg h, view_histogram h, view_summary h, view_name h]
  simp only [plotBars, hd, hf, hs, view_name h]

theorem view_histogram2d (near : NearFn) (px py : String) : smoothedHistogram2d near d px py = smoothedHistogram2d near c px py := by
  have h1 : ∀ x y w, bins2d d x y w = bins2d c x y w := by
    intro x y w
    simp only [bins2d, view_smooth h, view_grid h, view_bins h]
  have h2 : ∀ x y w bx b, kde2d near d x y w bx b = kde2d near c x y w bx b := by
    intro x y w bx b
    simp only [kde2d, view_cfg h, view_power h]
  simp only [smoothedHistogram2d, view_get h, view_weights h, h1, h2, view_smooth h, view_power h, view_cfg h]

theorem view_surface (lib : Lib) (cfg : PlotConfig) (px py : String) : surfaceChain lib cfg px py d = surfaceChain lib cfg px py c := by
  have h1 : cloudCalls d px py = cloudCalls c px py := by
    simp only [cloudCalls, plotCloud, Chain.colorData, view_cfg h, view_get h, view_name h]
  have h2 : contourCalls lib cfg d px py = contourCalls lib cfg c px py := by
    classical
    have e1 : ∀ n, contourColours d n = contourColours c n := by
      intro n
      simp only [contourColours, view_cfg h]
    have e2 : ∀ n, decide (d.fillable n) = decide (c.fillable n) := by
      intro n
      refine decide_eq_decide.2 ?_
      rw [h.rest]
      rfl
    simp only [contourCalls, plotContour, view_cfg h, view_histogram2d h, view_name h, e1, e2]
  have h3 : pointCalls d px py = pointCalls c px py := by
    simp only [pointCalls, view_cfg h]
    split
    next hp =>
      have key : ∀ c : Chain ℝ, plotPoint c px py = (bestAt c).map fun o => match o with
          | none => []
          | some g => match g px, g py with
            | some x, some y => [.point c.name px py x y]
            | _, _ => [] := by
        intro c
        unfold plotPoint bestAt
        cases c.maxPosteriorPoint with
        | error _ => rfl
        | ok o =>
          cases o with
          | none => rfl
          | some p =>
            simp only [bind, Except.bind, Except.map, Option.map]
            cases p.coordinate.lookup px <;> cases p.coordinate.lookup py <;> rfl
      rw [key, key, h.point (Or.inl hp), view_name h]
    · rfl
  simp only [surfaceChain, h1, h2, h3, view_plottingColumns h]

theorem view_range (p : String) (wide : Bool) : chainRange d p wide = chainRange c p wide := by
  have key : ∀ c : Chain ℝ, chainRange c p wide = if p ∉ c.samples.columns then .ok none else (do
      let data ← c.samples.get p
      if c.cfg .plotContour || c.cfg .plotCloud then
        if c.grid then return some (← arrMin data, ← arrMax data) else return some (← getExtents data (← c.weights) true wide false false)
      else Except.map (fun o => o.bind fun g => (g p).map fun v => (v, v)) (bestAt c)) := by
    intro c
    unfold chainRange bestAt
    split
    · rfl
    · refine congrArg (bind _) (funext fun data => ?_)
      split
      · rfl
      · cases c.maxPosteriorPoint with
        | error _ => rfl
        | ok o => cases o <;> rfl
  rw [key, key]
  simp only [view_columns h, view_get h, view_cfg h, view_grid h, view_weights h]
  split
  · rfl
  · refine congrArg (bind _) (funext fun data => ?_)
    split
    · rfl
    next hn =>
      rw [h.point (Or.inr (by simpa using hn))]

end one

section lists
variable {o : Bool}

theorem mapM_view {β : Type} {g : Chain ℝ → Res β} (hg : ∀ {c d}, SameView o c d → g d = g c) {cs ds : List (Chain ℝ)}
    (h : List.Forall₂ (SameView o) cs ds) : ds.mapM g = cs.mapM g := by
  induction h with
  | nil => rfl
  | cons h1 _ ih => rw [List.mapM_cons, List.mapM_cons, hg h1, ih]

theorem filter_view {g : Chain ℝ → Bool} (hg : ∀ {c d}, SameView o c d → g d = g c) {cs ds : List (Chain ℝ)}
    (h : List.Forall₂ (SameView o) cs ds) : List.Forall₂ (SameView o) (cs.filter g) (ds.filter g) := by
  induction h with
  | nil => exact .nil
  | cons h1 _ ih =>
    rw [List.filter_cons, List.filter_cons, hg h1]
    split
    · exact .cons h1 ih
    · exact ih

/-- Two plans of a plot that differ only in such tables. -/
structure Spec.SameBase (o : Bool) (b b' : PlottingBase) : Prop where
  chains : List.Forall₂ (SameView o) b.chains b'.chains
  columns : b'.columns = b.columns
  extents : b'.extents = b.extents
  blind : b'.blind = b.blind
  logScales : b'.logScales = b.logScales

theorem view_histChains (lib : Lib) (cfg : PlotConfig) (p : String) (flip summary : Bool) {cs ds : List (Chain ℝ)}
    (h : List.Forall₂ (SameView o) cs ds) (m : Option ℝ) : histChains lib cfg p flip summary ds m = histChains lib cfg p flip summary cs m := by
  induction h generalizing m with
  | nil => rfl
  | cons h1 _ ih => simp only [histChains, view_cfg h1, view_columns h1, view_bars h1, ih]

theorem view_distChains (lib : Lib) (cfg : PlotConfig) (p : String) (summary : Bool) {cs ds : List (Chain ℝ)}
    (h : List.Forall₂ (SameView o) cs ds) (m : Option ℝ) : distChains lib cfg p summary ds m = distChains lib cfg p summary cs m := by
  induction h generalizing m with
  | nil => rfl
  | cons h1 _ ih => simp only [distChains, view_cfg h1, view_plottingColumns h1, view_bars h1, ih]

section figures
variable {b b' : PlottingBase} (h : SameBase o b b')
include h

theorem view_plot (lib : Lib) (cfg : PlotConfig) (truths : List (Truth ℝ)) : plotBase lib cfg truths b' = plotBase lib cfg truths b := by
  have hl : (b'.chains.filter fun c => c.cfg .plotContour).length = (b.chains.filter fun c => c.cfg .plotContour).length :=
    (filter_view (fun h => by rw [view_cfg h]) h.chains).length_eq.symm
  have hd : ∀ summarise flip nx i j p1 p2, drawPanel lib cfg b' truths summarise flip nx i j p1 p2 =
      drawPanel lib cfg b truths summarise flip nx i j p1 p2 := by
    intro summarise flip nx i j p1 p2
    have hs : plotSurface lib cfg b'.chains p2 p1 = plotSurface lib cfg b.chains p2 p1 := by
      simp only [plotSurface, mapM_view (fun h => view_surface h lib cfg p2 p1) h.chains]
    simp only [drawPanel, histPanel, hs, view_histChains lib cfg _ _ _ h.chains, h.blind]
  simp only [plotBase, hl, hd, h.columns, trianglePanel, triangleYlim, h.extents, h.blind, h.logScales]

theorem view_walks (cfg : PlotConfig) (truths : List (Truth ℝ)) (pw pp lw : Bool) :
    plotWalksBase cfg truths pw pp lw b' = plotWalksBase cfg truths pw pp lw b := by
  have hany : (b'.chains.any fun c => c.logPosterior.isSome) = b.chains.any fun c => c.logPosterior.isSome := by
    have := h.chains
    generalize b.chains = cs at *
    generalize b'.chains = ds at *
    induction this with
    | nil => rfl
    | cons h1 _ ih => simp only [List.any_cons, view_logPosterior h1, ih]
  have h1 : ∀ p, walkPanel cfg b' truths p = walkPanel cfg b truths p := by
    intro p
    simp only [walkPanel, h.extents, h.blind, h.logScales]
    rw [mapM_view (fun h => by simp only [view_dataColumns h, view_name h, view_get h]) h.chains]
  have h2 : posteriorPanel cfg b' = posteriorPanel cfg b := by
    simp only [posteriorPanel]
    rw [mapM_view (fun h => by simp only [view_logPosterior h, view_name h]) h.chains]
  have h3 : weightPanel cfg b' lw = weightPanel cfg b lw := by
    simp only [weightPanel]
    rw [mapM_view (fun h => by simp only [view_weights h, view_name h]) h.chains]
  simp only [plotWalksBase, hany, h1, h2, h3, h.columns]

theorem view_distributions (lib : Lib) (cfg : PlotConfig) (truths : List (Truth ℝ)) (colWrap : Nat) :
    plotDistributionsBase lib cfg truths colWrap b' = plotDistributionsBase lib cfg truths colWrap b := by
  simp only [plotDistributionsBase, distPanel, h.columns, h.extents, h.blind, h.logScales, h.chains.length_eq,
    view_distChains lib cfg _ _ h.chains]

theorem view_plotSummary (lib : Lib) (cfg : PlotConfig) (truths : List (Truth ℝ)) (errorbar : Bool) :
    plotSummaryBase lib cfg truths errorbar b' = plotSummaryBase lib cfg truths errorbar b := by
  have hlen := h.chains.length_eq
  have hcell : ∀ {c d}, SameView o c d → ∀ i p, summaryCell lib cfg b' truths errorbar i d p = summaryCell lib cfg b truths errorbar i c p := by
    intro c d hcd i p
    simp only [summaryCell, summaryContent, h.extents, h.blind, h.logScales, ← hlen, view_dataColumns hcd, view_summary hcd, view_name hcd,
      view_bars hcd]
  have hempty : b'.chains.isEmpty = b.chains.isEmpty := by
    have := h.chains
    generalize b.chains = cs at *
    generalize b'.chains = ds at *
    cases this <;> rfl
  have hrows : ∀ k, (b'.chains.zipIdx k).mapM (fun ci => b.columns.mapM fun p => summaryCell lib cfg b' truths errorbar ci.2 ci.1 p) =
      (b.chains.zipIdx k).mapM fun ci => b.columns.mapM fun p => summaryCell lib cfg b truths errorbar ci.2 ci.1 p := by
    have := h.chains
    generalize b.chains = cs at this
    generalize b'.chains = ds at this
    induction this with
    | nil => intro k; rfl
    | cons h1 _ ih => intro k; simp only [List.zipIdx_cons, List.mapM_cons, hcell h1, ih]
  have hline : ∀ (rows : List (List (List Call × Option ℝ))) (lims : List (List Call)),
      ((b'.chains.zip rows).flatMap fun cr => List.zipWith (· ++ ·) ([.axisOff, .text cr.1.name] :: cr.2.map Prod.fst) (lims ++ [[]])) =
      (b.chains.zip rows).flatMap fun cr => List.zipWith (· ++ ·) ([.axisOff, .text cr.1.name] :: cr.2.map Prod.fst) (lims ++ [[]]) := by
    have := h.chains
    generalize b.chains = cs at this
    generalize b'.chains = ds at this
    induction this with
    | nil => intro rows lims; rfl
    | cons h1 _ ih =>
      intro rows lims
      cases rows with
      | nil => rfl
      | cons r rows => simp only [List.zip_cons_cons, List.flatMap_cons, view_name h1, ih]
  simp only [plotSummaryBase, h.columns, hempty, hrows 0, hline, ← hlen]

theorem view_legend (lc : LegendConfig) (cfg : PlotConfig) : plotLegend lc cfg b' = plotLegend lc cfg b := by
  have hshow : ∀ {c d : Chain ℝ}, SameView o c d → d.showLabelInLegend = c.showLabelInLegend := fun h => by rw [h.rest]
  have hf := filter_view (fun h => hshow h) h.chains
  have ha : ∀ {c d}, SameView o c d → artistOf d = artistOf c := fun h => by simp only [artistOf, view_cfg h, view_name h]
  have h1 : getArtists (b'.chains.filter fun c => c.showLabelInLegend) = getArtists (b.chains.filter fun c => c.showLabelInLegend) :=
    mapM_view ha (filter_view (fun h => hshow h) hf)
  have h2 : textColors lc (b'.chains.filter fun c => c.showLabelInLegend) = textColors lc (b.chains.filter fun c => c.showLabelInLegend) :=
    mapM_view (fun h => by simp only [view_cfg h]) hf
  simp only [plotLegend, legendShown, h.columns, h1, h2, h.chains.length_eq]

end figures

/-- Final chains that differ only in such tables. -/
def Spec.SameFinal (o : Bool) (final final' : List (String × Chain ℝ)) : Prop :=
  List.Forall₂ (fun e e' => e'.1 = e.1 ∧ SameView o e.2 e'.2) final final'

section related
variable {R : Chain ℝ → Chain ℝ → Prop} {final final' : List (String × Chain ℝ)} (h : List.Forall₂ (fun e e' => e'.1 = e.1 ∧ R e.2 e'.2) final final')
include h

theorem rel_get_final (n : String) : (∃ e, dictGet final n = .error e ∧ dictGet final' n = .error e) ∨
    ∃ c d, dictGet final n = .ok c ∧ dictGet final' n = .ok d ∧ R c d := by
  unfold dictGet
  induction h with
  | nil => exact Or.inl ⟨_, rfl, rfl⟩
  | @cons e e' l l' h1 _ ih =>
    obtain ⟨k, c⟩ := e
    obtain ⟨k', d⟩ := e'
    obtain ⟨rfl, hv⟩ := h1
    rw [List.lookup_cons, List.lookup_cons]
    cases n == k' with
    | true => exact Or.inr ⟨c, d, rfl, rfl, hv⟩
    | false => exact ih

theorem rel_mapM_final {α : Type} (key : α → String) (l : List α) :
    (∃ e, (l.mapM fun r => dictGet final (key r)) = .error e ∧ (l.mapM fun r => dictGet final' (key r)) = .error e) ∨
    ∃ cs ds, (l.mapM fun r => dictGet final (key r)) = .ok cs ∧ (l.mapM fun r => dictGet final' (key r)) = .ok ds ∧ List.Forall₂ R cs ds := by
  induction l with
  | nil => exact Or.inr ⟨[], [], rfl, rfl, .nil⟩
  | cons r l ih =>
    simp only [List.mapM_cons]
    rcases rel_get_final h (key r) with ⟨e, h1, h2⟩ | ⟨c, d, h1, h2, hv⟩
    · rw [h1, h2]
      exact Or.inl ⟨e, rfl, rfl⟩
    · rw [h1, h2]
      rcases ih with ⟨e, h3, h4⟩ | ⟨cs, ds, h3, h4, hvs⟩
      · rw [h3, h4]
        exact Or.inl ⟨e, rfl, rfl⟩
      · rw [h3, h4]
        exact Or.inr ⟨c :: cs, d :: ds, rfl, rfl, .cons hv hvs⟩

theorem rel_plotChains (hR : ∀ {c d}, R c d → d.skip = c.skip) (req : ChainReq ℝ) (sk : Bool) :
    (∃ e, plotChains final req sk = .error e ∧ plotChains final' req sk = .error e) ∨
    ∃ cs ds, plotChains final req sk = .ok cs ∧ plotChains final' req sk = .ok ds ∧ List.Forall₂ R cs ds := by
  have hfil : ∀ {cs ds : List (Chain ℝ)}, List.Forall₂ R cs ds →
      List.Forall₂ R (cs.filter fun c => sk || !c.skip) (ds.filter fun c => sk || !c.skip) := by
    intro cs ds h
    induction h with
    | nil => exact .nil
    | cons h1 _ ih =>
      simp only [List.filter_cons, hR h1]
      split
      · exact .cons h1 ih
      · exact ih
  cases req with
  | all =>
    refine Or.inr ⟨_, _, rfl, rfl, hfil ?_⟩
    induction h with
    | nil => exact .nil
    | cons h1 _ ih => exact .cons h1.2 ih
  | list l =>
    rcases rel_mapM_final h reqName l with ⟨e, h1, h2⟩ | ⟨cs, ds, h1, h2, hv⟩
    · exact Or.inl ⟨e, by simp only [plotChains, h1]; rfl, by simp only [plotChains, h2]; rfl⟩
    · exact Or.inr ⟨_, _, by simp only [plotChains, h1]; rfl, by simp only [plotChains, h2]; rfl, hfil hv⟩
  | dict l =>
    rcases rel_mapM_final h (fun e : String × Chain ℝ => e.2.name) l with ⟨e, h1, h2⟩ | ⟨cs, ds, h1, h2, hv⟩
    · exact Or.inl ⟨e, by simp only [plotChains, h1]; rfl, by simp only [plotChains, h2]; rfl⟩
    · exact Or.inr ⟨_, _, by simp only [plotChains, h1]; rfl, by simp only [plotChains, h2]; rfl, hfil hv⟩

end related

section requests
variable {final final' : List (String × Chain ℝ)} (h : SameFinal o final final')
include h

theorem view_plotChains (req : ChainReq ℝ) (sk : Bool) :
    (∃ e, plotChains final req sk = .error e ∧ plotChains final' req sk = .error e) ∨
    ∃ cs ds, plotChains final req sk = .ok cs ∧ plotChains final' req sk = .ok ds ∧ List.Forall₂ (SameView o) cs ds :=
  rel_plotChains h (fun h => view_skip h) req sk

/-- The plans of a plot, with given columns or if the order of columns is the same. -/
theorem view_sanitise (cfg : PlotConfig) (req : ChainReq ℝ) (columns : Option (List String)) (ho : o = true ∨ columns.isSome = true) (wide : Bool) :
    (∃ e, sanitise cfg final req columns wide = .error e ∧ sanitise cfg final' req columns wide = .error e) ∨
    ∃ b b', sanitise cfg final req columns wide = .ok b ∧ sanitise cfg final' req columns wide = .ok b' ∧ SameBase o b b' := by
  rcases view_plotChains h req false with ⟨e, h1, h2⟩ | ⟨cs, ds, h1, h2, hv⟩
  · exact Or.inl ⟨e, by simp only [sanitise, h1]; rfl, by simp only [sanitise, h2]; rfl⟩
  · have hp : ∀ p r, (ds.foldlM (fun r c => do return joinRange r (← chainRange c p wide)) r : Res _) =
        cs.foldlM (fun r c => do return joinRange r (← chainRange c p wide)) r := by
      intro p
      clear h1 h2
      induction hv with
      | nil => intro r; rfl
      | cons h1 _ ih => intro r; simp only [List.foldlM_cons, view_range h1, ih]
    have hx : ∀ columns, customExtents columns ds cfg.extents wide = customExtents columns cs cfg.extents wide := by
      intro columns
      simp only [customExtents, parameterExtents, hp]
    have hsc : sanitiseColumns columns ds = sanitiseColumns columns cs := by
      cases columns with
      | some l => rfl
      | none =>
        have ho : o = true := by simpa using ho
        have : ∀ res : List String, ds.foldl (fun res c => c.plottingColumns.foldl (fun res col => if col ∈ res then res else res ++ [col]) res) res =
            cs.foldl (fun res c => c.plottingColumns.foldl (fun res col => if col ∈ res then res else res ++ [col]) res) res := by
          clear h1 h2 hp hx
          induction hv with
          | nil => intro res; rfl
          | cons h1 _ ih => intro res; simp only [List.foldl_cons, view_plottingColumns_eq h1 ho, ih]
        exact this []
    simp only [sanitise, h1, h2, bind, Except.bind, hx, hsc]
    cases customExtents (sanitiseColumns columns cs) cs cfg.extents wide with
    | error e => exact Or.inl ⟨e, rfl, rfl⟩
    | ok ext => exact Or.inr ⟨_, _, rfl, rfl, ⟨hv, rfl, rfl, rfl, rfl⟩⟩

/-- All figures and the legend. -/
theorem view_figures (lib : Lib) (cfg : PlotConfig) (lc : LegendConfig) (truths : List (Truth ℝ)) (req : ChainReq ℝ) (columns : Option (List String)) (ho : o = true ∨ columns.isSome = true)
    (plotWeights plotPosterior logWeight errorbar : Bool) (colWrap : Nat) :
    plot lib cfg truths final' req columns = plot lib cfg truths final req columns ∧
    plotWalks cfg truths plotWeights plotPosterior logWeight final' req columns =
      plotWalks cfg truths plotWeights plotPosterior logWeight final req columns ∧
    plotDistributions lib cfg truths colWrap final' req columns = plotDistributions lib cfg truths colWrap final req columns ∧
    plotSummary lib cfg truths errorbar final' req columns = plotSummary lib cfg truths errorbar final req columns ∧
    (do plotLegend lc cfg (← sanitise cfg final' req columns true)) =
      (do plotLegend lc cfg (← sanitise cfg final req columns true)) := by
  have key : ∀ {α : Type} (wide : Bool) (g : PlottingBase → Res α), (∀ {b b'}, SameBase o b b' → g b' = g b) →
      (sanitise cfg final' req columns wide >>= g) = sanitise cfg final req columns wide >>= g := by
    intro α wide g hg
    rcases view_sanitise h cfg req columns ho wide with ⟨e, h1, h2⟩ | ⟨b, b', h1, h2, hb⟩
    · rw [h1, h2]
    · rw [h1, h2]
      exact hg hb
  exact ⟨key _ _ fun hb => view_plot hb _ _ _, key _ _ fun hb => view_walks hb _ _ _ _ _, key _ _ fun hb => view_distributions hb _ _ _ _,
    key _ _ fun hb => view_plotSummary hb _ _ _ _, key _ _ fun hb => view_legend hb _ _⟩

end requests

end lists

/-! ### from the registry on -/

/-- Chains that differ only in their tables, which are related in some way. -/
def Spec.Retabled (S : Frame ℝ → Frame ℝ → Prop) (c d : Chain ℝ) : Prop := d = { c with samples := d.samples } ∧ S c.samples d.samples

theorem retabled_copies {S : Frame ℝ → Frame ℝ → Prop} {h h' : Heap ℝ} (hh : List.Forall₂ (Retabled S) h h') (s : Consumer ℝ) :
    List.Forall₂ (fun e e' => e'.1 = e.1 ∧ Retabled S e.2 e'.2) (copyChains h s) (copyChains h' s) := by
  unfold copyChains
  induction s.chains with
  | nil => exact .nil
  | cons e l ih =>
    rw [List.filterMap_cons, List.filterMap_cons]
    cases he : h[e.2]? with
    | none =>
      have : h'[e.2]? = none := by
        rw [List.getElem?_eq_none_iff] at he ⊢
        rw [← hh.length_eq]
        exact he
      rw [this]
      exact ih
    | some c =>
      obtain ⟨hi, rfl⟩ := List.getElem?_eq_some_iff.1 he
      have hi' : e.2 < h'.length := hh.length_eq ▸ hi
      rw [List.getElem?_eq_getElem hi']
      exact .cons ⟨rfl, (List.forall₂_iff_get.1 hh).2 _ hi hi'⟩ ih

/-- Their final settings are the same. -/
theorem retabled_final {S : Frame ℝ → Frame ℝ → Prop} {h h' : Heap ℝ} (hh : List.Forall₂ (Retabled S) h h') (s : Consumer ℝ) :
    (∃ e, finalDict h s = .error e ∧ finalDict h' s = .error e) ∨
    ∃ d d', finalDict h s = .ok d ∧ finalDict h' s = .ok d' ∧ List.Forall₂ (fun e e' => e'.1 = e.1 ∧ Retabled S e.2 e'.2) d d' := by
  have hc := retabled_copies hh s
  have hcs : List.Forall₂ (Retabled S) (chainsOf h s) (chainsOf h' s) := by
    unfold chainsOf
    exact List.forall₂_map_left_iff.2 (List.forall₂_map_right_iff.2 (hc.imp fun _ _ h => h.2))
  have hnames : (copyChains h' s).map Prod.fst = (copyChains h s).map Prod.fst := by
    generalize copyChains h s = l at hc
    generalize copyChains h' s = l' at hc
    induction hc with
    | nil => rfl
    | cons h1 _ ih => rw [List.map_cons, List.map_cons, h1.1, ih]
  have hcfg : ∀ {c d : Chain ℝ}, Retabled S c d → d.cfg = c.cfg := fun h => by rw [h.1]
  have hun : uncoloured (chainsOf h' s) = uncoloured (chainsOf h s) := by
    unfold uncoloured
    generalize chainsOf h s = l at hcs
    generalize chainsOf h' s = l' at hcs
    induction hcs with
    | nil => rfl
    | cons h1 _ ih =>
      simp only [List.filter_cons, hcfg h1]
      split
      · simp only [List.length_cons, ih]
      · exact ih
  have hnum : numContourChains h' s = numContourChains h s := by
    unfold numContourChains
    congr 1
    refine List.filter_congr fun e _ => ?_
    cases he : h[e.2]? with
    | none =>
      have : h'[e.2]? = none := by
        rw [List.getElem?_eq_none_iff] at he ⊢
        rw [← hh.length_eq]
        exact he
      rw [this]
    | some c =>
      obtain ⟨hi, rfl⟩ := List.getElem?_eq_some_iff.1 he
      have hi' : e.2 < h'.length := hh.length_eq ▸ hi
      rw [List.getElem?_eq_getElem hi']
      have := hcfg ((List.forall₂_iff_get.1 hh).2 _ hi hi')
      simp only [List.get_eq_getElem] at this
      simp only [Option.any_some, this]
  by_cases hu : uncoloured (chainsOf h s) ≤ 88
  · refine Or.inr ⟨_, _, finalDict_eq h s hu, finalDict_eq h' s (hun ▸ hu), ?_⟩
    rw [hnum, hnames]
    have key : ∀ (n : Nat) (ov : Option (Config ℝ)) (u : Nat) (ns : List String),
        List.Forall₂ (fun e e' => e'.1 = e.1 ∧ Retabled S e.2 e'.2) (ns.zip (resolvedChains n ov (chainsOf h s) u))
          (ns.zip (resolvedChains n ov (chainsOf h' s) u)) := by
      intro n ov
      generalize chainsOf h s = l at hcs
      generalize chainsOf h' s = l' at hcs
      clear hun hu
      induction hcs with
      | nil => intro u ns; cases ns <;> exact .nil
      | @cons c d l l' h1 _ ih =>
        intro u ns
        cases ns with
        | nil => exact .nil
        | cons k ns =>
          have hus : d.userSet = c.userSet := by rw [h1.1]
          simp only [resolvedChains, List.zip_cons_cons, hcfg h1, hus]
          refine .cons ⟨rfl, ?_, h1.2⟩ (ih _ _)
          rw [h1.1]
          rfl
    exact key _ _ _ _
  · have e1 := (finalChains_eq h s).2 (by omega)
    have e2 := (finalChains_eq h' s).2 (by omega)
    exact Or.inl ⟨.stopIteration, by simp only [finalDict, e1]; rfl, by simp only [finalDict, e2]; rfl⟩

end CC
