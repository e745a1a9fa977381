import Verif.Props.OrderFigures
import Verif.Props.SummaryScale
import Verif.Props.SharedColumns

/-! # C133: the rows of `plot_summary` for chains added in another order -/

namespace CC
open Spec

/-- What a panel of `plot_summary` shows for being in the first or last row: a title, and tick labels of the parameter or none. -/
def Spec.ofRow : Call → Bool
  | .noTicks .x => true
  | .title _ => true
  | _ => false

/-- Figures made of the same rows in another order, but for titles and tick labels. -/
def Spec.RowsMoved (g g' : Fig) : Prop := ∃ (w : Nat) (R R' : List (List (List Call))), (∀ r ∈ R, r.length = w) ∧ (∀ r ∈ R', r.length = w) ∧
  g.panels = (gridPanels R.length w).zip R.flatten ∧ g'.panels = (gridPanels R'.length w).zip R'.flatten ∧
  (R'.map fun r => r.map (·.filter fun x => !ofRow x)).Perm (R.map fun r => r.map (·.filter fun x => !ofRow x)) ∧
  g'.colorbars = g.colorbars

/-- A cell without what its row adds. -/
def bareCell (e : List Call × Option ℝ) : List Call × Option ℝ := (e.1.filter fun x => !ofRow x, e.2)

section tools

theorem map_ok_iff {α β : Type} {f : α → β} {x : Res α} {y : β} : x.map f = .ok y ↔ ∃ a, x = .ok a ∧ f a = y := by
  cases x with
  | error e => simp [Except.map]
  | ok a => simp [Except.map]

theorem mapM_map_ok {α β γ : Type} (f : α → Res β) (g : β → γ) (l : List α) : l.mapM (fun a => (f a).map g) = (l.mapM f).map (List.map g) := by
  induction l with
  | nil => rfl
  | cons a l ih =>
    rw [List.mapM_cons, List.mapM_cons, ih]
    cases f a with
    | error e => rfl
    | ok b => cases l.mapM f <;> rfl

theorem mapM_zipIdx {α β : Type} (f : α → Res β) (l : List α) (k : Nat) : (l.zipIdx k).mapM (fun e => f e.1) = l.mapM f := by
  induction l generalizing k with
  | nil => rfl
  | cons a l ih => rw [List.zipIdx_cons, List.mapM_cons, List.mapM_cons, ih]

theorem mapM_pair {α β : Type} {f : α → Res β} {l : List α} {r : List β} :
    l.mapM (fun a => (f a).map fun b => (a, b)) = .ok (l.zip r) ∧ r.length = l.length ↔ l.mapM f = .ok r := by
  simp only [mapM_ok_iff]
  constructor
  · rintro ⟨h, hl⟩
    induction l generalizing r with
    | nil => rw [List.length_eq_zero_iff.1 hl]; exact .nil
    | cons a l ih =>
      cases r with
      | nil => simp at hl
      | cons b r =>
        rw [List.zip_cons_cons, List.forall₂_cons] at h
        refine .cons ?_ (ih h.2 (by simpa using hl))
        obtain ⟨x, h1, h2⟩ := map_ok_iff.1 h.1
        cases h2
        exact h1
  · intro h
    refine ⟨?_, h.length_eq.symm⟩
    induction h with
    | nil => exact .nil
    | cons h _ ih => exact .cons (map_ok_iff.2 ⟨_, h, rfl⟩) ih

end tools

/-- But for titles and tick labels a cell does not depend on its row and the other chains. -/
theorem cell_bare (lib : Lib) (cfg : PlotConfig) {b b' : PlottingBase} (hb : b' = { b with chains := b'.chains }) (truths : List (Truth ℝ))
    (errorbar : Bool) (i j : Nat) (c : Chain ℝ) (p : String) :
    (summaryCell lib cfg b' truths errorbar j c p).map bareCell = (summaryCell lib cfg b truths errorbar i c p).map bareCell := by
  have h1 : b'.extents = b.extents := by rw [hb]
  have h2 : b'.logScales = b.logScales := by rw [hb]
  simp only [summaryCell, h1, h2]
  cases setLim .x (b.extents.lookup p) with
  | error e => rfl
  | ok xlim =>
    cases summaryContent lib cfg errorbar c p with
    | error e => rfl
    | ok r =>
      have e1 : ∀ (q : Prop) [Decidable q], (if q then [Call.noTicks .x] else []).filter (fun x => !ofRow x) = [] := by
        intro q _; split <;> rfl
      have e2 : ∀ (q : Prop) [Decidable q] (t : String), (if q then [Call.title t] else []).filter (fun x => !ofRow x) = [] := by
        intro q _ t; split <;> rfl
      simp only [bind, Except.bind, pure, Except.pure, Except.map, bareCell, List.filter_append, e1, e2]

/-- The rows but for titles and tick labels. -/
theorem rows_bare (lib : Lib) (cfg : PlotConfig) {b b' : PlottingBase} (hb : b' = { b with chains := b'.chains }) (truths : List (Truth ℝ))
    (errorbar : Bool) (cs : List (Chain ℝ)) :
    (cs.zipIdx.mapM fun ci => b'.columns.mapM fun p => summaryCell lib cfg b' truths errorbar ci.2 ci.1 p).map (List.map (List.map bareCell)) =
      cs.mapM fun c => b.columns.mapM fun p => (summaryCell lib cfg b truths errorbar 0 c p).map bareCell := by
  have hc : b'.columns = b.columns := by rw [hb]
  rw [← mapM_map_ok, ← mapM_zipIdx _ cs 0]
  congr 1
  funext ci
  rw [← mapM_map_ok, hc]
  congr 1
  funext p
  exact cell_bare lib cfg hb truths errorbar 0 ci.2 ci.1 p

/-- The largest values do not depend on the order of the cells. -/
theorem tops_order {l l' : List (String × Option ℝ)} (h : l'.Perm l) (p : String) : (maxVals l').lookup p = (maxVals l).lookup p := by
  obtain ⟨h1, h2⟩ := lookup_maxVals l p
  obtain ⟨k1, k2⟩ := lookup_maxVals l' p
  cases e : (maxVals l).lookup p with
  | none => exact k1.2 fun v hv => h1.1 e v (h.mem_iff.1 hv)
  | some m =>
    cases e' : (maxVals l').lookup p with
    | none => exact absurd (h.mem_iff.2 (h2 m e).1) (k1.1 e' m)
    | some m' =>
      have : {v | (p, some v) ∈ l'} = {v | (p, some v) ∈ l} := by ext v; exact h.mem_iff
      have k3 := k2 m' e'
      rw [this] at k3
      rw [k3.unique (h2 m e)]

/-- `plot_summary` for the same chains in another order. -/
theorem summary_rows (lib : Lib) (cfg : PlotConfig) {b b' : PlottingBase} (hb : b' = { b with chains := b'.chains }) (hp : b'.chains.Perm b.chains)
    (truths : List (Truth ℝ)) (errorbar : Bool) {g : Fig} (hg : plotSummaryBase lib cfg truths errorbar b = .ok g) :
    ∃ g', plotSummaryBase lib cfg truths errorbar b' = .ok g' ∧ RowsMoved g g' := by
  have hcol : b'.columns = b.columns := by rw [hb]
  simp only [plotSummaryBase, bind_ok_iff, pure_ok_iff, ensure_ok_iff] at hg ⊢
  obtain ⟨u, hu, rows, hrows, lims, hlims, rfl⟩ := hg
  have hbare := rows_bare lib cfg (b' := b) (b := b) rfl truths errorbar b.chains
  rw [hrows] at hbare
  obtain ⟨hpair, hlen⟩ := mapM_pair.2 hbare.symm
  obtain ⟨ps, hps, hperm⟩ := mapM_reorder hp hpair
  have hzip : ∃ srows, ps = b'.chains.zip srows ∧ srows.length = b'.chains.length := by
    have hF := mapM_ok_iff.1 hps
    clear hps hperm
    generalize b'.chains = l at hF
    induction hF with
    | nil => exact ⟨[], rfl, rfl⟩
    | cons h _ ih =>
      obtain ⟨s, rfl, hs⟩ := ih
      obtain ⟨x, -, rfl⟩ := map_ok_iff.1 h
      exact ⟨x :: s, rfl, by simp [hs]⟩
  obtain ⟨srows, rfl, hsl⟩ := hzip
  have hb2 := mapM_pair.1 ⟨hps, hsl⟩
  rw [← rows_bare lib cfg hb truths errorbar b'.chains] at hb2
  obtain ⟨rows', hrows', rfl⟩ := map_ok_iff.1 hb2
  have hl1 : rows.length = b.chains.length := by simpa using hlen
  have hl2 : rows'.length = b'.chains.length := by simpa using hsl
  have hsr : (rows'.map (List.map bareCell)).Perm (rows.map (List.map bareCell)) := by
    have := hperm.map Prod.snd
    rwa [List.map_snd_zip (le_of_eq (by simpa using hl2)), List.map_snd_zip (le_of_eq (by simpa using hl1))] at this
  have htop : ∀ rs : List (List (List Call × Option ℝ)), (rs.flatMap fun r => List.zipWith (fun p cell => (p, cell.2)) b.columns r) =
      ((rs.map (List.map bareCell)).flatMap fun r => List.zipWith (fun p cell => (p, cell.2)) b.columns r) := by
    intro rs
    rw [List.flatMap_map]
    congr 1
    funext r
    rw [List.zipWith_map_right]
    rfl
  have hlims' : summaryLimits errorbar b'.columns (maxVals (rows'.flatMap fun r => List.zipWith (fun p cell => (p, cell.2)) b'.columns r)) = .ok lims := by
    rw [← hlims, hcol]
    unfold summaryLimits
    congr 1
    funext p
    rw [htop rows', htop rows, tops_order (hsr.flatMap_right _) p]
  have hwl : lims.length = b.columns.length := (mapM_ok_iff.1 hlims).length_eq.symm
  have hrl : ∀ (bb : PlottingBase) (rs : List (List (List Call × Option ℝ))), bb.columns = b.columns →
      (bb.chains.zipIdx.mapM fun ci => bb.columns.mapM fun p => summaryCell lib cfg bb truths errorbar ci.2 ci.1 p) = .ok rs →
      ∀ r ∈ rs, r.length = b.columns.length := by
    intro bb rs h1 h2 r hr
    obtain ⟨ci, -, h3⟩ := mapM_ok_mem_right h2 hr
    rw [← h1]
    exact (mapM_ok_iff.1 h3).length_eq.symm
  have key : ∀ (cs : List (Chain ℝ)) (rs : List (List (List Call × Option ℝ))), rs.length = cs.length → (∀ r ∈ rs, r.length = b.columns.length) →
      (∀ r ∈ (cs.zip rs).map fun cr => List.zipWith (· ++ ·) ([.axisOff, .text cr.1.name] :: cr.2.map Prod.fst) (lims ++ [[]]),
        r.length = b.columns.length + 1) ∧
      (((cs.zip rs).map fun cr => List.zipWith (· ++ ·) ([.axisOff, .text cr.1.name] :: cr.2.map Prod.fst) (lims ++ [[]])).map
        fun r => r.map (·.filter fun x => !ofRow x)) = ((cs.zip (rs.map (List.map bareCell))).map fun cr =>
          List.zipWith (fun (x y : List Call) => x ++ y.filter fun x => !ofRow x) ([.axisOff, .text cr.1.name] :: cr.2.map Prod.fst) (lims ++ [[]])) := by
    intro cs rs h1 h2
    constructor
    · intro r hr
      obtain ⟨cr, hcr, rfl⟩ := List.mem_map.1 hr
      have := h2 cr.2 (List.of_mem_zip (a := cr.1) (b := cr.2) hcr).2
      simp [hwl, this]
    · rw [List.zip_map_right, List.map_map, List.map_map]
      congr 1
      funext cr
      simp only [Function.comp, Prod.map, List.map_zipWith, List.filter_append, List.map_map, id]
      rw [show (Call.axisOff :: [Call.text cr.1.name]) :: cr.2.map (Prod.fst ∘ bareCell) =
        ([.axisOff, .text cr.1.name] :: cr.2.map Prod.fst).map (·.filter fun x => !ofRow x) by
          simp [bareCell, Function.comp, ofRow], List.zipWith_map_left]
  obtain ⟨q1, q2⟩ := key b.chains rows hl1 (hrl b rows rfl hrows)
  obtain ⟨q3, q4⟩ := key b'.chains rows' hl2 (hrl b' rows' hcol hrows')
  refine ⟨_, ⟨u, ?_, rows', hrows', lims, hlims', rfl⟩, b.columns.length + 1, _, _, q1, q3, ?_, ?_, ?_, rfl⟩
  · have : b'.chains.isEmpty = b.chains.isEmpty := by
      rw [Bool.eq_iff_iff, List.isEmpty_iff, List.isEmpty_iff, ← List.length_eq_zero_iff, hp.length_eq, List.length_eq_zero_iff]
    rw [hcol, this]
    exact hu
  · simp only [List.length_map, List.length_zip, hl1, min_self, List.flatMap_def]
  · simp only [List.length_map, List.length_zip, hl2, min_self, List.flatMap_def, hcol]
  · rw [q2, q4]
    exact hperm.map _

/-- **C133** (rows of `plot_summary`). A consumer to which the chains were added in another order draws the same summary plot of all chains and
given parameters, but for the order of the rows, for the titles above the first and for the tick labels below the last, whatever the colours. -/
theorem C133_rows (lib : Lib) (cfg : PlotConfig) (truths : List (Truth ℝ)) {h : Heap ℝ} {s s' : Consumer ℝ} (ho : OtherOrder s s')
    (columns : List String) (errorbar : Bool) {g : Fig} (hg : (do plotSummary lib cfg truths errorbar (← finalDict h s) .all (some columns)) = .ok g) :
    ∃ g', (do plotSummary lib cfg truths errorbar (← finalDict h s') .all (some columns)) = .ok g' ∧ RowsMoved g g' := by
  obtain ⟨d, hfd, hg⟩ := bind_ok_iff.1 hg
  obtain ⟨d', hfd', hp⟩ := final_order ho hfd
  rw [hfd']
  change ∃ g', plotSummary lib cfg truths errorbar d' .all (some columns) = .ok g' ∧ _
  have h4 : ∀ d, plotSummary lib cfg truths errorbar d .all (some columns) = plotSummary lib cfg truths errorbar (paled d) .all (some columns) := by
    intro d
    simp only [plotSummary, sanitise_pale, Res.bind_map, plotSummaryBase_pale]
  rw [h4] at hg ⊢
  obtain ⟨b, hb, h3⟩ := bind_ok_iff.1 hg
  obtain ⟨b', h5, h6, h7⟩ := sanitise_reorder hp cfg columns _ hb
  obtain ⟨g', h8, h9⟩ := summary_rows lib cfg h6 h7 truths errorbar h3
  exact ⟨g', bind_ok_iff.2 ⟨b', h5, h8⟩, h9⟩

/-- **C133, partial** (rows of `plot_summary`, default parameters). The same for the default parameters of chains that share their columns.
Missing: chains with different columns, see `C133_columns_violated`. -/
theorem C133_rows_default_partial (lib : Lib) (cfg : PlotConfig) (truths : List (Truth ℝ)) {h : Heap ℝ} {s s' : Consumer ℝ} (ho : OtherOrder s s')
    {d : List (String × Chain ℝ)} (hfd : finalDict h s = .ok d) {L : List String} (hL : ∀ e ∈ d, e.2.plottingColumns = L) (errorbar : Bool)
    {g : Fig} (hg : plotSummary lib cfg truths errorbar d .all none = .ok g) :
    ∃ g', (do plotSummary lib cfg truths errorbar (← finalDict h s') .all none) = .ok g' ∧ RowsMoved g g' := by
  obtain ⟨d', hfd', hp⟩ := final_order ho hfd
  have he := default_order hp hL
  have h1 : plotSummary lib cfg truths errorbar d' .all none = plotSummary lib cfg truths errorbar d' .all
      (some (sanitiseColumns none ((d.map Prod.snd).filter fun c => !c.skip))) := by
    rw [← he]; rfl
  obtain ⟨g', k1, k2⟩ := C133_rows lib cfg truths ho (sanitiseColumns none ((d.map Prod.snd).filter fun c => !c.skip)) errorbar
    (g := g) (by rw [hfd]; exact hg)
  rw [hfd'] at k1 ⊢
  exact ⟨g', h1.trans k1, k2⟩

/-- Non-vacuity: two chains with automatic colours, added in either order, and a truth of a parameter only given as such: the names of the
chains stand in different rows, and beside either there is a panel with the truth. -/
example (lib : Lib) : ∃ (h : Heap ℝ) (s s' : Consumer ℝ) (cfg : PlotConfig) (truths : List (Truth ℝ)) (g g' : Fig), s'.chains ≠ s.chains ∧
    OtherOrder s s' ∧ (do plotSummary lib cfg truths true (← finalDict h s) .all (some ["t"])) = .ok g ∧
    (do plotSummary lib cfg truths true (← finalDict h s') .all (some ["t"])) = .ok g' ∧ RowsMoved g g' ∧
    ∃ kw name name' cell cell', g.panels = [((0, 0), name), ((0, 1), cell), ((1, 0), name'), ((1, 1), cell')] ∧
      .text "x" ∈ name ∧ .text "y" ∈ name' ∧ .vline 3 kw ∈ cell ∧ .vline 3 kw ∈ cell' := by
  have mk : ∀ name : String, ∃ c : Chain ℝ, c.name = name ∧ ∀ v : Cfg ℝ, v .plotContour = c.cfg .plotContour →
      v .plotCloud = c.cfg .plotCloud → (c.withCfg v).skip = false ∧ "t" ∉ (c.withCfg v).dataColumns := by
    intro name
    obtain ⟨c, -, hsam, hwc, hpc, -, -, -, hname, hcfg⟩ := plain_chain_cfg (K := ℝ) false
      [⟨.plotContour, false⟩, ⟨.plotCloud, true⟩] rfl
      (by change (0 : ℝ) ≤ 6827 / 10000 ∧ (6827 / 10000 : ℝ) ≤ 1; constructor <;> norm_num)
      (by change (1 : ℝ) ≤ 10; norm_num) rfl rfl (by intro h; cases h) rowFrame ⟨by decide, by simp [rowFrame]⟩
      (by simp [rowFrame]) (w := [1]) rfl (by simp) name 1 le_rfl (one_dvd _)
    refine ⟨c, hname, fun v h1 h2 => ?_⟩
    have k1 : (c.withCfg v).cfg .plotCloud = true := h2.trans (by rw [hcfg]; rfl)
    have hem : (c.withCfg v).samples.empty = false := by change c.samples.empty = false; rw [hsam]; rfl
    refine ⟨by simp [Chain.skip, k1, hem], ?_⟩
    change "t" ∉ c.dataColumns
    rw [Chain.dataColumns, hsam, hwc, hpc, show rowFrame.columns = ["a", "b", "weight", "log_posterior"] from rfl]
    decide
  obtain ⟨c, c1, hc⟩ := mk "x"
  obtain ⟨d, d1, hd⟩ := mk "y"
  set s : Consumer ℝ := { chains := [("x", 0), ("y", 1)] } with hs
  set s' : Consumer ℝ := { chains := [("y", 1), ("x", 0)] } with hs'
  have ho : OtherOrder s s' := ⟨.swap _ _ _, rfl⟩
  set cfg : PlotConfig := { extents := [("t", 0, 10)] } with hcfg
  have hco : chainsOf [c, d] s = [c, d] := by simp [chainsOf, copyChains, hs]
  obtain ⟨v, w, hfd, ⟨v1, v2⟩, w1, w2⟩ : ∃ v w, finalDict [c, d] s = .ok [("x", c.withCfg v), ("y", d.withCfg w)] ∧
      ((c.withCfg v).skip = false ∧ "t" ∉ (c.withCfg v).dataColumns) ∧ (d.withCfg w).skip = false ∧ "t" ∉ (d.withCfg w).dataColumns := by
    rw [finalDict_eq _ _ (by rw [hco]; exact le_trans (List.length_filter_le _ _) (by simp)), hco]
    simp only [resolvedChains, copyChains, hs]
    exact ⟨_, _, rfl, hc _ (resolved_own _ _ _ _ _ rfl) (resolved_own _ _ _ _ _ rfl),
      hd _ (resolved_own _ _ _ _ _ rfl) (resolved_own _ _ _ _ _ rfl)⟩
  have n1 : (c.withCfg v).name = "x" := c1
  have n2 : (d.withCfg w).name = "y" := d1
  let t : Truth ℝ := { location := [("t", 3)], lineWidth := 1, alpha := 1, markerSize := 1, markerEdgeWidth := 1 }
  have ht : t.location.lookup "t" = some 3 := rfl
  have hg : ∃ (g : Fig) (name name' cell cell' : List Call), (do plotSummary lib cfg [t] true (← finalDict [c, d] s) .all (some ["t"])) = .ok g ∧
      g.panels = [((0, 0), name), ((0, 1), cell), ((1, 0), name'), ((1, 1), cell')] ∧
      .text "x" ∈ name ∧ .text "y" ∈ name' ∧ .vline 3 t.kwargs ∈ cell ∧ .vline 3 t.kwargs ∈ cell' := by
    rw [hfd]
    simp [plotSummary, plotSummaryBase, sanitise, plotChains, v1, w1, v2, w2, n1, n2, sanitiseColumns, customExtents, hcfg, summaryCell,
      summaryContent, summaryTruth, ht, summaryLimits, setLim, ensure, bind, Except.bind, pure, Except.pure, List.lookup, gridPanels,
      show List.range 2 = [0, 1] from rfl]
  obtain ⟨g, name, name', cell, cell', hg, rest⟩ := hg
  obtain ⟨g', hg', hr⟩ := C133_rows lib cfg [t] ho ["t"] true hg
  exact ⟨[c, d], s, s', cfg, _, g, g', by simp [hs, hs'], ho, hg, hg', hr, t.kwargs, name, name', cell, cell', rest⟩

/-- Non-vacuity of `C133_rows_default_partial`: two grids with the column `a` and automatic colours, added in either order, with curves. -/
example (lib : Lib) : ∃ (h : Heap ℝ) (s s' : Consumer ℝ) (d : List (String × Chain ℝ)) (cfg : PlotConfig) (g g' : Fig), s'.chains ≠ s.chains ∧
    OtherOrder s s' ∧ finalDict h s = .ok d ∧ (∀ e ∈ d, e.2.plottingColumns = ["a"]) ∧ plotSummary lib cfg [] false d .all none = .ok g ∧
    (do plotSummary lib cfg [] false (← finalDict h s') .all none) = .ok g' ∧ RowsMoved g g' ∧
    ∃ n1 n2 c1 c2, g.panels = [((0, 0), n1), ((0, 1), c1), ((1, 0), n2), ((1, 1), c2)] ∧
      .marginal "x" "a" false [0, 1] [1 / 2, 1 / 2] ∈ c1 ∧ .marginal "y" "a" false [0, 1] [1 / 2, 1 / 2] ∈ c2 := by
  have mk : ∀ name : String, ∃ c : Chain ℝ, ∀ v : Cfg ℝ, v .plotContour = c.cfg .plotContour → v .plotCloud = c.cfg .plotCloud →
      v .colorParam = c.cfg .colorParam → v .kde = c.cfg .kde → v .smooth = c.cfg .smooth → v .barShade = false →
      (c.withCfg v).skip = false ∧ (c.withCfg v).plottingColumns = ["a"] ∧ (c.withCfg v).dataColumns = ["a"] ∧
      ∀ cfg, plotBars lib cfg "a" (c.withCfg v) false false = .ok ([.marginal name "a" false [0, 1] [1 / 2, 1 / 2]], 1 / 2) := by
    intro name
    obtain ⟨c, hc⟩ : ∃ c, DemoChain c singleFrame name true barKw :=
      demoChain_exists _ singleFrame_wf (by simp [singleFrame]) (w := [1, 1]) rfl (by simp) _ _ _ (.inl rfl)
    refine ⟨c, fun v h1 h2 h3 h4 h5 h6 => ?_⟩
    have k1 : (c.withCfg v).cfg .plotCloud = false := h2.trans (by rw [hc.cfg]; rfl)
    have k2 : (c.withCfg v).cfg .plotContour = true := h1.trans (by rw [hc.cfg]; rfl)
    have k3 : (c.withCfg v).cfg .colorParam = none := h3.trans (by rw [hc.cfg]; rfl)
    have hem : (c.withCfg v).samples.empty = false := by change c.samples.empty = false; rw [hc.samples]; rfl
    have hd : (c.withCfg v).dataColumns = ["a"] := by
      change c.dataColumns = _
      rw [Chain.dataColumns, hc.samples, hc.weight, hc.posterior, show singleFrame.columns = ["a", "weight"] from rfl]
      decide
    refine ⟨by simp [Chain.skip, k2, hem], ?_, hd, fun cfg => ?_⟩
    · rw [Chain.plottingColumns, hd, k3, k1]
      decide
    · have hb := demo_bars hc lib cfg one_pos (col := "a") rfl rfl false false
      have e1 : (c.withCfg v).smoothValue = c.smoothValue := by
        simp only [Chain.smoothValue, show (c.withCfg v).cfg .smooth = c.cfg .smooth from h5]
        rfl
      have e2 : ∀ data w, marginalBins (c.withCfg v) data w false = marginalBins c data w false := by
        intro data w
        have g1 : (c.withCfg v).grid = true := hc.grid
        simp [marginalBins, g1, hc.grid]
      have e3 : barData lib (c.withCfg v) "a" = barData lib c "a" := by
        have z1 : c.smoothValue = 0 := by
          have : c.cfg .smooth = none := by rw [hc.cfg]; rfl
          simp only [Chain.smoothValue, this, hc.grid, if_true]
        have z2 : (c.cfg .kde : ℝ) = 0 := by rw [hc.cfg]; rfl
        have z3 : ((c.withCfg v).cfg .kde : ℝ) = 0 := Eq.trans h4 z2
        unfold barData
        rw [if_neg (by rw [e1, z1, z3]; simp), if_neg (by rw [z1, z2]; simp)]
        simp only [e2]
        rfl
      have e4 : ∀ xs, barShadeIf lib cfg (c.withCfg v) "a" xs false false = barShadeIf lib cfg c "a" xs false false := by
        intro xs
        have z1 : (c.withCfg v).cfg .barShade = false := h6
        have z2 : c.cfg .barShade = false := by rw [hc.cfg]; rfl
        simp [barShadeIf, z1, z2]
      have : plotBars lib cfg "a" (c.withCfg v) false false = plotBars lib cfg "a" c false false := by
        simp only [plotBars, e3, e4]
        rfl
      rw [this, hb]
      norm_num
  obtain ⟨c, hc⟩ := mk "x"
  obtain ⟨d, hd⟩ := mk "y"
  have own : ∀ (o : Config ℝ) (user : List Key) (n : Nat) (c : Cfg ℝ) (col : String) (k : Key), o.userSet = [.barShade] → k ≠ .barShade →
      Spec.auto n c col k = none → Spec.resolved (some o) user n c col k = c k := by
    intro o user n c col k h1 h2 h3
    unfold Spec.resolved
    simp [h1, h2, h3]
  have set1 : ∀ (o : Config ℝ) (user : List Key) (n : Nat) (c : Cfg ℝ) (col : String), o.userSet = [.barShade] →
      Spec.resolved (some o) user n c col .barShade = o.vals .barShade := by
    intro o user n c col h1
    unfold Spec.resolved
    simp [h1]
  obtain ⟨o, ho1, ho2⟩ : ∃ o : Config ℝ, o.userSet = [.barShade] ∧ o.vals .barShade = false :=
    ⟨{ vals := (Cfg.default ℝ).set ⟨.barShade, false⟩, userSet := [.barShade] }, rfl, rfl⟩
  set s : Consumer ℝ := { chains := [("x", 0), ("y", 1)], override := some o } with hs
  set s' : Consumer ℝ := { chains := [("y", 1), ("x", 0)], override := some o } with hs'
  have ho : OtherOrder s s' := ⟨.swap _ _ _, rfl⟩
  set cfg : PlotConfig := { extents := [("a", 0, 1)] } with hcfg
  have hco : chainsOf [c, d] s = [c, d] := by simp [chainsOf, copyChains, hs]
  obtain ⟨v, w, hfd, ⟨v1, v2, v3, v4⟩, w1, w2, w3, w4⟩ : ∃ v w, finalDict [c, d] s = .ok [("x", c.withCfg v), ("y", d.withCfg w)] ∧
      ((c.withCfg v).skip = false ∧ (c.withCfg v).plottingColumns = ["a"] ∧ (c.withCfg v).dataColumns = ["a"] ∧
      ∀ cfg, plotBars lib cfg "a" (c.withCfg v) false false = .ok ([.marginal "x" "a" false [0, 1] [1 / 2, 1 / 2]], 1 / 2)) ∧
      (d.withCfg w).skip = false ∧ (d.withCfg w).plottingColumns = ["a"] ∧ (d.withCfg w).dataColumns = ["a"] ∧
      ∀ cfg, plotBars lib cfg "a" (d.withCfg w) false false = .ok ([.marginal "y" "a" false [0, 1] [1 / 2, 1 / 2]], 1 / 2) := by
    rw [finalDict_eq _ _ (by rw [hco]; exact le_trans (List.length_filter_le _ _) (by simp)), hco]
    simp only [resolvedChains, copyChains, hs]
    refine ⟨_, _, rfl, hc _ ?_ ?_ ?_ ?_ ?_ ?_, hd _ ?_ ?_ ?_ ?_ ?_ ?_⟩
    all_goals first
      | exact own _ _ _ _ _ _ ho1 (by simp) rfl
      | exact (set1 _ _ _ _ _ ho1).trans ho2
  have n1 : ∀ x : ℝ, maxVals [("a", some x), ("a", some x)] = [("a", x)] := by
    intro x
    simp [maxVals, maxValsStep, dictSet, List.lookup]
  have hg : ∃ (g : Fig) (n1 n2 c1 c2 : List Call), plotSummary lib cfg [] false [("x", c.withCfg v), ("y", d.withCfg w)] .all none = .ok g ∧
      g.panels = [((0, 0), n1), ((0, 1), c1), ((1, 0), n2), ((1, 1), c2)] ∧
      .marginal "x" "a" false [0, 1] [1 / 2, 1 / 2] ∈ c1 ∧ .marginal "y" "a" false [0, 1] [1 / 2, 1 / 2] ∈ c2 := by
    simp [plotSummary, plotSummaryBase, sanitise, plotChains, v1, w1, v2, w2, v3, w3, v4, w4, n1, sanitiseColumns, customExtents, hcfg,
      summaryCell, summaryContent, summaryLimits, setLim, ensure, bind, Except.bind, pure, Except.pure, List.lookup, gridPanels,
      show List.range 2 = [0, 1] from rfl]
  obtain ⟨g, a1, a2, a3, a4, hg, rest⟩ := hg
  have hL : ∀ e ∈ [("x", c.withCfg v), ("y", d.withCfg w)], e.2.plottingColumns = ["a"] := by simp [v2, w2]
  obtain ⟨g', hg', hr⟩ := C133_rows_default_partial lib cfg [] ho hfd hL false hg
  exact ⟨[c, d], s, s', _, cfg, g, g', by simp [hs, hs'], ho, hfd, hL, hg, hg', hr, a1, a2, a3, a4, rest⟩

end CC
