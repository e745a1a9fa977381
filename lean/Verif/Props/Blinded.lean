import Verif.Props.SummaryScale

/-! # C57: blinded parameters -/

namespace CC
open Spec

/-- No tick labels, except perhaps minor ones on a logarithmic axis. -/
def Spec.NoMajor (d : Dir) (log : Prop) (calls : List Call) : Prop :=
  (ticks d calls).major = false ∧ (¬ log → ticks d calls = ⟨false, false⟩)

theorem axisCalls_ticks (cfg : PlotConfig) (blind : List String) (d : Dir) (p : String) (log shown : Bool) (hp : p ∈ blind) :
    ticks d (axisCalls cfg blind d p log shown) = ⟨false, log⟩ := by
  unfold axisCalls ticks
  cases log <;> cases shown <;> simp [hp, Ticks.step]

theorem axisCalls_other (cfg : PlotConfig) (blind : List String) (d e : Dir) (hde : d ≠ e) (p : String) (log shown : Bool) (t : Ticks) :
    (axisCalls cfg blind d p log shown).foldl (Ticks.step e) t = t := by
  unfold axisCalls
  by_cases hb : p ∈ blind <;> cases log <;> cases shown <;> simp [hb, Ticks.step, hde]

theorem axisCalls_titles (cfg : PlotConfig) (blind : List String) (d : Dir) (p : String) (log shown : Bool) :
    titles (axisCalls cfg blind d p log shown) = [] := by
  unfold axisCalls titles
  by_cases hb : p ∈ blind <;> cases log <;> cases shown <;> simp [hb]

theorem trianglePanel_ticks {cfg : PlotConfig} {b : PlottingBase} {n i j : Nat} {p1 p2 : String} {s : List Call}
    (h : trianglePanel cfg b n i j p1 p2 = .ok s) (hij : j ≤ i) :
    (p2 ∈ b.blind → ticks .x s = ⟨false, (logAxes cfg b.logScales n j p1 p2).1⟩) ∧
    (p1 ∈ b.blind → ticks .y s = ⟨false, (logAxes cfg b.logScales n j p1 p2).2⟩) ∧ titles s = [] := by
  unfold trianglePanel at h
  rw [if_neg (by omega)] at h
  simp only [bind_ok_iff, pure_ok_iff] at h
  obtain ⟨ylim, hy, xlim, hx, rfl⟩ := h
  obtain ⟨lo, hi, rfl, -⟩ := setLim_setup hx
  have hyl : ylim = [] ∨ ∃ lo hi, ylim = [.lim .y lo hi] := by
    unfold triangleYlim at hy
    split at hy
    · simp only [bind_ok_iff, pure_ok_iff] at hy
      obtain ⟨_, hy, rfl⟩ := hy
      obtain ⟨lo, hi, rfl, -⟩ := setLim_setup hy
      exact .inr ⟨lo, hi, rfl⟩
    · cases hy; exact .inl rfl
  have hk : ∀ d t, (ylim ++ [Call.lim .x lo hi]).foldl (Ticks.step d) t = t := by
    intro d t
    rcases hyl with rfl | ⟨lo, hi, rfl⟩ <;> rfl
  have hkt : titles (ylim ++ [Call.lim .x lo hi]) = [] := by
    rcases hyl with rfl | ⟨lo, hi, rfl⟩ <;> rfl
  rw [List.append_assoc]
  refine ⟨fun hp => ?_, fun hp => ?_, ?_⟩
  · rw [ticks_append, hk, ticks_append, axisCalls_other _ _ _ _ (by decide), axisCalls_ticks _ _ _ _ _ _ hp]
  · rw [ticks_append, hk]
    have : ticks .y (axisCalls cfg b.blind .x p2 (logAxes cfg b.logScales n j p1 p2).1 (bottomTicks cfg n i j)) = ⟨true, false⟩ :=
      axisCalls_other _ _ _ _ (by decide) _ _ _ _
    rw [ticks_append, this]
    exact axisCalls_ticks _ _ _ _ _ _ hp
  · rw [titles_append, titles_append, hkt, axisCalls_titles, axisCalls_titles]; rfl

theorem logAxes_of_not {cfg : PlotConfig} {l : List String} {n j : Nat} {p1 p2 : String} :
    (p2 ∉ l → (logAxes cfg l n j p1 p2).1 = false) ∧ (p1 ∉ l → (logAxes cfg l n j p1 p2).2 = false) := by
  unfold logAxes
  by_cases hp : p1 = p2
  · subst hp
    rw [if_pos rfl]
    constructor <;> intro h <;> rw [if_neg h]
  · rw [if_neg hp]
    exact ⟨fun h => decide_eq_false h, fun h => decide_eq_false h⟩

theorem noMajor_of {d : Dir} {log : Prop} {calls : List Call} {l : Bool} (h : ticks d calls = ⟨false, l⟩) (hl : ¬ log → l = false) :
    NoMajor d log calls := ⟨by rw [h], fun hn => by rw [h, hl hn]⟩

/-- **C57** for `plot`: no tick labels (on a logarithmic axis: no major ones) along a blinded parameter, and no title
on its histogram. -/
theorem C57_plot_partial {lib : Lib} {cfg : PlotConfig} {truths : List (Truth ℝ)} {b : PlottingBase} {fig : Fig}
    (h : plotBase lib cfg truths b = .ok fig) {i j : Nat} {calls : List Call} (hc : ((i, j), calls) ∈ fig.panels) :
    let k := if cfg.plotHists then 0 else 1
    (i < j → ticks .x calls = ⟨false, false⟩ ∧ ticks .y calls = ⟨false, false⟩ ∧ titles calls = []) ∧
    (j < i + k → ∀ (px py : String), b.columns[j]? = some px → b.columns[i + k]? = some py →
      (px ∈ b.blind → NoMajor .x (px ∈ b.logScales) calls) ∧ (py ∈ b.blind → NoMajor .y (py ∈ b.logScales) calls) ∧
      titles calls = []) ∧
    (cfg.plotHists = true → i = j → ∀ p : String, b.columns[i]? = some p → p ∈ b.blind →
      NoMajor .x (p ∈ b.logScales) calls ∧ NoMajor .y (p ∈ b.logScales) calls ∧ titles calls = []) := by
  intro k
  obtain ⟨-, -, hcase⟩ := plot_cases h hc
  have hkk : (if cfg.plotHists = true then 0 else 1) = k := rfl
  rw [hkk] at hcase
  rcases hcase with ⟨hij, rfl⟩ | ⟨hij, hle, px, py, s, d, bars, hx, hy, hs, hd, rfl⟩ | ⟨hh, rfl, p, s, r, hp, hs, hr, rfl⟩
  · have hk1 : k = 0 ∨ k = 1 := by
      change (if cfg.plotHists then 0 else 1) = 0 ∨ (if cfg.plotHists then 0 else 1) = 1
      cases cfg.plotHists <;> simp
    refine ⟨fun _ => ⟨rfl, rfl, rfl⟩, fun h => by omega, fun _ h => by omega⟩
  · refine ⟨fun h => by omega, fun _ px' py' hx' hy' => ?_, fun hh e => ?_⟩
    · cases hx.symm.trans hx'
      cases hy.symm.trans hy'
      obtain ⟨t1, t2, t3⟩ := trianglePanel_ticks hs hle
      have hkeep : ∀ e t, (d ++ plotTruths lib.filled truths (some px) (some py)).foldl (Ticks.step e) t = t := by
        intro e t
        rw [List.foldl_append, foldl_keeps (plotSurface_items hd).2.2.1, foldl_keeps (plotTruths_keeps ..).1]
      refine ⟨fun hb => noMajor_of (l := _) (by rw [ticks_append, hkeep]; exact t1 hb) logAxes_of_not.1,
        fun hb => noMajor_of (l := _) (by rw [ticks_append, hkeep]; exact t2 hb) logAxes_of_not.2, ?_⟩
      rw [titles_append, titles_append, t3, (plotSurface_items hd).2.2.2, (plotTruths_keeps ..).2]; rfl
    · have : k = 0 := if_pos hh
      omega
  · have hk0 : k = 0 := if_pos hh
    refine ⟨fun h => by omega, fun h => by omega, fun _ _ p' hp' hb => ?_⟩
    cases hp.symm.trans hp'
    obtain ⟨t1, t2, t3⟩ := trianglePanel_ticks hs le_rfl
    obtain ⟨-, -, g3, g4⟩ := histChains_items (calls := r.1) (m' := r.2) hr
    have ht : ∀ f, (∀ c ∈ histTruths lib truths f p, keepsTicks c) ∧ titles (histTruths lib truths f p) = [] := by
      intro f
      unfold histTruths
      cases f
      · exact plotTruths_keeps ..
      · exact plotTruths_keeps ..
    generalize (cfg.flip && decide (b.columns.length = 2 ∧ i = 1)) = f at *
    have hkeep : ∀ e t, (histTruths lib truths f p ++ r.1 ++ topLim f r.2).foldl (Ticks.step e) t = t := by
      intro e t
      rw [List.foldl_append, List.foldl_append, foldl_keeps (ht _).1, foldl_keeps g3,
        foldl_keeps fun c hc => ((topLim_setup _ _).1 c hc).2]
    refine ⟨noMajor_of (l := _) (by rw [ticks_append, hkeep]; exact t1 hb) logAxes_of_not.1,
      noMajor_of (l := _) (by rw [ticks_append, hkeep]; exact t2 hb) logAxes_of_not.2, ?_⟩
    rw [titles_append, titles_append, titles_append, t3, (ht _).2, g4 (by simp [hb]), (topLim_setup _ _).2]; rfl

/-- **C57** for `plot_walks`. -/
theorem C57_walks_partial {cfg : PlotConfig} {truths : List (Truth ℝ)} {pw pp lw : Bool} {b : PlottingBase} {fig : Fig}
    (h : plotWalksBase cfg truths pw pp lw b = .ok fig) {i j : Nat} {calls : List Call} (hc : ((i, j), calls) ∈ fig.panels) :
    let e := (if pp = true ∧ ∃ c ∈ b.chains, c.logPosterior.isSome = true then 1 else 0) + (if pw then 1 else 0)
    e ≤ i → ∃ p, b.columns[i - e]? = some p ∧ titles calls = [] ∧ (p ∈ b.blind → NoMajor .y (p ∈ b.logScales) calls) := by
  intro e hi
  obtain ⟨p, hp, hw⟩ := walks_panel h hc hi
  obtain ⟨-, -, h3, h4, h5⟩ := walkPanel_setup hw
  refine ⟨p, hp, h3, fun hb => ?_⟩
  obtain ⟨pre, hpre⟩ := h5 hb
  have hm : (ticks .y calls).major = false := by rw [hpre]; exact ticks_removed pre (post := []) (by simp)
  refine ⟨hm, fun hl => ?_⟩
  have := ticks_noLog (h4 hl)
  generalize ticks .y calls = t at *
  obtain ⟨a, c⟩ := t
  simp only at hm this
  rw [hm, this]

/-- **C57** for `plot_distributions`. -/
theorem C57_distributions_partial {lib : Lib} {cfg : PlotConfig} {truths : List (Truth ℝ)} {colWrap : Nat} {b : PlottingBase}
    {fig : Fig} (h : plotDistributionsBase lib cfg truths colWrap b = .ok fig) {i j : Nat} {calls : List Call}
    (hc : ((i, j), calls) ∈ fig.panels) {p : String} (hp : b.columns[i * min b.columns.length colWrap + j]? = some p)
    (hb : p ∈ b.blind) :
    titles calls = [] ∧ ticks .x calls = ⟨false, decide (p ∈ b.logScales)⟩ := by
  obtain ⟨-, -, hpan, -⟩ := distributions_panels h
  obtain ⟨-, ⟨h1, rfl⟩ | ⟨h1, h2⟩⟩ := hpan _ _ hc
  · have := (List.getElem?_eq_some_iff.1 hp).1
    simp only at h1
    omega
  · simp only at h1 h2
    rw [List.getD_eq_getElem?_getD, hp] at h2
    obtain ⟨-, h3⟩ := distPanel_setup h2
    obtain ⟨h4, h5, h6⟩ := h3 hb
    refine ⟨h4, ?_⟩
    simp only [Option.getD_some] at h6
    generalize ticks .x calls = t at *
    obtain ⟨a, c⟩ := t
    simp only at h5 h6
    rw [h5, h6]

/-- **C57** for `plot_summary`: without a logarithmic scale there are no tick labels; with one there are, in every row
(the scale is set after the ticks are removed). The only title is the name of the parameter, in the first row. -/
theorem C57_summary_partial {lib : Lib} {cfg : PlotConfig} {truths : List (Truth ℝ)} {errorbar : Bool} {b : PlottingBase} {fig : Fig}
    (h : plotSummaryBase lib cfg truths errorbar b = .ok fig) {i j : Nat} {calls : List Call} (hc : ((i, j), calls) ∈ fig.panels)
    {k : Nat} (hj : j = k + 1) : ∃ p, b.columns[k]? = some p ∧
      titles calls = (if i = 0 then [getLabel cfg.labels p] else []) ∧
      (p ∈ b.blind → p ∉ b.logScales → ticks .x calls = ⟨false, false⟩) ∧
      (p ∈ b.logScales → ticks .x calls = ⟨true, true⟩) := by
  obtain ⟨c, l, -, hl, hcase⟩ := summary_cell h hc
  rcases hcase with ⟨rfl, rfl⟩ | ⟨k', p, cell, rfl, hp, hcell, rfl⟩
  · omega
  · obtain rfl : k' = k := by omega
    have hkeep : ∀ t, l.foldl (Ticks.step .x) t = t := by
      intro t
      rcases hl with rfl | ⟨m, rfl⟩ <;> rfl
    have htl : titles l = [] := by
      rcases hl with rfl | ⟨m, rfl⟩ <;> rfl
    obtain ⟨-, h2, h3⟩ := summaryCell_setup hcell
    refine ⟨p, hp, by rw [titles_append, htl, h2, List.append_nil], ?_, ?_⟩
    · intro hb hn
      rw [ticks_append, hkeep, h3, if_neg hn]
      simp [hb]
    · intro hb
      rw [ticks_append, hkeep, h3, if_pos hb]

/-- `plot_summary` violates **C57**: a blinded parameter on a logarithmic scale keeps its tick labels in every row, and so
the values are shown. -/
theorem C57_violated_summary {lib : Lib} {cfg : PlotConfig} {truths : List (Truth ℝ)} {errorbar : Bool} {b : PlottingBase}
    {fig : Fig} (h : plotSummaryBase lib cfg truths errorbar b = .ok fig) {i k : Nat} {calls : List Call}
    (hc : ((i, k + 1), calls) ∈ fig.panels) {p : String} (hp : b.columns[k]? = some p) (_ : p ∈ b.blind)
    (hl : p ∈ b.logScales) : (ticks .x calls).major = true ∧ ¬ NoMajor .x (p ∈ b.logScales) calls := by
  obtain ⟨q, hq, -, -, h4⟩ := C57_summary_partial h hc rfl
  cases hp.symm.trans hq
  unfold NoMajor
  rw [h4 hl]
  exact ⟨rfl, fun h => absurd h.1 (by decide)⟩

/-- `plot_distributions` violates **C57** in the minor ticks: those of a logarithmic axis stay. -/
theorem C57_violated_minor {lib : Lib} {cfg : PlotConfig} {truths : List (Truth ℝ)} {colWrap : Nat} {b : PlottingBase}
    {fig : Fig} (h : plotDistributionsBase lib cfg truths colWrap b = .ok fig) {i j : Nat} {calls : List Call}
    (hc : ((i, j), calls) ∈ fig.panels) {p : String} (hp : b.columns[i * min b.columns.length colWrap + j]? = some p)
    (hb : p ∈ b.blind) (hl : p ∈ b.logScales) : ticks .x calls = ⟨false, true⟩ := by
  rw [(C57_distributions_partial h hc hp hb).2, decide_eq_true hl]

/-- `plot` violates **C57** in the colour bars: there is one for every colour parameter, blinded or not. -/
theorem C57_violated_colourbar {lib : Lib} {cfg : PlotConfig} {truths : List (Truth ℝ)} {b : PlottingBase} {fig : Fig}
    (h : plotBase lib cfg truths b = .ok fig) {c : Chain ℝ} (hc : c ∈ b.chains) (hcl : (c.cfg .plotCloud : Bool) = true)
    {p : String} (hcp : c.cfg .colorParam = some p) {i j : Nat} (hij : j < i) {px py : String} (hx : b.columns[j]? = some px)
    (hy : b.columns[i]? = some py) (hpx : px ∈ c.plottingColumns) (hpy : py ∈ c.plottingColumns) : p ∈ fig.colorbars := by
  unfold plotBase at h
  simp only at h
  rw [bind_ok_iff] at h
  obtain ⟨_, -, h⟩ := h
  rw [bind_ok_iff] at h
  obtain ⟨setup, -, h⟩ := h
  rw [bind_ok_iff] at h
  obtain ⟨draws, hd, h⟩ := h
  cases pure_ok_iff.1 h
  rw [List.mem_reverse, List.mem_dedup, List.mem_reverse, List.mem_flatMap]
  have hi := (List.getElem?_eq_some_iff.1 hy).1
  set k := if cfg.plotHists then 0 else 1 with hk
  have hpan : ∃ i', (i', j) ∈ gridPanels (if cfg.plotHists = true then b.columns else b.columns.tail).length
      (if cfg.plotHists = true then b.columns else b.columns.dropLast).length ∧ ¬ i' < j ∧
      (cfg.plotHists && decide (i' = j)) = false ∧
      (if cfg.plotHists = true then b.columns else b.columns.tail).getD i' "" = py ∧
      (if cfg.plotHists = true then b.columns else b.columns.dropLast).getD j "" = px := by
    cases hh : cfg.plotHists
    · refine ⟨i - 1, mem_gridPanels.2 ⟨?_, ?_⟩, by omega, rfl, ?_, ?_⟩
      · simp; omega
      · simp; omega
      · obtain ⟨m, rfl⟩ : ∃ m, i = m + 1 := ⟨i - 1, by omega⟩
        simp [List.getElem?_tail, hy]
      · simp only [Bool.false_eq_true, if_false]
        rw [List.getD_eq_getElem?_getD, List.getElem?_dropLast, if_pos (by omega), hx, Option.getD_some]
    · refine ⟨i, mem_gridPanels.2 ⟨?_, ?_⟩, by omega, by simp; omega, ?_, ?_⟩
      · simpa using hi
      · simp; omega
      · simp [List.getD_eq_getElem?_getD, hy]
      · simp [List.getD_eq_getElem?_getD, hx]
  obtain ⟨i', hm, hlt, hne, e1, e2⟩ := hpan
  obtain ⟨d, hdm, hdd⟩ := mapM_ok_mem hd hm
  refine ⟨d, hdm, ?_⟩
  simp only [e1, e2, drawPanel, if_neg hlt, hne, Bool.false_eq_true, if_false] at hdd
  rw [bind_ok_iff] at hdd
  obtain ⟨⟨calls, bars⟩, hs, hdd⟩ := hdd
  cases pure_ok_iff.1 hdd
  unfold plotSurface at hs
  rw [bind_ok_iff] at hs
  obtain ⟨rs, hrs, hs⟩ := hs
  cases pure_ok_iff.1 hs
  obtain ⟨r, hr, hsc⟩ := mapM_ok_mem hrs hc
  refine List.mem_flatMap.2 ⟨r, hr, ?_⟩
  unfold surfaceChain at hsc
  rw [if_neg (by simp [hpx, hpy]), bind_ok_iff] at hsc
  obtain ⟨cl, hcl', hsc⟩ := hsc
  rw [bind_ok_iff] at hsc
  obtain ⟨_, -, hsc⟩ := hsc
  rw [bind_ok_iff] at hsc
  obtain ⟨_, -, hsc⟩ := hsc
  cases pure_ok_iff.1 hsc
  unfold cloudCalls at hcl'
  rw [if_pos hcl, bind_ok_iff] at hcl'
  obtain ⟨pc, hpc, hcl'⟩ := hcl'
  cases pure_ok_iff.1 hcl'
  unfold plotCloud at hpc
  rw [bind_ok_iff] at hpc
  obtain ⟨_, -, hpc⟩ := hpc
  rw [bind_ok_iff] at hpc
  obtain ⟨_, -, hpc⟩ := hpc
  rw [bind_ok_iff] at hpc
  obtain ⟨_, -, hpc⟩ := hpc
  rw [bind_ok_iff] at hpc
  obtain ⟨_, -, hpc⟩ := hpc
  cases pure_ok_iff.1 hpc
  simp [hcp]

/-- `a` blinded and on a logarithmic scale. -/
noncomputable def blindBase (cs : List (Chain ℝ)) : PlottingBase := { demoBase cs with blind := ["a", "z"], logScales := ["a"] }

/-- A figure of `plot_summary` with the tick labels of a blinded parameter. -/
example (lib : Lib) : ∃ (b : PlottingBase) (fig : Fig) (calls : List Call), plotSummaryBase lib {} [] false b = .ok fig ∧
    ((0, 1), calls) ∈ fig.panels ∧ b.columns[0]? = some "a" ∧ "a" ∈ b.blind ∧ (ticks .x calls).major = true := by
  obtain ⟨c, hc⟩ := gridPair_exists
  have hp := demo_dataColumns hc
  have h1 : ∃ r, summaryCell lib {} (blindBase [c]) [] false 0 c "a" = .ok (r, some (1 / 2)) := by
    simp [summaryCell, summaryContent, hp, (demo_pair_bars lib hc false false).1, bind, Except.bind, pure, Except.pure,
      setLim, blindBase, demoBase]
  have h2 : ∃ r, summaryCell lib {} (blindBase [c]) [] false 0 c "b" = .ok (r, some (1 / 20)) := by
    simp [summaryCell, summaryContent, hp, (demo_pair_bars lib hc false false).2, bind, Except.bind, pure, Except.pure,
      setLim, blindBase, demoBase, List.lookup]
  obtain ⟨ca, h1⟩ := h1
  obtain ⟨cb, h2⟩ := h2
  have hl : summaryLimits false ["a", "b"] [("a", 1 / 2), ("b", 1 / 20)] =
      .ok [[.lim .y 0 (11 / 10 * (1 / 2))], [.lim .y 0 (11 / 10 * (1 / 20))]] := by
    simp [summaryLimits, List.lookup, bind, Except.bind, pure, Except.pure]
  have hm : maxVals [("a", some (1 / 2)), ("b", some (1 / 20))] = [("a", 1 / 2), ("b", 1 / 20)] := by
    simp [maxVals, maxValsStep, dictSet, List.lookup]
  have hf : ∃ fig, plotSummaryBase lib {} [] false (blindBase [c]) = .ok fig ∧
      fig.panels = [((0, 0), [.axisOff, .text "grid", .lim .y 0 (11 / 10 * (1 / 2))]),
        ((0, 1), ca ++ [.lim .y 0 (11 / 10 * (1 / 20))]), ((0, 2), cb)] := by
    refine ⟨{ panels := _ }, ?_, rfl⟩
    simp only [plotSummaryBase, show (blindBase [c]).columns = ["a", "b"] from rfl, show (blindBase [c]).chains = [c] from rfl,
      List.zipIdx_cons, List.zipIdx_nil, List.mapM_cons, List.mapM_nil, h1, h2, ensure, bind, Except.bind, pure, Except.pure,
      List.flatMap_cons, List.flatMap_nil, List.zipWith_cons_cons, List.zipWith_nil_right, List.append_nil, hm, hl,
      List.isEmpty_cons, Bool.not_false, Bool.and_self, if_true]
    simp [gridPanels, hc.name, show List.range 3 = [0, 1, 2] from rfl]
  obtain ⟨fig, hf, hpan⟩ := hf
  have hcalls : ((0, 1), ca ++ [.lim .y 0 (11 / 10 * (1 / 20))]) ∈ fig.panels := by rw [hpan]; simp
  exact ⟨_, fig, _, hf, hcalls, rfl, by simp [blindBase], (C57_violated_summary hf hcalls (p := "a") rfl (by simp [blindBase]) (by simp [blindBase])).1⟩

/-- A figure of `plot_distributions` with the minor tick labels of a blinded parameter, and none of the major ones. -/
example (lib : Lib) : ∃ (b : PlottingBase) (fig : Fig) (calls : List Call), plotDistributionsBase lib {} [] 4 b = .ok fig ∧
    ((0, 0), calls) ∈ fig.panels ∧ b.columns[0]? = some "a" ∧ "a" ∈ b.blind ∧ ticks .x calls = ⟨false, true⟩ := by
  obtain ⟨c, hc⟩ := gridPair_exists
  have hp : c.plottingColumns = ["a", "b"] := (demo_columns hc (.inl rfl)).trans (by decide)
  have hk : (c.cfg .plotContour : Bool) = true := by rw [hc.cfg]; rfl
  have hd : ∀ p s, p = "a" ∨ p = "b" → ∃ calls m, distChains lib {} p s [c] none = .ok (calls, some m) := by
    rintro p s (rfl | rfl)
    · simp [distChains, hk, hp, (demo_pair_bars lib hc false s).1, bind, Except.bind, pure, Except.pure, topStep]
    · simp [distChains, hk, hp, (demo_pair_bars lib hc false s).2, bind, Except.bind, pure, Except.pure, topStep]
  have hpan : ∀ p, p = "a" ∨ p = "b" → ∃ r, distPanel lib {} (blindBase [c]) [] p = .ok r := by
    intro p hp
    have hl : ∃ x, setLim .x ((blindBase [c]).extents.lookup p) = .ok x := by
      rcases hp with rfl | rfl <;> exact ⟨_, rfl⟩
    obtain ⟨x, hx⟩ := hl
    obtain ⟨calls, m, hm⟩ := hd p (({} : PlotConfig).summarise && decide ((blindBase [c]).chains.length = 1) &&
      !decide (p ∈ (blindBase [c]).blind)) hp
    change distChains lib {} p _ (blindBase [c]).chains none = _ at hm
    simp only [distPanel, hx, hm, distYlim, bind, Except.bind, pure, Except.pure]
    exact ⟨_, rfl⟩
  obtain ⟨r1, h1⟩ := hpan "a" (.inl rfl)
  obtain ⟨r2, h2⟩ := hpan "b" (.inr rfl)
  have hg : gridPanels 1 2 = [(0, 0), (0, 1)] := rfl
  have hf : plotDistributionsBase lib {} [] 4 (blindBase [c]) = .ok { panels := [((0, 0), r1), ((0, 1), r2)] } := by
    simp only [plotDistributionsBase]
    simp [show (blindBase [c]).columns = ["a", "b"] from rfl, hg, h1, h2, ensure, bind, Except.bind, pure, Except.pure]
  have hcalls : ((0, 0), r1) ∈ ({ panels := [((0, 0), r1), ((0, 1), r2)] } : Fig).panels := by simp
  exact ⟨_, _, r1, hf, hcalls, rfl, by simp [blindBase],
    C57_violated_minor hf hcalls (p := "a") rfl (by simp [blindBase]) (by simp [blindBase])⟩

/-- A figure of `plot_walks` without the tick labels of a blinded parameter. -/
example : ∃ (b : PlottingBase) (fig : Fig) (calls : List Call), plotWalksBase {} [] true false false b = .ok fig ∧
    ((1, 0), calls) ∈ fig.panels ∧ b.columns[0]? = some "a" ∧ "a" ∈ b.blind ∧ (ticks .y calls).major = false := by
  obtain ⟨c, hc⟩ := gridPair_exists
  have hp := demo_dataColumns hc
  have ha : c.samples.get "a" = .ok [0, 1] := by rw [hc.samples]; rfl
  have hb : c.samples.get "b" = .ok [0, 10] := by rw [hc.samples]; rfl
  have hw : c.weights = .ok [1, 1] := by rw [Chain.weights, hc.samples, hc.weight]; rfl
  have ht : ∀ x y : ℝ, thin [x, y] = [x, y] := by
    intro x y
    rw [thin, if_neg]
    unfold maxPoints
    simp
  have h1 : ∃ r, walkPanel {} (blindBase [c]) [] "a" = .ok r := by
    simp [walkPanel, blindBase, demoBase, hp, ha, ht, plotWalk, walkLim, setLim, ensure, bind, Except.bind, pure, Except.pure]
  have h2 : ∃ r, walkPanel {} (blindBase [c]) [] "b" = .ok r := by
    simp [walkPanel, blindBase, demoBase, hp, hb, ht, plotWalk, walkLim, setLim, ensure, bind, Except.bind, pure, Except.pure,
      List.lookup]
  have h3 : ∃ r, weightPanel {} (blindBase [c]) false = .ok r := by
    simp [weightPanel, blindBase, demoBase, hw, ht, plotWalk, walkLim, ensure, bind, Except.bind, pure, Except.pure]
  obtain ⟨r1, h1⟩ := h1
  obtain ⟨r2, h2⟩ := h2
  obtain ⟨r3, h3⟩ := h3
  have hf : plotWalksBase {} [] true false false (blindBase [c]) =
      .ok { panels := [((0, 0), r3), ((1, 0), r1), ((2, 0), r2)] } := by
    simp only [plotWalksBase]
    simp [show (blindBase [c]).columns = ["a", "b"] from rfl, show List.range 3 = [0, 1, 2] from rfl, h1, h2, h3, ensure, bind,
      Except.bind, pure, Except.pure]
  have hcalls : ((1, 0), r1) ∈ ({ panels := [((0, 0), r3), ((1, 0), r1), ((2, 0), r2)] } : Fig).panels := by simp
  obtain ⟨p, hp, -, hm⟩ := C57_walks_partial hf hcalls (by simp)
  have e : p = "a" := by
    have : (blindBase [c]).columns[0]? = some p := by simpa using hp
    cases this; rfl
  subst e
  exact ⟨_, _, r1, hf, hcalls, rfl, by simp [blindBase], (hm (by simp [blindBase])).1⟩

/-- Samples of `a`, `b` and `z`. -/
noncomputable def colourFrame : Frame ℝ :=
  ⟨[.int 0, .int 1], [("a", [0, 1]), ("b", [0, 10]), ("z", [3, 4]), ("weight", [1, 1])]⟩

/-- A cloud of `a` and `b` coloured by `z`: the panel of `a` and `b` has no tick labels for the blinded `a` (a linear axis in
this figure), but there is a colour bar for the blinded `z`. -/
example (lib : Lib) : ∃ (b : PlottingBase) (fig : Fig) (calls : List Call), plotBase lib { plotHists := false } [] b = .ok fig ∧
    ((0, 0), calls) ∈ fig.panels ∧ b.columns = ["a", "b"] ∧ b.blind = ["a", "z"] ∧ ticks .x calls = ⟨false, false⟩ ∧
    (ticks .y calls).major = true ∧ "z" ∈ fig.colorbars := by
  have key := plain_chain_colour (K := ℝ) false [⟨.plotContour, false⟩, ⟨.plotCloud, true⟩, ⟨.colorParam, some "z"⟩] rfl
    (by change (0 : ℝ) ≤ 6827 / 10000 ∧ (6827 / 10000 : ℝ) ≤ 1; constructor <;> norm_num)
    (by change (1 : ℝ) ≤ 10; norm_num) rfl (by intro h; cases h) colourFrame ⟨by decide, by simp [colourFrame]⟩
    (by simp [colourFrame]) (w := [1, 1]) (by intro p hp; cases hp; decide) rfl (by simp) "cloud" 1 le_rfl (one_dvd _)
  obtain ⟨c, -, hsam, hwc, hpc, -, -, -, hname, hcfg⟩ := key
  have h1 : (c.cfg .plotCloud : Bool) = true := by rw [hcfg]; rfl
  have h2 : (c.cfg .plotContour : Bool) = false := by rw [hcfg]; rfl
  have h3 : (c.cfg .plotPoint : Bool) = false := by rw [hcfg]; rfl
  have h4 : c.cfg .colorParam = some "z" := by rw [hcfg]; rfl
  have h5 : (c.cfg .numCloud : ℝ) = 10000 := by rw [hcfg]; rfl
  have ha : c.samples.get "a" = .ok [0, 1] := by rw [hsam]; rfl
  have hb : c.samples.get "b" = .ok [0, 10] := by rw [hsam]; rfl
  have hz : c.samples.get "z" = .ok [3, 4] := by rw [hsam]; rfl
  have hp : c.plottingColumns = ["a", "b"] := by
    rw [Chain.plottingColumns, Chain.dataColumns, h4, h1, hsam, hwc, hpc]
    decide
  have hs : cloudStep 2 10000 = .ok 1 := by
    have : ⌊((2 : ℕ) : ℝ) / 10000⌋ = 0 := by
      rw [Int.floor_eq_zero_iff]; constructor <;> norm_num
    rw [cloudStep, this]
    simp [ensure, bind, Except.bind, pure, Except.pure]
  have he : ∀ a b : ℝ, everyNth 1 [a, b] = [a, b] := by intro a b; simp [everyNth]
  have hsc : surfaceChain lib { plotHists := false } "a" "b" c =
      .ok ([.cloud "cloud" "a" "b" [0, 1] [0, 10] (some [3, 4])], ["z"]) := by
    simp [surfaceChain, hp, cloudCalls, h1, plotCloud, ha, hb, hz, h5, hs, Chain.colorData, h4, he, contourCalls, h2, pointCalls,
      h3, hname, bind, Except.bind, pure, Except.pure]
  let b : PlottingBase := { demoBase [c] with blind := ["a", "z"] }
  have hf : ∃ calls bars, plotBase lib { plotHists := false } [] b = .ok ⟨[((0, 0), calls)], bars⟩ ∧ (ticks .y calls).major = true := by
    have hl : List.lookup "b" [("a", some ((0 : ℝ), (1 : ℝ))), ("b", some (0, 10))] = some (some (0, 10)) := rfl
    simp [plotBase, b, demoBase, gridPanels, drawPanel, trianglePanel, triangleYlim, setLim, plotSurface, hsc, hl, ensure, bind,
      Except.bind, pure, Except.pure, plotTruths, ticks, axisCalls, logAxes, bottomTicks, leftTicks, Ticks.step]
  obtain ⟨calls, bars, hf, hy⟩ := hf
  have hcalls : ((0, 0), calls) ∈ (⟨[((0, 0), calls)], bars⟩ : Fig).panels := by simp
  have hn := ((C57_plot_partial hf hcalls).2.1 (by simp) "a" "b" rfl rfl).1 (by simp [b])
  exact ⟨b, _, calls, hf, hcalls, rfl, rfl, hn.2 (by simp [b, demoBase]), hy,
    C57_violated_colourbar hf (c := c) (by simp [b, demoBase]) h1 h4 (i := 1) (j := 0) (by omega) (px := "a") (py := "b") rfl rfl
      (by simp [hp]) (by simp [hp])⟩

end CC
