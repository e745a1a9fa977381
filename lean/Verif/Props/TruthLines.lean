import Verif.Props.Triangle
import Verif.Props.Thinning

/-! # C58: truth values in plots -/

namespace CC
open Spec

/-- Which vertical lines are due: the value of a parameter on the horizontal axis, unless a dot shows it. -/
theorem Spec.mem_dueMarks_vertical {truths : List (Truth ℝ)} {px py : Option String} {x : ℝ} :
    .vertical x ∈ dueMarks truths px py ↔ ∃ t ∈ truths, ∃ p, px = some p ∧ t.location.lookup p = some x ∧
      ¬ (t.marker.isSome ∧ ∃ q y, py = some q ∧ t.location.lookup q = some y) := by
  rw [dueMarks, List.mem_flatMap]
  refine exists_congr fun t => and_congr_right fun _ => ?_
  cases px with
  | none =>
    simp only [Option.bind_none, reduceCtorEq, false_and, exists_false, iff_false]
    generalize (py.bind fun q => t.location.lookup q) = v
    cases v <;> simp
  | some p =>
    simp only [Option.bind_some, Option.some.injEq, exists_eq_left']
    cases py with
    | none => cases h : t.location.lookup p <;> (simp; try exact eq_comm)
    | some q => cases h : t.location.lookup p <;> cases h' : t.location.lookup q <;> cases h2 : t.marker <;> simp [h'] <;> exact eq_comm

/-- Likewise for horizontal lines. -/
theorem Spec.mem_dueMarks_horizontal {truths : List (Truth ℝ)} {px py : Option String} {y : ℝ} :
    .horizontal y ∈ dueMarks truths px py ↔ ∃ t ∈ truths, ∃ p, py = some p ∧ t.location.lookup p = some y ∧
      ¬ (t.marker.isSome ∧ ∃ q x, px = some q ∧ t.location.lookup q = some x) := by
  rw [dueMarks, List.mem_flatMap]
  refine exists_congr fun t => and_congr_right fun _ => ?_
  cases py with
  | none =>
    simp only [Option.bind_none, reduceCtorEq, false_and, exists_false, iff_false]
    generalize (px.bind fun q => t.location.lookup q) = v
    cases v <;> simp
  | some p =>
    simp only [Option.bind_some, Option.some.injEq, exists_eq_left']
    cases px with
    | none => cases h : t.location.lookup p <;> (simp; try exact eq_comm)
    | some q => cases h : t.location.lookup p <;> cases h' : t.location.lookup q <;> cases h2 : t.marker <;> simp [h'] <;> exact eq_comm

/-- Likewise for dots. -/
theorem Spec.mem_dueMarks_dot {truths : List (Truth ℝ)} {px py : Option String} {x y : ℝ} :
    .dot x y ∈ dueMarks truths px py ↔ ∃ t ∈ truths, t.marker.isSome ∧ ∃ p q, px = some p ∧ py = some q ∧
      t.location.lookup p = some x ∧ t.location.lookup q = some y := by
  rw [dueMarks, List.mem_flatMap]
  refine exists_congr fun t => and_congr_right fun _ => ?_
  cases px with
  | none => 
    simp only [Option.bind_none, reduceCtorEq, false_and, exists_false, and_false, iff_false]
    cases py.bind (t.location.lookup ·) <;> simp
  | some p => cases py with
    | none => cases h : t.location.lookup p <;> simp [h]
    | some q => cases h : t.location.lookup p <;> cases h' : t.location.lookup q <;> cases h2 : t.marker <;>
        simp [h, h', eq_comm]

/-- **C58** for `plot`: every panel has exactly the marks due on it. A histogram shows its parameter along the
horizontal axis, the last one of a flipped plot of two columns along the vertical axis. -/
theorem C58_plot {lib : Lib} {cfg : PlotConfig} {truths : List (Truth ℝ)} {b : PlottingBase} {fig : Fig}
    (h : plotBase lib cfg truths b = .ok fig) {i j : Nat} {calls : List Call} (hc : ((i, j), calls) ∈ fig.panels) :
    let k := if cfg.plotHists then 0 else 1
    (i < j → marks calls = []) ∧
    (j < i + k → ∀ px py, b.columns[j]? = some px → b.columns[i + k]? = some py →
      marks calls = dueMarks truths (some px) (some py)) ∧
    (cfg.plotHists = true → i = j → ∀ p, b.columns[i]? = some p →
      marks calls = if cfg.flip = true ∧ b.columns.length = 2 ∧ i = 1 then dueMarks truths none (some p)
        else dueMarks truths (some p) none) := by
  intro k
  obtain ⟨-, -, hcase⟩ := plot_cases h hc
  have hkk : (if cfg.plotHists = true then 0 else 1) = k := rfl
  rw [hkk] at hcase
  rcases hcase with ⟨hij, rfl⟩ | ⟨hij, hle, px, py, s, d, bars, hx, hy, hs, hd, rfl⟩ | ⟨hh, rfl, p, s, r, hp, hs, hr, rfl⟩
  · have hk1 : k = 0 ∨ k = 1 := by
      change (if cfg.plotHists then 0 else 1) = 0 ∨ (if cfg.plotHists then 0 else 1) = 1
      cases cfg.plotHists <;> simp
    refine ⟨fun _ => rfl, fun h => by omega, fun _ h => by omega⟩
  · refine ⟨fun h => by omega, fun _ px' py' hx' hy' => ?_, fun hh e => ?_⟩
    · cases hx.symm.trans hx'
      cases hy.symm.trans hy'
      rw [marks_append, marks_append, (items_of_setup (trianglePanel_setup hs)).2, (plotSurface_items hd).2.1,
        (plotTruths_marks ..).2]
      rfl
    · have : k = 0 := if_pos hh
      omega
  · have hk0 : k = 0 := if_pos hh
    refine ⟨fun h => by omega, fun h => by omega, fun _ _ p' hp' => ?_⟩
    cases hp.symm.trans hp'
    rw [marks_append, marks_append, marks_append, (items_of_setup (trianglePanel_setup hs)).2, (histChains_items hr).2.1,
      (items_of_setup fun c hc => ((topLim_setup _ _).1 c hc).1).2, List.append_nil, List.append_nil, List.nil_append]
    unfold histTruths
    by_cases hf : cfg.flip = true ∧ b.columns.length = 2 ∧ i = 1
    · rw [if_pos hf, if_pos (by simpa using hf), (plotTruths_marks ..).2]
    · rw [if_neg hf, if_neg (by simpa using hf), (plotTruths_marks ..).2]

/-- The panels of `plot_walks`. -/
theorem walks_cases {cfg : PlotConfig} {truths : List (Truth ℝ)} {pw pp lw : Bool} {b : PlottingBase} {fig : Fig}
    (h : plotWalksBase cfg truths pw pp lw b = .ok fig) {i j : Nat} {calls : List Call} (hc : ((i, j), calls) ∈ fig.panels) :
    let e := (if pp = true ∧ ∃ c ∈ b.chains, c.logPosterior.isSome = true then 1 else 0) + (if pw then 1 else 0)
    (i < e → posteriorPanel cfg b = .ok calls ∨ weightPanel cfg b lw = .ok calls) ∧
    (e ≤ i → ∃ p, b.columns[i - e]? = some p ∧ walkPanel cfg b truths p = .ok calls) := by
  intro e
  obtain ⟨post, hpost, extra, main, hf, hm, he⟩ := plotWalks_panels h
  have hlen : extra.length = e := by
    rw [← he.length_eq, List.length_append]
    congr 1
    · by_cases hp : post = true
      · rw [if_pos hp, if_pos (hpost.1 hp)]; rfl
      · rw [if_neg hp, if_neg fun hc => hp (hpost.2 hc)]; rfl
    · cases pw <;> rfl
  rw [hf] at hc
  obtain ⟨⟨x, i'⟩, hx, e'⟩ := List.mem_map.1 hc
  simp only [Prod.mk.injEq] at e'
  obtain ⟨⟨rfl, -⟩, rfl⟩ := e'
  rw [List.mk_mem_zipIdx_iff_getElem?] at hx
  constructor
  · intro hi
    rw [List.getElem?_append_left (by omega)] at hx
    obtain ⟨h1, h2⟩ := List.getElem?_eq_some_iff.1 hx
    have := (List.forall₂_iff_get.1 he).2 i' (by rw [he.length_eq]; exact h1) h1
    simp only [List.get_eq_getElem] at this
    rw [h2] at this
    have hmem := List.getElem_mem (l := (if post then [posteriorPanel cfg b] else []) ++ (if pw then [weightPanel cfg b lw] else []))
      (n := i') (by rw [he.length_eq]; exact h1)
    rw [this] at hmem
    rcases List.mem_append.1 hmem with hmem | hmem <;> split at hmem
    · exact .inl (List.mem_singleton.1 hmem).symm
    · cases hmem
    · exact .inr (List.mem_singleton.1 hmem).symm
    · cases hmem
  · intro hi
    rw [List.getElem?_append_right (by omega), hlen] at hx
    obtain ⟨h1, h2⟩ := List.getElem?_eq_some_iff.1 hx
    have hl : i' - e < b.columns.length := by rw [hm.length_eq]; exact h1
    have := (List.forall₂_iff_get.1 hm).2 (i' - e) hl h1
    simp only [List.get_eq_getElem] at this
    rw [h2] at this
    exact ⟨_, List.getElem?_eq_getElem hl, this⟩

theorem walks_panel {cfg : PlotConfig} {truths : List (Truth ℝ)} {pw pp lw : Bool} {b : PlottingBase} {fig : Fig}
    (h : plotWalksBase cfg truths pw pp lw b = .ok fig) {i j : Nat} {calls : List Call} (hc : ((i, j), calls) ∈ fig.panels)
    (hi : (if pp = true ∧ ∃ c ∈ b.chains, c.logPosterior.isSome = true then 1 else 0) + (if pw then 1 else 0) ≤ i) :
    ∃ p, b.columns[i - ((if pp = true ∧ ∃ c ∈ b.chains, c.logPosterior.isSome = true then 1 else 0) + (if pw then 1 else 0))]? =
      some p ∧ walkPanel cfg b truths p = .ok calls := (walks_cases h hc).2 hi

/-- **C58** for `plot_walks`: the values run along the vertical axis. -/
theorem C58_walks {cfg : PlotConfig} {truths : List (Truth ℝ)} {pw pp lw : Bool} {b : PlottingBase} {fig : Fig}
    (h : plotWalksBase cfg truths pw pp lw b = .ok fig) {i j : Nat} {calls : List Call} (hc : ((i, j), calls) ∈ fig.panels) :
    let e := (if pp = true ∧ ∃ c ∈ b.chains, c.logPosterior.isSome = true then 1 else 0) + (if pw then 1 else 0)
    (i < e → marks calls = []) ∧
    (e ≤ i → ∃ p, b.columns[i - e]? = some p ∧ marks calls = dueMarks truths none (some p)) := by
  intro e
  obtain ⟨h1, h2⟩ := walks_cases h hc
  refine ⟨fun hi => extraPanel_setup (h1 hi), fun hi => ?_⟩
  obtain ⟨p, hp, hw⟩ := h2 hi
  exact ⟨p, hp, (walkPanel_setup hw).2.1⟩

theorem summaryLimits_setup {errorbar : Bool} {columns : List String} {tops : List (String × ℝ)} {lims : List (List Call)}
    (h : summaryLimits errorbar columns tops = .ok lims) : ∀ l ∈ lims, l = [] ∨ ∃ m, l = [.lim .y 0 m] := by
  replace h := mapM_ok_iff.1 h
  induction h with
  | nil => simp
  | @cons p l ps ls hp _ ih =>
    intro x hx
    rcases List.mem_cons.1 hx with rfl | hx
    · split at hp
      · cases hp; exact .inl rfl
      · split at hp <;> cases hp
        exact .inr ⟨_, rfl⟩
    · exact ih x hx

/-- The cells of `plot_summary`. -/
theorem summary_cell {lib : Lib} {cfg : PlotConfig} {truths : List (Truth ℝ)} {errorbar : Bool} {b : PlottingBase} {fig : Fig}
    (h : plotSummaryBase lib cfg truths errorbar b = .ok fig) {i j : Nat} {calls : List Call} (hc : ((i, j), calls) ∈ fig.panels) :
    ∃ c l, b.chains[i]? = some c ∧ (l = [] ∨ ∃ m, l = [Call.lim .y 0 m]) ∧
      (j = 0 ∧ calls = [.axisOff, .text c.name] ++ l ∨
       ∃ k p cell, j = k + 1 ∧ b.columns[k]? = some p ∧ summaryCell lib cfg b truths errorbar i c p = .ok cell ∧
        calls = cell.1 ++ l) := by
  obtain ⟨-, -, rows, lims, hr, hl, -, hp⟩ := summary_panels h
  obtain ⟨c, row, hci, hrow, hcase⟩ := (hp _ _).1 hc
  have hls := summaryLimits_setup hl
  rcases hcase with ⟨hj, l, hl0, rfl⟩ | ⟨k, cell, hj, hcell, rfl⟩
  · exact ⟨c, l, hci, hls l (List.mem_of_getElem? hl0), .inl ⟨hj, rfl⟩⟩
  · have hll : lims.getD (k + 1) [] = [] ∨ ∃ m, lims.getD (k + 1) [] = [Call.lim .y 0 m] := by
      rw [List.getD_eq_getElem?_getD]
      cases e : lims[k + 1]? with
      | none => exact .inl rfl
      | some l => exact hls l (List.mem_of_getElem? e)
    simp only at hci hrow hj
    obtain ⟨h1, h2⟩ := List.getElem?_eq_some_iff.1 hrow
    have := (List.forall₂_iff_get.1 hr).2 i (by rw [hr.length_eq]; exact h1) h1
    simp only [List.get_eq_getElem, List.getElem_zipIdx] at this
    rw [h2] at this
    obtain ⟨h6, h7⟩ := List.getElem?_eq_some_iff.1 hci
    rw [h7, Nat.zero_add] at this
    obtain ⟨h3, h4⟩ := List.getElem?_eq_some_iff.1 hcell
    have h5 := (List.forall₂_iff_get.1 this).2 k (by rw [this.length_eq]; exact h3) h3
    simp only [List.get_eq_getElem] at h5
    rw [h4] at h5
    exact ⟨c, _, hci, hll, .inr ⟨k, _, cell, hj, List.getElem?_eq_getElem (by rw [this.length_eq]; exact h3), h5, rfl⟩⟩

/-- **C58** for `plot_summary`: the values run along the horizontal axis. -/
theorem C58_summary {lib : Lib} {cfg : PlotConfig} {truths : List (Truth ℝ)} {errorbar : Bool} {b : PlottingBase} {fig : Fig}
    (h : plotSummaryBase lib cfg truths errorbar b = .ok fig) {i j : Nat} {calls : List Call} (hc : ((i, j), calls) ∈ fig.panels) :
    (j = 0 → marks calls = []) ∧
    (∀ k, j = k + 1 → ∃ p, b.columns[k]? = some p ∧ marks calls = dueMarks truths (some p) none) := by
  obtain ⟨c, l, -, hl, hcase⟩ := summary_cell h hc
  have hml : marks l = [] := by
    rcases hl with rfl | ⟨m, rfl⟩ <;> rfl
  rcases hcase with ⟨rfl, rfl⟩ | ⟨k, p, cell, rfl, hp, hcell, rfl⟩
  · exact ⟨fun _ => by rw [marks_append, hml]; rfl, fun k hk => by omega⟩
  · refine ⟨fun h => by omega, fun k' hk => ?_⟩
    obtain rfl : k = k' := by omega
    exact ⟨p, hp, by rw [marks_append, hml, (summaryCell_setup hcell).1, List.append_nil]⟩

/-- **C58** for `plot_distributions`: the values of the parameter run along the horizontal axis, but the code marks
the truths along the vertical axis. -/
theorem C58_distributions_partial {lib : Lib} {cfg : PlotConfig} {truths : List (Truth ℝ)} {colWrap : Nat} {b : PlottingBase}
    {fig : Fig} (h : plotDistributionsBase lib cfg truths colWrap b = .ok fig) {i j : Nat} {calls : List Call}
    (hc : ((i, j), calls) ∈ fig.panels) :
    let u := i * min b.columns.length colWrap + j
    (b.columns.length ≤ u → marks calls = []) ∧
    ∀ p, b.columns[u]? = some p → marks calls = dueMarks truths none (some p) := by
  intro u
  obtain ⟨-, -, hp, -⟩ := distributions_panels h
  obtain ⟨-, ⟨h1, rfl⟩ | ⟨h1, h2⟩⟩ := hp _ _ hc
  · refine ⟨fun _ => rfl, fun p hp => ?_⟩
    have := (List.getElem?_eq_some_iff.1 hp).1
    simp only at h1
    omega
  · simp only at h1 h2
    refine ⟨fun h => by omega, fun p hp => ?_⟩
    rw [List.getD_eq_getElem?_getD, show i * min b.columns.length colWrap + j = u from rfl, hp] at h2
    exact (distPanel_setup h2).1

/-- **C58** is violated by `plot_distributions`: whenever a truth has a value for a shown column, its panel has a
horizontal line at that value, which is the density axis, and no vertical line at all. -/
theorem C58_violated {lib : Lib} {cfg : PlotConfig} {truths : List (Truth ℝ)} {colWrap : Nat} {b : PlottingBase}
    {fig : Fig} (h : plotDistributionsBase lib cfg truths colWrap b = .ok fig) {i j : Nat} {calls : List Call}
    (hc : ((i, j), calls) ∈ fig.panels) {p : String} (hp : b.columns[i * min b.columns.length colWrap + j]? = some p)
    {t : Truth ℝ} (ht : t ∈ truths) {v : ℝ} (hv : t.location.lookup p = some v) :
    .horizontal v ∈ marks calls ∧ (∀ x, .vertical x ∉ marks calls) ∧ marks calls ≠ dueMarks truths (some p) none := by
  have hm := (C58_distributions_partial h hc).2 p hp
  have h1 : .horizontal v ∈ marks calls := by
    rw [hm, mem_dueMarks_horizontal]
    exact ⟨t, ht, p, rfl, hv, fun ⟨_, q, x, hq, _⟩ => by cases hq⟩
  refine ⟨h1, ?_, ?_⟩
  · intro x hx
    rw [hm, mem_dueMarks_vertical] at hx
    obtain ⟨_, _, _, hq, _⟩ := hx
    cases hq
  · intro e
    rw [e, mem_dueMarks_horizontal] at h1
    obtain ⟨_, _, _, hq, _⟩ := h1
    cases hq

theorem demo_pair_bars (lib : Lib) {c : Chain ℝ} (hc : DemoChain c pairFrame "grid" true barKw) (flip summary : Bool) :
    plotBars lib {} "a" c flip summary = .ok ([.marginal "grid" "a" flip [0, 1] [1 / 2, 1 / 2]], 1 / 2) ∧
    plotBars lib {} "b" c flip summary = .ok ([.marginal "grid" "b" flip [0, 10] [1 / 20, 1 / 20]], 1 / 20) := by
  constructor
  · rw [demo_bars hc lib {} one_pos (col := "a") rfl rfl]
    norm_num
  · rw [demo_bars hc lib {} (s := 10) (by norm_num) (col := "b") rfl rfl]
    norm_num

theorem demo_dist (lib : Lib) (truths : List (Truth ℝ)) {c : Chain ℝ} (hc : DemoChain c pairFrame "grid" true barKw) :
    ∃ r1 r2, plotDistributionsBase lib {} truths 4 (demoBase [c]) = .ok { panels := [((0, 0), r1), ((0, 1), r2)] } := by
  have hp : c.plottingColumns = ["a", "b"] := (demo_columns hc (.inl rfl)).trans (by decide)
  have hk : (c.cfg .plotContour : Bool) = true := by rw [hc.cfg]; rfl
  have hd : ∀ p s, p = "a" ∨ p = "b" → ∃ calls m, distChains lib {} p s [c] none = .ok (calls, some m) := by
    rintro p s (rfl | rfl)
    · simp [distChains, hk, hp, (demo_pair_bars lib hc false s).1, bind, Except.bind, pure, Except.pure, topStep]
    · simp [distChains, hk, hp, (demo_pair_bars lib hc false s).2, bind, Except.bind, pure, Except.pure, topStep]
  have hpan : ∀ p, p = "a" ∨ p = "b" → ∃ r, distPanel lib {} (demoBase [c]) truths p = .ok r := by
    intro p hp
    have hl : ∃ x, setLim .x ((demoBase [c]).extents.lookup p) = .ok x := by
      rcases hp with rfl | rfl <;> exact ⟨_, rfl⟩
    obtain ⟨x, hx⟩ := hl
    obtain ⟨calls, m, hm⟩ := hd p (({} : PlotConfig).summarise && decide ((demoBase [c]).chains.length = 1) &&
      !decide (p ∈ (demoBase [c]).blind)) hp
    change distChains lib {} p _ (demoBase [c]).chains none = _ at hm
    simp only [distPanel, hx, hm, distYlim, bind, Except.bind, pure, Except.pure]
    exact ⟨_, rfl⟩
  obtain ⟨r1, h1⟩ := hpan "a" (.inl rfl)
  obtain ⟨r2, h2⟩ := hpan "b" (.inr rfl)
  refine ⟨r1, r2, ?_⟩
  have hg : gridPanels 1 2 = [(0, 0), (0, 1)] := rfl
  simp only [plotDistributionsBase]
  simp [show (demoBase [c]).columns = ["a", "b"] from rfl, hg, h1, h2, ensure, bind, Except.bind, pure, Except.pure]

/-- A truth of `a` in the panel of `a`. -/
example (lib : Lib) : ∃ (b : PlottingBase) (fig : Fig) (calls : List Call),
    plotDistributionsBase lib {} [Truth.line [("a", 1 / 4)]] 4 b = .ok fig ∧ ((0, 0), calls) ∈ fig.panels ∧
    b.columns[0]? = some "a" ∧ .horizontal (1 / 4) ∈ marks calls ∧ ∀ x, .vertical x ∉ marks calls := by
  obtain ⟨c, hc⟩ := gridPair_exists
  obtain ⟨r1, r2, hf⟩ := demo_dist lib [Truth.line [("a", 1 / 4)]] hc
  have hcalls : ((0, 0), r1) ∈ [((0, 0), r1), ((0, 1), r2)] := by simp
  obtain ⟨h1, h2, -⟩ := C58_violated hf hcalls (p := "a") rfl (t := Truth.line [("a", 1 / 4)]) (by simp) (v := 1 / 4) rfl
  exact ⟨_, _, r1, hf, hcalls, rfl, h1, h2⟩

theorem demo_dataColumns {c : Chain ℝ} (hc : DemoChain c pairFrame "grid" true barKw) : c.dataColumns = ["a", "b"] := by
  have : c.plottingColumns = ["a", "b"] := (demo_columns hc (.inl rfl)).trans (by decide)
  have h4 : c.cfg .colorParam = none := by rw [hc.cfg]; rfl
  rw [Chain.plottingColumns, h4] at this
  simpa using this

theorem demo_walks (truths : List (Truth ℝ)) {c : Chain ℝ} (hc : DemoChain c pairFrame "grid" true barKw) :
    ∃ r1 r2 r3, plotWalksBase {} truths true false false (demoBase [c]) =
      .ok { panels := [((0, 0), r3), ((1, 0), r1), ((2, 0), r2)] } := by
  have hp := demo_dataColumns hc
  have ha : c.samples.get "a" = .ok [0, 1] := by rw [hc.samples]; rfl
  have hb : c.samples.get "b" = .ok [0, 10] := by rw [hc.samples]; rfl
  have hw : c.weights = .ok [1, 1] := by rw [Chain.weights, hc.samples, hc.weight]; rfl
  have ht : ∀ x y : ℝ, thin [x, y] = [x, y] := by
    intro x y
    rw [thin, if_neg]
    unfold maxPoints
    simp
  have h1 : ∃ r, walkPanel {} (demoBase [c]) truths "a" = .ok r := by
    simp [walkPanel, demoBase, hp, ha, ht, plotWalk, walkLim, setLim, ensure, bind, Except.bind, pure, Except.pure]
  have h2 : ∃ r, walkPanel {} (demoBase [c]) truths "b" = .ok r := by
    simp [walkPanel, demoBase, hp, hb, ht, plotWalk, walkLim, setLim, ensure, bind, Except.bind, pure, Except.pure, List.lookup]
  have h3 : ∃ r, weightPanel {} (demoBase [c]) false = .ok r := by
    simp [weightPanel, demoBase, hw, ht, plotWalk, walkLim, ensure, bind, Except.bind, pure, Except.pure]
  obtain ⟨r1, h1⟩ := h1
  obtain ⟨r2, h2⟩ := h2
  obtain ⟨r3, h3⟩ := h3
  refine ⟨r1, r2, r3, ?_⟩
  simp [plotWalksBase, show (demoBase [c]).columns = ["a", "b"] from rfl, show List.range 3 = [0, 1, 2] from rfl, h1, h2, h3,
    ensure, bind, Except.bind, pure, Except.pure]

/-- Three panels: weights and two columns. -/
example : ∃ (b : PlottingBase) (fig : Fig) (calls : List Call),
    plotWalksBase {} [Truth.line [("a", 1 / 4)]] true false false b = .ok fig ∧ ((1, 0), calls) ∈ fig.panels ∧
    marks calls = [.horizontal (1 / 4)] := by
  obtain ⟨c, hc⟩ := gridPair_exists
  obtain ⟨r1, r2, r3, hf⟩ := demo_walks [Truth.line [("a", 1 / 4)]] hc
  have hcalls : ((1, 0), r1) ∈ [((0, 0), r3), ((1, 0), r1), ((2, 0), r2)] := by simp
  obtain ⟨p, hp, hm⟩ := (C58_walks hf hcalls).2 (by simp)
  have e : p = "a" := by
    have : (demoBase [c]).columns[0]? = some p := by simpa using hp
    cases this; rfl
  subst e
  exact ⟨_, _, r1, hf, hcalls, hm⟩

theorem demo_summary (lib : Lib) (truths : List (Truth ℝ)) {c : Chain ℝ} (hc : DemoChain c pairFrame "grid" true barKw) :
    ∃ ca cb fig, plotSummaryBase lib {} truths false (demoBase [c]) = .ok fig ∧
      fig.panels = [((0, 0), [.axisOff, .text "grid", .lim .y 0 (11 / 10 * (1 / 2))]),
        ((0, 1), ca ++ [.lim .y 0 (11 / 10 * (1 / 20))]), ((0, 2), cb)] ∧
      .marginal "grid" "a" false [0, 1] [1 / 2, 1 / 2] ∈ ca ∧ .marginal "grid" "b" false [0, 10] [1 / 20, 1 / 20] ∈ cb := by
  have hp := demo_dataColumns hc
  have h1 : ∃ r, summaryCell lib {} (demoBase [c]) truths false 0 c "a" = .ok (r, some (1 / 2)) ∧
      .marginal "grid" "a" false [0, 1] [1 / 2, 1 / 2] ∈ r := by
    simp [summaryCell, summaryContent, hp, (demo_pair_bars lib hc false false).1, bind, Except.bind, pure, Except.pure,
      setLim, demoBase]
  have h2 : ∃ r, summaryCell lib {} (demoBase [c]) truths false 0 c "b" = .ok (r, some (1 / 20)) ∧
      .marginal "grid" "b" false [0, 10] [1 / 20, 1 / 20] ∈ r := by
    simp [summaryCell, summaryContent, hp, (demo_pair_bars lib hc false false).2, bind, Except.bind, pure, Except.pure,
      setLim, demoBase, List.lookup]
  obtain ⟨ca, h1, ha⟩ := h1
  obtain ⟨cb, h2, hb⟩ := h2
  have hl : summaryLimits false ["a", "b"] [("a", 1 / 2), ("b", 1 / 20)] =
      .ok [[.lim .y 0 (11 / 10 * (1 / 2))], [.lim .y 0 (11 / 10 * (1 / 20))]] := by
    simp [summaryLimits, List.lookup, bind, Except.bind, pure, Except.pure]
  have hm : maxVals [("a", some (1 / 2)), ("b", some (1 / 20))] = [("a", 1 / 2), ("b", 1 / 20)] := by
    simp [maxVals, maxValsStep, dictSet, List.lookup]
  refine ⟨ca, cb, { panels := _ }, ?_, rfl, ha, hb⟩
  simp only [plotSummaryBase, show (demoBase [c]).columns = ["a", "b"] from rfl, show (demoBase [c]).chains = [c] from rfl,
    List.zipIdx_cons, List.zipIdx_nil, List.mapM_cons, List.mapM_nil, h1, h2, ensure, bind, Except.bind, pure, Except.pure,
    List.flatMap_cons, List.flatMap_nil, List.zipWith_cons_cons, List.zipWith_nil_right, List.append_nil, hm, hl,
    List.isEmpty_cons, Bool.not_false, Bool.and_self, if_true]
  simp [gridPanels, hc.name, show List.range 3 = [0, 1, 2] from rfl]

example (lib : Lib) : ∃ (b : PlottingBase) (fig : Fig) (calls : List Call),
    plotSummaryBase lib {} [Truth.line [("a", 1 / 4)]] false b = .ok fig ∧ ((0, 1), calls) ∈ fig.panels ∧
    marks calls = [.vertical (1 / 4)] := by
  obtain ⟨c, hc⟩ := gridPair_exists
  obtain ⟨ca, cb, fig, hf, hp, -⟩ := demo_summary lib [Truth.line [("a", 1 / 4)]] hc
  have hcalls : ((0, 1), ca ++ [.lim .y 0 (11 / 10 * (1 / 20))]) ∈ fig.panels := by rw [hp]; simp
  obtain ⟨p, hp, hm⟩ := (C58_summary hf hcalls).2 0 rfl
  cases hp
  exact ⟨_, _, _, hf, hcalls, hm⟩

/-- Lines in the panel of `a` and `b`. -/
example (lib : Lib) : ∃ (b : PlottingBase) (fig : Fig) (calls : List Call),
    plotBase lib {} [Truth.line [("a", 1 / 4), ("b", 3)], { Truth.line [("a", 1 / 4), ("b", 3)] with marker := some "o" }] b =
      .ok fig ∧ ((1, 0), calls) ∈ fig.panels ∧
    marks calls = [.vertical (1 / 4), .horizontal 3, .dot (1 / 4) 3] := by
  obtain ⟨c1, h1⟩ := gridSingle_exists
  obtain ⟨c2, h2⟩ := cloudPair_exists
  obtain ⟨fig, hf⟩ := demo_triangle lib [Truth.line [("a", 1 / 4), ("b", 3)],
    { Truth.line [("a", 1 / 4), ("b", 3)] with marker := some "o" }] h1 h2
  have hm : ((1, 0) : Nat × Nat) ∈ fig.panels.map Prod.fst := by
    rw [(plot_panels hf).2.1]; exact mem_gridPanels.2 ⟨(by decide : 1 < 2), (by decide : 0 < 2)⟩
  obtain ⟨⟨_, calls⟩, hcalls, rfl⟩ := List.mem_map.1 hm
  refine ⟨_, fig, calls, hf, hcalls, ?_⟩
  exact (C58_plot hf hcalls).2.1 (by simp) "a" "b" rfl rfl

end CC
