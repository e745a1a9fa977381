import Verif.Props.TruthLines
import Verif.Spec.Registry

/-! # C87: the truths of a consumer and their styles -/

namespace CC
open Spec

/-! ### the registry -/

/-- The truths added by a sequence of calls, in order. -/
def Spec.addedTruths (ops : List Op) : List (Truth ℝ) :=
  ops.filterMap fun op => match op with
    | .addTruth t => some t
    | _ => none

theorem step_truths (w : World) (op : Op) : (step w op).1.cons.truths = w.cons.truths ++ addedTruths [op] := by
  have hadd : ∀ {h : Heap ℝ} {c c' : Consumer ℝ} {r : Ref}, c.addChain h r = .ok c' → c'.truths = c.truths := by
    intro h c c' r e
    unfold Consumer.addChain at e
    split at e
    · cases e
    · split at e <;> cases e
      rfl
  have hrem : ∀ {c c' : Consumer ℝ} {n : String}, c.removeName n = .ok c' → c'.truths = c.truths := by
    intro c c' n e
    unfold Consumer.removeName at e
    split at e <;> cases e
    rfl
  cases op with
  | addTruth t => rfl
  | newChain a =>
    simp only [step]
    split <;> exact (List.append_nil _).symm
  | mutate r c => exact (List.append_nil _).symm
  | setOverride o => exact (List.append_nil _).symm
  | finalise => exact (List.append_nil _).symm
  | add r =>
    refine Eq.trans ?_ (List.append_nil _).symm
    simp only [step]
    split
    · exact hadd ‹_›
    · rfl
  | removeName n =>
    refine Eq.trans ?_ (List.append_nil _).symm
    simp only [step]
    split
    · exact hrem ‹_›
    · rfl
  | removeObj r =>
    refine Eq.trans ?_ (List.append_nil _).symm
    simp only [step]
    split
    · rename_i s e
      unfold Consumer.removeObj at e
      split at e
      · cases e
      · exact hrem e
    · rfl
  | marker loc n col sz sty al kw =>
    refine Eq.trans ?_ (List.append_nil _).symm
    simp only [step]
    split
    · rename_i h s e
      simp only [Consumer.addMarker, bind_ok_iff, pure_ok_iff, Prod.mk.injEq] at e
      obtain ⟨c, -, s', hs, -, rfl⟩ := e
      exact hadd hs
    · rfl

/-- **C87** (registry). After any sequence of calls the consumer holds the truths added, in order: no call removes, replaces or
reorders a truth. -/
theorem C87_registry (w : World) (ops : List Op) : (run w ops).cons.truths = w.cons.truths ++ addedTruths ops := by
  induction ops generalizing w with
  | nil => exact (List.append_nil _).symm
  | cons op ops ih =>
    change (run (step w op).1 ops).cons.truths = _
    rw [ih, step_truths, List.append_assoc]
    congr 1
    simp only [addedTruths, ← List.filterMap_append, List.singleton_append]

/-! ### styles -/

/-- A line drawn as a truth asks. -/
structure Spec.PenOf (t : Truth ℝ) (k : LineKwargs ℝ) : Prop where
  style : k.ls = t.lineStyle
  colour : k.c = t.color
  width : k.lw = t.lineWidth
  opacity : k.alpha = t.alpha
  layer : k.zorder = t.zorder

/-- A dot drawn as a truth asks: edges are drawn for filled markers only. -/
structure Spec.DotOf (filled : List String) (t : Truth ℝ) (k : MarkerKwargs ℝ) : Prop where
  shape : k.marker = t.marker
  size : k.s = t.markerSize
  colour : k.color = t.color
  opacity : k.alpha = t.alpha
  layer : k.zorder = t.zorder
  edge : (∃ m ∈ filled, t.marker = some m) → k.facecolor = some t.color ∧ k.linewidth = some t.markerEdgeWidth ∧
    k.edgecolor = some (match t.edgeColor with | some e => e | none => t.color)
  noEdge : (∀ m ∈ filled, t.marker ≠ some m) → k.facecolor = none ∧ k.linewidth = none ∧ k.edgecolor = none

/-- The call draws a mark in the style of a truth. -/
def Spec.Styled (filled : List String) (t : Truth ℝ) : Call → Prop
  | .vline _ k => PenOf t k
  | .hline _ k => PenOf t k
  | .marker _ _ k => DotOf filled t k
  | _ => False

/-- The calls that draw marks. -/
def Spec.markCalls (calls : List Call) : List Call := calls.filter fun c => (markOf c).isSome

/-- The marks of a panel are those of one truth after another, each in its own style. -/
def Spec.TruthsDrawn (filled : List String) (truths : List (Truth ℝ)) (px py : Option String) (calls : List Call) : Prop :=
  ∃ groups, markCalls calls = groups.flatten ∧
    List.Forall₂ (fun t l => marks l = dueMarks [t] px py ∧ ∀ c ∈ l, Styled filled t c) truths groups

theorem markCalls_append (a b : List Call) : markCalls (a ++ b) = markCalls a ++ markCalls b := List.filter_append ..

theorem markCalls_nil {a : List Call} (h : marks a = []) : markCalls a = [] := by
  rw [markCalls, List.filter_eq_nil_iff]
  intro c hc
  rw [marks, List.filterMap_eq_nil_iff] at h
  rw [h c hc]
  simp

theorem truthCalls_styled (filled : List String) (px py : Option String) (t : Truth ℝ) :
    ∀ c ∈ truthCalls filled px py t, Styled filled t c := by
  have hp : PenOf t t.kwargs := ⟨rfl, rfl, rfl, rfl, rfl⟩
  have hd : DotOf filled t (t.markerKwargs filled) := by
    refine ⟨rfl, rfl, rfl, rfl, rfl, ?_, ?_⟩
    · rintro ⟨m, hm, e⟩
      have : t.isFilled filled = true := by simp [Truth.isFilled, e, hm]
      simp only [Truth.markerKwargs, this, if_true, true_and, Option.some.injEq]
      cases t.edgeColor <;> rfl
    · intro h
      have : t.isFilled filled = false := by
        unfold Truth.isFilled
        split
        · rfl
        · rename_i m e
          simp only [decide_eq_false_iff_not]
          exact fun hm => h m hm e
      simp [Truth.markerKwargs, this]
  unfold truthCalls
  generalize px.bind (t.location.lookup ·) = vx
  generalize py.bind (t.location.lookup ·) = vy
  intro c hc
  revert hc
  cases vx <;> cases vy <;> cases t.marker <;> simp [Styled] <;> (try rintro (rfl | rfl)) <;> assumption

theorem styled_markCalls {filled : List String} {t : Truth ℝ} {l : List Call} (h : ∀ c ∈ l, Styled filled t c) : markCalls l = l := by
  rw [markCalls, List.filter_eq_self]
  intro c hc
  have := h c hc
  revert this
  cases c <;> simp [Styled, markOf]

/-- Groups of calls, one per truth. -/
theorem drawn_of_groups {filled : List String} {truths : List (Truth ℝ)} {px py : Option String} (f : Truth ℝ → List Call)
    (hm : ∀ t, marks (f t) = dueMarks [t] px py) (hs : ∀ t, ∀ c ∈ f t, Styled filled t c) {a b : List Call} (ha : marks a = [])
    (hb : marks b = []) : TruthsDrawn filled truths px py (a ++ truths.flatMap f ++ b) := by
  refine ⟨truths.map f, ?_, ?_⟩
  · rw [markCalls_append, markCalls_append, markCalls_nil ha, markCalls_nil hb, List.append_nil, List.nil_append,
      List.flatMap_def]
    induction truths with
    | nil => rfl
    | cons t ts ih => rw [List.map_cons, List.flatten_cons, markCalls_append, ih, styled_markCalls (hs t)]
  · rw [List.forall₂_map_right_iff, List.forall₂_same]
    exact fun t _ => ⟨hm t, hs t⟩

theorem plotTruths_drawn (filled : List String) (truths : List (Truth ℝ)) (px py : Option String) {a b : List Call}
    (ha : marks a = []) (hb : marks b = []) : TruthsDrawn filled truths px py (a ++ plotTruths filled truths px py ++ b) :=
  drawn_of_groups (truthCalls filled px py) (fun t => (truthCalls_marks filled px py t).2) (truthCalls_styled filled px py) ha hb

/-- Drawing the truths in their styles draws the marks due. -/
theorem Spec.TruthsDrawn.marks_eq {filled : List String} {truths : List (Truth ℝ)} {px py : Option String} {calls : List Call}
    (h : TruthsDrawn filled truths px py calls) : marks calls = dueMarks truths px py := by
  obtain ⟨gs, h1, h2⟩ := h
  have e : ∀ l : List Call, marks (markCalls l) = marks l := by
    intro l
    induction l with
    | nil => rfl
    | cons c l ih =>
      unfold marks markCalls at *
      rw [List.filter_cons]
      rw [List.filterMap_cons]
      cases hc : markOf c with
      | none => simpa [hc] using ih
      | some m => simpa [hc] using ih
  rw [← e, h1]
  clear h1
  induction h2 with
  | nil => rfl
  | cons h _ ih =>
    rw [List.flatten_cons, marks_append, h.1, ih]
    simp [dueMarks]

theorem marks_parts {a b : List Call} (h : marks (a ++ b) = []) : marks a = [] ∧ marks b = [] := by
  rw [marks_append] at h
  exact List.append_eq_nil_iff.1 h

/-- **C87** for `plot`: on every panel one truth after another is drawn, in its own style. -/
theorem C87_plot {lib : Lib} {cfg : PlotConfig} {truths : List (Truth ℝ)} {b : PlottingBase} {fig : Fig}
    (h : plotBase lib cfg truths b = .ok fig) {i j : Nat} {calls : List Call} (hc : ((i, j), calls) ∈ fig.panels) :
    let k := if cfg.plotHists then 0 else 1
    (i < j → markCalls calls = []) ∧
    (j < i + k → ∀ px py, b.columns[j]? = some px → b.columns[i + k]? = some py →
      TruthsDrawn lib.filled truths (some px) (some py) calls) ∧
    (cfg.plotHists = true → i = j → ∀ p, b.columns[i]? = some p →
      if cfg.flip = true ∧ b.columns.length = 2 ∧ i = 1 then TruthsDrawn lib.filled truths none (some p) calls
        else TruthsDrawn lib.filled truths (some p) none calls) := by
  intro k
  refine ⟨fun hij => markCalls_nil ((C58_plot h hc).1 hij), ?_⟩
  obtain ⟨-, -, hcase⟩ := plot_cases h hc
  have hkk : (if cfg.plotHists = true then 0 else 1) = k := rfl
  rw [hkk] at hcase
  rcases hcase with ⟨hij, rfl⟩ | ⟨hij, hle, px, py, s, d, bars, hx, hy, hs, hd, rfl⟩ | ⟨hh, rfl, p, s, r, hp, hs, hr, rfl⟩
  · have hk1 : k = 0 ∨ k = 1 := by
      change (if cfg.plotHists then 0 else 1) = 0 ∨ (if cfg.plotHists then 0 else 1) = 1
      cases cfg.plotHists <;> simp
    exact ⟨fun h => by omega, fun _ h => by omega⟩
  · refine ⟨fun _ px' py' hx' hy' => ?_, fun hh e => ?_⟩
    · cases hx.symm.trans hx'
      cases hy.symm.trans hy'
      have := plotTruths_drawn lib.filled truths (some px) (some py) (a := s ++ d) (b := [])
        (by rw [marks_append, (items_of_setup (trianglePanel_setup hs)).2, (plotSurface_items hd).2.1]; rfl) rfl
      rw [List.append_nil] at this
      simpa only [List.append_assoc] using this
    · have : k = 0 := if_pos hh
      omega
  · have hk0 : k = 0 := if_pos hh
    refine ⟨fun h => by omega, fun _ _ p' hp' => ?_⟩
    cases hp.symm.trans hp'
    have hb : marks (r.1 ++ topLim (cfg.flip && decide (b.columns.length = 2 ∧ i = 1)) r.2) = [] := by
      rw [marks_append, (histChains_items hr).2.1, (items_of_setup fun c hc => ((topLim_setup _ _).1 c hc).1).2]; rfl
    have ha : marks s = [] := (items_of_setup (trianglePanel_setup hs)).2
    unfold histTruths
    by_cases hf : cfg.flip = true ∧ b.columns.length = 2 ∧ i = 1
    · rw [if_pos hf, if_pos (by simpa using hf)]
      have := plotTruths_drawn lib.filled truths none (some p) ha hb
      simpa only [List.append_assoc] using this
    · rw [if_neg hf, if_neg (by simpa using hf)]
      have := plotTruths_drawn lib.filled truths (some p) none ha hb
      simpa only [List.append_assoc] using this

theorem walkTruth_eq (filled : List String) (p : String) (t : Truth ℝ) : walkTruth p t = truthCalls filled none (some p) t := by
  unfold walkTruth truthCalls
  simp only [Option.bind_none, Option.bind_some]
  cases t.location.lookup p <;> rfl

theorem summaryTruth_eq (filled : List String) (p : String) (t : Truth ℝ) : summaryTruth p t = truthCalls filled (some p) none t := by
  unfold summaryTruth truthCalls
  simp only [Option.bind_none, Option.bind_some]
  cases t.location.lookup p <;> rfl

/-- **C87** for `plot_walks`. -/
theorem C87_walks (filled : List String) {cfg : PlotConfig} {truths : List (Truth ℝ)} {pw pp lw : Bool} {b : PlottingBase} {fig : Fig}
    (h : plotWalksBase cfg truths pw pp lw b = .ok fig) {i j : Nat} {calls : List Call} (hc : ((i, j), calls) ∈ fig.panels) :
    let e := (if pp = true ∧ ∃ c ∈ b.chains, c.logPosterior.isSome = true then 1 else 0) + (if pw then 1 else 0)
    (i < e → markCalls calls = []) ∧
    (e ≤ i → ∃ p, b.columns[i - e]? = some p ∧ TruthsDrawn filled truths none (some p) calls) := by
  intro e
  obtain ⟨h1, h2⟩ := walks_cases h hc
  refine ⟨fun hi => markCalls_nil (extraPanel_setup (h1 hi)), fun hi => ?_⟩
  obtain ⟨p, hp, hw⟩ := h2 hi
  refine ⟨p, hp, ?_⟩
  simp only [walkPanel, bind_ok_iff, pure_ok_iff] at hw
  obtain ⟨walks, hw, rfl⟩ := hw
  have h0 : walkPanel cfg b [] p = .ok (walks.flatten ++ (if p ∈ b.blind then [.noTicks .y] else [])) := by
    simp only [walkPanel, bind_ok_iff, pure_ok_iff]
    exact ⟨walks, hw, by rw [List.flatMap_nil, List.append_nil]⟩
  obtain ⟨ha, hb⟩ := marks_parts (walkPanel_setup h0).2.1
  rw [show walkTruth p = truthCalls filled none (some p) from funext (walkTruth_eq filled p)]
  exact plotTruths_drawn filled truths none (some p) ha hb

/-- **C87** for `plot_summary`. -/
theorem C87_summary (filled : List String) {lib : Lib} {cfg : PlotConfig} {truths : List (Truth ℝ)} {errorbar : Bool} {b : PlottingBase}
    {fig : Fig} (h : plotSummaryBase lib cfg truths errorbar b = .ok fig) {i j : Nat} {calls : List Call}
    (hc : ((i, j), calls) ∈ fig.panels) :
    (j = 0 → markCalls calls = []) ∧
    (∀ k, j = k + 1 → ∃ p, b.columns[k]? = some p ∧ TruthsDrawn filled truths (some p) none calls) := by
  refine ⟨fun hj => markCalls_nil ((C58_summary h hc).1 hj), fun k hk => ?_⟩
  obtain ⟨c, l, -, hl, hcase⟩ := summary_cell h hc
  have hml : marks l = [] := by
    rcases hl with rfl | ⟨m, rfl⟩ <;> rfl
  rcases hcase with ⟨rfl, rfl⟩ | ⟨k', p, cell, rfl, hp, hcell, rfl⟩
  · omega
  · obtain rfl : k = k' := by omega
    refine ⟨p, hp, ?_⟩
    simp only [summaryCell, bind_ok_iff, pure_ok_iff] at hcell
    obtain ⟨xlim, hx, r, hr, rfl⟩ := hcell
    have h0 : summaryCell lib cfg b [] errorbar i c p = .ok ((if decide (i < b.chains.length - 1) || decide (p ∈ b.blind) then
          [.noTicks .x] else []) ++ [.noTicks .y, xlim] ++ (if p ∈ b.logScales then [.logScale .x] else []) ++
        (if i = 0 then [.title (getLabel cfg.labels p)] else []) ++ r.1, r.2) := by
      simp only [summaryCell, bind_ok_iff, pure_ok_iff]
      exact ⟨xlim, hx, r, hr, by rw [List.flatMap_nil, List.append_nil]⟩
    obtain ⟨ha, hb⟩ := marks_parts (summaryCell_setup h0).1
    rw [show summaryTruth p = truthCalls filled (some p) none from funext (summaryTruth_eq filled p)]
    have := plotTruths_drawn filled truths (some p) none ha (b := r.1 ++ l) (by rw [marks_append, hb, hml]; rfl)
    unfold plotTruths at this
    simpa only [List.append_assoc] using this

/-- **C87** for `plot_distributions` (the lines run along the wrong axis, see `C58_violated`). -/
theorem C87_distributions {lib : Lib} {cfg : PlotConfig} {truths : List (Truth ℝ)} {colWrap : Nat} {b : PlottingBase}
    {fig : Fig} (h : plotDistributionsBase lib cfg truths colWrap b = .ok fig) {i j : Nat} {calls : List Call}
    (hc : ((i, j), calls) ∈ fig.panels) :
    let u := i * min b.columns.length colWrap + j
    (b.columns.length ≤ u → markCalls calls = []) ∧
    ∀ p, b.columns[u]? = some p → TruthsDrawn lib.filled truths none (some p) calls := by
  intro u
  refine ⟨fun hu => markCalls_nil ((C58_distributions_partial h hc).1 hu), fun p hp => ?_⟩
  obtain ⟨-, -, hpp, -⟩ := distributions_panels h
  obtain ⟨-, ⟨h1, rfl⟩ | ⟨h1, h2⟩⟩ := hpp _ _ hc
  · have := (List.getElem?_eq_some_iff.1 hp).1
    simp only at h1
    omega
  · simp only at h1 h2
    rw [List.getD_eq_getElem?_getD, show i * min b.columns.length colWrap + j = u from rfl, hp, Option.getD_some] at h2
    simp only [distPanel, bind_ok_iff, pure_ok_iff] at h2
    obtain ⟨xlim, hx, r, hr, ylim, hy, rfl⟩ := h2
    have h0 : distPanel lib cfg b [] p = .ok ([.noTicks .y] ++ (if p ∈ b.logScales then [.logScale .x] else []) ++
        [if p ∈ b.blind then .noTicks .x else if p ∈ b.logScales then .logLocator .x else .maxNLocator .x] ++ [xlim] ++ r.1 ++
        [ylim, .axisLabel .x p]) := by
      simp only [distPanel, bind_ok_iff, pure_ok_iff]
      exact ⟨xlim, hx, r, hr, ylim, hy, by rw [plotTruths, List.flatMap_nil, List.append_nil]⟩
    obtain ⟨ha, hb⟩ := marks_parts (distPanel_setup h0).1
    exact plotTruths_drawn lib.filled truths none (some p) ha hb

/-- The name of a truth is shown nowhere: figures with other names are the same. -/
theorem C87_names (f : Truth ℝ → Option String) (lib : Lib) (cfg : PlotConfig) (truths : List (Truth ℝ)) (b : PlottingBase) :
    plotBase lib cfg (truths.map fun t => { t with name := f t }) b = plotBase lib cfg truths b ∧
    (∀ pw pp lw, plotWalksBase cfg (truths.map fun t => { t with name := f t }) pw pp lw b = plotWalksBase cfg truths pw pp lw b) ∧
    (∀ errorbar, plotSummaryBase lib cfg (truths.map fun t => { t with name := f t }) errorbar b =
      plotSummaryBase lib cfg truths errorbar b) ∧
    ∀ colWrap, plotDistributionsBase lib cfg (truths.map fun t => { t with name := f t }) colWrap b =
      plotDistributionsBase lib cfg truths colWrap b := by
  have h1 : ∀ px py, plotTruths lib.filled (truths.map fun t => { t with name := f t }) px py = plotTruths lib.filled truths px py := by
    intro px py
    unfold plotTruths
    rw [List.flatMap_map]
    rfl
  have h2 : ∀ p, (truths.map fun t => { t with name := f t }).flatMap (walkTruth p) = truths.flatMap (walkTruth p) := by
    intro p
    rw [List.flatMap_map]
    rfl
  have h3 : ∀ p, (truths.map fun t => { t with name := f t }).flatMap (summaryTruth p) = truths.flatMap (summaryTruth p) := by
    intro p
    rw [List.flatMap_map]
    rfl
  refine ⟨?_, fun pw pp lw => ?_, fun errorbar => ?_, fun colWrap => ?_⟩
  · simp only [plotBase, drawPanel, histPanel, histTruths, h1]
  · simp only [plotWalksBase, walkPanel, h2]
  · simp only [plotSummaryBase, summaryCell, h3]
  · simp only [plotDistributionsBase, distPanel, h1]

theorem styled_cons {filled : List String} {t : Truth ℝ} {l : List Call} (h : ∀ c ∈ l, Styled filled t c) {m : Mark} {ms : List Mark}
    (hm : marks l = m :: ms) : ∃ c l', l = c :: l' ∧ markOf c = some m ∧ marks l' = ms ∧ Styled filled t c ∧
      ∀ c ∈ l', Styled filled t c := by
  cases l with
  | nil => cases hm
  | cons c l =>
    obtain ⟨hc, hl⟩ := List.forall_mem_cons.1 h
    unfold marks at hm
    rw [List.filterMap_cons] at hm
    cases e : markOf c with
    | none =>
      exfalso
      revert hc e
      cases c <;> simp [Styled, markOf]
    | some m' =>
      rw [e] at hm
      obtain ⟨h1, h2⟩ := List.cons.inj hm
      exact ⟨c, l, rfl, e.trans (congrArg some h1), h2, hc, hl⟩

theorem styled_nil {filled : List String} {t : Truth ℝ} {l : List Call} (h : ∀ c ∈ l, Styled filled t c)
    (hm : marks l = []) : l = [] := by
  rw [← styled_markCalls h, markCalls_nil hm]

/-- Two truths and a chain in between. -/
example (w : World) (t₁ t₂ : Truth ℝ) (a : Args ℝ) :
    (run w [.addTruth t₁, .newChain a, .removeName "x", .addTruth t₂, .finalise]).cons.truths = w.cons.truths ++ [t₁, t₂] :=
  C87_registry w _

/-- A line and a dot of two truths in the panel of `a` and `b`. -/
example (lib : Lib) (hfill : "o" ∈ lib.filled) : ∃ (b : PlottingBase) (fig : Fig) (calls : List Call) (k₁ k₂ : LineKwargs ℝ)
    (k₃ : MarkerKwargs ℝ),
    plotBase lib {} [{ Truth.line [("a", 1 / 4), ("b", 3)] with color := "red", lineWidth := 2 },
      { Truth.line [("a", 1 / 4), ("b", 3)] with marker := some "o", edgeColor := some "blue" }] b = .ok fig ∧
    ((1, 0), calls) ∈ fig.panels ∧
    markCalls calls = [.vline (1 / 4) k₁, .hline 3 k₂, .marker (1 / 4) 3 k₃] ∧
    k₁.c = "red" ∧ k₁.lw = 2 ∧ k₂.c = "red" ∧ k₃.color = "black" ∧ k₃.edgecolor = some "blue" := by
  obtain ⟨c1, h1⟩ := gridSingle_exists
  obtain ⟨c2, h2⟩ := cloudPair_exists
  obtain ⟨fig, hf⟩ := demo_triangle lib [{ Truth.line [("a", 1 / 4), ("b", 3)] with color := "red", lineWidth := 2 },
      { Truth.line [("a", 1 / 4), ("b", 3)] with marker := some "o", edgeColor := some "blue" }] h1 h2
  have hm : ((1, 0) : Nat × Nat) ∈ fig.panels.map Prod.fst := by
    rw [(plot_panels hf).2.1]; exact mem_gridPanels.2 ⟨(by decide : 1 < 2), (by decide : 0 < 2)⟩
  obtain ⟨⟨_, calls⟩, hcalls, rfl⟩ := List.mem_map.1 hm
  obtain ⟨gs, hg, hgs⟩ := (C87_plot hf hcalls).2.1 (by simp) "a" "b" rfl rfl
  rw [List.forall₂_cons_left_iff] at hgs
  obtain ⟨g₁, gs, ⟨hm₁, hs₁⟩, hgs, rfl⟩ := hgs
  rw [List.forall₂_cons_left_iff] at hgs
  obtain ⟨g₂, gs, ⟨hm₂, hs₂⟩, hgs, rfl⟩ := hgs
  rw [List.forall₂_nil_left_iff] at hgs
  subst hgs
  obtain ⟨c₁, l, rfl, e₁, hm₁, s₁, hs₁⟩ := styled_cons hs₁ (m := .vertical (1 / 4)) (ms := [.horizontal 3]) hm₁
  obtain ⟨c₂, l, rfl, e₂, hm₁, s₂, hs₁⟩ := styled_cons hs₁ (m := .horizontal 3) (ms := []) hm₁
  obtain ⟨c₃, l', rfl, e₃, hm₂, s₃, hs₂⟩ := styled_cons hs₂ (m := .dot (1 / 4) 3) (ms := []) hm₂
  cases styled_nil hs₁ hm₁
  cases styled_nil hs₂ hm₂
  have k₁ : ∃ k, c₁ = .vline (1 / 4) k := by
    cases c₁ <;> simp_all [markOf]
  have k₂ : ∃ k, c₂ = .hline 3 k := by
    cases c₂ <;> simp_all [markOf]
  have k₃ : ∃ k, c₃ = .marker (1 / 4) 3 k := by
    cases c₃ <;> simp_all [markOf]
  obtain ⟨k₁, rfl⟩ := k₁
  obtain ⟨k₂, rfl⟩ := k₂
  obtain ⟨k₃, rfl⟩ := k₃
  exact ⟨_, fig, calls, k₁, k₂, k₃, hf, hcalls, hg, s₁.colour, s₁.width, s₂.colour, s₃.colour, (s₃.edge ⟨"o", hfill, rfl⟩).2.2⟩

end CC
