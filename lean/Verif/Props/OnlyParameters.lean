import Verif.Props.ErrorBars
import Verif.Props.Columns
import Verif.Props.LatexTable

/-! # C116: only parameters are reported as parameters -/

namespace CC
open Spec

/-- No parameter of a chain has the name of the weights or the posteriors of a chain. -/
def Spec.NoClash (cs : List (Chain ℝ)) : Prop :=
  ∀ c ∈ cs, ∀ d ∈ cs, ∀ p ∈ d.dataColumns, p ≠ c.weightColumn ∧ p ≠ c.posteriorColumn

/-- The chains and columns that a call shows something of. -/
def Spec.shown : Call → List (String × String)
  | .marginal c p _ _ _ => [(c, p)]
  | .shade c p _ _ _ => [(c, p)]
  | .errorbar c p _ _ _ => [(c, p)]
  | .cloud c px py _ _ _ => [(c, px), (c, py)]
  | .contour c px py _ _ _ _ => [(c, px), (c, py)]
  | .point c px py _ _ => [(c, px), (c, py)]
  | _ => []

/-- Every column shown is a parameter of the chain it is shown for. -/
def Spec.OnlyParameters (cs : List (Chain ℝ)) (calls : List Call) : Prop :=
  ∀ x ∈ calls.flatMap shown, ∃ c ∈ cs, c.name = x.1 ∧ x.2 ∈ c.dataColumns

/-- A column of another chain's parameters that a chain has is a parameter of it, or its weights or posteriors. -/
theorem clash_cases {c d : Chain ℝ} {q : String} (hd : q ∈ d.dataColumns) (hq : q ∈ c.samples.columns) :
    q ∈ c.dataColumns ∨ q = c.weightColumn ∨ q = c.posteriorColumn := by
  obtain ⟨-, -, -, hr⟩ := ((C09_data_columns d).2.2 q).1 hd
  by_cases h1 : q = c.weightColumn
  · exact .inr (.inl h1)
  by_cases h2 : q = c.posteriorColumn
  · exact .inr (.inr h2)
  exact .inl (((C09_data_columns c).2.2 q).2 ⟨hq, h1, h2, hr⟩)

theorem plotting_data {c : Chain ℝ} {q : String} (h : q ∈ c.plottingColumns) : q ∈ c.dataColumns :=
  (C09_plotting_columns c q).1.subset h

/-- **C116, partial** (`get_summary`). Without a list of columns, what is reported of a chain are parameters of it, but for its weights
and posteriors if these have the name of a parameter of another of the chains; if there are no such names, only parameters are
reported. -/
theorem C116_summary_partial (kde : KdeFn) (h : Heap ℝ) (s : Consumer ℝ) (cs : List (Chain ℝ))
    (res : List (String × List (String × Summary ℝ))) (hres : getSummary kde h s (some cs) none = .ok res) :
    ∀ e ∈ res, ∃ c ∈ cs, c.name = e.1 ∧ ∀ x ∈ e.2, summaryEntry kde c x.1 = .ok x.2 ∧
      (x.1 ∈ c.dataColumns ∨ ((x.1 = c.weightColumn ∨ x.1 = c.posteriorColumn) ∧ ∃ d ∈ cs, x.1 ∈ d.plottingColumns)) ∧
      (NoClash cs → x.1 ∈ c.dataColumns) := by
  obtain ⟨cs', cols, rfl, hcols, -, hent⟩ := C37_structure kde h s (some cs) none res hres
  intro e he
  obtain ⟨c, ⟨pre, post, rfl, hl⟩, hn, hcov⟩ := hent e he
  refine ⟨c, by simp, hn, fun x hx => ⟨hcov.values x hx, ?_⟩⟩
  have h1 := (hcov.columns.mem x.1).1 (List.mem_map.2 ⟨x, hx, rfl⟩)
  obtain ⟨h2, h3⟩ := List.mem_filter.1 h1
  obtain ⟨d, hd, hxd⟩ := List.mem_flatMap.1 ((hcols.mem x.1).1 h2)
  have h4 := clash_cases (plotting_data hxd) (by simpa using h3)
  refine ⟨?_, fun hno => ?_⟩
  · rcases h4 with h4 | h4
    · exact .inl h4
    · exact .inr ⟨h4, d, hd, hxd⟩
  · have := hno c (by simp) d hd x.1 (plotting_data hxd)
    tauto

/-- **C116, partial** (parameter table). A cell that is not filled with the text for missing values is the summary of a parameter of its
chain, if no parameter has the name of weights or posteriors. -/
theorem C116_table_partial (kde : KdeFn) (hp : Heap ℝ) (s : Consumer ℝ) (req : ChainReq ℝ) (o : TableOpts)
    (p : TableParts) (h : latexTableParts kde hp s req o = .ok p) (hto : o.transpose = false) :
    ∃ final cs cols owners, finalDict hp s = .ok final ∧ plotChains final req false = .ok cs ∧ (∀ c ∈ owners, c ∈ cs) ∧
      (NoClash cs → List.Forall₂ (fun c row => ∃ cells, row = ("\t\t" ++ c.name) :: cells ∧
        List.Forall₂ (fun q cell => cell = o.blankFill ∨ q ∈ c.dataColumns ∧
          ∃ v, summaryEntry kde c q = .ok v ∧ parameterText (some v) true none = .ok cell) cols cells) owners p.rows) := by
  obtain ⟨final, cs, plotted, cols, owners, h1, h2, h3, -, -, h4, -, h5, -⟩ := C43_table kde hp s req o p h
  have hmem : ∀ c ∈ owners, c ∈ cs := by
    intro c hc
    obtain ⟨pre, post, rfl, -⟩ := h4 c hc
    simp
  refine ⟨final, cs, cols, owners, h1, h2, hmem, fun hno => ?_⟩
  obtain ⟨-, hrows⟩ := h5 hto
  have hall : ∀ c ∈ owners, ∀ q cell, CellFor kde plotted o.blankFill c q cell → cell = o.blankFill ∨ q ∈ c.dataColumns ∧
      ∃ v, summaryEntry kde c q = .ok v ∧ parameterText (some v) true none = .ok cell := by
    rintro c hc q cell (⟨k1, k2, k3⟩ | ⟨-, k⟩)
    · right
      refine ⟨?_, k3⟩
      obtain ⟨d, hd, hxd⟩ := List.mem_flatMap.1 ((h3.mem q).1 k1)
      have h6 := clash_cases (plotting_data hxd) k2
      have := hno c (hmem c hc) d hd q (plotting_data hxd)
      tauto
    · exact .inl k
  clear h4 h5 hmem
  generalize p.rows = rows at hrows ⊢
  induction hrows with
  | nil => exact .nil
  | cons hr _ ih =>
    obtain ⟨cells, rfl, hcells⟩ := hr
    exact .cons ⟨cells, rfl, hcells.imp fun q cell hq => hall _ (by simp) q cell hq⟩ (ih fun c hc => hall c (by simp [hc]))

/-- **C116** (violated). A chain whose weights or posteriors have the name of a parameter of another chain is reported with a summary of
them under that name, though they are none of its parameters. -/
theorem C116_violated (kde : KdeFn) (h : Heap ℝ) (s : Consumer ℝ) (cs : List (Chain ℝ))
    (res : List (String × List (String × Summary ℝ))) (hres : getSummary kde h s (some cs) none = .ok res)
    (c d : Chain ℝ) (hc : LastNamed cs c) (hd : d ∈ cs) (q : String) (hq : q ∈ d.plottingColumns) (hqc : q ∈ c.samples.columns)
    (hw : q = c.weightColumn ∨ q = c.posteriorColumn) :
    q ∉ c.dataColumns ∧ ∃ r v, (c.name, r) ∈ res ∧ (q, v) ∈ r ∧ summaryEntry kde c q = .ok v := by
  obtain ⟨cs', cols, rfl, hcols, hnames, hent⟩ := C37_structure kde h s (some cs) none res hres
  refine ⟨fun hm => ?_, ?_⟩
  · obtain ⟨-, h1, h2, -⟩ := ((C09_data_columns c).2.2 q).1 hm
    tauto
  obtain ⟨e, he, hen⟩ := List.mem_map.1 ((hnames.mem c.name).2 (by
    obtain ⟨pre, post, rfl, -⟩ := hc
    simp))
  obtain ⟨c', hl', hn', hcov⟩ := hent e he
  have hcc : c' = c := by
    obtain ⟨pre, post, h1, h2⟩ := hc
    obtain ⟨pre', post', h3, h4⟩ := hl'
    rw [h1] at h3
    have hnn : c'.name = c.name := hn'.trans hen
    rcases List.append_eq_append_iff.1 h3 with ⟨l, h5, h6⟩ | ⟨l, h5, h6⟩
    · cases l with
      | nil => simp only [List.nil_append, List.cons.injEq] at h6; exact h6.1.symm
      | cons y ys =>
        simp only [List.cons_append, List.cons.injEq] at h6
        exact absurd (List.mem_map.2 ⟨c', by rw [h6.2]; simp, hnn⟩) h2
    · cases l with
      | nil => simp only [List.nil_append, List.cons.injEq] at h6; exact h6.1
      | cons y ys =>
        simp only [List.cons_append, List.cons.injEq] at h6
        exact absurd (List.mem_map.2 ⟨c, by rw [h6.2]; simp, hnn.symm⟩) h4
  subst hcc
  have hm : q ∈ e.2.map Prod.fst := (hcov.columns.mem q).2 (List.mem_filter.2
    ⟨(hcols.mem q).2 (List.mem_flatMap.2 ⟨d, hd, hq⟩), by simpa using hqc⟩)
  obtain ⟨x, hx, rfl⟩ := List.mem_map.1 hm
  exact ⟨e.2, x.2, by rw [← hen]; exact he, hx, hcov.values x hx⟩

/-! ### Figures -/

theorem shown_of_none {l : List Call} (h : ∀ c ∈ l, shown c = []) : l.flatMap shown = [] := by
  rw [List.flatMap_eq_nil_iff]; exact h

theorem shown_title (t : String) : shown (.title t) = [] := rfl

theorem shown_noTicks (d : Dir) : shown (.noTicks d) = [] := rfl

theorem shown_axisLabel (d : Dir) (t : String) : shown (.axisLabel d t) = [] := rfl

theorem shown_logScale (d : Dir) : shown (.logScale d) = [] := rfl

theorem setLim_shown {d : Dir} {e : Option (Option (ℝ × ℝ))} {c : Call} (h : setLim d e = .ok c) : shown c = [] := by
  obtain ⟨_, _, rfl, -⟩ := setLim_setup h
  rfl

theorem axisCalls_shown (cfg : PlotConfig) (blind : List String) (d : Dir) (p : String) (log on : Bool) :
    ∀ c ∈ axisCalls cfg blind d p log on, shown c = [] := by
  intro c hc
  unfold axisCalls at hc
  have hl : c = .logScale d ∨ c = .noTicks d ∨ c = .axisLabel d (getLabel cfg.labels p) ∨ c = .logLocator d ∨
      c = .maxNLocator d := by
    by_cases hb : p ∈ blind <;> cases log <;> cases on <;> simp [hb] at hc <;> tauto
  rcases hl with rfl | rfl | rfl | rfl | rfl <;> rfl

theorem trianglePanel_shown {cfg : PlotConfig} {b : PlottingBase} {n i j : Nat} {p1 p2 : String} {s : List Call}
    (h : trianglePanel cfg b n i j p1 p2 = .ok s) : ∀ c ∈ s, shown c = [] := by
  unfold trianglePanel at h
  by_cases hij : i < j
  · rw [if_pos hij] at h
    cases h
    intro c hc
    simp only [List.mem_cons, List.not_mem_nil, or_false] at hc
    rcases hc with rfl | rfl | rfl <;> rfl
  · rw [if_neg hij] at h
    simp only [bind_ok_iff, pure_ok_iff] at h
    obtain ⟨ylim, hy, xlim, hx, rfl⟩ := h
    intro c hc
    simp only [List.mem_append, List.mem_singleton] at hc
    rcases hc with ((hc | hc) | hc) | rfl
    · exact axisCalls_shown _ _ _ _ _ _ c hc
    · exact axisCalls_shown _ _ _ _ _ _ c hc
    · unfold triangleYlim at hy
      split at hy
      · simp only [bind_ok_iff, pure_ok_iff] at hy
        obtain ⟨_, hy, rfl⟩ := hy
        rw [List.mem_singleton.1 hc]
        exact setLim_shown hy
      · cases hy
        cases hc
    · exact setLim_shown hx

theorem plotTruths_shown (filled : List String) (truths : List (Truth ℝ)) (px py : Option String) :
    ∀ c ∈ plotTruths filled truths px py, shown c = [] := by
  intro c hc
  obtain ⟨t, -, hc⟩ := List.mem_flatMap.1 hc
  simp only [truthCalls] at hc
  revert hc
  generalize px.bind (t.location.lookup ·) = vx
  generalize py.bind (t.location.lookup ·) = vy
  intro hc
  generalize t.marker = tm at hc
  cases vx <;> cases vy <;> cases tm <;>
    simp only [List.nil_append, List.append_nil, List.cons_append, List.mem_cons, List.not_mem_nil, or_false] at hc <;>
    first
      | (subst hc; rfl)
      | (rcases hc with rfl | rfl <;> rfl)

theorem plotBars_shown {lib : Lib} {cfg : PlotConfig} {p : String} {c : Chain ℝ} {flip summary : Bool} {r : List Call × ℝ}
    (h : plotBars lib cfg p c flip summary = .ok r) : ∀ x ∈ r.1.flatMap shown, x = (c.name, p) := by
  unfold plotBars at h
  simp only [bind_ok_iff, pure_ok_iff] at h
  obtain ⟨⟨xs, ys⟩, -, hh, -, top, -, shade, hs, rfl⟩ := h
  have hsh : ∀ x ∈ shade.flatMap shown, x = (c.name, p) := by
    unfold barShadeIf at hs
    split at hs
    · unfold barShade at hs
      simp only [bind_ok_iff] at hs
      obtain ⟨b, -, hs⟩ := hs
      revert hs
      cases b.lower with
      | none => intro hs; cases hs; simp
      | some lo =>
        cases b.upper with
        | none => intro hs; cases hs; simp
        | some hi =>
          intro hs
          simp only [bind_ok_iff, pure_ok_iff] at hs
          obtain ⟨⟨ivs, s⟩, -, a, -, z, -, -, -, title, -, rfl⟩ := hs
          intro x hx
          obtain ⟨call, hcall, hx⟩ := List.mem_flatMap.1 hx
          rcases List.mem_append.1 hcall with hcall | hcall
          · obtain ⟨iv, -, rfl⟩ := List.mem_map.1 hcall
            exact List.mem_singleton.1 hx
          · split at hcall
            · cases hcall
            · rw [List.mem_singleton.1 hcall] at hx
              cases hx
    · cases hs; simp
  intro x hx
  rw [List.flatMap_cons] at hx
  rcases List.mem_append.1 hx with hx | hx
  · exact List.mem_singleton.1 hx
  · exact hsh x hx

theorem bars_shown {lib : Lib} {cfg : PlotConfig} {p : String} {flip summary : Bool} {chains : List (Chain ℝ)} {bars : List (List Call)}
    (h : List.Forall₂ (fun c b => ∃ v, plotBars lib cfg p c flip summary = .ok (b, v)) chains bars) :
    ∀ x ∈ bars.flatten.flatMap shown, ∃ c ∈ chains, x = (c.name, p) := by
  intro x hx
  obtain ⟨call, hcall, hx⟩ := List.mem_flatMap.1 hx
  obtain ⟨part, hpart, hcall⟩ := List.mem_flatten.1 hcall
  obtain ⟨c, hc, v, hv⟩ := forall₂_mem_right h hpart
  exact ⟨c, hc, plotBars_shown hv x (List.mem_flatMap.2 ⟨call, hcall, hx⟩)⟩

theorem surfaceChain_shown {lib : Lib} {cfg : PlotConfig} {px py : String} {c : Chain ℝ} {r : List Call × List String}
    (h : surfaceChain lib cfg px py c = .ok r) : ∀ x ∈ r.1.flatMap shown, x.1 = c.name ∧ x.2 ∈ c.plottingColumns := by
  unfold surfaceChain at h
  by_cases hp : px ∉ c.plottingColumns ∨ py ∉ c.plottingColumns
  · rw [if_pos hp] at h
    cases h
    simp
  · rw [if_neg hp] at h
    have hp' : px ∈ c.plottingColumns ∧ py ∈ c.plottingColumns := by tauto
    simp only [bind_ok_iff, pure_ok_iff] at h
    obtain ⟨⟨cloud, bars'⟩, h1, contour, h2, point, h3, rfl⟩ := h
    have key : ∀ x : String × String, x ∈ [(c.name, px), (c.name, py)] → x.1 = c.name ∧ x.2 ∈ c.plottingColumns := by
      intro x hx
      simp only [List.mem_cons, List.not_mem_nil, or_false] at hx
      rcases hx with rfl | rfl
      · exact ⟨rfl, hp'.1⟩
      · exact ⟨rfl, hp'.2⟩
    intro x hx
    simp only [List.flatMap_append, List.mem_append] at hx
    rcases hx with (hx | hx) | hx
    · unfold cloudCalls at h1
      split at h1
      · simp only [bind_ok_iff, pure_ok_iff] at h1
        obtain ⟨r, hr, e⟩ := h1
        cases e
        simp only [plotCloud, bind_ok_iff, pure_ok_iff] at hr
        obtain ⟨x, -, y, -, s, -, cd, -, rfl⟩ := hr
        exact key _ (by simpa [shown] using hx)
      · cases h1; simp at hx
    · unfold contourCalls at h2
      split at h2
      · simp only [bind_ok_iff, pure_ok_iff] at h2
        obtain ⟨r, hr, rfl⟩ := h2
        simp only [plotContour, bind_ok_iff, pure_ok_iff] at hr
        obtain ⟨_, -, x, -, y, -, -, -, -, -, -, -, rfl⟩ := hr
        exact key _ (by simpa [shown] using hx)
      · cases h2; simp at hx
    · unfold pointCalls at h3
      split at h3
      · unfold plotPoint at h3
        simp only [bind_ok_iff] at h3
        obtain ⟨m, -, h3⟩ := h3
        cases m with
        | none => cases h3; simp at hx
        | some m =>
          simp only at h3
          revert h3
          generalize m.coordinate.lookup px = vx
          generalize m.coordinate.lookup py = vy
          intro h3
          cases vx <;> cases vy <;> cases h3 <;> first | exact key _ (by simpa only [List.flatMap_cons, List.flatMap_nil, shown, List.append_nil] using hx) | simp at hx
      · cases h3; simp at hx

/-- The histograms of `plot` are of chains whose table has the column. -/
theorem plot_shown {lib : Lib} {cfg : PlotConfig} {truths : List (Truth ℝ)} {b : PlottingBase} {fig : Fig}
    (h : plotBase lib cfg truths b = .ok fig) {i j : Nat} {calls : List Call} (hc : ((i, j), calls) ∈ fig.panels) :
    (cfg.plotHists = true ∧ i = j ∧ ∃ p, b.columns[i]? = some p ∧
      ∀ x ∈ calls.flatMap shown, ∃ c ∈ b.chains, p ∈ c.samples.columns ∧ x = (c.name, p)) ∨
    (¬ (cfg.plotHists = true ∧ i = j) ∧ ∀ x ∈ calls.flatMap shown, ∃ c ∈ b.chains, c.name = x.1 ∧ x.2 ∈ c.plottingColumns) := by
  obtain ⟨-, -, hcase⟩ := plot_cases h hc
  rcases hcase with ⟨hij, rfl⟩ | ⟨hij, -, px, py, s, d, bars, -, -, hs, hd, rfl⟩ | ⟨hh, hij, p, s, r, hp, hs, hr, rfl⟩
  · right
    exact ⟨by omega, by simp [shown]⟩
  · right
    refine ⟨fun ⟨h1, h2⟩ => by rw [if_pos h1] at hij; omega, ?_⟩
    rw [List.flatMap_append, List.flatMap_append, shown_of_none (trianglePanel_shown hs), shown_of_none (plotTruths_shown _ _ _ _),
      List.nil_append, List.append_nil]
    simp only [plotSurface, bind_ok_iff, pure_ok_iff, Prod.mk.injEq] at hd
    obtain ⟨rs, hrs, rfl, -⟩ := hd
    intro x hx
    obtain ⟨call, hcall, hx⟩ := List.mem_flatMap.1 hx
    obtain ⟨r, hr, hcall⟩ := List.mem_flatMap.1 hcall
    obtain ⟨c, hcc, hsc⟩ := forall₂_mem_right (mapM_ok_iff.1 hrs) hr
    obtain ⟨h1, h2⟩ := surfaceChain_shown hsc x (List.mem_flatMap.2 ⟨call, hcall, hx⟩)
    exact ⟨c, hcc, h1.symm, h2⟩
  · left
    refine ⟨hh, hij, p, hp, ?_⟩
    obtain ⟨bars, hb1, hb2⟩ := histChains_bars (calls := r.1) (m' := r.2) hr
    have h1 : ∀ f m, (topLim f m).flatMap shown = [] := by intro f m; cases m <;> rfl
    have h2 : ∀ f, (histTruths lib truths f p).flatMap shown = [] := by
      intro f
      cases f
      · exact shown_of_none (plotTruths_shown _ _ _ _)
      · exact shown_of_none (plotTruths_shown _ _ _ _)
    rw [List.flatMap_append, List.flatMap_append, List.flatMap_append, shown_of_none (trianglePanel_shown hs), h1, h2,
      List.nil_append, List.nil_append, List.append_nil, hb1]
    intro x hx
    obtain ⟨c, hc, e⟩ := bars_shown hb2 x hx
    obtain ⟨h3, h4⟩ := List.mem_filter.1 hc
    simp only [Bool.and_eq_true, decide_eq_true_eq] at h4
    exact ⟨c, h3, h4.2, e⟩

/-- **C116, partial** (`plot`). Clouds, contours and points show parameters of their chains only. So do the histograms, if the columns
of the figure are parameters (as they are unless a list is given, C55) and none of these has the name of weights or posteriors. -/
theorem C116_plot_partial {lib : Lib} {cfg : PlotConfig} {truths : List (Truth ℝ)} {b : PlottingBase} {fig : Fig}
    (h : plotBase lib cfg truths b = .ok fig) {i j : Nat} {calls : List Call} (hc : ((i, j), calls) ∈ fig.panels)
    (hno : cfg.plotHists = true → i = j → (∀ p ∈ b.columns, ∃ d ∈ b.chains, p ∈ d.plottingColumns) ∧ NoClash b.chains) :
    OnlyParameters b.chains calls := by
  rcases plot_shown h hc with ⟨hh, hij, p, hp, hall⟩ | ⟨-, hall⟩
  · obtain ⟨hcols, hno'⟩ := hno hh hij
    intro x hx
    obtain ⟨c, hcm, h1, rfl⟩ := hall x hx
    obtain ⟨d, hd, hxd⟩ := hcols p (List.mem_of_getElem? hp)
    have h2 := clash_cases (plotting_data hxd) h1
    have h3 := hno' c hcm d hd p (plotting_data hxd)
    exact ⟨c, hcm, rfl, by tauto⟩
  · intro x hx
    obtain ⟨c, hcm, h1, h2⟩ := hall x hx
    exact ⟨c, hcm, h1, plotting_data h2⟩

/-- **C116** for `plot_distributions`, with any list of columns. -/
theorem C116_distributions {lib : Lib} {cfg : PlotConfig} {truths : List (Truth ℝ)} {colWrap : Nat} {b : PlottingBase} {fig : Fig}
    (h : plotDistributionsBase lib cfg truths colWrap b = .ok fig) {ij : Nat × Nat} {calls : List Call} (hc : (ij, calls) ∈ fig.panels) :
    OnlyParameters b.chains calls := by
  obtain ⟨-, -, hcells, -⟩ := distributions_panels h
  obtain ⟨-, ⟨-, rfl⟩ | ⟨hlt, hd⟩⟩ := hcells _ _ hc
  · simp [OnlyParameters, shown]
  simp only [distPanel, bind_ok_iff, pure_ok_iff] at hd
  obtain ⟨xlim, hx, r, hr, ylim, hy, rfl⟩ := hd
  generalize b.columns.getD (ij.1 * min b.columns.length colWrap + ij.2) "" = p at *
  have hyl : shown ylim = [] := by
    unfold distYlim at hy
    split at hy <;> cases hy
    rfl
  have hl : (if p ∈ b.logScales then [Call.logScale .x] else []).flatMap shown = [] := by split <;> rfl
  have hk' : shown (if p ∈ b.blind then Call.noTicks .x else if p ∈ b.logScales then .logLocator .x else .maxNLocator .x) = [] := by
    split
    · rfl
    · split <;> rfl
  obtain ⟨bars, hb1, hb2⟩ := distChains_bars (calls := r.1) (m' := r.2) hr
  intro x hx'
  simp only [List.flatMap_append, List.flatMap_cons, List.flatMap_nil, hl, hk', hyl, setLim_shown hx,
    shown_of_none (plotTruths_shown lib.filled truths none (some p)), shown_noTicks, shown_axisLabel, List.nil_append, List.append_nil] at hx'
  rw [hb1] at hx'
  obtain ⟨c, hcm, rfl⟩ := bars_shown hb2 x hx'
  obtain ⟨h3, h4⟩ := List.mem_filter.1 hcm
  simp only [Bool.and_eq_true, decide_eq_true_eq] at h4
  exact ⟨c, h3, rfl, plotting_data h4.2⟩

/-- **C116** for `plot_summary`, with error bars or histograms and any list of columns. -/
theorem C116_plot_summary {lib : Lib} {cfg : PlotConfig} {truths : List (Truth ℝ)} {errorbar : Bool} {b : PlottingBase} {fig : Fig}
    (h : plotSummaryBase lib cfg truths errorbar b = .ok fig) {ij : Nat × Nat} {calls : List Call} (hc : (ij, calls) ∈ fig.panels) :
    OnlyParameters b.chains calls := by
  obtain ⟨c, l, hci, hl, hcase⟩ := summary_cell h (i := ij.1) (j := ij.2) hc
  have hbl : l.flatMap shown = [] := by
    rcases hl with rfl | ⟨m, rfl⟩ <;> rfl
  rcases hcase with ⟨-, rfl⟩ | ⟨k, p, cell, -, hp, hcell, rfl⟩
  · intro x hx
    simp only [List.flatMap_append, hbl, List.append_nil] at hx
    simp [shown] at hx
  simp only [summaryCell, bind_ok_iff, pure_ok_iff] at hcell
  obtain ⟨xlim, hx, r, hr, rfl⟩ := hcell
  have h1 : (truths.flatMap (summaryTruth p)).flatMap shown = [] := by
    refine shown_of_none fun call hcall => ?_
    obtain ⟨t, -, hcall⟩ := List.mem_flatMap.1 hcall
    unfold summaryTruth at hcall
    split at hcall
    · cases hcall
    · rw [List.mem_singleton.1 hcall]; rfl
  have h2 : ∀ q : Prop, ∀ _ : Decidable q, ∀ call : Call, shown call = [] → (if q then [call] else []).flatMap shown = [] := by
    intro q _ call hcall
    split
    · simp [hcall]
    · rfl
  have h3 : ∀ x ∈ r.1.flatMap shown, p ∈ c.dataColumns ∧ x = (c.name, p) := by
    unfold summaryContent at hr
    by_cases hd : p ∈ c.dataColumns
    · rw [if_neg (fun h => h hd)] at hr
      cases errorbar with
      | true =>
        rw [if_pos rfl, bind_ok_iff] at hr
        obtain ⟨bd, -, hr⟩ := hr
        by_cases h2 : bd.allNone = true
        · rw [if_pos h2] at hr
          cases hr
          simp
        · rw [if_neg h2] at hr
          revert hr
          cases bd.lower <;> cases bd.center <;> cases bd.upper <;> intro hr <;> cases hr <;> simp [shown, hd]
      | false =>
        rw [if_neg Bool.false_ne_true, bind_ok_iff] at hr
        obtain ⟨v, hv, hr⟩ := hr
        rw [pure_ok_iff] at hr
        subst hr
        exact fun x hx => ⟨hd, plotBars_shown hv x hx⟩
    · rw [if_pos hd] at hr
      cases hr
      simp
  intro x hx'
  simp only [List.flatMap_append, List.flatMap_cons, List.flatMap_nil, hbl, h1, h2 _ _ _ (shown_title _), h2 _ _ _ (shown_noTicks _),
    h2 _ _ _ (shown_logScale _), setLim_shown hx, List.nil_append,
    List.append_nil] at hx'
  obtain ⟨hd, rfl⟩ := h3 x hx'
  exact ⟨c, List.mem_of_getElem? hci, rfl, hd⟩

/-- **C116** (violated by `plot`). On the diagonal there is a histogram of the weights or the posteriors of every chain for which these
have the name of the panel's parameter. -/
theorem C116_violated_plot {lib : Lib} {cfg : PlotConfig} {truths : List (Truth ℝ)} {b : PlottingBase} {fig : Fig}
    (h : plotBase lib cfg truths b = .ok fig) (hh : cfg.plotHists = true) {i : Nat} {q : String} (hq : b.columns[i]? = some q)
    {c : Chain ℝ} (hc : c ∈ b.chains) (hqc : q ∈ c.samples.columns) (hw : q = c.weightColumn ∨ q = c.posteriorColumn)
    (hp : c.cfg .plotContour = true) :
    q ∉ c.dataColumns ∧ ∃ calls f, ((i, i), calls) ∈ fig.panels ∧ Item.hist c.name q f ∈ items calls := by
  refine ⟨fun hm => ?_, ?_⟩
  · obtain ⟨-, h1, h2, -⟩ := ((C09_data_columns c).2.2 q).1 hm
    tauto
  obtain ⟨-, hkeys, hall⟩ := C56_panels h
  have hi : i < b.columns.length := (List.getElem?_eq_some_iff.1 hq).1
  obtain ⟨⟨ij, calls⟩, hcalls, rfl⟩ := List.mem_map.1 ((hkeys i i).2 (by rw [hh]; simpa using hi))
  refine ⟨calls, (cfg.flip && decide (b.columns.length = 2 ∧ i = 1)), hcalls, ?_⟩
  rw [(hall i i calls hcalls).2.2 hh rfl q hq]
  exact List.mem_map.2 ⟨c, List.mem_filter.2 ⟨hc, by simp [hp, hqc]⟩, rfl⟩

/-! ### A chain weighted by what is a parameter of another -/

/-- A grid of two points whose weights are called `a`. -/
noncomputable def clashFrame : Frame ℝ := ⟨[.int 0, .int 1], [("b", [0, 1]), ("a", [1, 2])]⟩

theorem clashFrame_wf : clashFrame.WF := ⟨by simp [clashFrame], by simp [clashFrame]⟩

/-- The chain of that grid. -/
noncomputable def clashArgs : Args ℝ :=
  { samples := clashFrame.toRaw, name := "clash", grid := true, weightColumn := "a", config := modalKw false }

theorem clash_exists : ∃ c, Chain.make clashArgs = .ok c ∧ c.samples = clashFrame ∧
    c.weightColumn = "a" ∧ c.posteriorColumn = "log_posterior" ∧ c.power = 1 ∧ c.grid = true ∧ c.name = "clash" ∧
    c.cfg = resolveStatistics (((Cfg.default ℝ).apply (modalKw false)).set ⟨.color, none⟩) := by
  have hwf : clashArgs.samples.WF := toRaw_WF.2 clashFrame_wf
  have hs : setting clashArgs .shiftParams = false := rfl
  have hfin : ∀ c ∈ clashFrame.toRaw.cols, ∃ d ∈ clashFrame.cols, c = (.str d.1, d.2.map .fin) := by
    intro c hc
    simp only [Frame.toRaw, List.mem_map] at hc
    obtain ⟨d, hd, rfl⟩ := hc
    exact ⟨d, hd, rfl⟩
  have hacc : Acceptable clashArgs := by
    refine ⟨trivial, ?_, ?_, Int.ofNat_le.2 le_rfl, by simp [clashArgs], by simp [clashArgs],
      Or.inr ⟨1, rfl, zero_le_one⟩, by simp [clashArgs, clashFrame, Frame.toRaw], by simp [clashArgs, clashFrame, Frame.toRaw],
      ?_, ?_, ?_, Or.inl (by simp [clashArgs, clashFrame, Frame.toRaw]), Int.natCast_dvd_natCast.2 (one_dvd _), ?_, ?_⟩
    · change (0 : ℝ) ≤ 6827 / 10000 ∧ (6827 / 10000 : ℝ) ≤ 1
      constructor <;> norm_num
    · change (1 : ℝ) ≤ 10
      norm_num
    · intro c hc
      obtain ⟨d, -, rfl⟩ := hfin c hc
      exact ⟨_, rfl⟩
    · intro c hc x hx
      obtain ⟨d, -, rfl⟩ := hfin c hc
      simp only [List.mem_map] at hx
      obtain ⟨v, -, rfl⟩ := hx
      exact ⟨v, rfl⟩
    · intro c hc hc1 v hv
      simp only [clashArgs, clashFrame, Frame.toRaw, List.map_cons, List.map_nil, List.mem_cons, List.not_mem_nil, or_false] at hc
      rcases hc with rfl | rfl
      · simp [clashArgs] at hc1
      · simp only [List.mem_cons, List.not_mem_nil, or_false, Flt.fin.injEq] at hv
        rcases hv with rfl | rfl <;> norm_num
    · intro p hp
      cases hp
    · intro hm
      cases hm
  obtain ⟨c, hc⟩ := (C07_constructor_accepts_iff _ hwf hs).2 hacc
  have hcs := (make_toRaw (f := clashFrame) clashFrame_wf rfl (by decide) hc).2 hs
  obtain ⟨col, _, _, _, hcol', _, _, _, _, _, _, _, _, _, rfl⟩ := Chain.make_ok_iff.1 hc
  refine ⟨_, hc, hcs, rfl, rfl, rfl, rfl, rfl, ?_⟩
  have : validateColor ((Cfg.default ℝ).apply (modalKw false) .color) = .ok none := rfl
  have e : col = none := by
    have := this.symm.trans hcol'
    cases this
    rfl
  subst e
  rfl

/-- Summaries depend on names only through the columns that these stand for. -/
theorem summaryEntry_data (kde : KdeFn) {c d : Chain ℝ} (hcfg : d.cfg = c.cfg) (hg : d.grid = c.grid)
    (hp : d.power = c.power) (hb : getBins d = getBins c) (hw : d.weights = c.weights) {p q : String}
    (hd : d.samples.get q = c.samples.get p) : summaryEntry kde d q = summaryEntry kde c p := by
  have hs : d.smoothValue = c.smoothValue := by
    unfold Chain.smoothValue; rw [hcfg, hg]
  have h1 : ∀ x w pad, marginalBins d x w pad = marginalBins c x w pad := by
    intro x w pad
    simp only [marginalBins, hg, hs, hb]
  have h2 : ∀ u x w b h a z xs, marginalYs kde d u x w b h a z xs = marginalYs kde c u x w b h a z xs := by
    intro u x w b h a z xs
    simp only [marginalYs, hs, hcfg]
  have h3 : ∀ pad u, smoothedHistogram kde d q pad u = smoothedHistogram kde c p pad u := by
    intro pad u
    simp only [smoothedHistogram, hd, hw, h1, h2, hp]
  simp only [summaryEntry, parameterSummary, h3, hcfg]

/-- A pair of chains, the second weighted by what has the name of the only parameter of the first, and their summaries. -/
theorem clash_pair (kde : KdeFn) (hk : KdeOk kde) : ∃ (A B : Chain ℝ) (l x u : ℝ),
    Chain.make { samples := (twoFrame 1 2).toRaw, name := "two", grid := true, config := modalKw false } = .ok A ∧
    TwoPoint A false 1 2 ∧ Chain.make clashArgs = .ok B ∧ A.plottingColumns = ["a"] ∧ A.dataColumns = ["a"] ∧
    B.plottingColumns = ["b"] ∧ B.dataColumns = ["b"] ∧
    summaryEntry kde A "a" = .ok (.single ⟨some l, some x, some u⟩) ∧
    summaryEntry kde B "b" = .ok (.single ⟨some l, some x, some u⟩) ∧
    summaryEntry kde B "a" = .ok (.single ⟨some (l + 1), some (x + 1), some (u + 1)⟩) ∧ 0 ≤ l ∧ l ≤ x ∧ x < u ∧ u ≤ 1 := by
  obtain ⟨A, h1, h2⟩ := twoPoint_exists false (u := 1) (v := 2) one_pos two_pos
  obtain ⟨B, g1, g2, g3, g4, g5, g6, g7, g8⟩ := clash_exists
  obtain ⟨m, hm, hv, hx, hy⟩ := h2.marginal one_pos two_pos hk true
  obtain ⟨l, x, u, hh, hl0, hlx, hu1, hxu⟩ := two_hdi hv hx hy
  have hA : summaryEntry kde A "a" = .ok (.single ⟨some l, some x, some u⟩) := by
    simp only [summaryEntry, parameterSummary, h2.hdi, hm, h2.area, bind, Except.bind, hh, h2.modal]
    rfl
  have hBw : B.weights = .ok [1, 2] := by rw [Chain.weights, g2, g3]; rfl
  have hBb : summaryEntry kde B "b" = .ok (.single ⟨some l, some x, some u⟩) := by
    rw [← hA]
    refine summaryEntry_data kde (g8.trans h2.cfg.symm) (g6.trans h2.grid.symm) (g5.trans h2.power.symm) ?_ ?_ ?_
    · simp only [getBins, Chain.smoothValue, g8, h2.cfg, g6, h2.grid, g2, h2.samples]
      rfl
    · rw [hBw, h2.weights]
    · rw [g2, h2.data]; rfl
  have hBa : summaryEntry kde B "a" = .ok (.single ⟨some (l + 1), some (x + 1), some (u + 1)⟩) := by
    have hacc : AcceptedNoShift A := ⟨_, toRaw_WF.2 (twoFrame_wf 1 2), rfl, h1⟩
    have e := C38_origin kde A hacc h2.kde "a" (by rw [h2.weight]; decide) 1
    rw [hA] at e
    have e2 : summaryEntry kde B "a" = summaryEntry kde (rescaled A "a" 1 1) "a" := by
      refine summaryEntry_data kde (c := rescaled A "a" 1 1) (g8.trans h2.cfg.symm) (g6.trans h2.grid.symm) (g5.trans h2.power.symm) ?_ ?_ ?_
      · simp only [getBins, Chain.smoothValue, rescaled, g8, h2.cfg, g6, h2.grid, g2, h2.samples]
        rfl
      · have := rescaled_get A "a" A.weightColumn 1 1
        rw [if_neg (by rw [h2.weight]; decide)] at this
        rw [hBw, ← h2.weights]
        exact this.symm
      · rw [rescaled_get, if_pos rfl, h2.data, g2]
        change Except.ok [1, 2] = Except.ok (List.map _ _)
        simp [affine]
        norm_num
    rw [e2, e]
    simp [Except.map, rescaleSummary, rescaleBound]
  have hc : A.cfg .colorParam = none ∧ A.cfg .plotCloud = false := by
    rw [h2.cfg]; exact ⟨rfl, rfl⟩
  have hAd : A.dataColumns = ["a"] := by
    rw [Chain.dataColumns, h2.samples, h2.weight, h2.posterior]
    have hc : (twoFrame 1 2).columns = ["a", "weight"] := rfl
    rw [hc]
    decide
  have hBd : B.dataColumns = ["b"] := by
    rw [Chain.dataColumns, g2, g3, g4]
    have hc : clashFrame.columns = ["b", "a"] := rfl
    rw [hc]
    decide
  have hAp : A.plottingColumns = ["a"] := by
    rw [Chain.plottingColumns, hc.1, hc.2, hAd]; rfl
  have hBp : B.plottingColumns = ["b"] := by
    have h : B.cfg .colorParam = none ∧ B.cfg .plotCloud = false := by rw [g8]; exact ⟨rfl, rfl⟩
    rw [Chain.plottingColumns, h.1, h.2, hBd]; rfl
  exact ⟨A, B, l, x, u, h1, h2, g1, hAp, hAd, hBp, hBd, hA, hBb, hBa, hl0, hlx.le, hxu, hu1⟩

/-- **C116** (violated, as it stands). Of a chain whose weights 1 and 2 are called `a`, `get_summary` reports a value of "`a`" between
these, if another chain has a parameter `a`; no parameter of the chain has such a name. -/
theorem C116_violated_summary (kde : KdeFn) (hk : KdeOk kde) : ∃ A B : Chain ℝ,
    Chain.make { samples := (twoFrame 1 2).toRaw, name := "two", grid := true, config := modalKw false } = .ok A ∧
    Chain.make clashArgs = .ok B ∧ A.dataColumns = ["a"] ∧ B.dataColumns = ["b"] ∧
    ∃ s r l x u, getSummary kde [] {} (some [A, B]) none = .ok [("two", [("a", s)]), ("clash", r)] ∧
      ("a", .single ⟨some l, some x, some u⟩) ∈ r ∧ 1 ≤ l ∧ l ≤ x ∧ x < u ∧ u ≤ 2 := by
  obtain ⟨A, B, l, x, u, h1, h2, g1, hAp, hAd, hBp, hBd, hA, hBb, hBa, hl0, hlx, hxu, hu1⟩ := clash_pair kde hk
  obtain ⟨B', g1', g2, -, -, -, -, g7, -⟩ := clash_exists
  cases g1'.symm.trans g1
  have hcols : sanitiseColumns none [A, B] = ["a", "b"] := by
    simp only [sanitiseColumns, List.foldl_cons, List.foldl_nil, hAp, hBp]
    decide
  have hAc : A.samples.columns = ["a", "weight"] := by rw [h2.samples]; rfl
  have hBc : B.samples.columns = ["b", "a"] := by rw [g2]; rfl
  have hsA : chainSummary kde A ["a", "b"] [] = .ok [("a", .single ⟨some l, some x, some u⟩)] := by
    simp [chainSummary, hAc, hA, dictSet, bind, Except.bind]
  have hsB : chainSummary kde B ["a", "b"] [] = .ok [("a", .single ⟨some (l + 1), some (x + 1), some (u + 1)⟩),
      ("b", .single ⟨some l, some x, some u⟩)] := by
    simp [chainSummary, hBc, hBa, hBb, dictSet, bind, Except.bind]
  refine ⟨A, B, h1, g1, hAd, hBd, .single ⟨some l, some x, some u⟩, [("a", .single ⟨some (l + 1), some (x + 1), some (u + 1)⟩),
    ("b", .single ⟨some l, some x, some u⟩)], l + 1, x + 1, u + 1, ?_, List.mem_cons_self, by linarith, by linarith, by linarith,
    by linarith⟩
  simp only [getSummary, hcols, summaryLoop, hsA, hsB, h2.name, g7, bind, Except.bind, pure, Except.pure]
  simp [dictSet]

/-- The histogram of the weights, as that of a parameter. -/
theorem clash_bars {B : Chain ℝ} (hB : Chain.make clashArgs = .ok B) (lib : Lib) :
    barData lib B "a" = .ok ([1, 2], [1 / (1 + 2), 2 / (1 + 2)]) := by
  obtain ⟨B', g1', g2, g3, g4, g5, g6, g7, g8⟩ := clash_exists
  cases g1'.symm.trans hB
  have e : ([1, 2] : List ℝ) = [0, 1].map (affine 1 1) := by simp [affine]; norm_num
  have hw : B.weights = .ok [1, 2] := by rw [Chain.weights, g2, g3]; rfl
  have hd : B.samples.get "a" = .ok [1, 2] := by rw [g2]; rfl
  have hs : B.smoothValue = 0 := by
    have : B.cfg .smooth = none := by rw [g8]; rfl
    simp only [Chain.smoothValue, this, g6, if_true]
  have hkde : (B.cfg .kde : ℝ) = 0 := by rw [g8]; rfl
  have hb : getGridBins ([1, 2] : List ℝ) = .ok ([-(1 / 2), 1 / 2, 3 / 2].map (affine 1 1)) := by
    rw [e, getGridBins_affine one_pos, two_bins]; rfl
  have hden : histDensity ([-(1 / 2), 1 / 2, 3 / 2].map (affine (1 : ℝ) 1)) [1, 2] [1, 2] = .ok [1 / (1 + 2), 2 / (1 + 2)] := by
    have := histDensity_affine (K := ℝ) (b := 1) one_pos [-(1 / 2), 1 / 2, 3 / 2] [0, 1] [1, 2]
    rw [← e, two_density one_pos two_pos] at this
    rw [this]
    simp [Except.map]
  have hmid : midpoints ([-(1 / 2), 1 / 2, 3 / 2].map (affine (1 : ℝ) 1)) = [1, 2] := by
    rw [midpoints_affine, two_mid, ← e]
  simp only [barData, hs, hkde, ne_eq, not_true_eq_false, or_self, if_false, hd, hw, marginalBins, g6, if_true,
    hb, hden, g5, two_pow, hmid, bind, Except.bind, pure, Except.pure]

/-- The columns, chains and range of the figure of both chains. -/
noncomputable def clashBase (A B : Chain ℝ) : PlottingBase where
  chains := [A, B]
  columns := ["a"]
  extents := [("a", some (0, 2))]
  blind := []
  logScales := []

/-- The hypotheses of `C116_violated_plot` are met: the figure shows the weights of the second chain as its `a`. -/
example (lib : Lib) (hk : KdeOk lib.kde) : ∃ (A B : Chain ℝ) (fig : Fig) (calls : List Call) (f : Bool),
    Chain.make { samples := (twoFrame 1 2).toRaw, name := "two", grid := true, config := modalKw false } = .ok A ∧
    Chain.make clashArgs = .ok B ∧ B.dataColumns = ["b"] ∧
    plotBase lib {} [] (clashBase A B) = .ok fig ∧ ((0, 0), calls) ∈ fig.panels ∧ Item.hist "clash" "a" f ∈ items calls := by
  obtain ⟨A, B, l, x, u, h1, h2, g1, hAp, hAd, hBp, hBd, hA, hBb, hBa, hl0, hlx, hxu, hu1⟩ := clash_pair lib.kde hk
  obtain ⟨B', g1', g2, g3, g4, g5, g6, g7, g8⟩ := clash_exists
  cases g1'.symm.trans g1
  have hAc : "a" ∈ A.samples.columns := by rw [h2.samples]; exact List.mem_cons_self
  have hBc : "a" ∈ B.samples.columns := by rw [g2]; decide
  have hBw : B.weights = .ok [1, 2] := by rw [Chain.weights, g2, g3]; rfl
  have hBarea : (B.cfg .summaryArea : ℝ) = 6827 / 10000 := by rw [g8]; rfl
  have hBhdi : B.cfg .statistics = some .hdi := by rw [g8]; rfl
  have hBcon : B.cfg .plotContour = true := by rw [g8]; rfl
  have hd : barData lib A "a" = .ok ([0, 1], [1 / (1 + 2), 2 / (1 + 2)]) := by
    simp only [barData, h2.smooth, h2.kde, ne_eq, not_true_eq_false, or_self, if_false, h2.data, h2.weights, marginalBins, h2.grid, if_true,
      two_bins, two_density one_pos two_pos, h2.power, two_pow, two_mid, bind, Except.bind, pure, Except.pure]
  obtain ⟨callsA, topA, hbA⟩ := C103_drawn_partial hk
    (⟨⟨_, h2.weights, by simp⟩, by rw [h2.area]; norm_num, fun _ => h2.hdi⟩ : Summarised A) (reported_iff.2 ⟨hAc, hA⟩) hd
    (height := 1) (by simp only [Chain.finHeight, h2.height]) (.inr (.inr (.inl h2.grid))) {} false false (by simp)
  obtain ⟨callsB, topB, hbB⟩ := C103_drawn_partial hk
    (⟨⟨_, hBw, by simp⟩, by rw [hBarea]; norm_num, fun _ => hBhdi⟩ : Summarised B) (reported_iff.2 ⟨hBc, hBa⟩) (clash_bars g1 lib)
    (height := 1) (by simp only [Chain.finHeight, make_height g1]; rfl) (.inr (.inr (.inl g6))) {} false false (by simp)
  obtain ⟨r, hr⟩ : ∃ r, histChains lib {} "a" false false [A, B] none = .ok r := by
    simp only [histChains, h2.contour, hBcon, hAc, hBc, not_true_eq_false, decide_false, Bool.not_true, Bool.or_self,
      Bool.false_eq_true, if_false, hbA, hbB, bind, Except.bind, pure, Except.pure]
    exact ⟨_, rfl⟩
  obtain ⟨s, hs⟩ : ∃ s, trianglePanel {} (clashBase A B) 1 0 0 "a" "a" = .ok s := ⟨_, rfl⟩
  obtain ⟨d, hdr⟩ : ∃ d, drawPanel lib {} (clashBase A B) [] false false 1 0 0 "a" "a" = .ok d := by
    simp only [drawPanel, Nat.lt_irrefl, if_false, decide_true, Bool.and_self, if_true, histPanel, clashBase, List.not_mem_nil,
      decide_false, Bool.not_false, Bool.false_and, hr, bind, Except.bind, pure, Except.pure]
    exact ⟨_, rfl⟩
  have hf : ([A, B].filter fun c => c.cfg .plotContour) = [A, B] := by
    simp [h2.contour, hBcon]
  obtain ⟨fig, hfig⟩ : ∃ fig, plotBase lib {} [] (clashBase A B) = .ok fig := by
    have e : (clashBase A B).columns = ["a"] := rfl
    have e' : (clashBase A B).chains = [A, B] := rfl
    have hg : gridPanels 1 1 = [(0, 0)] := rfl
    have hn : decide (1 = 2) = false := rfl
    have hn' : decide ([A, B].length = 1) = false := rfl
    simp only [plotBase, e, e', hf, hn', Bool.and_false, List.length_singleton, if_true, hg, List.mapM_cons, List.mapM_nil, ensure,
      Nat.zero_lt_one, decide_true, hn, Bool.false_and, bind, Except.bind, pure, Except.pure, List.getD_cons_zero, hs, hdr]
    exact ⟨_, rfl⟩
  obtain ⟨-, calls, f, hcalls, hitem⟩ := C116_violated_plot hfig rfl (i := 0) (q := "a") rfl (c := B) (by simp [clashBase]) hBc
    (.inl g3.symm) hBcon
  rw [g7] at hitem
  exact ⟨A, B, fig, calls, f, h1, g1, hBd, hfig, hcalls, hitem⟩

/-- One chain of one parameter has no clash, and its summaries and figures meet the hypotheses of the partial theorems. (That there are
tables and the other figures is shown by the examples of `Props/LatexTable`, `Props/Modes` and `Props/ErrorBars`.) -/
example (lib : Lib) (hk : KdeOk lib.kde) : ∃ (A : Chain ℝ) (s : Summary ℝ) (fig : Fig) (calls : List Call), NoClash [A] ∧
    getSummary lib.kde [] {} (some [A]) none = .ok [("two", [("a", s)])] ∧
    plotBase lib {} [] (oneBase A) = .ok fig ∧ ((0, 0), calls) ∈ fig.panels ∧
    (∀ p ∈ (oneBase A).columns, ∃ d ∈ (oneBase A).chains, p ∈ d.plottingColumns) := by
  obtain ⟨A, B, l, x, u, h1, h2, g1, hAp, hAd, hBp, hBd, hA, hBb, hBa, hl0, hlx, hxu, hu1⟩ := clash_pair lib.kde hk
  have hAc : "a" ∈ A.samples.columns := by rw [h2.samples]; exact List.mem_cons_self
  have hd : barData lib A "a" = .ok ([0, 1], [1 / (1 + 2), 2 / (1 + 2)]) := by
    simp only [barData, h2.smooth, h2.kde, ne_eq, not_true_eq_false, or_self, if_false, h2.data, h2.weights, marginalBins, h2.grid, if_true,
      two_bins, two_density one_pos two_pos, h2.power, two_pow, two_mid, bind, Except.bind, pure, Except.pure]
  obtain ⟨callsA, topA, hbA⟩ := C103_drawn_partial hk
    (⟨⟨_, h2.weights, by simp⟩, by rw [h2.area]; norm_num, fun _ => h2.hdi⟩ : Summarised A) (reported_iff.2 ⟨hAc, hA⟩) hd
    (height := 1) (by simp only [Chain.finHeight, h2.height]) (.inr (.inr (.inl h2.grid))) {} false true (by
      rintro - b hb ⟨h3, h4⟩
      cases hb
      simp only [Option.some.injEq] at h3 h4
      linarith)
  obtain ⟨fig, calls, hf1, hf2, -⟩ := two_plot h2 lib hbA
  refine ⟨A, .single ⟨some l, some x, some u⟩, fig, calls, ?_, ?_, hf1, hf2, ?_⟩
  · intro c hc d hd p hp
    rw [List.mem_singleton.1 hc]
    rw [List.mem_singleton.1 hd, hAd, List.mem_singleton] at hp
    rw [h2.weight, h2.posterior, hp]
    decide
  · have hcols : sanitiseColumns none [A] = ["a"] := by
      simp only [sanitiseColumns, List.foldl_cons, List.foldl_nil, hAp]
      decide
    have hsA : chainSummary lib.kde A ["a"] [] = .ok [("a", .single ⟨some l, some x, some u⟩)] := by
      simp [chainSummary, hAc, hA, dictSet, bind, Except.bind]
    simp only [getSummary, hcols, summaryLoop, hsA, h2.name, bind, Except.bind, pure, Except.pure]
    simp [dictSet]
  · intro p hp
    exact ⟨A, List.mem_singleton_self _, by rw [hAp]; exact hp⟩

end CC
