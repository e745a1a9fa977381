import Verif.Lemmas.Panels
import Verif.Lemmas.PlotDemo
import Verif.Props.Request

/-! # C56: triangle plots -/

namespace CC
open Spec

/-- **C56.** The panels of `plot` are those of a square grid with one row and one column per parameter (one less
without histograms). Panels above the diagonal are blank. A panel on the diagonal shows, with histograms, the
histogram of its column for every chain that has one. Every other panel shows the surfaces of its two columns, the
earlier one horizontal, for every chain that has both. -/
theorem C56_panels {lib : Lib} {cfg : PlotConfig} {truths : List (Truth ℝ)} {b : PlottingBase} {fig : Fig}
    (h : plotBase lib cfg truths b = .ok fig) :
    let k := if cfg.plotHists then 0 else 1
    (fig.panels.map Prod.fst).Nodup ∧
    (∀ i j, (i, j) ∈ fig.panels.map Prod.fst ↔ i + k < b.columns.length ∧ j + k < b.columns.length) ∧
    ∀ i j calls, ((i, j), calls) ∈ fig.panels →
      (i < j → calls = [.frameOff, .noTicks .x, .noTicks .y]) ∧
      (j < i + k → ∀ (px py : String), b.columns[j]? = some px → b.columns[i + k]? = some py →
        items calls = surfaceItems b.chains px py) ∧
      (cfg.plotHists = true → i = j → ∀ p : String, b.columns[i]? = some p →
        items calls = histItems b.chains p (cfg.flip && decide (b.columns.length = 2 ∧ i = 1))) := by
  intro k
  have hk : rowShift cfg = k := rfl
  obtain ⟨hn, hkeys, hp⟩ := plot_panels h
  rw [hk] at hn hkeys hp
  refine ⟨hkeys ▸ gridPanels_nodup _ _, ?_, ?_⟩
  · intro i j
    rw [hkeys, mem_gridPanels]
    constructor <;> rintro ⟨h1, h2⟩ <;> constructor <;> simp only at h1 h2 ⊢ <;> omega
  · intro i j calls hc
    obtain ⟨hi, hj, s, d, bars, hs, hd, rfl⟩ := hp _ _ hc
    simp only at hi hj hs hd
    refine ⟨fun hij => ?_, fun hij px py hx hy => ?_, fun hh hij p hp => ?_⟩
    · rw [trianglePanel, if_pos hij] at hs
      rw [drawPanel, if_pos hij] at hd
      cases hs; cases hd; rfl
    · rw [items_append, (items_of_setup (trianglePanel_setup hs)).1, List.nil_append]
      have hk1 : k = 0 ∧ cfg.plotHists = true ∨ k = 1 ∧ cfg.plotHists = false := by
        change (if cfg.plotHists then 0 else 1) = 0 ∧ _ ∨ (if cfg.plotHists then 0 else 1) = 1 ∧ _
        cases cfg.plotHists <;> simp
      have hij' : ¬ i < j := by omega
      have hij2 : ¬ (cfg.plotHists && decide (i = j)) = true := by
        rcases hk1 with ⟨_, e⟩ | ⟨_, e⟩
        · simp; omega
        · simp [e]
      rw [drawPanel, if_neg hij', if_neg hij2] at hd
      rw [bind_ok_iff] at hd
      obtain ⟨⟨c1, bars1⟩, h1, h2⟩ := hd
      rw [pure_ok_iff] at h2
      cases h2
      rw [List.getD_eq_getElem?_getD, List.getD_eq_getElem?_getD, hx, hy] at h1
      rw [items_append, (plotSurface_items h1).1, (plotTruths_marks ..).1, List.append_nil]
      rfl
    · rw [items_append, (items_of_setup (trianglePanel_setup hs)).1, List.nil_append]
      have hk0 : k = 0 := if_pos hh
      subst hij
      rw [drawPanel, if_neg (lt_irrefl i), if_pos (by simp [hh]), bind_ok_iff] at hd
      obtain ⟨c1, h1, h2⟩ := hd
      rw [pure_ok_iff] at h2
      cases h2
      rw [hk0] at h1 hn hi
      simp only [Nat.add_zero, Nat.sub_zero] at h1 hn hi
      rw [List.getD_eq_getElem?_getD, hp] at h1
      rw [histPanel, bind_ok_iff] at h1
      obtain ⟨⟨c2, m⟩, h3, h4⟩ := h1
      rw [pure_ok_iff] at h4
      subst h4
      rw [items_append, items_append, (histChains_items h3).1]
      have e1 : ∀ b : Bool, items (histTruths lib truths b p) = [] := by
        intro b; cases b
        · exact (plotTruths_marks ..).1
        · exact (plotTruths_marks ..).1
      have e2 : ∀ (m : Option ℝ) (d : Bool), items (topLim d m) = [] := by
        intro m d; cases m <;> rfl
      have e3 : (decide (b.columns.length = 2) && cfg.plotHists && cfg.flip && decide (i = b.columns.length - 1)) =
          (cfg.flip && decide (b.columns.length = 2 ∧ i = 1)) := by
        rw [hh]
        cases cfg.flip
        · simp
        · by_cases h2 : b.columns.length = 2
          · simp [h2]
          · simp [h2]
      simp only [Option.getD_some] at e1 e2 ⊢
      rw [e1, e2, e3, List.nil_append, List.append_nil]

theorem surfaceItems_pair {chains : List (Chain ℝ)} {px py : String} {x : Item} (h : x ∈ surfaceItems chains px py) :
    x.pair = some (px, py) ∧ x.column = none := by
  obtain ⟨c, -, h⟩ := List.mem_flatMap.1 h
  simp only [List.mem_append] at h
  rcases h with (h | h) | h <;> split at h <;> first | (rw [List.mem_singleton.1 h]; exact ⟨rfl, rfl⟩) | cases h

theorem histItems_column {chains : List (Chain ℝ)} {p : String} {flip : Bool} {x : Item} (h : x ∈ histItems chains p flip) :
    x.pair = none ∧ x.column = some p := by
  obtain ⟨c, -, rfl⟩ := List.mem_map.1 h
  exact ⟨rfl, rfl⟩

/-- **C56.** If no column is requested twice, two columns are shown together in one panel only, the later one
vertical, and that panel exists; a column's histogram is shown in one panel only, on the diagonal. -/
theorem C56_once {lib : Lib} {cfg : PlotConfig} {truths : List (Truth ℝ)} {b : PlottingBase} {fig : Fig}
    (h : plotBase lib cfg truths b = .ok fig) (hd : b.columns.Nodup) :
    let k := if cfg.plotHists then 0 else 1
    (∀ (u v : Nat) (px py : String), u < v → b.columns[u]? = some px → b.columns[v]? = some py →
      (∃ calls, ((v - k, u), calls) ∈ fig.panels ∧ items calls = surfaceItems b.chains px py) ∧
      ∀ ij calls x, (ij, calls) ∈ fig.panels → x ∈ items calls →
        (x.pair = some (px, py) → ij = (v - k, u)) ∧ x.pair ≠ some (py, px)) ∧
    (∀ (u : Nat) (p : String), b.columns[u]? = some p →
      (cfg.plotHists = true → ∃ calls flip, ((u, u), calls) ∈ fig.panels ∧ items calls = histItems b.chains p flip) ∧
      ∀ ij calls x, (ij, calls) ∈ fig.panels → x ∈ items calls →
        (x.column = some p → cfg.plotHists = true ∧ ij = (u, u)) ∧ x.pair ≠ some (p, p)) := by
  intro k
  obtain ⟨-, hkeys, hp⟩ := C56_panels h
  have hk1 : k = 0 ∧ cfg.plotHists = true ∨ k = 1 ∧ cfg.plotHists = false := by
    change (if cfg.plotHists then 0 else 1) = 0 ∧ _ ∨ (if cfg.plotHists then 0 else 1) = 1 ∧ _
    cases cfg.plotHists <;> simp
  have hkk : (if cfg.plotHists = true then 0 else 1) = k := rfl
  rw [hkk] at hkeys hp
  have inj : ∀ (a c : Nat) (q : String), b.columns[a]? = some q → b.columns[c]? = some q → a = c := by
    intro a c q ha hc
    obtain ⟨h1, e1⟩ := List.getElem?_eq_some_iff.1 ha
    obtain ⟨h2, e2⟩ := List.getElem?_eq_some_iff.1 hc
    exact (List.Nodup.getElem_inj_iff hd).1 (e1.trans e2.symm)
  -- where an item can be
  have loc : ∀ ij calls x, (ij, calls) ∈ fig.panels → x ∈ items calls →
      (∃ px py, ij.2 < ij.1 + k ∧ b.columns[ij.2]? = some px ∧ b.columns[ij.1 + k]? = some py ∧ x.pair = some (px, py) ∧
        x.column = none) ∨
      (∃ p, cfg.plotHists = true ∧ ij.1 = ij.2 ∧ b.columns[ij.1]? = some p ∧ x.pair = none ∧ x.column = some p) := by
    rintro ⟨i, j⟩ calls x hm hx
    obtain ⟨h1, h2⟩ := (hkeys i j).1 (List.mem_map.2 ⟨_, hm, rfl⟩)
    obtain ⟨p1, p2, p3⟩ := hp i j calls hm
    by_cases hij : i < j
    · rw [p1 hij] at hx
      cases hx
    · by_cases hjk : j < i + k
      · left
        have e1 : b.columns[j]? = some b.columns[j] := List.getElem?_eq_getElem (by omega)
        have e2 : b.columns[i + k]? = some b.columns[i + k] := List.getElem?_eq_getElem (by omega)
        rw [p2 hjk _ _ e1 e2] at hx
        obtain ⟨g1, g2⟩ := surfaceItems_pair hx
        exact ⟨_, _, hjk, e1, e2, g1, g2⟩
      · right
        have hh : k = 0 ∧ cfg.plotHists = true := by
          rcases hk1 with h | ⟨e, -⟩
          · exact h
          · omega
        have e1 : b.columns[i]? = some b.columns[i] := List.getElem?_eq_getElem (by omega)
        rw [p3 hh.2 (by omega) _ e1] at hx
        obtain ⟨g1, g2⟩ := histItems_column hx
        exact ⟨_, hh.2, by simp only; omega, e1, g1, g2⟩
  constructor
  · intro u v px py huv hu hv
    obtain ⟨hvl, -⟩ := List.getElem?_eq_some_iff.1 hv
    constructor
    · have hm : (v - k, u) ∈ fig.panels.map Prod.fst := (hkeys _ _).2 (by omega)
      obtain ⟨⟨_, calls⟩, hm, rfl⟩ := List.mem_map.1 hm
      refine ⟨calls, hm, ?_⟩
      refine (hp _ _ _ hm).2.1 (by omega) _ _ hu ?_
      rwa [show v - k + k = v by omega]
    · intro ij calls x hm hx
      rcases loc ij calls x hm hx with ⟨qx, qy, h1, h2, h3, h4, -⟩ | ⟨_, _, _, _, h4, _⟩
      · rw [h4]
        constructor
        · intro e
          cases e
          have e1 := inj _ _ _ h2 hu
          have e2 := inj _ _ _ h3 hv
          ext <;> simp only <;> omega
        · intro e
          cases e
          have e1 := inj _ _ _ h2 hv
          have e2 := inj _ _ _ h3 hu
          omega
      · rw [h4]
        simp
  · intro u p hu
    obtain ⟨hul, -⟩ := List.getElem?_eq_some_iff.1 hu
    constructor
    · intro hh
      have hk0 : k = 0 := if_pos hh
      have hm : (u, u) ∈ fig.panels.map Prod.fst := (hkeys _ _).2 (by omega)
      obtain ⟨⟨_, calls⟩, hm, rfl⟩ := List.mem_map.1 hm
      exact ⟨calls, _, hm, (hp _ _ _ hm).2.2 hh rfl _ hu⟩
    · intro ij calls x hm hx
      rcases loc ij calls x hm hx with ⟨qx, qy, h1, h2, h3, h4, h5⟩ | ⟨q, h1, h2, h3, h4, h5⟩
      · rw [h4, h5]
        refine ⟨by simp, ?_⟩
        intro e
        cases e
        have := inj _ _ _ h2 h3
        omega
      · rw [h4, h5]
        refine ⟨?_, by simp⟩
        intro e
        cases e
        have e1 := inj _ _ _ h3 hu
        exact ⟨h1, by ext <;> simp only <;> omega⟩

/-- **C56** for `plot` with the columns of the chains. -/
theorem C56_plot {lib : Lib} {cfg : PlotConfig} {truths : List (Truth ℝ)} {final : List (String × Chain ℝ)}
    {req : ChainReq ℝ} {columns : Option (List String)} {fig : Fig} (h : plot lib cfg truths final req columns = .ok fig) :
    ∃ b, sanitise cfg final req columns true = .ok b ∧ plotBase lib cfg truths b = .ok fig ∧
      (columns = none → FirstOrder (b.chains.flatMap Chain.plottingColumns) b.columns ∧ b.columns.Nodup) ∧
      ∀ l, columns = some l → b.columns = l := by
  simp only [plot, bind_ok_iff] at h
  obtain ⟨b, hb, h⟩ := h
  refine ⟨b, hb, h, ?_, ?_⟩
  · rintro rfl
    simp only [sanitise, bind_ok_iff, pure_ok_iff] at hb
    obtain ⟨cs, -, e, -, rfl⟩ := hb
    have := (C55_columns cs).1
    exact ⟨this, this.1⟩
  · rintro l rfl
    simp only [sanitise, bind_ok_iff, pure_ok_iff] at hb
    obtain ⟨cs, -, e, -, rfl⟩ := hb
    rfl

/-- A plot of the columns `a` and `b` for two chains. -/
noncomputable def demoBase (cs : List (Chain ℝ)) : PlottingBase where
  chains := cs
  columns := ["a", "b"]
  extents := [("a", some (0, 1)), ("b", some (0, 10))]
  blind := []
  logScales := []

theorem demo_setup (cfg : PlotConfig) (cs : List (Chain ℝ)) (n i j : Nat) (p1 p2 : String) (h1 : p1 = "a" ∨ p1 = "b")
    (h2 : p2 = "a" ∨ p2 = "b") : ∃ s, trianglePanel cfg (demoBase cs) n i j p1 p2 = .ok s := by
  have key : ∀ d p, p = "a" ∨ p = "b" → ∃ c, setLim d ((demoBase cs).extents.lookup p) = .ok c := by
    rintro d p (rfl | rfl) <;> exact ⟨_, rfl⟩
  obtain ⟨c1, e1⟩ := key .y p1 h1
  obtain ⟨c2, e2⟩ := key .x p2 h2
  unfold trianglePanel triangleYlim
  rw [e1, e2]
  split
  · exact ⟨_, rfl⟩
  · split <;> exact ⟨_, rfl⟩

theorem demo_columns {c : Chain ℝ} {name : String} {grid : Bool} {kw : List (Kwarg ℝ)} {f : Frame ℝ}
    (hc : DemoChain c f name grid kw) (hkw : kw = barKw ∨ kw = cloudKw) :
    c.plottingColumns = f.columns.filter fun n => !n == "weight" && !n == "log_posterior" && !decide (pyLower n ∈ Chain.reserved) := by
  have h4 : c.cfg .colorParam = none := by rw [hc.cfg]; rcases hkw with rfl | rfl <;> rfl
  rw [Chain.plottingColumns, Chain.dataColumns, h4, hc.samples, hc.weight, hc.posterior]
  simp

theorem demo_cloud (lib : Lib) (cfg : PlotConfig) {c : Chain ℝ} (hc : DemoChain c pairFrame "cloud" false cloudKw) :
    surfaceChain lib cfg "a" "b" c = .ok ([.cloud "cloud" "a" "b" [0, 1] [0, 10] none], []) := by
  have hp : c.plottingColumns = ["a", "b"] := (demo_columns hc (.inr rfl)).trans (by decide)
  have h1 : (c.cfg .plotCloud : Bool) = true := by rw [hc.cfg]; rfl
  have h2 : (c.cfg .plotContour : Bool) = false := by rw [hc.cfg]; rfl
  have h3 : (c.cfg .plotPoint : Bool) = false := by rw [hc.cfg]; rfl
  have h4 : c.cfg .colorParam = none := by rw [hc.cfg]; rfl
  have h5 : (c.cfg .numCloud : ℝ) = 10000 := by rw [hc.cfg]; rfl
  have ha : c.samples.get "a" = .ok [0, 1] := by rw [hc.samples]; rfl
  have hb : c.samples.get "b" = .ok [0, 10] := by rw [hc.samples]; rfl
  have hs : cloudStep 2 10000 = .ok 1 := by
    have : ⌊((2 : ℕ) : ℝ) / 10000⌋ = 0 := by
      rw [Int.floor_eq_zero_iff]; constructor <;> norm_num
    rw [cloudStep, this]
    simp [ensure, bind, Except.bind, pure, Except.pure]
  have he : ∀ a b : ℝ, everyNth 1 [a, b] = [a, b] := by intro a b; simp [everyNth]
  simp [surfaceChain, hp, cloudCalls, h1, plotCloud, ha, hb, h5, hs, Chain.colorData, h4, he, contourCalls, h2, pointCalls,
    h3, hc.name, bind, Except.bind, pure, Except.pure]

/-- A histogram of `a` for a chain without `b`, and a cloud. -/
theorem demo_triangle_cfg (lib : Lib) (cfg : PlotConfig) (hh : cfg.plotHists = true) (truths : List (Truth ℝ)) {c1 c2 : Chain ℝ} (h1 : DemoChain c1 singleFrame "one" true barKw)
    (h2 : DemoChain c2 pairFrame "cloud" false cloudKw) : ∃ fig, plotBase lib cfg truths (demoBase [c1, c2]) = .ok fig := by
  have hp : c1.plottingColumns = ["a"] := (demo_columns h1 (.inl rfl)).trans (by decide)
  have hs1 : surfaceChain lib cfg "a" "b" c1 = .ok ([], []) := by simp [surfaceChain, hp]
  have hs2 := demo_cloud lib cfg h2
  have hk1 : (c1.cfg .plotContour : Bool) = true := by rw [h1.cfg]; rfl
  have hk2 : (c2.cfg .plotContour : Bool) = false := by rw [h2.cfg]; rfl
  have hc1 : c1.samples.columns = ["a", "weight"] := by rw [h1.samples]; rfl
  have ha : ∀ f s, ∃ r, histChains lib cfg "a" f s [c1, c2] none = .ok r := by
    intro f s
    simp [histChains, hk1, hk2, hc1, demo_bars h1 lib cfg one_pos (col := "a") rfl rfl, bind, Except.bind, pure, Except.pure]
  have hb : ∀ f s, ∃ r, histChains lib cfg "b" f s [c1, c2] none = .ok r := by
    intro f s
    simp [histChains, hk1, hk2, hc1]
  obtain ⟨s00, e00⟩ := demo_setup cfg [c1, c2] 2 0 0 "a" "a" (.inl rfl) (.inl rfl)
  obtain ⟨s01, e01⟩ := demo_setup cfg [c1, c2] 2 0 1 "a" "b" (.inl rfl) (.inr rfl)
  obtain ⟨s10, e10⟩ := demo_setup cfg [c1, c2] 2 1 0 "b" "a" (.inr rfl) (.inl rfl)
  obtain ⟨s11, e11⟩ := demo_setup cfg [c1, c2] 2 1 1 "b" "b" (.inr rfl) (.inr rfl)
  have d00 : ∀ s F, ∃ r, drawPanel lib cfg (demoBase [c1, c2]) truths s F 2 0 0 "a" "a" = .ok r := by
    intro s F
    obtain ⟨r, hr⟩ := ha (F && decide (0 = 2 - 1)) (s && !decide ("a" ∈ (demoBase [c1, c2]).blind))
    change histChains lib cfg "a" _ _ (demoBase [c1, c2]).chains none = _ at hr
    rw [drawPanel, if_neg (by simp), if_pos (by simp [hh]), histPanel, hr]
    simp [ bind, Except.bind, pure, Except.pure]
  have d11 : ∀ s F, ∃ r, drawPanel lib cfg (demoBase [c1, c2]) truths s F 2 1 1 "b" "b" = .ok r := by
    intro s F
    obtain ⟨r, hr⟩ := hb (F && decide (1 = 2 - 1)) (s && !decide ("b" ∈ (demoBase [c1, c2]).blind))
    change histChains lib cfg "b" _ _ (demoBase [c1, c2]).chains none = _ at hr
    rw [drawPanel, if_neg (by simp), if_pos (by simp [hh]), histPanel, hr]
    simp [ bind, Except.bind, pure, Except.pure]
  have d10 : ∀ s F, ∃ r, drawPanel lib cfg (demoBase [c1, c2]) truths s F 2 1 0 "b" "a" = .ok r := by
    intro s F
    simp [drawPanel, plotSurface, demoBase, hs1, hs2, bind, Except.bind, pure, Except.pure]
  have d01 : ∀ s F, ∃ r, drawPanel lib cfg (demoBase [c1, c2]) truths s F 2 0 1 "a" "b" = .ok r := fun s F => ⟨_, rfl⟩
  have hg : gridPanels 2 2 = [(0, 0), (0, 1), (1, 0), (1, 1)] := rfl
  generalize hS : (cfg.summarise && decide ((List.filter (fun c => c.cfg Key.plotContour) [c1, c2]).length = 1)) = S
  obtain ⟨r00, f00⟩ := d00 S cfg.flip
  obtain ⟨r01, f01⟩ := d01 S cfg.flip
  obtain ⟨r10, f10⟩ := d10 S cfg.flip
  obtain ⟨r11, f11⟩ := d11 S cfg.flip
  simp only [plotBase]
  simp only [show (demoBase [c1, c2]).columns = ["a", "b"] from rfl, show (demoBase [c1, c2]).chains = [c1, c2] from rfl, hS,
    hh, if_true, List.length_cons, List.length_nil, Nat.reduceAdd, decide_true, Bool.true_and, hg, List.mapM_cons, List.mapM_nil, List.getD_cons_zero, List.getD_cons_succ,
    e00, e01, e10, e11, f00, f01, f10, f11, ensure, bind, Except.bind, pure,
    Except.pure]
  simp

theorem demo_triangle (lib : Lib) (truths : List (Truth ℝ)) {c1 c2 : Chain ℝ} (h1 : DemoChain c1 singleFrame "one" true barKw)
    (h2 : DemoChain c2 pairFrame "cloud" false cloudKw) : ∃ fig, plotBase lib {} truths (demoBase [c1, c2]) = .ok fig :=
  demo_triangle_cfg lib {} rfl truths h1 h2

example (lib : Lib) : ∃ (b : PlottingBase) (fig : Fig), plotBase lib {} [] b = .ok fig ∧ b.columns.Nodup ∧
    fig.panels.length = 4 ∧
    (∃ calls, ((1, 0), calls) ∈ fig.panels ∧ items calls = [.cloud "cloud" "a" "b"]) ∧
    ∃ calls flip, ((0, 0), calls) ∈ fig.panels ∧ items calls = [.hist "one" "a" flip] := by
  obtain ⟨c1, h1⟩ := gridSingle_exists
  obtain ⟨c2, h2⟩ := cloudPair_exists
  obtain ⟨fig, hf⟩ := demo_triangle lib [] h1 h2
  obtain ⟨k1, k2⟩ := C56_once hf (show ["a", "b"].Nodup by decide)
  have hp1 : c1.plottingColumns = ["a"] := (demo_columns h1 (.inl rfl)).trans (by decide)
  have hp2 : c2.plottingColumns = ["a", "b"] := (demo_columns h2 (.inr rfl)).trans (by decide)
  have hk1 : (c1.cfg .plotContour : Bool) = true := by rw [h1.cfg]; rfl
  have hk2 : (c2.cfg .plotContour : Bool) = false := by rw [h2.cfg]; rfl
  have hk3 : (c2.cfg .plotCloud : Bool) = true := by rw [h2.cfg]; rfl
  have hk4 : (c2.cfg .plotPoint : Bool) = false := by rw [h2.cfg]; rfl
  have hc1 : c1.samples.columns = ["a", "weight"] := by rw [h1.samples]; rfl
  refine ⟨_, fig, hf, show ["a", "b"].Nodup by decide, ?_, ?_, ?_⟩
  · have := congrArg List.length (plot_panels hf).2.1
    rw [List.length_map] at this
    exact this
  · obtain ⟨calls, hm, hi⟩ := (k1 0 1 "a" "b" (by decide) rfl rfl).1
    refine ⟨calls, hm, hi.trans ?_⟩
    simp [surfaceItems, demoBase, hp1, hp2, hk2, hk3, hk4, h2.name]
  · obtain ⟨calls, flip, hm, hi⟩ := (k2 0 "a" rfl).1 rfl
    refine ⟨calls, flip, hm, hi.trans ?_⟩
    simp [histItems, demoBase, hk1, hk2, hc1, h1.name]

end CC
