import Verif.Props.Stack
import Verif.Props.Modes

/-! # C126: what is drawn for a chain does not depend on the chains drawn with it -/

namespace CC
open Spec

/-- The calls that draw the chain `c`: its clouds, contours, points, curves, shading, walks and error bars. -/
def Spec.drawnFor (c : Chain ℝ) (calls : List Call) : List Call := calls.filter fun x => decide (x.owner = some c.name)

theorem drawnFor_append (c : Chain ℝ) (a b : List Call) : drawnFor c (a ++ b) = drawnFor c a ++ drawnFor c b :=
  List.filter_append ..

theorem drawnFor_none {c : Chain ℝ} {a : List Call} (h : ∀ x ∈ a, x.owner ≠ some c.name) : drawnFor c a = [] := by
  rw [drawnFor, List.filter_eq_nil_iff]
  intro x hx
  simpa using h x hx

theorem drawnFor_neutral {c : Chain ℝ} {a : List Call} (h : ∀ x ∈ a, x.owner = none) : drawnFor c a = [] :=
  drawnFor_none fun x hx => by rw [h x hx]; simp

/-- Of calls for the chains in turn, those for one of them. -/
theorem drawnFor_parts {R : Chain ℝ → List Call → Prop} {cs : List (Chain ℝ)} {parts : List (List Call)} (h : List.Forall₂ R cs parts)
    (hR : ∀ c part, R c part → ∀ x ∈ part, x.owner = none ∨ x.owner = some c.name) (hn : (cs.map (·.name)).Nodup) (c : Chain ℝ) :
    (c ∈ cs → ∃ part, R c part ∧ drawnFor c parts.flatten = drawnFor c part) ∧
    ((∀ d ∈ cs, d.name ≠ c.name) → drawnFor c parts.flatten = []) := by
  induction h with
  | nil => exact ⟨by simp, fun _ => rfl⟩
  | @cons d part cs parts hd _ ih =>
    rw [List.map_cons, List.nodup_cons] at hn
    obtain ⟨ih1, ih2⟩ := ih hn.2
    rw [List.flatten_cons, drawnFor_append]
    have other : d.name ≠ c.name → drawnFor c part = [] := by
      intro hne
      apply drawnFor_none
      intro x hx he
      rcases hR d part hd x hx with h | h
      · rw [h] at he; cases he
      · rw [h] at he; exact hne (Option.some.inj he)
    refine ⟨fun hc => ?_, fun hall => ?_⟩
    · rcases List.mem_cons.1 hc with rfl | hc
      · refine ⟨part, hd, ?_⟩
        rw [ih2 ?_, List.append_nil]
        intro e he hec
        exact hn.1 (hec ▸ List.mem_map_of_mem (f := fun e : Chain ℝ => e.name) he)
      · obtain ⟨part', h1, h2⟩ := ih1 hc
        refine ⟨part', h1, ?_⟩
        rw [other, List.nil_append, h2]
        intro hdc
        exact hn.1 (hdc ▸ List.mem_map_of_mem (f := fun e : Chain ℝ => e.name) hc)
    · rw [other (hall d (by simp)), List.nil_append, ih2 fun e he => hall e (by simp [he])]

theorem forChain_owner {G : Call → Prop} {c : Chain ℝ} {part : List Call} (h : ∀ x ∈ part, ForChain G c x) :
    ∀ x ∈ part, x.owner = none ∨ x.owner = some c.name := by
  intro x hx
  rcases h x hx with h | h
  · exact .inl (h []).1
  · exact .inr h.1

/-- Whether a summary is shown changes nothing but the title. -/
theorem plotBars_plain {lib : Lib} {cfg : PlotConfig} {p : String} {c : Chain ℝ} {flip summary : Bool} {x : List Call} {v : ℝ}
    (h : plotBars lib cfg p c flip summary = .ok (x, v)) :
    ∃ x', plotBars lib cfg p c flip false = .ok (x', v) ∧ drawnFor c x = drawnFor c x' := by
  simp only [plotBars, bind_ok_iff, pure_ok_iff] at h
  obtain ⟨⟨xs, ys⟩, h1, hh, h2, top, h3, shade, h4, h5⟩ := h
  cases h5
  obtain ⟨shade', h6, h7⟩ : ∃ shade', barShadeIf lib cfg c p xs flip false = .ok shade' ∧ drawnFor c shade = drawnFor c shade' := by
    unfold barShadeIf at h4 ⊢
    split at h4
    · rename_i hb
      rw [if_pos hb]
      unfold barShade at h4 ⊢
      simp only [bind_ok_iff] at h4
      obtain ⟨b, hs, h4⟩ := h4
      simp only [hs, bind, Except.bind]
      split at h4
      · simp only [bind_ok_iff, pure_ok_iff] at h4
        obtain ⟨⟨ivs, s⟩, e1, a, e2, z, e3, _, e4, title, e5, rfl⟩ := h4
        simp only [e1, e2, e3, e4, barTitle, Bool.false_eq_true, if_false, pure, Except.pure]
        refine ⟨_, rfl, ?_⟩
        rw [drawnFor_append, drawnFor_append]
        congr 1
        split <;> rfl
      · cases h4
        exact ⟨[], rfl, rfl⟩
    · rename_i hb
      rw [if_neg hb]
      cases h4
      exact ⟨_, rfl, rfl⟩
  refine ⟨.marginal c.name p flip xs (ys.map (· * hh)) :: shade', ?_, ?_⟩
  · simp only [plotBars, h1, h2, h3, h6, bind, Except.bind, pure, Except.pure]
  · rw [← List.singleton_append, ← List.singleton_append (l := shade'), drawnFor_append, drawnFor_append, h7]

theorem plotBars_drawn {lib : Lib} {cfg : PlotConfig} {p : String} {c : Chain ℝ} {flip summary summary' : Bool} {x x' : List Call} {v v' : ℝ}
    (h : plotBars lib cfg p c flip summary = .ok (x, v)) (h' : plotBars lib cfg p c flip summary' = .ok (x', v')) :
    drawnFor c x = drawnFor c x' := by
  obtain ⟨y, h1, h2⟩ := plotBars_plain h
  obtain ⟨y', h1', h2'⟩ := plotBars_plain h'
  rw [h1] at h1'
  cases h1'
  rw [h2, h2']

theorem nodup_filter {chains : List (Chain ℝ)} (hn : (chains.map (·.name)).Nodup) (q : Chain ℝ → Bool) :
    ((chains.filter q).map (·.name)).Nodup :=
  (List.filter_sublist.map fun e : Chain ℝ => e.name).nodup hn

theorem name_unique {chains : List (Chain ℝ)} (hn : (chains.map (·.name)).Nodup) {c d : Chain ℝ} (hc : c ∈ chains) (hd : d ∈ chains)
    (h : d.name = c.name) : d = c :=
  List.inj_on_of_nodup_map hn hd hc h

/-- What a panel of two parameters shows of a chain. -/
theorem surface_drawn {lib : Lib} {cfg : PlotConfig} {chains : List (Chain ℝ)} {px py : String} {d : List Call} {bars : List String}
    (h : plotSurface lib cfg chains px py = .ok (d, bars)) (hn : (chains.map (·.name)).Nodup) {c : Chain ℝ} (hc : c ∈ chains) :
    ∃ r, surfaceChain lib cfg px py c = .ok r ∧ drawnFor c d = drawnFor c r.1 := by
  simp only [plotSurface, bind_ok_iff, pure_ok_iff, Prod.mk.injEq] at h
  obtain ⟨rs, h, rfl, -⟩ := h
  have hf : List.Forall₂ (fun c part => ∃ r, surfaceChain lib cfg px py c = .ok r ∧ r.1 = part) chains (rs.map Prod.fst) := by
    rw [List.forall₂_map_right_iff]
    exact (mapM_ok_iff.1 h).imp fun _ r h => ⟨r, h, rfl⟩
  obtain ⟨part, ⟨r, hr, rfl⟩, h2⟩ := (drawnFor_parts hf (by
    rintro c part ⟨r, hr, rfl⟩
    exact forChain_owner (surfaceChain_for hr)) hn c).1 hc
  rw [List.flatMap_def]
  exact ⟨r, hr, h2⟩

/-- What a list of marginals shows of a chain. -/
theorem bars_drawn {lib : Lib} {cfg : PlotConfig} {p : String} {flip summary : Bool} {chains : List (Chain ℝ)} {q : Chain ℝ → Bool}
    {bars : List (List Call)}
    (h : List.Forall₂ (fun c b => ∃ v, plotBars lib cfg p c flip summary = .ok (b, v)) (chains.filter q) bars)
    (hn : (chains.map (·.name)).Nodup) {c : Chain ℝ} (hc : c ∈ chains) :
    if q c then ∃ x v, plotBars lib cfg p c flip summary = .ok (x, v) ∧ drawnFor c bars.flatten = drawnFor c x
    else drawnFor c bars.flatten = [] := by
  have key := drawnFor_parts h (by
    rintro c part ⟨v, hv⟩
    exact forChain_owner (plotBars_for hv)) (nodup_filter hn q) c
  split
  · rename_i hq
    obtain ⟨part, ⟨v, hv⟩, h2⟩ := key.1 (List.mem_filter.2 ⟨hc, hq⟩)
    exact ⟨part, v, hv, h2⟩
  · rename_i hq
    apply key.2
    intro d hd he
    have hd' := List.mem_filter.1 hd
    rw [name_unique hn hc hd'.1 he] at hd'
    exact hq hd'.2

theorem silent_drawn {c : Chain ℝ} {a : List Call} (h : ∀ x ∈ a, Silent x) : drawnFor c a = [] :=
  drawnFor_neutral fun x hx => (h x hx []).1

theorem truths_drawn (c : Chain ℝ) (filled : List String) (truths : List (Truth ℝ)) (px py : Option String) :
    drawnFor c (plotTruths filled truths px py) = [] :=
  drawnFor_neutral fun x hx => (plotTruths_neutral [] filled truths px py x hx).1

/-- **C126** (`plot`, two parameters). On panels of the same two parameters a chain is drawn in the same way, whatever other chains,
columns and truths the figures have. -/
theorem C126_surface {lib : Lib} {cfg : PlotConfig} {truths truths' : List (Truth ℝ)} {b b' : PlottingBase} {fig fig' : Fig}
    (h : plotBase lib cfg truths b = .ok fig) (h' : plotBase lib cfg truths' b' = .ok fig') {i j i' j' : Nat} {calls calls' : List Call}
    (hp : ((i, j), calls) ∈ fig.panels) (hp' : ((i', j'), calls') ∈ fig'.panels)
    (hn : (b.chains.map (·.name)).Nodup) (hn' : (b'.chains.map (·.name)).Nodup) {c : Chain ℝ} (hc : c ∈ b.chains) (hc' : c ∈ b'.chains)
    {px py : String} (hij : j < i + if cfg.plotHists then 0 else 1) (hij' : j' < i' + if cfg.plotHists then 0 else 1)
    (hx : b.columns[j]? = some px) (hy : b.columns[i + if cfg.plotHists then 0 else 1]? = some py)
    (hx' : b'.columns[j']? = some px) (hy' : b'.columns[i' + if cfg.plotHists then 0 else 1]? = some py) :
    drawnFor c calls = drawnFor c calls' := by
  have key : ∀ {truths : List (Truth ℝ)} {b : PlottingBase} {fig : Fig} {i j : Nat} {calls : List Call},
      plotBase lib cfg truths b = .ok fig → ((i, j), calls) ∈ fig.panels → (b.chains.map (·.name)).Nodup → c ∈ b.chains →
      j < i + (if cfg.plotHists then 0 else 1) → b.columns[j]? = some px → b.columns[i + if cfg.plotHists then 0 else 1]? = some py →
      ∃ r, surfaceChain lib cfg px py c = .ok r ∧ drawnFor c calls = drawnFor c r.1 := by
    intro truths b fig i j calls h hp hn hc hij hx hy
    obtain ⟨-, -, h⟩ := plot_cases h hp
    rcases h with ⟨hlt, -⟩ | ⟨-, -, px', py', s, d, bars, ex, ey, hs, hd, rfl⟩ | ⟨hh, rfl, -⟩
    · exfalso; revert hij; split <;> intro hij <;> omega
    · rw [hx] at ex
      rw [hy] at ey
      cases ex
      cases ey
      obtain ⟨r, h1, h2⟩ := surface_drawn hd hn hc
      refine ⟨r, h1, ?_⟩
      rw [drawnFor_append, drawnFor_append, silent_drawn (trianglePanel_silent hs), truths_drawn, List.nil_append, List.append_nil, h2]
    · exfalso; rw [hh] at hij; simp at hij
  obtain ⟨r, h1, h2⟩ := key h hp hn hc hij hx hy
  obtain ⟨r', h1', h2'⟩ := key h' hp' hn' hc' hij' hx' hy'
  rw [h1] at h1'
  cases h1'
  rw [h2, h2']

theorem plotBars_eq {lib : Lib} {cfg : PlotConfig} {p : String} {flip s s' : Bool} {c : Chain ℝ} {q : Bool} {a a' : List Call}
    (h : if q then ∃ x v, plotBars lib cfg p c flip s = .ok (x, v) ∧ drawnFor c a = drawnFor c x else drawnFor c a = [])
    (h' : if q then ∃ x v, plotBars lib cfg p c flip s' = .ok (x, v) ∧ drawnFor c a' = drawnFor c x else drawnFor c a' = []) :
    drawnFor c a = drawnFor c a' := by
  cases q
  · simp only [Bool.false_eq_true, if_false] at h h'
    rw [h, h']
  · simp only [if_true] at h h'
    obtain ⟨x, v, h1, h2⟩ := h
    obtain ⟨x', v', h1', h2'⟩ := h'
    rw [h2, h2', plotBars_drawn h1 h1']

theorem plot_hist {lib : Lib} {cfg : PlotConfig} {truths : List (Truth ℝ)} {b : PlottingBase} {fig : Fig}
    (h : plotBase lib cfg truths b = .ok fig) (hh : cfg.plotHists = true) {i : Nat} {calls : List Call}
    (hp : ((i, i), calls) ∈ fig.panels) {p : String} (hx : b.columns[i]? = some p) :
    ∃ s r, trianglePanel cfg b b.columns.length i i p p = .ok s ∧
      histChains lib cfg p (cfg.flip && decide (b.columns.length = 2 ∧ i = 1))
        (cfg.summarise && decide ((b.chains.filter fun c => c.cfg .plotContour).length = 1) && !decide (p ∈ b.blind)) b.chains none = .ok r ∧
      calls = s ++ (histTruths lib truths (cfg.flip && decide (b.columns.length = 2 ∧ i = 1)) p ++ r.1 ++
        topLim (cfg.flip && decide (b.columns.length = 2 ∧ i = 1)) r.2) := by
  obtain ⟨-, -, h⟩ := plot_cases h hp
  rcases h with ⟨hlt, -⟩ | ⟨hlt, -⟩ | ⟨-, -, p', s, r, ex, hs, hr, rfl⟩
  · omega
  · rw [hh] at hlt; simp at hlt
  · rw [hx] at ex
    cases ex
    rw [hh] at hs
    exact ⟨s, r, hs, hr, rfl⟩

theorem histTruths_drawn (c : Chain ℝ) (lib : Lib) (truths : List (Truth ℝ)) (flip : Bool) (p : String) :
    drawnFor c (histTruths lib truths flip p) = [] := by
  unfold histTruths
  split <;> exact truths_drawn ..

/-- **C126** (`plot`, histograms). The same for the histograms of a parameter that are turned in the same way. -/
theorem C126_histogram {lib : Lib} {cfg : PlotConfig} {truths truths' : List (Truth ℝ)} {b b' : PlottingBase} {fig fig' : Fig}
    (h : plotBase lib cfg truths b = .ok fig) (h' : plotBase lib cfg truths' b' = .ok fig') (hh : cfg.plotHists = true) {i i' : Nat}
    {calls calls' : List Call} (hp : ((i, i), calls) ∈ fig.panels) (hp' : ((i', i'), calls') ∈ fig'.panels)
    (hn : (b.chains.map (·.name)).Nodup) (hn' : (b'.chains.map (·.name)).Nodup) {c : Chain ℝ} (hc : c ∈ b.chains) (hc' : c ∈ b'.chains)
    {p : String} (hx : b.columns[i]? = some p) (hx' : b'.columns[i']? = some p)
    (hflip : cfg.flip = true → ((b.columns.length = 2 ∧ i = 1) ↔ (b'.columns.length = 2 ∧ i' = 1))) :
    drawnFor c calls = drawnFor c calls' := by
  have key : ∀ {truths : List (Truth ℝ)} {b : PlottingBase} {fig : Fig} {i : Nat} {calls : List Call},
      plotBase lib cfg truths b = .ok fig → ((i, i), calls) ∈ fig.panels → (b.chains.map (·.name)).Nodup → c ∈ b.chains →
      b.columns[i]? = some p → ∃ s, if (c.cfg .plotContour && decide (p ∈ c.samples.columns)) then
        ∃ x v, plotBars lib cfg p c (cfg.flip && decide (b.columns.length = 2 ∧ i = 1)) s = .ok (x, v) ∧ drawnFor c calls = drawnFor c x
        else drawnFor c calls = [] := by
    intro truths b fig i calls h hp hn hc hx
    obtain ⟨s, r, hs, hr, rfl⟩ := plot_hist h hh hp hx
    obtain ⟨bars, hb, hf⟩ := histChains_bars (calls := r.1) (m' := r.2) hr
    generalize (cfg.summarise && decide ((b.chains.filter fun c => c.cfg .plotContour).length = 1) && !decide (p ∈ b.blind)) = sm at hf
    refine ⟨sm, ?_⟩
    rw [drawnFor_append, drawnFor_append, drawnFor_append, silent_drawn (trianglePanel_silent hs), silent_drawn (topLim_silent _ _),
      histTruths_drawn, List.nil_append, List.append_nil, List.nil_append, hb]
    exact bars_drawn hf hn hc
  obtain ⟨s, h1⟩ := key h hp hn hc hx
  obtain ⟨s', h1'⟩ := key h' hp' hn' hc' hx'
  have e : (cfg.flip && decide (b'.columns.length = 2 ∧ i' = 1)) = (cfg.flip && decide (b.columns.length = 2 ∧ i = 1)) := by
    cases hfl : cfg.flip
    · rfl
    · simp only [Bool.true_and, decide_eq_decide]
      exact (hflip hfl).symm
  rw [e] at h1'
  exact plotBars_eq h1 h1'

theorem distPanel_drawn {lib : Lib} {cfg : PlotConfig} {b : PlottingBase} {truths : List (Truth ℝ)} {p : String} {calls : List Call}
    (h : distPanel lib cfg b truths p = .ok calls) (hn : (b.chains.map (·.name)).Nodup) {c : Chain ℝ} (hc : c ∈ b.chains) :
    ∃ s, if (c.cfg .plotContour && decide (p ∈ c.plottingColumns)) then
      ∃ x v, plotBars lib cfg p c false s = .ok (x, v) ∧ drawnFor c calls = drawnFor c x else drawnFor c calls = [] := by
  simp only [distPanel, bind_ok_iff, pure_ok_iff] at h
  obtain ⟨xlim, hx, r, hr, ylim, hy, rfl⟩ := h
  obtain ⟨bars, hb, hf⟩ := distChains_bars (calls := r.1) (m' := r.2) hr
  generalize (cfg.summarise && decide (b.chains.length = 1) && !decide (p ∈ b.blind)) = sm at hf
  refine ⟨sm, ?_⟩
  have e1 : drawnFor c [Call.noTicks .y] = [] := rfl
  have e2 : drawnFor c (if p ∈ b.logScales then [Call.logScale .x] else []) = [] := by split <;> rfl
  have e3 : drawnFor c [if p ∈ b.blind then Call.noTicks .x else if p ∈ b.logScales then .logLocator .x else .maxNLocator .x] = [] := by
    split
    · rfl
    · split <;> rfl
  have e4 : drawnFor c [xlim] = [] := silent_drawn fun x hxm => by rw [List.mem_singleton.1 hxm]; exact setLim_silent hx
  have e5 : drawnFor c [ylim, Call.axisLabel .x p] = [] := by
    unfold distYlim at hy
    split at hy <;> cases hy
    rfl
  simp only [drawnFor_append, e1, e2, e3, e4, e5, truths_drawn, List.nil_append, List.append_nil, hb]
  exact bars_drawn hf hn hc

/-- **C126** (`plot_distributions`). The same for the panels of a parameter. -/
theorem C126_distributions {lib : Lib} {cfg : PlotConfig} {truths truths' : List (Truth ℝ)} {w w' : Nat} {b b' : PlottingBase}
    {fig fig' : Fig} (h : plotDistributionsBase lib cfg truths w b = .ok fig) (h' : plotDistributionsBase lib cfg truths' w' b' = .ok fig')
    {i j i' j' : Nat} {calls calls' : List Call} (hp : ((i, j), calls) ∈ fig.panels) (hp' : ((i', j'), calls') ∈ fig'.panels)
    (hn : (b.chains.map (·.name)).Nodup) (hn' : (b'.chains.map (·.name)).Nodup) {c : Chain ℝ} (hc : c ∈ b.chains) (hc' : c ∈ b'.chains)
    {p : String} (hx : b.columns[i * min b.columns.length w + j]? = some p)
    (hx' : b'.columns[i' * min b'.columns.length w' + j']? = some p) : drawnFor c calls = drawnFor c calls' := by
  have key : ∀ {truths : List (Truth ℝ)} {w : Nat} {b : PlottingBase} {fig : Fig} {i j : Nat} {calls : List Call},
      plotDistributionsBase lib cfg truths w b = .ok fig → ((i, j), calls) ∈ fig.panels →
      b.columns[i * min b.columns.length w + j]? = some p → distPanel lib cfg b truths p = .ok calls := by
    intro truths w b fig i j calls h hp hx
    obtain ⟨-, -, hcells, -⟩ := distributions_panels h
    obtain ⟨-, ⟨hle, -⟩ | ⟨hlt, hd⟩⟩ := hcells _ _ hp
    · rw [List.getElem?_eq_none hle] at hx
      cases hx
    · rwa [List.getD_eq_getElem?_getD, hx] at hd
  obtain ⟨s, h1⟩ := distPanel_drawn (key h hp hx) hn hc
  obtain ⟨s', h1'⟩ := distPanel_drawn (key h' hp' hx') hn' hc'
  exact plotBars_eq h1 h1'

theorem walkPanel_drawn {cfg : PlotConfig} {b : PlottingBase} {truths : List (Truth ℝ)} {p : String} {calls : List Call}
    (h : walkPanel cfg b truths p = .ok calls) (hn : (b.chains.map (·.name)).Nodup) {c : Chain ℝ} (hc : c ∈ b.chains) :
    if p ∈ c.dataColumns then ∃ v, c.samples.get p = .ok v ∧ drawnFor c calls = [.walk c.name (thin v)] else drawnFor c calls = [] := by
  simp only [walkPanel, bind_ok_iff, pure_ok_iff] at h
  obtain ⟨walks, hw, rfl⟩ := h
  have key : ∀ d part, (if p ∈ d.dataColumns then do
      plotWalk d.name (getLabel cfg.labels p) (thin (← d.samples.get p)) (b.extents.lookup p) (decide (p ∈ b.logScales))
      else .ok []) = Except.ok part → (∀ x ∈ part, x.owner = none ∨ x.owner = some d.name) ∧
      (if p ∈ d.dataColumns then ∃ v, d.samples.get p = .ok v ∧ drawnFor d part = [.walk d.name (thin v)] else drawnFor d part = []) := by
    intro d part hd
    split at hd
    · rename_i hpd
      simp only [bind_ok_iff] at hd
      obtain ⟨v, hv, hd⟩ := hd
      rw [if_pos hpd]
      simp only [plotWalk, bind_ok_iff, pure_ok_iff] at hd
      obtain ⟨lim, hl, -, -, rfl⟩ := hd
      have hlim : ∀ x ∈ lim, x.owner = none := by
        intro x hx
        unfold walkLim at hl
        split at hl
        · cases hl; cases hx
        · simp only [bind_ok_iff, pure_ok_iff] at hl
          obtain ⟨_, hl, rfl⟩ := hl
          rw [List.mem_singleton.1 hx]
          exact (setLim_silent hl []).1
      refine ⟨?_, v, hv, ?_⟩
      · intro x hx
        simp only [List.mem_append, List.mem_cons, List.not_mem_nil, or_false] at hx
        rcases hx with (hx | rfl | rfl | rfl) | hx
        · exact .inl (hlim x hx)
        · exact .inl rfl
        · exact .inl rfl
        · exact .inr rfl
        · left
          split at hx
          · simp only [List.mem_cons, List.not_mem_nil, or_false] at hx
            rcases hx with rfl | rfl <;> rfl
          · rw [List.mem_singleton.1 hx]
            rfl
      · rw [drawnFor_append, drawnFor_append, drawnFor_neutral hlim, List.nil_append]
        split <;> simp [drawnFor, Call.owner]
    · rename_i hpd
      cases hd
      rw [if_neg hpd]
      exact ⟨by simp, rfl⟩
  have hpost : drawnFor c (truths.flatMap (walkTruth p)) = [] := by
    apply drawnFor_neutral
    intro x hx
    obtain ⟨t, ht, hx⟩ := List.mem_flatMap.1 hx
    unfold walkTruth at hx
    split at hx
    · cases hx
    · rw [List.mem_singleton.1 hx]
      rfl
  have hblind : drawnFor c (if p ∈ b.blind then [Call.noTicks .y] else []) = [] := by split <;> rfl
  rw [drawnFor_append, drawnFor_append, hpost, hblind, List.append_nil, List.append_nil]
  obtain ⟨part, h1, h2⟩ := (drawnFor_parts (mapM_ok_iff.1 hw) (fun d part hd => (key d part hd).1) hn c).1 hc
  rw [h2]
  exact (key c part h1).2

/-- **C126** (`plot_walks`). The same for the walks of a parameter. -/
theorem C126_walks {cfg : PlotConfig} {truths truths' : List (Truth ℝ)} {b b' : PlottingBase} {p : String} {calls calls' : List Call}
    (h : walkPanel cfg b truths p = .ok calls) (h' : walkPanel cfg b' truths' p = .ok calls')
    (hn : (b.chains.map (·.name)).Nodup) (hn' : (b'.chains.map (·.name)).Nodup) {c : Chain ℝ} (hc : c ∈ b.chains) (hc' : c ∈ b'.chains) :
    drawnFor c calls = drawnFor c calls' := by
  have h1 := walkPanel_drawn h hn hc
  have h1' := walkPanel_drawn h' hn' hc'
  split at h1
  · rename_i hp
    rw [if_pos hp] at h1'
    obtain ⟨v, e1, e2⟩ := h1
    obtain ⟨v', e1', e2'⟩ := h1'
    rw [e1] at e1'
    cases e1'
    rw [e2, e2']
  · rename_i hp
    rw [if_neg hp] at h1'
    rw [h1, h1']

/-- **C126** (`plot_summary`). The same for the cells of a chain and a parameter. -/
theorem C126_summary {lib : Lib} {cfg : PlotConfig} {truths truths' : List (Truth ℝ)} {errorbar : Bool} {b b' : PlottingBase}
    {fig fig' : Fig} (h : plotSummaryBase lib cfg truths errorbar b = .ok fig)
    (h' : plotSummaryBase lib cfg truths' errorbar b' = .ok fig') {i k i' k' : Nat} {calls calls' : List Call}
    (hp : ((i, k + 1), calls) ∈ fig.panels) (hp' : ((i', k' + 1), calls') ∈ fig'.panels) {c : Chain ℝ} (hc : b.chains[i]? = some c)
    (hc' : b'.chains[i']? = some c) {p : String} (hx : b.columns[k]? = some p) (hx' : b'.columns[k']? = some p) :
    drawnFor c calls = drawnFor c calls' := by
  have key : ∀ {truths : List (Truth ℝ)} {b : PlottingBase} {fig : Fig} {i k : Nat} {calls : List Call},
      plotSummaryBase lib cfg truths errorbar b = .ok fig → ((i, k + 1), calls) ∈ fig.panels → b.chains[i]? = some c →
      b.columns[k]? = some p → ∃ r, summaryContent lib cfg errorbar c p = .ok r ∧ drawnFor c calls = drawnFor c r.1 := by
    intro truths b fig i k calls h hp hc hx
    obtain ⟨-, -, rows, lims, hrows, hlims, hlen, hpan⟩ := summary_panels h
    obtain ⟨c', row, e1, e2, ⟨h0, -⟩ | ⟨k', cell, ek, hcell, rfl⟩⟩ := (hpan _ _).1 hp
    · simp at h0
    · dsimp only at e1 e2 ek
      obtain rfl : k = k' := by omega
      rw [hc] at e1
      cases e1
      have hrow : List.Forall₂ (fun p cell => summaryCell lib cfg b truths errorbar i c p = .ok cell) b.columns row := by
        obtain ⟨hi, e⟩ := List.getElem?_eq_some_iff.1 e2
        obtain ⟨hi2, e2⟩ := List.getElem?_eq_some_iff.1 hc
        have := (List.forall₂_iff_get.1 hrows).2 i (by simpa using hi2) hi
        simp only [List.get_eq_getElem, List.getElem_zipIdx, Nat.zero_add] at this
        rwa [e, e2] at this
      have hcell' : summaryCell lib cfg b truths errorbar i c p = .ok cell := by
        obtain ⟨hi, e⟩ := List.getElem?_eq_some_iff.1 hcell
        obtain ⟨hi2, e2⟩ := List.getElem?_eq_some_iff.1 hx
        have := (List.forall₂_iff_get.1 hrow).2 k hi2 hi
        simp only [List.get_eq_getElem] at this
        rwa [e, e2] at this
      have hl : drawnFor c (lims.getD (k + 1) []) = [] := by
        apply drawnFor_neutral
        rw [List.getD_eq_getElem?_getD]
        cases hk : lims[k + 1]? with
        | none => simp
        | some l =>
          intro x hxl
          obtain ⟨q, -, hq⟩ := mapM_ok_mem_right hlims (List.mem_of_getElem? hk)
          simp only [Option.getD_some] at hxl
          split at hq
          · cases hq; cases hxl
          · split at hq <;> cases hq
            rw [List.mem_singleton.1 hxl]
            rfl
      simp only [summaryCell, bind_ok_iff, pure_ok_iff] at hcell'
      obtain ⟨xlim, hxl, r, hr, rfl⟩ := hcell'
      refine ⟨r, hr, ?_⟩
      have f1 : drawnFor c (if (decide (i < b.chains.length - 1) || decide (p ∈ b.blind)) = true then [Call.noTicks .x] else []) = [] := by
        split <;> rfl
      have f2 : drawnFor c [Call.noTicks .y, xlim] = [] := by
        apply drawnFor_neutral
        intro x hx
        simp only [List.mem_cons, List.not_mem_nil, or_false] at hx
        rcases hx with rfl | rfl
        · rfl
        · exact (setLim_silent hxl []).1
      have f3 : drawnFor c (if p ∈ b.logScales then [Call.logScale .x] else []) = [] := by split <;> rfl
      have f4 : drawnFor c (if i = 0 then [Call.title (getLabel cfg.labels p)] else []) = [] := by split <;> rfl
      have f5 : drawnFor c (truths.flatMap (summaryTruth p)) = [] := by
        apply drawnFor_neutral
        intro x hx
        obtain ⟨t, -, hx⟩ := List.mem_flatMap.1 hx
        unfold summaryTruth at hx
        split at hx
        · cases hx
        · rw [List.mem_singleton.1 hx]; rfl
      simp only [drawnFor_append, f1, f2, f3, f4, f5, hl, List.nil_append, List.append_nil]
  obtain ⟨r, h1, h2⟩ := key h hp hc hx
  obtain ⟨r', h1', h2'⟩ := key h' hp' hc' hx'
  rw [h1] at h1'
  cases h1'
  rw [h2, h2']

/-- **C126** (`plot`, titles). The titles over histograms depend only on the chains with contours: clouds and points of other chains do
not matter. -/
theorem C126_titles {lib : Lib} {cfg : PlotConfig} {truths truths' : List (Truth ℝ)} {b b' : PlottingBase} {fig fig' : Fig}
    (h : plotBase lib cfg truths b = .ok fig) (h' : plotBase lib cfg truths' b' = .ok fig') (hh : cfg.plotHists = true) {i i' : Nat}
    {calls calls' : List Call} (hp : ((i, i), calls) ∈ fig.panels) (hp' : ((i', i'), calls') ∈ fig'.panels)
    {p : String} (hx : b.columns[i]? = some p) (hx' : b'.columns[i']? = some p) (hbl : p ∈ b.blind ↔ p ∈ b'.blind)
    (hflip : cfg.flip = true → ((b.columns.length = 2 ∧ i = 1) ↔ (b'.columns.length = 2 ∧ i' = 1)))
    (hcon : (b.chains.filter fun c => c.cfg .plotContour) = b'.chains.filter fun c => c.cfg .plotContour) :
    titles calls = titles calls' := by
  obtain ⟨s, r, hs, hr, rfl⟩ := plot_hist h hh hp hx
  obtain ⟨s', r', hs', hr', rfl⟩ := plot_hist h' hh hp' hx'
  obtain ⟨bars, hb, hf⟩ := histChains_bars (calls := r.1) (m' := r.2) hr
  obtain ⟨bars', hb', hf'⟩ := histChains_bars (calls := r'.1) (m' := r'.2) hr'
  have e : (cfg.flip && decide (b'.columns.length = 2 ∧ i' = 1)) = (cfg.flip && decide (b.columns.length = 2 ∧ i = 1)) := by
    cases hfl : cfg.flip
    · rfl
    · simp only [Bool.true_and, decide_eq_decide]
      exact (hflip hfl).symm
  have eb : decide (p ∈ b'.blind) = decide (p ∈ b.blind) := decide_eq_decide.2 hbl.symm
  have ef : ∀ l : List (Chain ℝ), (l.filter fun c => c.cfg .plotContour && decide (p ∈ c.samples.columns)) =
      (l.filter fun c => c.cfg .plotContour).filter fun c => decide (p ∈ c.samples.columns) := by
    intro l
    rw [List.filter_filter]
    exact List.filter_congr fun _ _ => Bool.and_comm ..
  rw [e, eb, ef, ← hcon] at hf'
  rw [ef] at hf
  have hbars : bars = bars' := by
    generalize ((b.chains.filter fun c => c.cfg .plotContour).filter fun c => decide (p ∈ c.samples.columns)) = l at hf hf'
    clear hb hb'
    induction hf generalizing bars' with
    | nil => cases hf'; rfl
    | cons hv _ ih =>
      cases hf' with
      | cons hv' hf' =>
        obtain ⟨v, hv⟩ := hv
        obtain ⟨v', hv'⟩ := hv'
        rw [hv] at hv'
        cases hv'
        rw [ih _ hf']
  have ht : ∀ flip (l : List (Truth ℝ)), titles (histTruths lib l flip p) = [] := by
    intro flip l
    unfold histTruths
    split <;> exact (plotTruths_keeps ..).2
  have htop : ∀ flip m, titles (topLim flip m) = [] := by
    intro flip m
    cases m <;> rfl
  simp only [titles_append, (trianglePanel_ticks hs le_rfl).2.2, (trianglePanel_ticks hs' le_rfl).2.2, ht, htop, hb, hb', hbars]

theorem dist_joined {lib : Lib} {cfg : PlotConfig} {p : String} {s : Bool} {c m : Chain ℝ} (hm : (m.cfg .plotContour : Bool) = false)
    {r : List Call × Option ℝ} (h : distChains lib cfg p s [c] none = .ok r) :
    ∃ r', distChains lib cfg p false [c, m] none = .ok r' ∧ r'.2 = r.2 := by
  by_cases hc : (!(c.cfg .plotContour) || decide (p ∉ c.plottingColumns)) = true
  · rw [distChains, if_pos hc] at h
    cases h
    exact ⟨_, by rw [distChains, if_pos hc, distChains, hm]; rfl, rfl⟩
  · rw [distChains, if_neg hc] at h
    simp only [distChains, bind_ok_iff, pure_ok_iff] at h
    obtain ⟨⟨x, v⟩, hb, r1, h1, rfl⟩ := h
    cases h1
    obtain ⟨x', hb', -⟩ := plotBars_plain hb
    refine ⟨(x' ++ [], topStep none v), ?_, rfl⟩
    rw [distChains, if_neg hc]
    simp only [hb', distChains, hm, bind, Except.bind, pure, Except.pure, Bool.not_false, Bool.true_or, if_true]

/-- **C126** (violation, `plot_distributions`). A chain without contours draws nothing in `plot_distributions`. But if one is
plotted with a chain, all titles over the histograms of that chain vanish. -/
theorem C126_violated_titles {lib : Lib} {cfg : PlotConfig} {truths : List (Truth ℝ)} {w : Nat} {b : PlottingBase} {fig : Fig}
    (h : plotDistributionsBase lib cfg truths w b = .ok fig) {c m : Chain ℝ} (hb : b.chains = [c])
    (hm : (m.cfg .plotContour : Bool) = false) (hne : c.name ≠ m.name) :
    ∃ fig', plotDistributionsBase lib cfg truths w { b with chains := [c, m] } = .ok fig' ∧
      fig'.panels.map Prod.fst = fig.panels.map Prod.fst ∧
      ∀ ij calls, (ij, calls) ∈ fig'.panels → titles calls = [] ∧ drawnFor m calls = [] := by
  simp only [plotDistributionsBase, bind_ok_iff, pure_ok_iff, ensure_ok_iff, decide_eq_true_eq] at h
  obtain ⟨-, hw, -, hn, panels, hp, rfl⟩ := h
  obtain ⟨panels', hp'⟩ := mapM_ok_of_forall (l := gridPanels ((b.columns.length + w - 1) / w) (min b.columns.length w))
    (f := fun ij => if b.columns.length ≤ ij.1 * min b.columns.length w + ij.2 then .ok [Call.axisOff]
      else distPanel lib cfg { b with chains := [c, m] } truths (b.columns.getD (ij.1 * min b.columns.length w + ij.2) "")) (by
    intro ij hij
    obtain ⟨calls, -, hcalls⟩ := stack_mem (mapM_ok_iff.1 hp).flip hij
    split at hcalls
    · rename_i h1
      exact ⟨_, if_pos h1⟩
    · rename_i h1
      rw [if_neg h1]
      simp only [distPanel, bind_ok_iff, pure_ok_iff, hb] at hcalls
      obtain ⟨xlim, hx, r, hr, ylim, hy, -⟩ := hcalls
      obtain ⟨r', hr', e⟩ := dist_joined hm hr
      rw [← e] at hy
      simp only [distPanel, hx, List.length_cons, List.length_nil, Nat.reduceAdd, OfNat.ofNat_ne_one, decide_false, Bool.and_false,
        Bool.false_and, hr', hy, bind, Except.bind, pure, Except.pure]
      exact ⟨_, rfl⟩)
  have hfig : plotDistributionsBase lib cfg truths w { b with chains := [c, m] } =
      .ok { panels := (gridPanels ((b.columns.length + w - 1) / w) (min b.columns.length w)).zip panels' } := by
    simp only [plotDistributionsBase, ensure, hw, hn, decide_true, if_true, hp', bind, Except.bind, pure, Except.pure, ne_eq,
      not_false_eq_true]
  refine ⟨_, hfig, ?_, ?_⟩
  · dsimp only
    rw [zip_fst_of_length (mapM_ok_iff.1 hp).length_eq, zip_fst_of_length (mapM_ok_iff.1 hp').length_eq]
  · rintro ⟨i, j⟩ calls hc
    obtain ⟨-, -, hcells, -⟩ := distributions_panels hfig
    obtain ⟨-, ⟨hle, rfl⟩ | ⟨hlt, hd⟩⟩ := hcells _ _ hc
    · exact ⟨rfl, rfl⟩
    · refine ⟨?_, ?_⟩
      · by_contra ht
        obtain ⟨p, hp⟩ : ∃ p, b.columns[i * min b.columns.length w + j]? = some p := ⟨_, List.getElem?_eq_getElem hlt⟩
        obtain ⟨-, -, c', hc', -⟩ := (C85_distributions_partial hfig hc hp).1 ht
        simp at hc'
      · obtain ⟨s, hs⟩ := distPanel_drawn (c := m) hd (by simpa using hne) (by simp)
        rw [hm] at hs
        simpa using hs

/-! ### concrete cases -/

/-- The titles of the chain of `C85_violated` vanish beside a cloud. -/
theorem C126_violated_witness : ∃ c m : Chain ℝ, ∀ lib : Lib, KdeOk lib.kde → ∃ (fig fig' : Fig) (calls : List Call),
    plotDistributionsBase lib {} [] 1 (oneBase c) = .ok fig ∧ ((0, 0), calls) ∈ fig.panels ∧ titles calls ≠ [] ∧
    plotDistributionsBase lib {} [] 1 { oneBase c with chains := [c, m] } = .ok fig' ∧
    ∀ ij calls, (ij, calls) ∈ fig'.panels → titles calls = [] ∧ drawnFor m calls = [] := by
  obtain ⟨c, h1, h2⟩ := C85_violated
  obtain ⟨m, hm⟩ := cloudPair_exists
  refine ⟨c, m, fun lib hk => ?_⟩
  obtain ⟨fig, calls, l, x, u, l', u', t, t', e1, e2, -, -, -, e3, -⟩ := h2 lib hk
  have hcn : c.name = "two" := by
    obtain ⟨c', h3, h4⟩ := twoPoint_exists true (u := 1) (v := 2) one_pos two_pos
    rw [h1] at h3
    cases h3
    exact h4.name
  obtain ⟨fig', f1, -, f2⟩ := C126_violated_titles e1 (c := c) (m := m) rfl (by rw [hm.cfg]; rfl) (by rw [hcn, hm.name]; decide)
  exact ⟨fig, fig', calls, e1, e2, by rw [e3]; simp, f1, f2⟩

/-- `C126_surface` applies to a chain with and without another one. -/
example (lib : Lib) : ∃ (c d : Chain ℝ) (fig fig' : Fig) (calls calls' : List Call),
    plotBase lib { plotHists := false } [] (demoBase [c, d]) = .ok fig ∧ ((0, 0), calls) ∈ fig.panels ∧
    plotBase lib { plotHists := false } [] (demoBase [d]) = .ok fig' ∧ ((0, 0), calls') ∈ fig'.panels ∧
    drawnFor d calls = drawnFor d calls' ∧ .cloud "y" "a" "b" [1] [5] none ∈ drawnFor d calls := by
  obtain ⟨c, hc1, -, -, -, -, -, -, -, -, hc7⟩ := stack_chain "x" 10
  obtain ⟨d, hd1, -, -, -, -, -, -, -, -, hd7⟩ := stack_chain "y" 20
  obtain ⟨calls, bars, h1⟩ := stack_figure lib (chains := [c, d]) (rs := _) (by
    rw [List.mapM_cons, List.mapM_cons, List.mapM_nil, hc7, hd7]; rfl)
  obtain ⟨calls', bars', h2⟩ := stack_figure lib (chains := [d]) (rs := _) (by
    rw [List.mapM_cons, List.mapM_nil, hd7]; rfl)
  have m1 : ((0, 0), calls) ∈ ({ panels := [((0, 0), calls)], colorbars := bars } : Fig).panels := by simp
  have m2 : ((0, 0), calls') ∈ ({ panels := [((0, 0), calls')], colorbars := bars' } : Fig).panels := by simp
  have hn : ((demoBase [c, d]).chains.map (·.name)).Nodup := by simp [demoBase, hc1, hd1]
  refine ⟨c, d, _, _, calls, calls', h1, m1, h2, m2,
    C126_surface h1 h2 m1 m2 hn (by simp [demoBase]) (by simp [demoBase]) (by simp [demoBase]) (px := "a") (py := "b") (by simp) (by simp)
      rfl rfl rfl rfl, ?_⟩
  obtain ⟨-, -, h⟩ := plot_cases h1 m1
  rcases h with ⟨hlt, -⟩ | ⟨-, -, px', py', s, dr, bars, hx', hy', -, hs, rfl⟩ | ⟨hh, -⟩
  · omega
  · cases hx'
    cases hy'
    obtain ⟨r, e1, e2⟩ := surface_drawn hs hn (c := d) (by simp [demoBase])
    rw [hd7] at e1
    cases e1
    rw [drawnFor_append, drawnFor_append, e2]
    simp [drawnFor, Call.owner, hd1]
  · cases hh

/-- `C126_histogram` and `C126_titles` apply to a grid beside a cloud, with different truths. -/
example (lib : Lib) : ∃ (c d : Chain ℝ) (fig fig' : Fig) (calls calls' : List Call),
    plotBase lib otherCfg [Truth.line [("a", 1 / 4)]] (otherBase [c, d] ["a", "b"]) = .ok fig ∧ ((0, 0), calls) ∈ fig.panels ∧
    plotBase lib otherCfg [] (otherBase [c, d] ["a", "b", "c"]) = .ok fig' ∧ ((0, 0), calls') ∈ fig'.panels ∧
    drawnFor c calls = drawnFor c calls' ∧ titles calls = titles calls' := by
  obtain ⟨c1, h1⟩ := gridSingle_exists
  obtain ⟨c2, h2⟩ := cloudPair_exists
  obtain ⟨fig, f1⟩ := other_plot lib [Truth.line [("a", 1 / 4)]] h1 h2 (.inl rfl)
  obtain ⟨fig', f2⟩ := other_plot lib [] h1 h2 (.inr rfl)
  have pan : ∀ {cols fig truths}, plotBase lib otherCfg truths (otherBase [c1, c2] cols) = .ok fig →
      2 ≤ cols.length → ∃ calls, ((0, 0), calls) ∈ fig.panels := by
    intro cols fig truths hf hl
    obtain ⟨-, hk, -⟩ := plot_panels hf
    have : (0, 0) ∈ fig.panels.map Prod.fst := by
      rw [hk, show (otherBase [c1, c2] cols).columns.length - rowShift otherCfg = cols.length from rfl]
      simp [gridPanels]
      omega
    obtain ⟨⟨ij, calls⟩, hm, rfl⟩ := List.mem_map.1 this
    exact ⟨calls, hm⟩
  obtain ⟨calls, m1⟩ := pan f1 (by simp)
  obtain ⟨calls', m2⟩ := pan f2 (by simp)
  have hn : ∀ cols, ((otherBase [c1, c2] cols).chains.map (·.name)).Nodup := by intro cols; simp [otherBase, h1.name, h2.name]
  exact ⟨c1, c2, fig, fig', calls, calls', f1, m1, f2, m2,
    C126_histogram f1 f2 rfl m1 m2 (hn _) (hn _) (by simp [otherBase]) (by simp [otherBase]) (p := "a") rfl rfl (by simp),
    C126_titles f1 f2 rfl m1 m2 (p := "a") rfl rfl Iff.rfl (by simp) rfl⟩

/-- `C126_distributions`, `C126_walks` and `C126_summary` apply to a grid with and without another one. -/
example (lib : Lib) : ∃ (c d : Chain ℝ) (fig fig' sum sum' : Fig) (calls calls' walk walk' cell cell' : List Call),
    plotDistributionsBase lib otherCfg [] 4 (otherBase [d, c] ["a"]) = .ok fig ∧ ((0, 0), calls) ∈ fig.panels ∧
    plotDistributionsBase lib otherCfg [] 4 (otherBase [c] ["a"]) = .ok fig' ∧ ((0, 0), calls') ∈ fig'.panels ∧
    drawnFor c calls = drawnFor c calls' ∧
    walkPanel otherCfg (otherBase [d, c] ["a"]) [] "a" = .ok walk ∧ walkPanel otherCfg (otherBase [c] ["a"]) [] "a" = .ok walk' ∧
    drawnFor c walk = drawnFor c walk' ∧
    plotSummaryBase lib otherCfg [] false (otherBase [d, c] ["a"]) = .ok sum ∧ ((1, 1), cell) ∈ sum.panels ∧
    plotSummaryBase lib otherCfg [] false (otherBase [c] ["a"]) = .ok sum' ∧ ((0, 1), cell') ∈ sum'.panels ∧
    drawnFor c cell = drawnFor c cell' ∧ .marginal "grid" "a" false [0, 1] [1 / 2, 1 / 2] ∈ cell := by
  obtain ⟨c, hc⟩ := gridPair_exists
  obtain ⟨d, hd⟩ : ∃ c, DemoChain c pairFrame "late" true barKw :=
    demoChain_exists _ pairFrame_wf (by simp [pairFrame]) (w := [1, 1]) rfl (by simp) _ _ _ (.inl rfl)
  have hp : c.plottingColumns = ["a", "b"] := (demo_columns hc (.inl rfl)).trans (by decide)
  have hp' : d.plottingColumns = ["a", "b"] := (demo_columns hd (.inl rfl)).trans (by decide)
  have hq : c.dataColumns = ["a", "b"] := demo_dataColumns hc
  have hq' : d.dataColumns = ["a", "b"] := by
    have := hp'
    rw [Chain.plottingColumns, show d.cfg .plotCloud = false by rw [hd.cfg]; rfl] at this
    simpa using this
  have hk : (c.cfg .plotContour : Bool) = true := by rw [hc.cfg]; rfl
  have hk' : (d.cfg .plotContour : Bool) = true := by rw [hd.cfg]; rfl
  have hb : ∀ flip s, plotBars lib otherCfg "a" c flip s = .ok ([.marginal "grid" "a" flip [0, 1] [1 / 2, 1 / 2]], 1 / 2) := by
    intro flip s
    rw [demo_bars hc lib otherCfg one_pos (col := "a") rfl rfl]
    norm_num
  have hb' : ∀ flip s, plotBars lib otherCfg "a" d flip s = .ok ([.marginal "late" "a" flip [0, 1] [1 / 2, 1 / 2]], 1 / 2) := by
    intro flip s
    rw [demo_bars hd lib otherCfg one_pos (col := "a") rfl rfl]
    norm_num
  have hn : ((otherBase [d, c] ["a"]).chains.map (·.name)).Nodup := by simp [otherBase, hc.name, hd.name]
  have hn' : ((otherBase [c] ["a"]).chains.map (·.name)).Nodup := by simp [otherBase]
  have hg : c.samples.get "a" = .ok [0, 1] := by rw [hc.samples]; rfl
  have hg' : d.samples.get "a" = .ok [0, 1] := by rw [hd.samples]; rfl
  have fig : ∀ l r, distPanel lib otherCfg (otherBase l ["a"]) [] "a" = .ok r →
      plotDistributionsBase lib otherCfg [] 4 (otherBase l ["a"]) = .ok { panels := [((0, 0), r)] } := by
    intro l r ea
    simp only [plotDistributionsBase]
    simp [show (otherBase l ["a"]).columns = ["a"] from rfl, show gridPanels 1 1 = [(0, 0)] from rfl, ea, ensure, bind,
      Except.bind, pure, Except.pure]
  obtain ⟨r, ea⟩ : ∃ r, distPanel lib otherCfg (otherBase [d, c] ["a"]) [] "a" = .ok r := by
    simp [distPanel, otherBase, setLim, distChains, hk, hp, hk', hp', hb, hb', bind, Except.bind, pure, Except.pure,
      topStep, distYlim]
  obtain ⟨r', ea'⟩ : ∃ r, distPanel lib otherCfg (otherBase [c] ["a"]) [] "a" = .ok r := by
    simp [distPanel, otherBase, setLim, distChains, hk, hp, hb, bind, Except.bind, pure, Except.pure,
      topStep, distYlim]
  have m1 : ((0, 0), r) ∈ ({ panels := [((0, 0), r)] } : Fig).panels := by simp
  have m1' : ((0, 0), r') ∈ ({ panels := [((0, 0), r')] } : Fig).panels := by simp
  have ht : ∀ x y : ℝ, thin [x, y] = [x, y] := by
    intro x y
    rw [thin, if_neg]
    unfold maxPoints
    simp
  obtain ⟨w, hw⟩ : ∃ w, walkPanel otherCfg (otherBase [d, c] ["a"]) [] "a" = .ok w := by
    simp [walkPanel, otherBase, hg, hg', hq, hq', ht, plotWalk, walkLim, setLim, ensure, bind, Except.bind, pure, Except.pure]
  obtain ⟨w', hw'⟩ : ∃ w, walkPanel otherCfg (otherBase [c] ["a"]) [] "a" = .ok w := by
    simp [walkPanel, otherBase, hg, hq, ht, plotWalk, walkLim, setLim, ensure, bind, Except.bind, pure, Except.pure]
  have hl1 : summaryLimits false ["a"] [("a", 1 / 2)] = .ok [[.lim .y 0 (11 / 10 * (1 / 2))]] := by
    simp [summaryLimits, List.lookup, bind, Except.bind, pure, Except.pure]
  have hm1 : maxVals [("a", some (1 / 2))] = [("a", 1 / 2)] := by
    simp [maxVals, maxValsStep, dictSet, List.lookup]
  have hm2 : maxVals [("a", some (1 / 2)), ("a", some (1 / 2))] = [("a", 1 / 2)] := by
    simp [maxVals, maxValsStep, dictSet, List.lookup]
  have s1 : ∀ l i, ∃ x, summaryCell lib otherCfg (otherBase l ["a"]) [] false i c "a" = .ok (x, some (1 / 2)) ∧
      .marginal "grid" "a" false [0, 1] [1 / 2, 1 / 2] ∈ x := by
    intro l i
    simp [summaryCell, summaryContent, hq, hb, bind, Except.bind, pure, Except.pure, setLim, otherBase]
  have s2 : ∀ l i, ∃ x, summaryCell lib otherCfg (otherBase l ["a"]) [] false i d "a" = .ok (x, some (1 / 2)) := by
    intro l i
    simp [summaryCell, summaryContent, hq', hb', bind, Except.bind, pure, Except.pure, setLim, otherBase]
  obtain ⟨xc, e1, i1⟩ := s1 [d, c] 1
  obtain ⟨xc', e1', -⟩ := s1 [c] 0
  obtain ⟨xd, e2⟩ := s2 [d, c] 0
  have g1 : plotSummaryBase lib otherCfg [] false (otherBase [c] ["a"]) =
      .ok { panels := [((0, 0), [.axisOff, .text "grid", .lim .y 0 (11 / 10 * (1 / 2))]), ((0, 1), xc')] } := by
    simp only [plotSummaryBase, show (otherBase [c] ["a"]).columns = ["a"] from rfl, show (otherBase [c] ["a"]).chains = [c] from rfl,
      List.zipIdx_cons, List.zipIdx_nil, List.mapM_cons, List.mapM_nil, e1', ensure, bind, Except.bind, pure, Except.pure,
      List.flatMap_cons, List.flatMap_nil, List.zipWith_cons_cons, List.zipWith_nil_right, List.append_nil, hm1, hl1,
      List.isEmpty_cons, Bool.not_false, Bool.and_self, if_true]
    simp [gridPanels, hc.name, show List.range 2 = [0, 1] from rfl]
  have g2 : plotSummaryBase lib otherCfg [] false (otherBase [d, c] ["a"]) =
      .ok { panels := [((0, 0), [.axisOff, .text "late", .lim .y 0 (11 / 10 * (1 / 2))]), ((0, 1), xd),
        ((1, 0), [.axisOff, .text "grid", .lim .y 0 (11 / 10 * (1 / 2))]), ((1, 1), xc)] } := by
    simp only [plotSummaryBase, show (otherBase [d, c] ["a"]).columns = ["a"] from rfl,
      show (otherBase [d, c] ["a"]).chains = [d, c] from rfl,
      List.zipIdx_cons, List.zipIdx_nil, List.mapM_cons, List.mapM_nil, Nat.zero_add, e1, e2, ensure, bind, Except.bind, pure, Except.pure,
      List.flatMap_cons, List.flatMap_nil, List.zipWith_cons_cons, List.zipWith_nil_right, List.append_nil, List.cons_append,
      List.nil_append, hm2, hl1, List.isEmpty_cons, Bool.not_false, Bool.and_self, if_true]
    simp [gridPanels, hc.name, hd.name, show List.range 2 = [0, 1] from rfl]
  exact ⟨c, d, _, _, _, _, r, r', w, w', xc, xc', fig _ _ ea, m1, fig _ _ ea', m1',
    C126_distributions (fig _ _ ea) (fig _ _ ea') m1 m1' hn hn' (by simp [otherBase]) (by simp [otherBase]) (p := "a") rfl rfl, hw, hw',
    C126_walks hw hw' hn hn' (by simp [otherBase]) (by simp [otherBase]), g2, by simp, g1, by simp,
    C126_summary g2 g1 (i := 1) (k := 0) (i' := 0) (k' := 0) (calls := xc) (calls' := xc') (by simp) (by simp) rfl rfl (p := "a") rfl rfl, i1⟩

end CC
