import Verif.Props.Visible
import Verif.Props.SummaryScale

/-! # C123: a panel does not depend on the other parameters plotted -/

namespace CC
open Spec

/-- A call that concerns the ticks and the label of an axis only. These depend on the place of a panel in the figure. -/
def Spec.isTick : Call → Bool
  | .noTicks _ | .maxNLocator _ | .logLocator _ | .axisLabel _ _ => true
  | _ => false

/-- What a panel shows, and on which scales and ranges. -/
def Spec.content (calls : List Call) : List Call := calls.filter fun c => !isTick c

/-- Two requests that differ in columns only agree on what matters for a column both of them ask for. -/
structure SameFor (p : String) (b b' : PlottingBase) : Prop where
  chains : b.chains = b'.chains
  extents : b.extents.lookup p = b'.extents.lookup p
  blind : p ∈ b.blind ↔ p ∈ b'.blind
  logs : b.logScales = b'.logScales

theorem sanitise_same {cfg : PlotConfig} {final : List (String × Chain ℝ)} {req : ChainReq ℝ} {cols cols' : Option (List String)}
    {wide : Bool} {b b' : PlottingBase} (hb : sanitise cfg final req cols wide = .ok b) (hb' : sanitise cfg final req cols' wide = .ok b')
    {p : String} (hp : p ∈ b.columns) (hp' : p ∈ b'.columns) : SameFor p b b' := by
  simp only [sanitise, bind_ok_iff, pure_ok_iff] at hb hb'
  obtain ⟨chains, hc, e, he, rfl⟩ := hb
  obtain ⟨chains', hc', e', he', rfl⟩ := hb'
  rw [hc] at hc'
  cases hc'
  refine ⟨rfl, ?_, ?_, rfl⟩
  · obtain ⟨h1, h2⟩ := C60_custom _ _ _ _ _ he p
    obtain ⟨h1', h2'⟩ := C60_custom _ _ _ _ _ he' p
    cases hl : cfg.extents.lookup p with
    | some r => rw [h1 r hl, h1' r hl]
    | none =>
      obtain ⟨r, hr, e1⟩ := h2 hp hl
      obtain ⟨r', hr', e2⟩ := h2' hp' hl
      rw [hr] at hr'
      cases hr'
      rw [e1, e2]
  · simp only [sanitiseBlinds]
    split
    · rfl
    · rfl
    · exact ⟨fun _ => hp', fun _ => hp⟩
    · rfl

theorem content_append (a b : List Call) : content (a ++ b) = content a ++ content b := List.filter_append ..

theorem content_axis (cfg : PlotConfig) (blind : List String) (d : Dir) (p : String) (log shown : Bool) :
    content (axisCalls cfg blind d p log shown) = if log then [.logScale d] else [] := by
  unfold axisCalls
  cases log <;> cases shown <;> by_cases h : p ∈ blind <;> simp [content, isTick, h]

theorem setLim_content {d : Dir} {e : Option (Option (ℝ × ℝ))} {c : Call} (h : setLim d e = .ok c) : content [c] = [c] := by
  obtain ⟨lo, hi, rfl, -⟩ := setLim_setup h
  rfl

theorem triangle_content {cfg : PlotConfig} {b : PlottingBase} {n i j : Nat} {p1 p2 : String} {s : List Call}
    (h : trianglePanel cfg b n i j p1 p2 = .ok s) (hij : ¬ i < j) : ∃ ylim xlim, triangleYlim cfg b i j p1 = .ok ylim ∧
      setLim .x (b.extents.lookup p2) = .ok xlim ∧
      content s = (if (logAxes cfg b.logScales n j p1 p2).1 then [.logScale .x] else []) ++
        (if (logAxes cfg b.logScales n j p1 p2).2 then [.logScale .y] else []) ++ ylim ++ [xlim] := by
  rw [trianglePanel, if_neg hij] at h
  simp only [bind_ok_iff, pure_ok_iff] at h
  obtain ⟨ylim, hy, xlim, hx, rfl⟩ := h
  refine ⟨ylim, xlim, hy, hx, ?_⟩
  have hyc : content ylim = ylim := by
    unfold triangleYlim at hy
    split at hy
    · simp only [bind_ok_iff, pure_ok_iff] at hy
      obtain ⟨c, hc, rfl⟩ := hy
      exact setLim_content hc
    · cases hy; rfl
  rw [content_append, content_append, content_append, content_axis, content_axis, hyc, setLim_content hx]

/-- **C123** for two parameters: the panel of `px` and `py` shows the same with the same scales and ranges, whatever other columns are
requested. -/
theorem C123_surface {lib : Lib} {cfg : PlotConfig} {truths : List (Truth ℝ)} {final : List (String × Chain ℝ)} {req : ChainReq ℝ}
    {cols cols' : Option (List String)} {wide : Bool} {b b' : PlottingBase} (hb : sanitise cfg final req cols wide = .ok b)
    (hb' : sanitise cfg final req cols' wide = .ok b') {fig fig' : Fig} (h : plotBase lib cfg truths b = .ok fig)
    (h' : plotBase lib cfg truths b' = .ok fig') {i j i' j' : Nat} {calls calls' : List Call}
    (hc : ((i, j), calls) ∈ fig.panels) (hc' : ((i', j'), calls') ∈ fig'.panels) {px py : String} (hne : px ≠ py)
    (hj : j < i + if cfg.plotHists then 0 else 1) (hj' : j' < i' + if cfg.plotHists then 0 else 1)
    (hx : b.columns[j]? = some px) (hy : b.columns[i + if cfg.plotHists then 0 else 1]? = some py)
    (hx' : b'.columns[j']? = some px) (hy' : b'.columns[i' + if cfg.plotHists then 0 else 1]? = some py) :
    content calls = content calls' := by
  have hsx := sanitise_same hb hb' (List.mem_of_getElem? hx) (List.mem_of_getElem? hx')
  have hsy := sanitise_same hb hb' (List.mem_of_getElem? hy) (List.mem_of_getElem? hy')
  have key : ∀ {b : PlottingBase} {fig : Fig}, plotBase lib cfg truths b = .ok fig → ∀ {i j : Nat} {calls : List Call},
      ((i, j), calls) ∈ fig.panels → j < i + (if cfg.plotHists then 0 else 1) → b.columns[j]? = some px →
      b.columns[i + if cfg.plotHists then 0 else 1]? = some py →
      ∃ ylim xlim d bars, setLim .y (b.extents.lookup py) = .ok ylim ∧ setLim .x (b.extents.lookup px) = .ok xlim ∧
        plotSurface lib cfg b.chains px py = .ok (d, bars) ∧
        content calls = (if px ∈ b.logScales then [.logScale .x] else []) ++ (if py ∈ b.logScales then [.logScale .y] else []) ++
          [ylim] ++ [xlim] ++ content (d ++ plotTruths lib.filled truths (some px) (some py)) := by
    intro b fig h i j calls hc hj hx hy
    obtain ⟨-, -, hcase⟩ := plot_cases h hc
    have hji : j ≤ i := by split at hj <;> omega
    rcases hcase with ⟨hij, -⟩ | ⟨-, -, qx, qy, s, d, bars, hqx, hqy, hs, hd, rfl⟩ | ⟨hh, rfl, -⟩
    · omega
    · rw [hx] at hqx
      rw [hy] at hqy
      cases hqx
      cases hqy
      obtain ⟨ylim, xlim, h1, h2, h3⟩ := triangle_content hs (by omega)
      unfold triangleYlim at h1
      rw [if_pos (by
        cases hph : cfg.plotHists
        · simp
        · rw [hph, if_pos rfl] at hj
          have : i ≠ j := by omega
          simp [this])] at h1
      simp only [bind_ok_iff, pure_ok_iff] at h1
      obtain ⟨yl, h1, rfl⟩ := h1
      refine ⟨yl, xlim, d, bars, h1, h2, hd, ?_⟩
      rw [content_append, h3]
      have : logAxes cfg b.logScales (b.columns.length - if cfg.plotHists then 0 else 1) j py px =
          (decide (px ∈ b.logScales), decide (py ∈ b.logScales)) := by
        rw [logAxes, if_neg (Ne.symm hne)]
      rw [this]
      simp
    · rw [hh, if_pos rfl] at hj; omega
  obtain ⟨yl, xl, d, bars, h1, h2, h3, h4⟩ := key h hc hj hx hy
  obtain ⟨yl', xl', d', bars', h1', h2', h3', h4'⟩ := key h' hc' hj' hx' hy'
  rw [← hsy.extents, h1] at h1'
  rw [← hsx.extents, h2] at h2'
  rw [← hsx.chains, h3] at h3'
  cases h1'
  cases h2'
  cases h3'
  rw [h4, h4', hsx.logs]

/-- **C123** for histograms that are not rotated (`flip` is documented to rotate the last histogram of two). -/
theorem C123_histogram {lib : Lib} {cfg : PlotConfig} {truths : List (Truth ℝ)} {final : List (String × Chain ℝ)} {req : ChainReq ℝ}
    {cols cols' : Option (List String)} {wide : Bool} {b b' : PlottingBase} (hb : sanitise cfg final req cols wide = .ok b)
    (hb' : sanitise cfg final req cols' wide = .ok b') {fig fig' : Fig} (h : plotBase lib cfg truths b = .ok fig)
    (h' : plotBase lib cfg truths b' = .ok fig') {i i' : Nat} {calls calls' : List Call} (hp : cfg.plotHists = true)
    (hflip : cfg.flip = false) (hc : ((i, i), calls) ∈ fig.panels) (hc' : ((i', i'), calls') ∈ fig'.panels) {p : String}
    (hx : b.columns[i]? = some p) (hx' : b'.columns[i']? = some p) : content calls = content calls' := by
  have hs := sanitise_same hb hb' (List.mem_of_getElem? hx) (List.mem_of_getElem? hx')
  have key : ∀ {b : PlottingBase} {fig : Fig}, plotBase lib cfg truths b = .ok fig → ∀ {i : Nat} {calls : List Call},
      ((i, i), calls) ∈ fig.panels → b.columns[i]? = some p →
      ∃ xlim r, setLim .x (b.extents.lookup p) = .ok xlim ∧
        histChains lib cfg p false (cfg.summarise && decide ((b.chains.filter fun c => c.cfg .plotContour).length = 1) &&
          !decide (p ∈ b.blind)) b.chains none = .ok r ∧
        content calls = (if p ∈ b.logScales then [.logScale .x] else []) ++ [xlim] ++
          content (histTruths lib truths false p ++ r.1 ++ topLim false r.2) := by
    intro b fig h i calls hc hx
    obtain ⟨-, -, hcase⟩ := plot_cases h hc
    rcases hcase with ⟨hij, -⟩ | ⟨hj, -⟩ | ⟨-, -, q, s, r, hq, hs, hr, rfl⟩
    · omega
    · rw [hp, if_pos rfl] at hj; omega
    · rw [hx] at hq
      cases hq
      obtain ⟨ylim, xlim, h1, h2, h3⟩ := triangle_content hs (by omega)
      simp only [triangleYlim, hp, hflip, ne_eq, not_true, decide_false, Bool.not_true, Bool.or_false, Bool.false_and,
        Bool.false_eq_true, if_false, Except.ok.injEq] at h1
      subst h1
      simp only [hflip, Bool.false_and] at hr ⊢
      refine ⟨xlim, r, h2, hr, ?_⟩
      rw [content_append, h3]
      simp only [logAxes, hflip, Bool.false_and, Bool.false_eq_true, if_false, if_true]
      by_cases hl : p ∈ b.logScales <;> simp [hl]
  obtain ⟨xl, r, h2, h3, h4⟩ := key h hc hx
  obtain ⟨xl', r', h2', h3', h4'⟩ := key h' hc' hx'
  rw [← hs.extents, h2] at h2'
  have hbl : decide (p ∈ b.blind) = decide (p ∈ b'.blind) := decide_eq_decide.2 hs.blind
  rw [← hs.chains, ← hbl, h3] at h3'
  cases h2'
  cases h3'
  rw [h4, h4', hs.logs]

/-- **C123** for `plot_distributions`, whatever the number of columns of the figure. -/
theorem C123_distributions {lib : Lib} {cfg : PlotConfig} {truths : List (Truth ℝ)} {final : List (String × Chain ℝ)}
    {req : ChainReq ℝ} {cols cols' : Option (List String)} {wide : Bool} {b b' : PlottingBase}
    (hb : sanitise cfg final req cols wide = .ok b) (hb' : sanitise cfg final req cols' wide = .ok b') {wrap wrap' : Nat}
    {fig fig' : Fig} (h : plotDistributionsBase lib cfg truths wrap b = .ok fig)
    (h' : plotDistributionsBase lib cfg truths wrap' b' = .ok fig') {i j i' j' : Nat} {calls calls' : List Call}
    (hc : ((i, j), calls) ∈ fig.panels) (hc' : ((i', j'), calls') ∈ fig'.panels) {p : String}
    (hx : b.columns[i * min b.columns.length wrap + j]? = some p)
    (hx' : b'.columns[i' * min b'.columns.length wrap' + j']? = some p) : calls = calls' := by
  have hs := sanitise_same hb hb' (List.mem_of_getElem? hx) (List.mem_of_getElem? hx')
  have key : ∀ {b : PlottingBase} {wrap : Nat} {fig : Fig}, plotDistributionsBase lib cfg truths wrap b = .ok fig →
      ∀ {i j : Nat} {calls : List Call}, ((i, j), calls) ∈ fig.panels → b.columns[i * min b.columns.length wrap + j]? = some p →
      distPanel lib cfg b truths p = .ok calls := by
    intro b wrap fig h i j calls hc hx
    rcases ((distributions_panels h).2.2.1 _ _ hc).2 with ⟨h1, -⟩ | ⟨-, h2⟩
    · rw [List.getElem?_eq_none h1] at hx
      cases hx
    · rwa [List.getD_eq_getElem?_getD, hx, Option.getD_some] at h2
  have h1 := key h hc hx
  have h2 := key h' hc' hx'
  have hbl : decide (p ∈ b.blind) = decide (p ∈ b'.blind) := decide_eq_decide.2 hs.blind
  have e : distPanel lib cfg b truths p = distPanel lib cfg b' truths p := by
    simp only [distPanel, hs.chains, hs.extents, hs.logs, hs.blind]
  rw [e, h2] at h1
  cases h1
  rfl

/-- **C123** for `plot_walks`, whatever other panels are asked for. -/
theorem C123_walks {cfg : PlotConfig} {truths : List (Truth ℝ)} {final : List (String × Chain ℝ)}
    {req : ChainReq ℝ} {cols cols' : Option (List String)} {wide : Bool} {b b' : PlottingBase}
    (hb : sanitise cfg final req cols wide = .ok b) (hb' : sanitise cfg final req cols' wide = .ok b') {pw pp lw pw' pp' lw' : Bool}
    {fig fig' : Fig} (h : plotWalksBase cfg truths pw pp lw b = .ok fig)
    (h' : plotWalksBase cfg truths pw' pp' lw' b' = .ok fig') :
    ∃ extra main extra' main' : List (List Call), fig.panels = (extra ++ main).zipIdx.map (fun e => ((e.2, 0), e.1)) ∧
      fig'.panels = (extra' ++ main').zipIdx.map (fun e => ((e.2, 0), e.1)) ∧
      main.length = b.columns.length ∧ main'.length = b'.columns.length ∧
      ∀ (k k' : Nat) (p : String), b.columns[k]? = some p → b'.columns[k']? = some p → main[k]? = main'[k']? := by
  obtain ⟨-, -, extra, main, h1, h2, -⟩ := plotWalks_panels h
  obtain ⟨-, -, extra', main', h1', h2', -⟩ := plotWalks_panels h'
  refine ⟨extra, main, extra', main', h1, h1', h2.length_eq.symm, h2'.length_eq.symm, fun k k' p hx hx' => ?_⟩
  have hs := sanitise_same hb hb' (List.mem_of_getElem? hx) (List.mem_of_getElem? hx')
  have key : ∀ {cs : List String} {ms : List (List Call)} {b : PlottingBase},
      List.Forall₂ (fun p calls => walkPanel cfg b truths p = .ok calls) cs ms → ∀ {k : Nat}, cs[k]? = some p →
      ∃ calls, ms[k]? = some calls ∧ walkPanel cfg b truths p = .ok calls := by
    intro cs ms b hf
    induction hf with
    | nil => intro k hk; simp at hk
    | cons hd _ ih =>
      intro k hk
      cases k with
      | zero => cases hk; exact ⟨_, rfl, hd⟩
      | succ k => exact ih hk
  obtain ⟨c, e1, e2⟩ := key h2 hx
  obtain ⟨c', e1', e2'⟩ := key h2' hx'
  have e : walkPanel cfg b truths p = walkPanel cfg b' truths p := by
    simp only [walkPanel, hs.chains, hs.extents, hs.logs, hs.blind]
  rw [e, e2'] at e2
  cases e2
  rw [e1, e1']

/-- **C123, partial**, for `plot_summary`: the panels of a parameter differ at most in their last call, a vertical range, which only
figures without error bars have. Missing: that range, for which it is false (`C123_violated`). -/
theorem C123_summary_partial {lib : Lib} {cfg : PlotConfig} {truths : List (Truth ℝ)} {errorbar : Bool}
    {final : List (String × Chain ℝ)} {req : ChainReq ℝ} {cols cols' : Option (List String)} {wide : Bool} {b b' : PlottingBase}
    (hb : sanitise cfg final req cols wide = .ok b) (hb' : sanitise cfg final req cols' wide = .ok b')
    {fig fig' : Fig} (h : plotSummaryBase lib cfg truths errorbar b = .ok fig)
    (h' : plotSummaryBase lib cfg truths errorbar b' = .ok fig') {i k k' : Nat} {calls calls' : List Call}
    (hc : ((i, k + 1), calls) ∈ fig.panels) (hc' : ((i, k' + 1), calls') ∈ fig'.panels) {p : String}
    (hx : b.columns[k]? = some p) (hx' : b'.columns[k']? = some p) :
    ∃ same l l', calls = same ++ l ∧ calls' = same ++ l' ∧ (errorbar = true → l = [] ∧ l' = []) ∧
      (∀ c ∈ l ++ l', ∃ hi, c = .lim .y 0 hi) := by
  have hs := sanitise_same hb hb' (List.mem_of_getElem? hx) (List.mem_of_getElem? hx')
  have key : ∀ {b : PlottingBase} {fig : Fig}, plotSummaryBase lib cfg truths errorbar b = .ok fig →
      ∀ {i k : Nat} {calls : List Call}, ((i, k + 1), calls) ∈ fig.panels → b.columns[k]? = some p →
      ∃ c cell l, b.chains[i]? = some c ∧ summaryCell lib cfg b truths errorbar i c p = .ok cell ∧ calls = cell.1 ++ l ∧
        (errorbar = true → l = []) ∧ ∀ x ∈ l, ∃ hi, x = .lim .y 0 hi := by
    intro b fig h i k calls hc hx
    obtain ⟨-, -, rows, lims, hrows, hlims, hlen, hp⟩ := summary_panels h
    obtain ⟨c, row, hci, hri, h1 | ⟨k1, cell, hk, hcell, rfl⟩⟩ := (hp _ _).1 hc
    · cases h1.1
    simp only [Nat.add_right_cancel_iff] at hk
    subst hk
    have hrow : List.Forall₂ (fun p cell => summaryCell lib cfg b truths errorbar i c p = .ok cell) b.columns row := by
      obtain ⟨hi, e⟩ := List.getElem?_eq_some_iff.1 hri
      obtain ⟨hi2, e2⟩ := List.getElem?_eq_some_iff.1 hci
      have := (List.forall₂_iff_get.1 hrows).2 i (by simpa using hi2) hi
      simp only [List.get_eq_getElem, List.getElem_zipIdx, Nat.zero_add] at this
      simp only at e e2
      rwa [e, e2] at this
    have hcell' : summaryCell lib cfg b truths errorbar i c p = .ok cell := by
      obtain ⟨hi, e⟩ := List.getElem?_eq_some_iff.1 hcell
      obtain ⟨hi2, e2⟩ := List.getElem?_eq_some_iff.1 hx
      have := (List.forall₂_iff_get.1 hrow).2 k hi2 hi
      simp only [List.get_eq_getElem] at this
      rwa [e, e2] at this
    refine ⟨c, cell, _, hci, hcell', rfl, ?_, ?_⟩
    · intro he
      rw [List.getD_eq_getElem?_getD]
      cases hl : lims[k + 1]? with
      | none => rfl
      | some l =>
        obtain ⟨q, -, hq⟩ := mapM_ok_mem_right hlims (List.mem_of_getElem? hl)
        rw [if_pos he] at hq
        cases hq
        rfl
    · intro x hxl
      rw [List.getD_eq_getElem?_getD] at hxl
      cases hl : lims[k + 1]? with
      | none => rw [hl] at hxl; cases hxl
      | some l =>
        rw [hl, Option.getD_some] at hxl
        obtain ⟨q, -, hq⟩ := mapM_ok_mem_right hlims (List.mem_of_getElem? hl)
        split at hq
        · cases hq; cases hxl
        · split at hq
          · cases hq
          · cases hq
            exact ⟨_, List.mem_singleton.1 hxl⟩
  obtain ⟨c, cell, l, h1, h2, h3, h4, h5⟩ := key h hc hx
  obtain ⟨c', cell', l', h1', h2', h3', h4', h5'⟩ := key h' hc' hx'
  rw [hs.chains, h1'] at h1
  cases h1
  have hbl : decide (p ∈ b.blind) = decide (p ∈ b'.blind) := decide_eq_decide.2 hs.blind
  have e : summaryCell lib cfg b truths errorbar i c p = summaryCell lib cfg b' truths errorbar i c p := by
    simp only [summaryCell, hs.chains, hs.extents, hs.logs, hbl]
  rw [e, h2'] at h2
  cases h2
  refine ⟨cell.1, l, l', h3, h3', fun he => ⟨h4 he, h4' he⟩, fun x hx => ?_⟩
  rcases List.mem_append.1 hx with hx | hx
  · exact h5 x hx
  · exact h5' x hx

/-- **C123** is violated by every `plot_summary` without error bars: the panels of a parameter have a vertical range if and only if
another parameter follows, namely the one of that parameter. -/
theorem C123_violated {lib : Lib} {cfg : PlotConfig} {truths : List (Truth ℝ)} {b b' : PlottingBase}
    {fig fig' : Fig} (h : plotSummaryBase lib cfg truths false b = .ok fig)
    (h' : plotSummaryBase lib cfg truths false b' = .ok fig') {i k k' : Nat} {calls calls' : List Call}
    (hc : ((i, k + 1), calls) ∈ fig.panels) (hc' : ((i, k' + 1), calls') ∈ fig'.panels)
    (hk : b.columns.length = k + 1) {q : String} (hq : b'.columns[k' + 1]? = some q) :
    (∀ r, ¬ RangeIs .y calls r) ∧ (∃ m, IsTop fig' q m ∧ RangeIs .y calls' (0, 11 / 10 * m)) := by
  refine ⟨fun r hr => ?_, ?_⟩
  · unfold RangeIs at hr
    rw [(C59_limits_partial h hc).2 (by omega)] at hr
    cases hr
  · obtain ⟨m, h1, h2⟩ := (C59_limits_partial h' hc').1 q hq
    exact ⟨m, h1, by rw [RangeIs, h2]; rfl⟩

/-! ### examples -/

/-- Given ranges for three parameters. -/
noncomputable def otherCfg : PlotConfig := { extents := [("a", 0, 1), ("b", 0, 10), ("c", 0, 1)] }

/-- A request for some of the three. -/
noncomputable def otherBase (cs : List (Chain ℝ)) (cols : List String) : PlottingBase where
  chains := cs
  columns := cols
  extents := [("a", some (0, 1)), ("b", some (0, 10)), ("c", some (0, 1))]
  blind := []
  logScales := []

theorem other_sanitise {cs : List (Chain ℝ)} (hs : ∀ c ∈ cs, c.skip = false) {cols : List String}
    (hc : ∀ p ∈ cols, p ∈ ["a", "b", "c"]) (wide : Bool) :
    sanitise otherCfg (cs.map fun c => (c.name, c)) .all (some cols) wide = .ok (otherBase cs cols) := by
  have h1 : plotChains (cs.map fun c => (c.name, c)) (.all : ChainReq ℝ) false = .ok cs := by
    simp only [plotChains, List.map_map, Function.comp_def, List.map_id', bind, Except.bind, pure, Except.pure, Bool.false_or]
    rw [List.filter_eq_self.2 fun c hc => by rw [hs c hc]; rfl]
  have h2 : ∀ (l : List String) (d : List (String × Option (ℝ × ℝ))), (∀ p ∈ l, p ∈ ["a", "b", "c"]) →
      l.foldlM (fun d p => if p ∈ otherCfg.extents.map Prod.fst then .ok d
        else do return dictSet d p (← parameterExtents p wide cs)) d = (.ok d : Res _) := by
    intro l
    induction l with
    | nil => intro d _; rfl
    | cons p l ih =>
      intro d h
      have hm : p ∈ otherCfg.extents.map Prod.fst := h p (by simp)
      rw [List.foldlM_cons, if_pos hm]
      exact ih d fun q hq => h q (by simp [hq])
  have h3 : customExtents cols cs otherCfg.extents wide = .ok [("a", some (0, 1)), ("b", some (0, 10)), ("c", some (0, 1))] :=
    h2 cols _ hc
  simp only [sanitise, h1, h3, sanitiseColumns, bind, Except.bind, pure, Except.pure]
  rfl

theorem other_lim (cs : List (Chain ℝ)) (cols : List String) (d : Dir) {p : String} (hp : p ∈ ["a", "b", "c"]) :
    ∃ c, setLim d ((otherBase cs cols).extents.lookup p) = .ok c := by
  simp only [List.mem_cons, List.not_mem_nil, or_false] at hp
  rcases hp with rfl | rfl | rfl <;> exact ⟨_, rfl⟩

/-- A histogram of `a` and a cloud of `a` and `b`, in a figure of two or three parameters. -/
theorem other_plot (lib : Lib) (truths : List (Truth ℝ)) {c1 c2 : Chain ℝ} (h1 : DemoChain c1 singleFrame "one" true barKw)
    (h2 : DemoChain c2 pairFrame "cloud" false cloudKw) {cols : List String} (hcols : cols = ["a", "b"] ∨ cols = ["a", "b", "c"]) :
    ∃ fig, plotBase lib otherCfg truths (otherBase [c1, c2] cols) = .ok fig := by
  have hp1 : c1.plottingColumns = ["a"] := (demo_columns h1 (.inl rfl)).trans (by decide)
  have hp2 : c2.plottingColumns = ["a", "b"] := (demo_columns h2 (.inr rfl)).trans (by decide)
  have hk1 : (c1.cfg .plotContour : Bool) = true := by rw [h1.cfg]; rfl
  have hk2 : (c2.cfg .plotContour : Bool) = false := by rw [h2.cfg]; rfl
  have hc1 : c1.samples.columns = ["a", "weight"] := by rw [h1.samples]; rfl
  have hs1 : ∀ p q, q ≠ "a" → surfaceChain lib otherCfg p q c1 = .ok ([], []) := by
    intro p q hq; simp [surfaceChain, hp1, hq]
  have hs2 : ∀ p, surfaceChain lib otherCfg p "c" c2 = .ok ([], []) := by
    intro p; simp [surfaceChain, hp2]
  have surf : ∀ i j, j < i → i < cols.length →
      ∃ r, plotSurface lib otherCfg [c1, c2] (cols.getD j "") (cols.getD i "") = .ok r := by
    intro i j hji hi
    have hcase : (cols.getD j "" = "a" ∧ cols.getD i "" = "b") ∨ cols.getD i "" = "c" := by
      rcases hcols with rfl | rfl
      · simp only [List.length_cons, List.length_nil] at hi
        obtain ⟨rfl, rfl⟩ : i = 1 ∧ j = 0 := by omega
        exact .inl ⟨rfl, rfl⟩
      · simp only [List.length_cons, List.length_nil] at hi
        obtain rfl | rfl : i = 1 ∨ i = 2 := by omega
        · obtain rfl : j = 0 := by omega
          exact .inl ⟨rfl, rfl⟩
        · exact .inr rfl
    rcases hcase with ⟨e1, e2⟩ | e
    · rw [e1, e2]
      simp [plotSurface, hs1, demo_cloud lib otherCfg h2, bind, Except.bind, pure, Except.pure]
    · rw [e]
      simp [plotSurface, hs1, hs2, bind, Except.bind, pure, Except.pure]
  have hist : ∀ p f s, p ∈ ["a", "b", "c"] → ∃ r, histChains lib otherCfg p f s [c1, c2] none = .ok r := by
    intro p f s hp
    simp only [List.mem_cons, List.not_mem_nil, or_false] at hp
    rcases hp with rfl | rfl | rfl
    · simp [histChains, hk1, hk2, hc1, demo_bars h1 lib otherCfg one_pos (col := "a") rfl rfl, bind, Except.bind, pure, Except.pure]
    · simp [histChains, hk1, hk2, hc1]
    · simp [histChains, hk1, hk2, hc1]
  have hmem : ∀ i, i < cols.length → cols.getD i "" ∈ ["a", "b", "c"] := by
    intro i hi
    rw [List.getD_eq_getElem?_getD, List.getElem?_eq_getElem hi, Option.getD_some]
    have := List.getElem_mem hi
    rcases hcols with rfl | rfl
    · exact List.mem_of_mem_take (i := 2) this
    · exact this
  have hpos : 0 < cols.length := by rcases hcols with rfl | rfl <;> simp
  have hgrid : ∀ ij ∈ gridPanels cols.length cols.length, ij.1 < cols.length ∧ ij.2 < cols.length := by
    intro ij hij
    simpa [gridPanels, Prod.ext_iff, and_comm] using hij
  obtain ⟨setup, e1⟩ := mapM_ok_of_forall' (l := gridPanels cols.length cols.length)
    (f := fun ij => trianglePanel otherCfg (otherBase [c1, c2] cols) cols.length ij.1 ij.2 (cols.getD ij.1 "") (cols.getD ij.2 ""))
    (fun ij hij => by
      obtain ⟨x1, g1⟩ := other_lim [c1, c2] cols .y (hmem _ (hgrid ij hij).1)
      obtain ⟨x2, g2⟩ := other_lim [c1, c2] cols .x (hmem _ (hgrid ij hij).2)
      unfold trianglePanel triangleYlim
      rw [g1, g2]
      split
      · exact ⟨_, rfl⟩
      · split <;> exact ⟨_, rfl⟩)
  obtain ⟨draws, e2⟩ := mapM_ok_of_forall' (l := gridPanels cols.length cols.length)
    (f := fun ij => drawPanel lib otherCfg (otherBase [c1, c2] cols) truths
      (otherCfg.summarise && decide (((otherBase [c1, c2] cols).chains.filter fun c => c.cfg .plotContour).length = 1))
      (decide (cols.length = 2) && otherCfg.plotHists && otherCfg.flip) cols.length ij.1 ij.2 (cols.getD ij.1 "") (cols.getD ij.2 ""))
    (fun ij hij => by
      unfold drawPanel
      split
      · exact ⟨_, rfl⟩
      · split
        · generalize ((otherCfg.summarise && decide (((otherBase [c1, c2] cols).chains.filter fun c => c.cfg .plotContour).length = 1))) = S
          generalize ((decide (cols.length = 2) && otherCfg.plotHists && otherCfg.flip) && decide (ij.1 = cols.length - 1)) = F
          obtain ⟨r, hr⟩ := hist (cols.getD ij.1 "") F (S && !decide (cols.getD ij.1 "" ∈ (otherBase [c1, c2] cols).blind))
            (hmem _ (hgrid ij hij).1)
          change histChains lib otherCfg _ _ _ (otherBase [c1, c2] cols).chains none = _ at hr
          rw [histPanel, hr]
          exact ⟨_, rfl⟩
        · rename_i hlt hne
          have : ij.1 ≠ ij.2 := by
            intro e
            exact hne (by simp [e, otherCfg])
          obtain ⟨r, hr⟩ := surf ij.1 ij.2 (by omega) (hgrid ij hij).1
          change plotSurface lib otherCfg (otherBase [c1, c2] cols).chains _ _ = _ at hr
          rw [hr]
          exact ⟨_, rfl⟩)
  have hpl : otherCfg.plotHists = true := rfl
  have hcl : (otherBase [c1, c2] cols).columns = cols := rfl
  rw [hpl] at e2
  simp only [plotBase, hpl, hcl, if_true, ensure, decide_eq_true hpos, e1, e2, bind, Except.bind, pure, Except.pure]
  exact ⟨_, rfl⟩

theorem demo_skip {c : Chain ℝ} {f : Frame ℝ} {name : String} {grid : Bool} {kw : List (Kwarg ℝ)} (h : DemoChain c f name grid kw)
    (hkw : kw = barKw ∨ kw = cloudKw) (he : f.empty = false) : c.skip = false := by
  have h1 : (c.cfg .plotContour : Bool) = true ∨ (c.cfg .plotCloud : Bool) = true := by
    rw [h.cfg]; rcases hkw with rfl | rfl
    · exact .inl rfl
    · exact .inr rfl
  unfold Chain.skip
  rcases h1 with h1 | h1 <;> simp [h1, h.samples, he]

/-- A cloud of `a` and `b`, and a histogram of `a`, with and without a third parameter. -/
example (lib : Lib) : ∃ (final : List (String × Chain ℝ)) (b b' : PlottingBase) (fig fig' : Fig) (s s' h h' : List Call),
    sanitise otherCfg final .all (some ["a", "b"]) true = .ok b ∧
    sanitise otherCfg final .all (some ["a", "b", "c"]) true = .ok b' ∧
    plotBase lib otherCfg [Truth.line [("a", 1 / 4)]] b = .ok fig ∧ plotBase lib otherCfg [Truth.line [("a", 1 / 4)]] b' = .ok fig' ∧
    ((1, 0), s) ∈ fig.panels ∧ ((1, 0), s') ∈ fig'.panels ∧ content s = content s' ∧
    .cloud "cloud" "a" "b" [0, 1] [0, 10] none ∈ content s ∧
    ((0, 0), h) ∈ fig.panels ∧ ((0, 0), h') ∈ fig'.panels ∧ content h = content h' := by
  obtain ⟨c1, h1⟩ := gridSingle_exists
  obtain ⟨c2, h2⟩ := cloudPair_exists
  have hskip : ∀ c ∈ [c1, c2], c.skip = false := by
    intro c hc
    simp only [List.mem_cons, List.not_mem_nil, or_false] at hc
    rcases hc with rfl | rfl
    · exact demo_skip h1 (.inl rfl) rfl
    · exact demo_skip h2 (.inr rfl) rfl
  have g1 := other_sanitise hskip (cols := ["a", "b"]) (by simp) true
  have g2 := other_sanitise hskip (cols := ["a", "b", "c"]) (by simp) true
  obtain ⟨fig, f1⟩ := other_plot lib [Truth.line [("a", 1 / 4)]] h1 h2 (.inl rfl)
  obtain ⟨fig', f2⟩ := other_plot lib [Truth.line [("a", 1 / 4)]] h1 h2 (.inr rfl)
  have pan : ∀ {cols fig}, plotBase lib otherCfg [Truth.line [("a", 1 / 4)]] (otherBase [c1, c2] cols) = .ok fig →
      2 ≤ cols.length → ∀ i j, i < 2 → j < 2 → ∃ calls, ((i, j), calls) ∈ fig.panels := by
    intro cols fig hf hl i j hi hj
    obtain ⟨-, hk, -⟩ := plot_panels hf
    have : (i, j) ∈ fig.panels.map Prod.fst := by
      rw [hk, show (otherBase [c1, c2] cols).columns.length - rowShift otherCfg = cols.length from rfl]
      simp [gridPanels]
      omega
    obtain ⟨⟨ij, calls⟩, hm, rfl⟩ := List.mem_map.1 this
    exact ⟨calls, hm⟩
  obtain ⟨s, m1⟩ := pan f1 (by simp) 1 0 (by simp) (by simp)
  obtain ⟨s', m2⟩ := pan f2 (by simp) 1 0 (by simp) (by simp)
  obtain ⟨h, m3⟩ := pan f1 (by simp) 0 0 (by simp) (by simp)
  obtain ⟨h', m4⟩ := pan f2 (by simp) 0 0 (by simp) (by simp)
  refine ⟨_, _, _, fig, fig', s, s', h, h', g1, g2, f1, f2, m1, m2, ?_, ?_, m3, m4, ?_⟩
  · exact C123_surface g1 g2 f1 f2 m1 m2 (px := "a") (py := "b") (by simp) (by decide) (by decide) rfl rfl rfl rfl
  · obtain ⟨-, -, hcase⟩ := plot_cases f1 m1
    rcases hcase with ⟨hij, -⟩ | ⟨-, -, px, py, s0, d, bars, hx, hy, -, hd, rfl⟩ | ⟨-, hij, -⟩
    · omega
    · cases hx
      cases hy
      have hp : c1.plottingColumns = ["a"] := (demo_columns h1 (.inl rfl)).trans (by decide)
      have hs1 : surfaceChain lib otherCfg "a" "b" c1 = .ok ([], []) := by simp [surfaceChain, hp]
      change plotSurface lib otherCfg [c1, c2] "a" "b" = _ at hd
      simp [plotSurface, hs1, demo_cloud lib otherCfg h2, bind, Except.bind, pure, Except.pure] at hd
      rw [← hd.1]
      simp [content, isTick]
    · omega
  · exact C123_histogram g1 g2 f1 f2 rfl rfl m3 m4 (p := "a") rfl rfl

theorem other_bars (lib : Lib) {c : Chain ℝ} (hc : DemoChain c pairFrame "grid" true barKw) (flip summary : Bool) :
    plotBars lib otherCfg "a" c flip summary = .ok ([.marginal "grid" "a" flip [0, 1] [1 / 2, 1 / 2]], 1 / 2) ∧
    plotBars lib otherCfg "b" c flip summary = .ok ([.marginal "grid" "b" flip [0, 10] [1 / 20, 1 / 20]], 1 / 20) := by
  constructor
  · rw [demo_bars hc lib otherCfg one_pos (col := "a") rfl rfl]
    norm_num
  · rw [demo_bars hc lib otherCfg (s := 10) (by norm_num) (col := "b") rfl rfl]
    norm_num

/-- The marginal of `a` alone, and beside the one of `b`. -/
example (lib : Lib) : ∃ (final : List (String × Chain ℝ)) (b b' : PlottingBase) (fig fig' : Fig) (s s' : List Call),
    sanitise otherCfg final .all (some ["a"]) true = .ok b ∧ sanitise otherCfg final .all (some ["b", "a"]) true = .ok b' ∧
    plotDistributionsBase lib otherCfg [] 4 b = .ok fig ∧ plotDistributionsBase lib otherCfg [] 1 b' = .ok fig' ∧
    ((0, 0), s) ∈ fig.panels ∧ ((1, 0), s') ∈ fig'.panels ∧ s = s' ∧ .marginal "grid" "a" false [0, 1] [1 / 2, 1 / 2] ∈ s := by
  obtain ⟨c, hc⟩ := gridPair_exists
  have hp : c.plottingColumns = ["a", "b"] := (demo_columns hc (.inl rfl)).trans (by decide)
  have hk : (c.cfg .plotContour : Bool) = true := by rw [hc.cfg]; rfl
  have hskip : ∀ d ∈ [c], d.skip = false := by
    intro d hd
    rw [List.mem_singleton.1 hd]
    exact demo_skip hc (.inl rfl) rfl
  have g1 := other_sanitise hskip (cols := ["a"]) (by simp) true
  have g2 := other_sanitise hskip (cols := ["b", "a"]) (by simp) true
  have ha : ∀ cols, ∃ r, distPanel lib otherCfg (otherBase [c] cols) [] "a" = .ok r ∧
      .marginal "grid" "a" false [0, 1] [1 / 2, 1 / 2] ∈ r := by
    intro cols
    simp [distPanel, otherBase, setLim, distChains, hk, hp, (other_bars lib hc false _).1, bind, Except.bind, pure, Except.pure,
      topStep, distYlim]
  have hb : ∀ cols, ∃ r, distPanel lib otherCfg (otherBase [c] cols) [] "b" = .ok r := by
    intro cols
    simp [distPanel, otherBase, setLim, distChains, hk, hp, (other_bars lib hc false _).2, bind, Except.bind, pure, Except.pure,
      topStep, distYlim, List.lookup]
  obtain ⟨ra, ea, hin⟩ := ha ["a"]
  obtain ⟨ra', ea', -⟩ := ha ["b", "a"]
  obtain ⟨rb', eb'⟩ := hb ["b", "a"]
  have f1 : plotDistributionsBase lib otherCfg [] 4 (otherBase [c] ["a"]) = .ok { panels := [((0, 0), ra)] } := by
    simp only [plotDistributionsBase]
    simp [show (otherBase [c] ["a"]).columns = ["a"] from rfl, show gridPanels 1 1 = [(0, 0)] from rfl, ea, ensure, bind,
      Except.bind, pure, Except.pure]
  have f2 : plotDistributionsBase lib otherCfg [] 1 (otherBase [c] ["b", "a"]) =
      .ok { panels := [((0, 0), rb'), ((1, 0), ra')] } := by
    simp only [plotDistributionsBase]
    simp [show (otherBase [c] ["b", "a"]).columns = ["b", "a"] from rfl, show gridPanels 2 1 = [(0, 0), (1, 0)] from rfl, ea', eb',
      ensure, bind, Except.bind, pure, Except.pure]
  have m1 : ((0, 0), ra) ∈ ({ panels := [((0, 0), ra)] } : Fig).panels := by simp
  have m2 : ((1, 0), ra') ∈ ({ panels := [((0, 0), rb'), ((1, 0), ra')] } : Fig).panels := by simp
  exact ⟨_, _, _, _, _, ra, ra', g1, g2, f1, f2, m1, m2,
    C123_distributions g1 g2 f1 f2 m1 m2 (p := "a") rfl rfl, hin⟩

/-- The walk of `a` alone, and beside the one of `b`, below the weights. -/
example : ∃ (final : List (String × Chain ℝ)) (b b' : PlottingBase) (fig fig' : Fig),
    sanitise otherCfg final .all (some ["a"]) true = .ok b ∧ sanitise otherCfg final .all (some ["b", "a"]) true = .ok b' ∧
    plotWalksBase otherCfg [] false false false b = .ok fig ∧ plotWalksBase otherCfg [] true false false b' = .ok fig' ∧
    fig.panels.length = 1 ∧ fig'.panels.length = 3 := by
  obtain ⟨c, hc⟩ := gridPair_exists
  have hskip : ∀ d ∈ [c], d.skip = false := by
    intro d hd
    rw [List.mem_singleton.1 hd]
    exact demo_skip hc (.inl rfl) rfl
  have g1 := other_sanitise hskip (cols := ["a"]) (by simp) true
  have g2 := other_sanitise hskip (cols := ["b", "a"]) (by simp) true
  have hp := demo_dataColumns hc
  have ha : c.samples.get "a" = .ok [0, 1] := by rw [hc.samples]; rfl
  have hb : c.samples.get "b" = .ok [0, 10] := by rw [hc.samples]; rfl
  have hw : c.weights = .ok [1, 1] := by rw [Chain.weights, hc.samples, hc.weight]; rfl
  have ht : ∀ x y : ℝ, thin [x, y] = [x, y] := by
    intro x y
    rw [thin, if_neg]
    unfold maxPoints
    simp
  have h1 : ∀ cols, ∃ r, walkPanel otherCfg (otherBase [c] cols) [] "a" = .ok r := by
    intro cols
    simp [walkPanel, otherBase, hp, ha, ht, plotWalk, walkLim, setLim, ensure, bind, Except.bind, pure, Except.pure]
  have h2 : ∀ cols, ∃ r, walkPanel otherCfg (otherBase [c] cols) [] "b" = .ok r := by
    intro cols
    simp [walkPanel, otherBase, hp, hb, ht, plotWalk, walkLim, setLim, ensure, bind, Except.bind, pure, Except.pure, List.lookup]
  have h3 : ∀ cols, ∃ r, weightPanel otherCfg (otherBase [c] cols) false = .ok r := by
    intro cols
    simp [weightPanel, otherBase, hw, ht, plotWalk, walkLim, ensure, bind, Except.bind, pure, Except.pure]
  obtain ⟨ra, ea⟩ := h1 ["a"]
  obtain ⟨ra', ea'⟩ := h1 ["b", "a"]
  obtain ⟨rb', eb'⟩ := h2 ["b", "a"]
  obtain ⟨rw', ew'⟩ := h3 ["b", "a"]
  refine ⟨_, _, _, { panels := [((0, 0), ra)] }, { panels := [((0, 0), rw'), ((1, 0), rb'), ((2, 0), ra')] }, g1, g2, ?_, ?_, rfl, rfl⟩
  · simp [plotWalksBase, show (otherBase [c] ["a"]).columns = ["a"] from rfl, show List.range 1 = [0] from rfl, ea,
      ensure, bind, Except.bind, pure, Except.pure]
  · simp [plotWalksBase, show (otherBase [c] ["b", "a"]).columns = ["b", "a"] from rfl, show List.range 3 = [0, 1, 2] from rfl,
      ea', eb', ew', ensure, bind, Except.bind, pure, Except.pure]

/-- The panel of `a` in summaries of `a` and of `a` and `b`: the second has a vertical range, though its marginal is the same, and it
is the one of the marginal of `b`, which is lower than the marginal of `a`. -/
theorem C123_violated_witness (lib : Lib) : ∃ (final : List (String × Chain ℝ)) (b b' : PlottingBase) (fig fig' : Fig) (s s' : List Call),
    sanitise otherCfg final .all (some ["a"]) true = .ok b ∧ sanitise otherCfg final .all (some ["a", "b"]) true = .ok b' ∧
    plotSummaryBase lib otherCfg [] false b = .ok fig ∧ plotSummaryBase lib otherCfg [] false b' = .ok fig' ∧
    ((0, 1), s) ∈ fig.panels ∧ ((0, 1), s') ∈ fig'.panels ∧ (∀ r, ¬ RangeIs .y s r) ∧ RangeIs .y s' (0, 11 / 200) ∧
    .marginal "grid" "a" false [0, 1] [1 / 2, 1 / 2] ∈ s ∧ .marginal "grid" "a" false [0, 1] [1 / 2, 1 / 2] ∈ s' := by
  obtain ⟨c, hc⟩ := gridPair_exists
  have hskip : ∀ d ∈ [c], d.skip = false := by
    intro d hd
    rw [List.mem_singleton.1 hd]
    exact demo_skip hc (.inl rfl) rfl
  have g1 := other_sanitise hskip (cols := ["a"]) (by simp) true
  have g2 := other_sanitise hskip (cols := ["a", "b"]) (by simp) true
  have hp := demo_dataColumns hc
  have h1 : ∀ cols, ∃ r, summaryCell lib otherCfg (otherBase [c] cols) [] false 0 c "a" = .ok (r, some (1 / 2)) ∧
      .marginal "grid" "a" false [0, 1] [1 / 2, 1 / 2] ∈ r := by
    intro cols
    simp [summaryCell, summaryContent, hp, (other_bars lib hc false false).1, bind, Except.bind, pure, Except.pure,
      setLim, otherBase]
  have h2 : ∀ cols, ∃ r, summaryCell lib otherCfg (otherBase [c] cols) [] false 0 c "b" = .ok (r, some (1 / 20)) := by
    intro cols
    simp [summaryCell, summaryContent, hp, (other_bars lib hc false false).2, bind, Except.bind, pure, Except.pure,
      setLim, otherBase, List.lookup]
  obtain ⟨ca, e1, i1⟩ := h1 ["a"]
  obtain ⟨ca', e1', i1'⟩ := h1 ["a", "b"]
  obtain ⟨cb', e2'⟩ := h2 ["a", "b"]
  have hl : summaryLimits false ["a", "b"] [("a", 1 / 2), ("b", 1 / 20)] =
      .ok [[.lim .y 0 (11 / 10 * (1 / 2))], [.lim .y 0 (11 / 10 * (1 / 20))]] := by
    simp [summaryLimits, List.lookup, bind, Except.bind, pure, Except.pure]
  have hl1 : summaryLimits false ["a"] [("a", 1 / 2)] = .ok [[.lim .y 0 (11 / 10 * (1 / 2))]] := by
    simp [summaryLimits, List.lookup, bind, Except.bind, pure, Except.pure]
  have hm : maxVals [("a", some (1 / 2)), ("b", some (1 / 20))] = [("a", 1 / 2), ("b", 1 / 20)] := by
    simp [maxVals, maxValsStep, dictSet, List.lookup]
  have hm1 : maxVals [("a", some (1 / 2))] = [("a", 1 / 2)] := by
    simp [maxVals, maxValsStep, dictSet, List.lookup]
  have f1 : plotSummaryBase lib otherCfg [] false (otherBase [c] ["a"]) =
      .ok { panels := [((0, 0), [.axisOff, .text "grid", .lim .y 0 (11 / 10 * (1 / 2))]), ((0, 1), ca)] } := by
    simp only [plotSummaryBase, show (otherBase [c] ["a"]).columns = ["a"] from rfl, show (otherBase [c] ["a"]).chains = [c] from rfl,
      List.zipIdx_cons, List.zipIdx_nil, List.mapM_cons, List.mapM_nil, e1, ensure, bind, Except.bind, pure, Except.pure,
      List.flatMap_cons, List.flatMap_nil, List.zipWith_cons_cons, List.zipWith_nil_right, List.append_nil, hm1, hl1,
      List.isEmpty_cons, Bool.not_false, Bool.and_self, if_true]
    simp [gridPanels, hc.name, show List.range 2 = [0, 1] from rfl]
  have f2 : plotSummaryBase lib otherCfg [] false (otherBase [c] ["a", "b"]) =
      .ok { panels := [((0, 0), [.axisOff, .text "grid", .lim .y 0 (11 / 10 * (1 / 2))]),
        ((0, 1), ca' ++ [.lim .y 0 (11 / 10 * (1 / 20))]), ((0, 2), cb')] } := by
    simp only [plotSummaryBase, show (otherBase [c] ["a", "b"]).columns = ["a", "b"] from rfl,
      show (otherBase [c] ["a", "b"]).chains = [c] from rfl,
      List.zipIdx_cons, List.zipIdx_nil, List.mapM_cons, List.mapM_nil, e1', e2', ensure, bind, Except.bind, pure, Except.pure,
      List.flatMap_cons, List.flatMap_nil, List.zipWith_cons_cons, List.zipWith_nil_right, List.append_nil, hm, hl,
      List.isEmpty_cons, Bool.not_false, Bool.and_self, if_true]
    simp [gridPanels, hc.name, show List.range 3 = [0, 1, 2] from rfl]
  refine ⟨_, _, _, _, _, ca, ca' ++ [.lim .y 0 (11 / 10 * (1 / 20))], g1, g2, f1, f2, by simp, by simp, ?_, ?_, i1,
    List.mem_append_left _ i1'⟩
  · exact (C123_violated f1 f2 (i := 0) (k := 0) (k' := 0) (calls := ca) (by simp) (List.mem_cons_of_mem _ List.mem_cons_self) rfl
      (q := "b") rfl).1
  · have e : (11 / 200 : ℝ) = 11 / 10 * (1 / 20) := by norm_num
    rw [e]
    simp [RangeIs, lims, List.filterMap_append, limOf]

end CC
