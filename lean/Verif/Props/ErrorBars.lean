import Verif.Lemmas.Vee
import Verif.Props.Inside
import Verif.Props.Shading
import Verif.Props.TruthLines

/-! C115: the error bars of `plot_summary` are the summaries reported. -/

namespace CC
open Spec

/-- The error bars drawn: chain, parameter, left end, point and right end. -/
def Spec.errorBars (calls : List Call) : List (String × String × ℝ × ℝ × ℝ) := calls.filterMap fun
  | .errorbar name p m e1 e2 => some (name, p, m - e1, m, m + e2)
  | _ => none

/-- The error bars due for a bound: one if it has limits. -/
def Spec.dueBar (name p : String) : Bound ℝ → List (String × String × ℝ × ℝ × ℝ)
  | ⟨some l, some m, some u⟩ => [(name, p, l, m, u)]
  | _ => []

/-- The error bars due for a summary: one for every mode. -/
def Spec.dueBars (name p : String) : Summary ℝ → List (String × String × ℝ × ℝ × ℝ)
  | .single b => dueBar name p b
  | .multi bs => bs.flatMap (dueBar name p)

theorem errorBars_append (l l' : List Call) : errorBars (l ++ l') = errorBars l ++ errorBars l' := by
  simp [errorBars]

theorem errorBars_none {calls : List Call} (h : ∀ c ∈ calls, ∀ name p m e1 e2, c ≠ .errorbar name p m e1 e2) : errorBars calls = [] := by
  rw [errorBars, List.filterMap_eq_nil_iff]
  intro c hc
  cases c <;> first | rfl | exact absurd rfl (h _ hc _ _ _ _ _)

/-- The limits of a summary enclose its centre, unless the statistic is `max_central`. -/
theorem summary_brackets {kde : KdeFn} (hk : KdeOk kde) {c : Chain ℝ} (hs : Summarised c) (hst : c.cfg .statistics ≠ some .maxCentral)
    (harea : 0 ≤ (c.cfg .summaryArea : ℝ)) {p : String} {l x u : ℝ} (h : parameterSummary kde c p = .ok ⟨some l, some x, some u⟩) : l ≤ x ∧ x ≤ u := by
  obtain ⟨w, hw, hpos⟩ := hs.weights
  unfold parameterSummary at h
  dsimp only at h
  split at h <;> rename_i hst'
  · cases h
  all_goals
    rw [bind_ok_iff] at h
    obtain ⟨m, hm, h⟩ := h
    have hv := C25_marginal_valid kde hk c w hw hpos _ _ _ _ hm
    obtain ⟨c0, hc0⟩ : ∃ c0, m.cs.head? = some c0 := by
      have h2 := hv.two
      have h3 := hv.cs_length
      cases e : m.cs with
      | nil => rw [e] at h3; simp at h3; omega
      | cons a t => exact ⟨a, rfl⟩
  · obtain ⟨g1, g2⟩ := C26_cumulative m hv _ c0 harea hs.area hc0
    obtain ⟨k1, k2⟩ := C27_mean m hv _ c0 harea hs.area hc0
    rcases le_or_gt c0 ((1 - (c.cfg .summaryArea : ℝ)) / 2) with hle | hlt
    · obtain ⟨l', m', u', e1, e2, e3, -⟩ := g1 hle
      obtain ⟨l'', m'', u'', f1, f2, -⟩ := k1 hle
      cases e1.symm.trans f1
      cases h.symm.trans f2
      constructor <;> linarith
    · rw [k2 hlt] at h
      cases h
  · obtain ⟨g1, g2⟩ := C26_cumulative m hv _ c0 harea hs.area hc0
    rcases le_or_gt c0 ((1 - (c.cfg .summaryArea : ℝ)) / 2) with hle | hlt
    · obtain ⟨l', m', u', e1, e2, e3, -⟩ := g1 hle
      cases h.symm.trans e1
      exact ⟨e2, e3⟩
    · rw [g2 hlt] at h
      cases h
  · exact absurd hst' hst
  · obtain ⟨k, x', y, -, -, -, hor⟩ := C29_max_summary m hv (c.cfg .summaryArea)
    rcases hor with h' | ⟨l', u', _, _, _, _, h', h1, h2, -⟩
    · cases h.symm.trans h'
    · cases h.symm.trans h'
      exact ⟨h1, h2⟩
  · obtain ⟨l', x', u', h1, hlx, hxu, -⟩ := C31_hdi_mass hv _ hs.area
    cases h.symm.trans h1
    exact ⟨hlx, hxu⟩

/-- The error bars of a cell. -/
theorem summaryCell_bars {lib : Lib} {cfg : PlotConfig} {b : PlottingBase} {truths : List (Truth ℝ)} {i : Nat} {c : Chain ℝ} {p : String}
    {cell : List Call × Option ℝ} (h : summaryCell lib cfg b truths true i c p = .ok cell) :
    (p ∉ c.dataColumns → errorBars cell.1 = []) ∧
    (p ∈ c.dataColumns → ∃ s, parameterSummary lib.kde c p = .ok s ∧
      ((∃ l m u, s = ⟨some l, some m, some u⟩ ∧ errorBars cell.1 = [(c.name, p, m - |m - l|, m, m + |u - m|)]) ∨
       ((s.lower = none ∨ s.upper = none) ∧ errorBars cell.1 = []))) := by
  simp only [summaryCell, bind_ok_iff, pure_ok_iff] at h
  obtain ⟨xlim, hx, r, hr, rfl⟩ := h
  have h1 : errorBars (if (decide (i < b.chains.length - 1) || decide (p ∈ b.blind)) = true then [Call.noTicks .x] else []) = [] := by
    split <;> rfl
  have h2 : errorBars [Call.noTicks .y, xlim] = [] := by
    unfold setLim at hx
    split at hx <;> cases hx
    rfl
  have h3 : errorBars (if p ∈ b.logScales then [Call.logScale .x] else []) = [] := by split <;> rfl
  have h4 : errorBars (if i = 0 then [Call.title (getLabel cfg.labels p)] else []) = [] := by split <;> rfl
  have h5 : errorBars (truths.flatMap (summaryTruth p)) = [] := errorBars_none fun c hc => by
    obtain ⟨t, -, hc⟩ := List.mem_flatMap.1 hc
    unfold summaryTruth at hc
    split at hc
    · cases hc
    · rw [List.mem_singleton.1 hc]
      intro _ _ _ _ _ h
      cases h
  simp only [errorBars_append, h1, h2, h3, h4, h5, List.nil_append]
  unfold summaryContent at hr
  by_cases hd : p ∈ c.dataColumns
  · refine ⟨fun h => absurd hd h, fun _ => ?_⟩
    rw [if_neg (fun h => h hd)] at hr
    simp only [if_true, bind_ok_iff] at hr
    obtain ⟨s, hs, hr⟩ := hr
    refine ⟨s, hs, ?_⟩
    obtain ⟨lo, m, hi⟩ := s
    cases lo with
    | none =>
      right
      refine ⟨.inl rfl, ?_⟩
      split at hr
      · cases hr; rfl
      · simp only [pure_ok_iff] at hr
        subst hr
        rfl
    | some l =>
      cases hi with
      | none =>
        right
        refine ⟨.inr rfl, ?_⟩
        split at hr
        · cases hr; rfl
        · cases m <;> (simp only [pure_ok_iff] at hr; subst hr; rfl)
      | some u =>
        cases m with
        | none =>
          simp [Bound.allNone] at hr
        | some m =>
          left
          refine ⟨l, m, u, rfl, ?_⟩
          simp only [Bound.allNone, Option.isNone_some, Bool.and_self, Bool.false_eq_true, if_false, pure_ok_iff] at hr
          subst hr
          rfl
  · rw [if_pos hd] at hr
    cases hr
    exact ⟨fun _ => rfl, fun h => absurd h hd⟩

/-- **C115, partial**: with one mode and a statistic other than `max_central`, the error bar of every cell of `plot_summary` is the summary
reported for its chain and parameter: the point is the centre and the arms reach from the lower to the upper limit; without limits
there is none. Missing: `max_central` (`C115_violated`) and several modes (`C115_violated_modes`). -/
theorem C115_bars_partial {lib : Lib} (hk : KdeOk lib.kde) {cfg : PlotConfig} {truths : List (Truth ℝ)} {b : PlottingBase} {fig : Fig}
    (hs : ∀ c ∈ b.chains, Summarised c ∧ 0 ≤ (c.cfg .summaryArea : ℝ) ∧ c.cfg .multimodal = false ∧ c.cfg .statistics ≠ some .maxCentral)
    (h : plotSummaryBase lib cfg truths true b = .ok fig) {i j : Nat} {calls : List Call} (hc : ((i, j), calls) ∈ fig.panels) :
    (j = 0 → errorBars calls = []) ∧
    ∀ k, j = k + 1 → ∃ c p, b.chains[i]? = some c ∧ b.columns[k]? = some p ∧ (p ∉ c.dataColumns → errorBars calls = []) ∧
      (p ∈ c.dataColumns → ∃ fit, Reported lib c p fit ∧ errorBars calls = dueBars c.name p fit) := by
  obtain ⟨c, l, hci, hl, hcase⟩ := summary_cell h hc
  have hbl : errorBars l = [] := by
    rcases hl with rfl | ⟨m, rfl⟩ <;> rfl
  rcases hcase with ⟨rfl, rfl⟩ | ⟨k, p, cell, rfl, hp, hcell, rfl⟩
  · exact ⟨fun _ => by rw [errorBars_append, hbl]; rfl, fun k hk => by omega⟩
  refine ⟨fun h => by omega, fun k' hk' => ?_⟩
  obtain rfl : k = k' := by omega
  obtain ⟨h1, h2⟩ := summaryCell_bars hcell
  refine ⟨c, p, hci, hp, fun hd => ?_, fun hd => ?_⟩
  · rw [errorBars_append, hbl, h1 hd]
    rfl
  · obtain ⟨g1, g2, g3, g4⟩ := hs c (List.mem_of_getElem? hci)
    obtain ⟨s, hps, hor⟩ := h2 hd
    have hcol : p ∈ c.samples.columns := (List.mem_filter.1 hd).1
    refine ⟨.single s, reported_iff.2 ⟨hcol, ?_⟩, ?_⟩
    · simp only [summaryEntry, hps, g3, bind, Except.bind]
      rfl
    · rw [errorBars_append, hbl, List.append_nil]
      rcases hor with ⟨l, m, u, rfl, he⟩ | ⟨hn, he⟩
      · obtain ⟨k1, k2⟩ := summary_brackets hk g1 g4 g2 hps
        rw [he, abs_of_nonneg (by linarith), abs_of_nonneg (by linarith)]
        simp [dueBars, dueBar]
      · rw [he]
        obtain ⟨lo, m, hi⟩ := s
        simp only at hn
        rcases hn with rfl | rfl
        · rfl
        · cases lo <;> cases m <;> rfl

/-- The figure of `plot_summary` with error bars for one chain and one parameter. -/
theorem one_error_bar {lib : Lib} (cfg : PlotConfig) {b : PlottingBase} {c : Chain ℝ} {p : String} {e : ℝ × ℝ} (hb : b.chains = [c])
    (hp : b.columns = [p]) (he : b.extents.lookup p = some (some e)) (hd : p ∈ c.dataColumns) {l m u : ℝ}
    (hs : parameterSummary lib.kde c p = .ok ⟨some l, some m, some u⟩) :
    ∃ fig calls, plotSummaryBase lib cfg [] true b = .ok fig ∧ ((0, 1), calls) ∈ fig.panels ∧
      errorBars calls = [(c.name, p, m - |m - l|, m, m + |u - m|)] := by
  obtain ⟨cell, hcell⟩ : ∃ cell, summaryCell lib cfg b [] true 0 c p = .ok cell := by
    · simp only [summaryCell, he, setLim, summaryContent, hd, not_true_eq_false, if_false, if_true, hs, Bound.allNone, Option.isNone_some,
        Bool.and_self, Bool.false_eq_true, bind, Except.bind, pure, Except.pure]
      exact ⟨_, rfl⟩
  obtain ⟨fig, hfig⟩ : ∃ fig, plotSummaryBase lib cfg [] true b = .ok fig := by
    simp only [plotSummaryBase, hb, hp, List.isEmpty_cons, Bool.not_false, Bool.and_self, ensure, if_true, List.zipIdx_cons, List.zipIdx_nil,
      List.mapM_cons, List.mapM_nil, hcell, summaryLimits, bind, Except.bind, pure, Except.pure]
    exact ⟨_, rfl⟩
  obtain ⟨calls, hc⟩ : ∃ calls, ((0, 1), calls) ∈ fig.panels := by
    simp only [plotSummaryBase, hb, hp, List.isEmpty_cons, Bool.not_false, Bool.and_self, ensure, if_true, List.zipIdx_cons, List.zipIdx_nil,
      List.mapM_cons, List.mapM_nil, hcell, summaryLimits, bind, Except.bind, pure, Except.pure, Except.ok.injEq] at hfig
    subst hfig
    exact ⟨cell.1 ++ [], List.mem_cons_of_mem _ (List.mem_singleton_self _)⟩
  refine ⟨fig, calls, hfig, hc, ?_⟩
  obtain ⟨c', l', hci, hl, hcase⟩ := summary_cell hfig hc
  have hbl : errorBars l' = [] := by
    rcases hl with rfl | ⟨m, rfl⟩ <;> rfl
  rcases hcase with ⟨h0, -⟩ | ⟨k, p', cell', hk, hp', hcell', rfl⟩
  · omega
  obtain rfl : k = 0 := by omega
  rw [hb] at hci
  rw [hp] at hp'
  cases hci
  cases hp'
  cases hcell.symm.trans hcell'
  obtain ⟨s, h1, hor⟩ := (summaryCell_bars hcell).2 hd
  cases hs.symm.trans h1
  rw [errorBars_append, hbl, List.append_nil]
  rcases hor with ⟨l1, m1, u1, h2, h3⟩ | ⟨h2, -⟩
  · cases h2
    exact h3
  · rcases h2 with h2 | h2 <;> cases h2

/-- The hypotheses of `C115_bars_partial` are met by a grid of two points with weights 1 and 2: its error bar is the HDI reported, which
is not empty. -/
example (lib : Lib) (hk : KdeOk lib.kde) : ∃ (c : Chain ℝ) (fig : Fig) (calls : List Call) (l x u : ℝ),
    (∀ c' ∈ (oneBase c).chains, Summarised c' ∧ 0 ≤ (c'.cfg .summaryArea : ℝ) ∧ c'.cfg .multimodal = false ∧ c'.cfg .statistics ≠ some .maxCentral) ∧
    plotSummaryBase lib {} [] true (oneBase c) = .ok fig ∧ ((0, 1), calls) ∈ fig.panels ∧
    Reported lib c "a" (.single ⟨some l, some x, some u⟩) ∧ errorBars calls = [("two", "a", l, x, u)] ∧ l < u := by
  obtain ⟨c, h1, h2⟩ := twoPoint_exists false (u := 1) (v := 2) one_pos two_pos
  have hsum : Summarised c := summarised_of_make (toRaw_WF.2 (twoFrame_wf 1 2)) h1 rfl
  obtain ⟨m, hm, hv, hx, hy⟩ := h2.marginal one_pos two_pos hk true
  obtain ⟨l, x, u, hh, hl0, hlx, hu1, hxu⟩ := two_hdi hv hx hy
  have ha := h2.area
  have hps : parameterSummary lib.kde c "a" = .ok ⟨some l, some x, some u⟩ := by
    simp only [parameterSummary, h2.hdi, hm, ha, bind, Except.bind, hh]
  have hd : "a" ∈ c.dataColumns := by
    rw [Chain.dataColumns, h2.samples, h2.weight, h2.posterior]
    have : (twoFrame 1 2).columns = ["a", "weight"] := rfl
    rw [this]
    decide
  obtain ⟨fig, calls, g1, g2, g3⟩ := one_error_bar {} (b := oneBase c) (p := "a") (e := (0, 1)) rfl rfl rfl hd hps
  refine ⟨c, fig, calls, l, x, u, ?_, g1, g2, ?_, ?_, by linarith⟩
  · intro c' hc'
    rw [List.mem_singleton.1 hc']
    refine ⟨hsum, by rw [ha]; norm_num, h2.modal, ?_⟩
    rw [h2.hdi]
    intro h
    cases h
  · refine reported_iff.2 ⟨(List.mem_filter.1 hd).1, ?_⟩
    simp only [summaryEntry, hps, h2.modal, bind, Except.bind]
    rfl
  · rw [g3, h2.name, abs_of_nonneg (by linarith), abs_of_nonneg (by linarith)]
    simp

/-- **C115** is violated by `max_central`: of an accepted chain of two samples the centre lies below the lower limit, and the error bar
extends on both sides of it by the distances to the limits: it begins below the centre, which is below the lower limit. -/
theorem C115_violated (lib : Lib) (hk : KdeOk lib.kde) : ∃ c, Chain.make (skewArgs .maxCentral) = .ok c ∧
    ∀ (cfg : PlotConfig) (b : PlottingBase) (e : ℝ × ℝ), b.chains = [c] → b.columns = ["x"] → b.extents.lookup "x" = some (some e) →
      ∃ fig calls l x u s, plotSummaryBase lib cfg [] true b = .ok fig ∧ ((0, 1), calls) ∈ fig.panels ∧
        Reported lib c "x" (.single ⟨some l, some x, some u⟩) ∧ errorBars calls = [("skew", "x", s, x, u)] ∧ s < x ∧ x < l := by
  obtain ⟨c, hc, l, x, u, hs, hlt⟩ := C28_violated lib.kde hk
  obtain ⟨c', m, hc', hst, har, hmm, hcs, hwt, hn, hm, hv, -⟩ := skew_chain lib.kde hk .maxCentral
  cases hc.symm.trans hc'
  refine ⟨c, hc, fun cfg b e hb hp he => ?_⟩
  have hd : "x" ∈ c.dataColumns := by
    obtain ⟨c', h1, h2, h3, h4, -⟩ := plain_chain_cfg (K := ℝ) true [⟨.statistics, some Stat.maxCentral⟩] rfl
      (by change (0 : ℝ) ≤ 6827 / 10000 ∧ (6827 / 10000 : ℝ) ≤ 1; constructor <;> norm_num)
      (by change (1 : ℝ) ≤ 10; norm_num) rfl rfl (by intro h; cases h) skewFrame ⟨by simp [skewFrame], by simp [skewFrame]⟩
      (by simp [skewFrame]) (w := [3, 1]) rfl (by simp) "skew" 1 le_rfl (one_dvd _)
    cases hc.symm.trans h1
    rw [Chain.dataColumns, h2, h3, h4]
    have : skewFrame.columns = ["x", "weight"] := rfl
    rw [this]
    decide
  have hlu : l ≤ u := by
    simp only [parameterSummary, hst, har, hm, bind, Except.bind] at hs
    obtain ⟨c0, hc0⟩ : ∃ c0, m.cs.head? = some c0 := by
      have h2 := hv.two
      have h3 := hv.cs_length
      cases e : m.cs with
      | nil => rw [e] at h3; simp at h3; omega
      | cons a t => exact ⟨a, rfl⟩
    obtain ⟨g1, g2⟩ := C28_max_central_partial m hv (6827 / 10000) c0 (by norm_num) (by norm_num) hc0
    rcases le_or_gt c0 ((1 - 6827 / 10000) / 2) with hle | hgt
    · obtain ⟨l', x', u', _, _, h1, h2, -⟩ := g1 hle
      cases hs.symm.trans h1
      exact h2
    · rw [g2 hgt] at hs
      cases hs
  obtain ⟨fig, calls, h1, h2, h3⟩ := one_error_bar cfg hb hp he hd hs
  refine ⟨fig, calls, l, x, u, x - |x - l|, h1, h2, ?_, ?_, ?_, hlt⟩
  · refine reported_iff.2 ⟨(List.mem_filter.1 hd).1, ?_⟩
    simp only [summaryEntry, hs, hmm, bind, Except.bind]
    rfl
  · rw [h3, hn, abs_of_nonneg (show 0 ≤ u - x by linarith)]
    simp
  · have : 0 < |x - l| := abs_pos.2 (by linarith)
    linarith

/-- **C115** is violated by chains with several modes: `get_summary` reports two modes for the grid of three points with weights
2, 1 and 2, but `plot_summary` draws one error bar, across the middle, which lies between the modes. -/
theorem C115_violated_modes : ∃ c : Chain ℝ,
    Chain.make { samples := veeFrame.toRaw, name := "vee", grid := true, config := modalKw true } = .ok c ∧
    ∀ (lib : Lib), KdeOk lib.kde → ∀ (cfg : PlotConfig) (b : PlottingBase) (e : ℝ × ℝ), b.chains = [c] → b.columns = ["a"] →
      b.extents.lookup "a" = some (some e) → ∃ fig calls bs l x u, plotSummaryBase lib cfg [] true b = .ok fig ∧ ((0, 1), calls) ∈ fig.panels ∧
        Reported lib c "a" (.multi bs) ∧ 2 ≤ bs.length ∧ (dueBars "vee" "a" (.multi bs)).length = bs.length ∧
        errorBars calls = [("vee", "a", l, x, u)] ∧ l < 1 ∧ 1 < u ∧
        ∀ m ∈ bs, ∃ lo x hi, m = ⟨some lo, some x, some hi⟩ ∧ (hi < 1 ∨ 1 < lo) := by
  obtain ⟨c, hc, h⟩ := vee_exists
  refine ⟨c, hc, fun lib hk cfg b e hb hp he => ?_⟩
  obtain ⟨ivs, bs, l, x, u, h1, h2, h3, ⟨m, hm, h4, h5⟩, h6, h7, h8, h9, h10, h11⟩ := h.modes hk
  obtain ⟨fig, calls, g1, g2, g3⟩ := one_error_bar cfg hb hp he (by rw [h.dataColumns]; simp) h7
  have hbound : ∀ m ∈ bs, ∃ lo x hi, m = ⟨some lo, some x, some hi⟩ ∧ (hi < 1 ∨ 1 < lo) := by
    simp only [multimodalBounds, bind_ok_iff] at h5
    obtain ⟨ab, -, h5⟩ := h5
    intro mb hmb
    obtain ⟨iv, hiv, hmo⟩ := forall₂_mem_right (mapM_ok_iff.1 h5) hmb
    have := h6 iv hiv
    have key : min iv.2 ab.2 < 1 ∨ 1 < max iv.1 ab.1 := by
      rcases this with h | h
      · exact .inl ((min_le_left _ _).trans_lt h)
      · exact .inr (h.trans_le (le_max_left _ _))
    unfold modeBound at hmo
    dsimp only at hmo
    split at hmo
    · cases hmo
      exact ⟨_, _, _, rfl, key⟩
    · simp only [bind_ok_iff, pure_ok_iff] at hmo
      obtain ⟨_, -, _, -, rfl⟩ := hmo
      exact ⟨_, _, _, rfl, key⟩
  refine ⟨fig, calls, bs, l, x, u, g1, g2, h1, h2, ?_, ?_, h10, h11, hbound⟩
  · simp only [dueBars, List.length_flatMap]
    rw [List.map_congr_left (g := fun _ => 1)]
    · simp
    · intro m hm
      obtain ⟨_, _, _, rfl, -⟩ := hbound m hm
      rfl
  · rw [g3, h.name, abs_of_nonneg (by linarith), abs_of_nonneg (by linarith)]
    simp

end CC
