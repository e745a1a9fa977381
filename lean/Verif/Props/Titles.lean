import Verif.Props.Axes
import Verif.Props.Blinded
import Verif.Props.Request

/-! # C85: titles of histograms -/

namespace CC
open Spec

/-- A text without the dollar signs at its ends. -/
def Spec.Bare (text bare : String) : Prop :=
  (∃ a b, text.toList = List.replicate a '$' ++ bare.toList ++ List.replicate b '$') ∧
    bare.toList.head? ≠ some '$' ∧ bare.toList.getLast? ≠ some '$'

/-- What `get_summary` reports for one chain and parameter. -/
def Spec.Reported (lib : Lib) (c : Chain ℝ) (p : String) (fit : Summary ℝ) : Prop :=
  ∀ heap registry, getSummary lib.kde heap registry (some [c]) (some [p]) = .ok [(c.name, [(p, fit)])]

/-- The title made of a text: none if it is empty. -/
def Spec.titled (t : String) : List String := if t = "" then [] else [t]

theorem dropDollars (l : List Char) : ∃ a, l = List.replicate a '$' ++ l.dropWhile (· == '$') ∧
    (l.dropWhile (· == '$')).head? ≠ some '$' := by
  induction l with
  | nil => exact ⟨0, rfl, by simp⟩
  | cons x xs ih =>
    obtain ⟨a, h1, h2⟩ := ih
    by_cases hx : x = '$'
    · subst hx
      rw [List.dropWhile_cons_of_pos (by simp)]
      exact ⟨a + 1, by rw [List.replicate_succ, List.cons_append, ← h1], h2⟩
    · rw [List.dropWhile_cons_of_neg (by simpa using hx)]
      exact ⟨0, rfl, by simpa using hx⟩

theorem stripDollars_bare (s : String) : Bare s (stripDollars s) := by
  obtain ⟨a, h1, h2⟩ := dropDollars s.toList
  set m := s.toList.dropWhile (· == '$') with hm
  obtain ⟨b, h3, h4⟩ := dropDollars m.reverse
  set r := m.reverse.dropWhile (· == '$') with hr
  have e : (stripDollars s).toList = r.reverse := by
    rw [stripDollars, String.toList_ofList]
  have h5 : m = r.reverse ++ List.replicate b '$' := by
    rw [← List.reverse_reverse m, h3, List.reverse_append, List.reverse_replicate]
  refine ⟨⟨a, b, ?_⟩, ?_, ?_⟩
  · rw [e, List.append_assoc, ← h5, ← h1]
  · rw [e]
    intro h
    apply h2
    rw [h5, List.head?_append, h]
    rfl
  · rw [e, List.getLast?_reverse]
    exact h4

theorem reported_iff {lib : Lib} {c : Chain ℝ} {p : String} {fit : Summary ℝ} :
    Reported lib c p fit ↔ p ∈ c.samples.columns ∧ summaryEntry lib.kde c p = .ok fit := by
  have key : ∀ heap registry, getSummary lib.kde heap registry (some [c]) (some [p]) =
      if p ∈ c.samples.columns then (summaryEntry lib.kde c p).map fun s => [(c.name, [(p, s)])] else .ok [(c.name, [])] := by
    intro heap registry
    by_cases hp : p ∈ c.samples.columns
    · rw [if_pos hp]
      simp only [getSummary, summaryLoop, chainSummary, sanitiseColumns, hp, not_true_eq_false, if_false, bind, Except.bind, pure,
        Except.pure]
      cases summaryEntry lib.kde c p with
      | error e => rfl
      | ok s => rfl
    · rw [if_neg hp]
      simp only [getSummary, summaryLoop, chainSummary, sanitiseColumns, hp, not_false_eq_true, if_true, bind, Except.bind, pure,
        Except.pure]
      rfl
  unfold Reported
  constructor
  · intro h
    have := h [] {}
    rw [key] at this
    by_cases hp : p ∈ c.samples.columns
    · rw [if_pos hp] at this
      refine ⟨hp, ?_⟩
      revert this
      cases summaryEntry lib.kde c p with
      | error e => intro h; cases h
      | ok s => intro h; cases h; rfl
    · rw [if_neg hp] at this
      cases this
  · rintro ⟨h1, h2⟩ heap registry
    rw [key, if_pos h1, h2]
    rfl

/-- The calls of a histogram are those of the chains with contours, in order. -/
theorem histChains_bars {lib : Lib} {cfg : PlotConfig} {p : String} {flip summary : Bool} {chains : List (Chain ℝ)}
    {m m' : Option ℝ} {calls : List Call} (h : histChains lib cfg p flip summary chains m = .ok (calls, m')) :
    ∃ bars : List (List Call), calls = bars.flatten ∧
      List.Forall₂ (fun c b => ∃ v, plotBars lib cfg p c flip summary = .ok (b, v))
        (chains.filter fun c => c.cfg .plotContour && decide (p ∈ c.samples.columns)) bars := by
  induction chains generalizing m calls with
  | nil => cases h; exact ⟨[], rfl, .nil⟩
  | cons c cs ih =>
    rw [histChains] at h
    by_cases hc : (!(c.cfg .plotContour) || decide (p ∉ c.samples.columns)) = true
    · rw [if_pos hc] at h
      obtain ⟨bars, h1, h2⟩ := ih h
      have hc' : (c.cfg .plotContour && decide (p ∈ c.samples.columns)) = false := by
        revert hc
        cases (c.cfg .plotContour : Bool) <;> simp
      exact ⟨bars, h1, by rw [List.filter_cons, hc']; exact h2⟩
    · rw [if_neg hc] at h
      rw [bind_ok_iff] at h
      obtain ⟨⟨c1, v⟩, hb, h⟩ := h
      rw [bind_ok_iff] at h
      obtain ⟨⟨c2, m2⟩, hr, h⟩ := h
      rw [pure_ok_iff] at h
      cases h
      obtain ⟨bars, h1, h2⟩ := ih hr
      have hc' : (c.cfg .plotContour && decide (p ∈ c.samples.columns)) = true := by simpa using hc
      exact ⟨c1 :: bars, by rw [h1]; rfl, by rw [List.filter_cons, hc', if_pos rfl]; exact .cons ⟨v, hb⟩ h2⟩

/-- The same for `plot_distributions`. -/
theorem distChains_bars {lib : Lib} {cfg : PlotConfig} {p : String} {summary : Bool} {chains : List (Chain ℝ)}
    {m m' : Option ℝ} {calls : List Call} (h : distChains lib cfg p summary chains m = .ok (calls, m')) :
    ∃ bars : List (List Call), calls = bars.flatten ∧
      List.Forall₂ (fun c b => ∃ v, plotBars lib cfg p c false summary = .ok (b, v))
        (chains.filter fun c => c.cfg .plotContour && decide (p ∈ c.plottingColumns)) bars := by
  induction chains generalizing m calls with
  | nil => cases h; exact ⟨[], rfl, .nil⟩
  | cons c cs ih =>
    rw [distChains] at h
    by_cases hc : (!(c.cfg .plotContour) || decide (p ∉ c.plottingColumns)) = true
    · rw [if_pos hc] at h
      obtain ⟨bars, h1, h2⟩ := ih h
      have hc' : (c.cfg .plotContour && decide (p ∈ c.plottingColumns)) = false := by
        revert hc
        cases (c.cfg .plotContour : Bool) <;> simp
      exact ⟨bars, h1, by rw [List.filter_cons, hc']; exact h2⟩
    · rw [if_neg hc] at h
      rw [bind_ok_iff] at h
      obtain ⟨⟨c1, v⟩, hb, h⟩ := h
      rw [bind_ok_iff] at h
      obtain ⟨⟨c2, m2⟩, hr, h⟩ := h
      rw [pure_ok_iff] at h
      cases h
      obtain ⟨bars, h1, h2⟩ := ih hr
      have hc' : (c.cfg .plotContour && decide (p ∈ c.plottingColumns)) = true := by simpa using hc
      exact ⟨c1 :: bars, by rw [h1]; rfl, by rw [List.filter_cons, hc', if_pos rfl]; exact .cons ⟨v, hb⟩ h2⟩

theorem shades_no_title (c p : String) (flip : Bool) (ivs : List (ℝ × ℝ)) :
    titles (ivs.map fun iv => Call.shade c p flip iv.1 iv.2) = [] := by
  induction ivs with
  | nil => rfl
  | cons _ _ ih => exact ih

/-- The title of the histogram of one chain. -/
theorem bars_title {lib : Lib} {cfg : PlotConfig} {p : String} {c : Chain ℝ} {flip : Bool} {calls : List Call} {v : ℝ}
    (h : plotBars lib cfg p c flip true = .ok (calls, v)) :
    (c.cfg .barShade = false → titles calls = []) ∧
    (c.cfg .barShade = true → ∃ b, parameterSummary lib.kde c p = .ok b ∧
      ((b.lower = none ∨ b.upper = none) → titles calls = []) ∧
      (b.lower ≠ none → b.upper ≠ none → ∃ fit t,
        parameterText (some fit) true (some (stripDollars (getLabel cfg.labels p))) = .ok t ∧ titles calls = titled t ∧
        (c.cfg .multimodal = false → fit = .single b) ∧
        (c.cfg .multimodal = true → ∃ m ivs bs, smoothedHistogram lib.kde c p true none = .ok m ∧
          hdiIntervals m (c.cfg .summaryArea : ℝ) = .ok ivs ∧ multimodalBounds m ivs = .ok bs ∧ fit = .multi bs))) := by
  simp only [plotBars, bind_ok_iff, pure_ok_iff] at h
  obtain ⟨⟨xs, ys⟩, -, ht, -, top, -, sh, hsh, h⟩ := h
  cases h
  have e : ∀ x, titles (x :: sh) = titles [x] ++ titles sh := fun x => titles_append [x] sh
  rw [e]
  change (_ → titles sh = []) ∧ (_ → ∃ b, _ ∧ (_ → titles sh = []) ∧ (_ → _ → ∃ fit t, _ ∧ titles sh = _ ∧ _))
  unfold barShadeIf at hsh
  refine ⟨fun hb => ?_, fun hb => ?_⟩
  · rw [hb] at hsh
    cases hsh
    rfl
  rw [hb, if_pos rfl] at hsh
  unfold barShade at hsh
  rw [bind_ok_iff] at hsh
  obtain ⟨b, hpb, hsh⟩ := hsh
  refine ⟨b, hpb, ?_⟩
  cases hl : b.lower with
  | none =>
    rw [hl] at hsh
    cases hsh
    exact ⟨fun _ => rfl, fun h => absurd rfl h⟩
  | some lo =>
    cases hu : b.upper with
    | none =>
      rw [hl, hu] at hsh
      cases hsh
      exact ⟨fun _ => rfl, fun _ h => absurd rfl h⟩
    | some hi =>
      refine ⟨fun h => by simp at h, fun _ _ => ?_⟩
      rw [hl, hu] at hsh
      simp only [bind_ok_iff, pure_ok_iff] at hsh
      obtain ⟨⟨ivs, fit⟩, hsb, _, -, _, -, _, -, t, ht, hsh⟩ := hsh
      cases hsh
      refine ⟨fit, t, ht, ?_, ?_, ?_⟩
      · rw [titles_append, shades_no_title]
        unfold titled
        split <;> rfl
      · intro hmm
        unfold shadeBounds at hsb
        rw [hmm] at hsb
        simp only [Bool.false_eq_true, if_false, bind_ok_iff, pure_ok_iff] at hsb
        obtain ⟨_, -, _, -, hsb⟩ := hsb
        cases hsb
        rfl
      · intro hmm
        unfold shadeBounds at hsb
        rw [hmm] at hsb
        simp only [if_true, bind_ok_iff, pure_ok_iff] at hsb
        obtain ⟨m, hm, ivs', hiv, bs, hbs, hsb⟩ := hsb
        cases hsb
        exact ⟨m, ivs', bs, hm, hiv, hbs, rfl⟩

/-- Whether a bound has both ends. -/
def Spec.Closed (b : Bound ℝ) : Prop := b.lower ≠ none ∧ b.upper ≠ none

/-- What is said of the titles of one chain in `C85_plot_partial` and `C85_distributions_partial`: with shading, the title is the
text of what `get_summary` reports, if that is a bound with both ends or several bounds (of the statistic that multimodal
chains have); there is no title for bounds with an end missing, and none without shading. -/
def Spec.TitleOf (lib : Lib) (cfg : PlotConfig) (c : Chain ℝ) (p : String) (ts : List String) : Prop :=
  (c.cfg .barShade = false → ts = []) ∧
  (c.cfg .barShade = true → ∀ fit, Reported lib c p fit →
    (c.cfg .multimodal = false → ∃ b, fit = .single b ∧ (¬ Closed b → ts = []) ∧
      (Closed b → ∃ label t, Bare (nameOf cfg.labels p) label ∧ parameterText (some fit) true (some label) = .ok t ∧
        ts = titled t)) ∧
    (c.cfg .multimodal = true → c.cfg .statistics = some .hdi → ∀ bs, fit = .multi bs →
      ∃ label t, Bare (nameOf cfg.labels p) label ∧ parameterText (some fit) true (some label) = .ok t ∧ ts = titled t))

theorem hdi_closed {m : Marginal ℝ} {a : ℝ} {b : Bound ℝ} (h : summaryHdi m a = .ok b) : Closed b := by
  simp only [summaryHdi, bind_ok_iff, pure_ok_iff] at h
  obtain ⟨_, -, rfl⟩ := h
  exact ⟨by simp, by simp⟩

theorem bars_titleOf {lib : Lib} {cfg : PlotConfig} {p : String} {c : Chain ℝ} {flip : Bool} {calls : List Call} {v : ℝ}
    (h : plotBars lib cfg p c flip true = .ok (calls, v)) : TitleOf lib cfg c p (titles calls) := by
  obtain ⟨h1, h2⟩ := bars_title h
  refine ⟨h1, fun hb fit hfit => ?_⟩
  obtain ⟨b, hpb, h3, h4⟩ := h2 hb
  obtain ⟨-, hfit⟩ := reported_iff.1 hfit
  unfold summaryEntry at hfit
  rw [hpb] at hfit
  refine ⟨fun hmm => ?_, fun hmm hstat bs e => ?_⟩
  · rw [hmm] at hfit
    cases hfit
    refine ⟨b, rfl, fun hc => h3 ?_, fun hc => ?_⟩
    · by_contra hne
      push Not at hne
      exact hc hne
    · obtain ⟨fit, t, h5, h6, h7, -⟩ := h4 hc.1 hc.2
      rw [h7 hmm] at h5
      exact ⟨_, t, by rw [← getLabel_nameOf]; exact stripDollars_bare _, h5, h6⟩
  · have hcl : Closed b := by
      simp only [parameterSummary, hstat, bind_ok_iff] at hpb
      obtain ⟨m, -, hpb⟩ := hpb
      exact hdi_closed hpb
    obtain ⟨fit', t, h5, h6, -, h7⟩ := h4 hcl.1 hcl.2
    obtain ⟨m, ivs, bs', hm, hiv, hbs, rfl⟩ := h7 hmm
    rw [hmm] at hfit
    simp only [if_true, bind, Except.bind, hm, hiv] at hfit
    split at hfit
    · rw [hbs] at hfit
      cases hfit
      exact ⟨_, t, by rw [← getLabel_nameOf]; exact stripDollars_bare _, h5, h6⟩
    · cases hfit
      cases e

/-- **C85, partial**, for `plot`: the title over a histogram is the text of what `get_summary` reports for the only chain with
contours, under the name of the parameter; there is none if not asked for, for blinded parameters, for more or fewer
such chains, and if that chain lacks the parameter. Missing: multimodal chains with a single band (`C85_violated`). -/
theorem C85_plot_partial {lib : Lib} {cfg : PlotConfig} {truths : List (Truth ℝ)} {b : PlottingBase} {fig : Fig}
    (h : plotBase lib cfg truths b = .ok fig) (hh : cfg.plotHists = true) {i : Nat} {p : String} {calls : List Call}
    (hc : ((i, i), calls) ∈ fig.panels) (hp : b.columns[i]? = some p) :
    (titles calls ≠ [] → cfg.summarise = true ∧ p ∉ b.blind ∧
      ∃ c, b.chains.filter (fun c => c.cfg .plotContour) = [c] ∧ p ∈ c.samples.columns) ∧
    (cfg.summarise = true → p ∉ b.blind → ∀ c, b.chains.filter (fun c => c.cfg .plotContour) = [c] →
      p ∈ c.samples.columns → TitleOf lib cfg c p (titles calls)) := by
  obtain ⟨-, -, hcase⟩ := plot_cases h hc
  rcases hcase with ⟨hij, -⟩ | ⟨hij, -⟩ | ⟨-, -, p', s, r, hp', hs, hr, rfl⟩
  · omega
  · rw [if_pos hh] at hij
    omega
  cases hp'.symm.trans hp
  obtain ⟨-, -, t3⟩ := trianglePanel_ticks hs le_rfl
  obtain ⟨-, -, -, g4⟩ := histChains_items (calls := r.1) (m' := r.2) hr
  have ht : ∀ f, titles (histTruths lib truths f p) = [] := by
    intro f
    unfold histTruths
    cases f
    · exact (plotTruths_keeps ..).2
    · exact (plotTruths_keeps ..).2
  have et : ∀ f m, titles (s ++ (histTruths lib truths f p ++ r.1 ++ topLim f m)) = titles r.1 := by
    intro f m
    rw [titles_append, titles_append, titles_append, t3, ht, (topLim_setup _ _).2, List.nil_append, List.nil_append,
      List.append_nil]
  rw [et]
  obtain ⟨bars, hb1, hb2⟩ := histChains_bars (calls := r.1) (m' := r.2) hr
  have ef : (b.chains.filter fun c => c.cfg .plotContour && decide (p ∈ c.samples.columns)) =
      (b.chains.filter fun c => c.cfg .plotContour).filter fun c => decide (p ∈ c.samples.columns) := by
    rw [List.filter_filter]
    exact List.filter_congr fun c _ => Bool.and_comm _ _
  refine ⟨fun hne => ?_, fun hsum hbl c hcs hpc => ?_⟩
  · by_cases hall : (cfg.summarise && decide ((b.chains.filter fun c => c.cfg .plotContour).length = 1) &&
        !decide (p ∈ b.blind)) = true
    · simp only [Bool.and_eq_true, decide_eq_true_eq, Bool.not_eq_true', decide_eq_false_iff_not] at hall
      obtain ⟨⟨h1, h2⟩, h3⟩ := hall
      obtain ⟨c, hcs⟩ := List.length_eq_one_iff.1 h2
      refine ⟨h1, h3, c, hcs, ?_⟩
      by_contra hpc
      rw [ef, hcs, List.filter_cons_of_neg (by simpa using hpc)] at hb2
      cases hb2
      rw [hb1] at hne
      exact hne rfl
    · exact absurd (g4 (by simpa using hall)) hne
  · rw [ef, hcs, List.filter_cons_of_pos (by simpa using hpc)] at hb2
    rcases hb2 with _ | ⟨⟨v, hv⟩, ⟨⟩⟩
    rw [hb1]
    simp only [hsum, hbl, List.length_singleton, decide_true, decide_false, Bool.not_false, Bool.and_self] at hv
    simpa using bars_titleOf hv

/-- **C85, partial**, for `plot_distributions`: the same for the only chain. -/
theorem C85_distributions_partial {lib : Lib} {cfg : PlotConfig} {truths : List (Truth ℝ)} {colWrap : Nat} {b : PlottingBase}
    {fig : Fig} (h : plotDistributionsBase lib cfg truths colWrap b = .ok fig) {i j : Nat} {calls : List Call} {p : String}
    (hc : ((i, j), calls) ∈ fig.panels) (hp : b.columns[i * min b.columns.length colWrap + j]? = some p) :
    (titles calls ≠ [] → cfg.summarise = true ∧ p ∉ b.blind ∧
      ∃ c, b.chains = [c] ∧ c.cfg .plotContour = true ∧ p ∈ c.plottingColumns) ∧
    (cfg.summarise = true → p ∉ b.blind → ∀ c, b.chains = [c] → c.cfg .plotContour = true →
      p ∈ c.plottingColumns → TitleOf lib cfg c p (titles calls)) := by
  obtain ⟨-, -, hcells, -⟩ := distributions_panels h
  obtain ⟨-, ⟨hle, -⟩ | ⟨hlt, hd⟩⟩ := hcells _ _ hc
  · rw [List.getElem?_eq_none hle] at hp
    cases hp
  have hg : b.columns.getD (i * min b.columns.length colWrap + j) "" = p := by
    rw [List.getD_eq_getElem?_getD, hp]; rfl
  rw [hg] at hd
  simp only [distPanel, bind_ok_iff, pure_ok_iff] at hd
  obtain ⟨xlim, hx, r, hr, ylim, hy, rfl⟩ := hd
  have hxl : titles [xlim] = [] := by
    unfold setLim at hx
    split at hx <;> cases hx
    rfl
  have hyl : titles [ylim, Call.axisLabel .x p] = [] := by
    unfold distYlim at hy
    split at hy <;> cases hy
    rfl
  have h0 : titles [Call.noTicks .y] = [] := rfl
  have hl : titles (if p ∈ b.logScales then [Call.logScale .x] else []) = [] := by split <;> rfl
  have hk : titles [if p ∈ b.blind then Call.noTicks .x else if p ∈ b.logScales then .logLocator .x else .maxNLocator .x] = [] := by
    split
    · rfl
    · split <;> rfl
  simp only [titles_append, hxl, hyl, h0, hl, hk, (plotTruths_keeps ..).2, List.nil_append, List.append_nil]
  obtain ⟨bars, hb1, hb2⟩ := distChains_bars (calls := r.1) (m' := r.2) hr
  refine ⟨fun hne => ?_, fun hsum hbl c hcs hpl hpc => ?_⟩
  · by_cases hall : (cfg.summarise && decide (b.chains.length = 1) && !decide (p ∈ b.blind)) = true
    · have hall' := hall
      simp only [Bool.and_eq_true, decide_eq_true_eq, Bool.not_eq_true', decide_eq_false_iff_not] at hall'
      obtain ⟨⟨h1, h2⟩, h3⟩ := hall'
      obtain ⟨c, hcs⟩ := List.length_eq_one_iff.1 h2
      refine ⟨h1, h3, c, hcs, ?_⟩
      by_contra hpc
      have hf : (c.cfg .plotContour && decide (p ∈ c.plottingColumns)) = false := by
        revert hpc
        cases (c.cfg .plotContour : Bool) <;> simp
      rw [hcs, List.filter_cons, hf] at hb2
      cases hb2
      rw [hb1] at hne
      exact hne rfl
    · refine absurd ?_ hne
      have hs : (cfg.summarise && decide (b.chains.length = 1) && !decide (p ∈ b.blind)) = false := by simpa using hall
      rw [hs] at hb2
      rw [hb1]
      clear hb1 hne hr
      generalize (b.chains.filter fun c => c.cfg .plotContour && decide (p ∈ c.plottingColumns)) = l at hb2
      induction hb2 with
      | nil => rfl
      | cons hv _ ih =>
        obtain ⟨v, hv⟩ := hv
        rw [List.flatten_cons, titles_append, ih, (plotBars_items hv).2.2.2 rfl]
        rfl
  · have hf : (c.cfg .plotContour && decide (p ∈ c.plottingColumns)) = true := by simp [hpl, hpc]
    rw [hcs, List.filter_cons, hf] at hb2
    rcases hb2 with _ | ⟨⟨v, hv⟩, ⟨⟩⟩
    rw [hb1]
    simp only [hsum, hbl, List.length_singleton, decide_true, decide_false, Bool.not_false, Bool.and_self] at hv
    simpa using bars_titleOf hv

end CC
