import Verif.Props.Modes
import Verif.Props.PlotDist

/-! # C101: the shaded part of a histogram is the interval of the summary -/

namespace CC
open Spec

/-- Curves and shaded parts. -/
def Spec.isBar : Call → Bool
  | .marginal .. | .shade .. => true
  | _ => false

/-- The curves and shaded parts on a panel, in the order in which they are drawn. -/
def Spec.barCalls (calls : List Call) : List Call := calls.filter isBar

/-- What an accepted chain without `shift_params` guarantees (C07; chain.py 52, 291-295). -/
structure Spec.Summarised (c : Chain ℝ) : Prop where
  weights : ∃ w, c.weights = .ok w ∧ ∀ v ∈ w, 0 < v
  area : (c.cfg .summaryArea : ℝ) ≤ 1
  modes : c.cfg .multimodal = true → c.cfg .statistics = some .hdi

/-- The least and the greatest of some numbers. -/
def Spec.Ends (xs : List ℝ) (a z : ℝ) : Prop := (a ∈ xs ∧ ∀ x ∈ xs, a ≤ x) ∧ z ∈ xs ∧ ∀ x ∈ xs, x ≤ z

/-- The intervals shaded under a curve with abscissae `xs`: none without `bar_shade`; otherwise the interval that `get_summary`
reports, as far as the curve goes, or each of the intervals it reports. Nothing is shaded for a bound with an end missing. -/
def Spec.ShadeOf (lib : Lib) (c : Chain ℝ) (p : String) (xs : List ℝ) (ivs : List (ℝ × ℝ)) : Prop :=
  (c.cfg .barShade = false → ivs = []) ∧
  (c.cfg .barShade = true → ∃ fit, Reported lib c p fit ∧
    (∀ b, fit = .single b → (¬ Closed b → ivs = []) ∧
      ∀ lo hi, b.lower = some lo → b.upper = some hi → ∃ a z, Ends xs a z ∧ ivs = [(max lo a, min hi z)]) ∧
    ∀ bs, fit = .multi bs → List.Forall₂ (fun (b : Bound ℝ) iv => b.lower = some iv.1 ∧ b.upper = some iv.2) bs ivs ∧
      ∃ a z, Ends xs a z ∧ ∀ iv ∈ ivs, a ≤ iv.1 ∧ iv.2 ≤ z)

/-- What is drawn of one chain: its curve, and the shaded parts. -/
def Spec.BarsOf (lib : Lib) (p : String) (flip : Bool) (c : Chain ℝ) (part : List Call) : Prop :=
  ∃ xs ys ivs, part = .marginal c.name p flip xs ys :: ivs.map (fun iv => .shade c.name p flip iv.1 iv.2) ∧ ShadeOf lib c p xs ivs

theorem barCalls_append (a b : List Call) : barCalls (a ++ b) = barCalls a ++ barCalls b := List.filter_append ..

theorem barCalls_none {l : List Call} (h : ∀ c ∈ l, isBar c = false) : barCalls l = [] :=
  List.filter_eq_nil_iff.2 fun c hc => by rw [h c hc]; exact Bool.false_ne_true

/-- The ends of an array. -/
theorem ends_of {xs : List ℝ} {a z : ℝ} (ha : arrMin xs = .ok a) (hz : arrMax xs = .ok z) : Ends xs a z :=
  ⟨arrMin_ok_iff.1 ha, arrMax_ok_iff.1 hz⟩

theorem summary_column {kde : KdeFn} {c : Chain ℝ} {p : String} {b : Bound ℝ} (h : parameterSummary kde c p = .ok b) :
    p ∈ c.samples.columns := by
  have key : ∀ pad m, smoothedHistogram kde c p pad none = .ok m → p ∈ c.samples.columns := by
    intro pad m hm
    simp only [smoothedHistogram, bind_ok_iff] at hm
    obtain ⟨data, hd, -⟩ := hm
    exact mem_columns_of_get hd
  unfold parameterSummary at h
  dsimp only at h
  split at h
  · cases h
  all_goals
    rw [bind_ok_iff] at h
    obtain ⟨m, hm, -⟩ := h
    exact key _ m hm

/-- Several bands are those of the reported bounds. -/
theorem bands_bounds {m : Marginal ℝ} (hm : ValidMarginal m) {a : ℝ} (h1 : a ≤ 1) {ivs : List (ℝ × ℝ)} (hi : hdiIntervals m a = .ok ivs)
    (h2 : 2 ≤ ivs.length) {bs : List (Bound ℝ)} (hb : multimodalBounds m ivs = .ok bs) :
    List.Forall₂ (fun (b : Bound ℝ) iv => b.lower = some iv.1 ∧ b.upper = some iv.2) bs ivs := by
  obtain ⟨⟨t, d⟩, hcut⟩ : ∃ td, hdiCut m a = .ok td := by
    simp only [hdiIntervals, bind_ok_iff] at hi
    obtain ⟨_, -, td, h, -⟩ := hi
    exact ⟨td, h⟩
  obtain ⟨ivs', bs', h3, h4, -, h5⟩ := C36_bounds_of_bands m hm a h1 t d hcut
  cases hi.symm.trans h3
  cases hb.symm.trans h4
  obtain ⟨bs', h6, h7⟩ := C36_multimodal_bounds m hm ivs fun iv hiv => by
    obtain ⟨s, e, hse, hs, he⟩ := h5 h2 iv hiv
    exact ⟨s, e, hse.le, hs, he⟩
  cases hb.symm.trans h6
  refine (List.Forall₂.imp ?_ h7).flip
  rintro iv b ⟨k, x, y, rfl, -⟩
  exact ⟨rfl, rfl⟩

/-- The histogram of one chain. -/
theorem bars_shade {lib : Lib} (hk : KdeOk lib.kde) {cfg : PlotConfig} {p : String} {c : Chain ℝ} (hs : Summarised c) {flip summary : Bool}
    {calls : List Call} {v : ℝ} (h : plotBars lib cfg p c flip summary = .ok (calls, v)) : BarsOf lib p flip c (barCalls calls) := by
  simp only [plotBars, bind_ok_iff, pure_ok_iff] at h
  obtain ⟨⟨xs, ys⟩, -, ht, -, top, -, sh, hsh, h⟩ := h
  cases h
  have e : ∀ x, barCalls (x :: sh) = barCalls [x] ++ barCalls sh := fun x => barCalls_append [x] sh
  rw [e]
  have e1 : ∀ ys, barCalls [Call.marginal c.name p flip xs ys] = [.marginal c.name p flip xs ys] := fun _ => rfl
  rw [e1]
  have eiv : ∀ ivs : List (ℝ × ℝ), barCalls (ivs.map fun iv => Call.shade c.name p flip iv.1 iv.2) =
      ivs.map fun iv => .shade c.name p flip iv.1 iv.2 := by
    intro ivs
    refine List.filter_eq_self.2 ?_
    intro x hx
    obtain ⟨iv, -, rfl⟩ := List.mem_map.1 hx
    rfl
  suffices ∃ ivs : List (ℝ × ℝ), barCalls sh = ivs.map (fun iv => .shade c.name p flip iv.1 iv.2) ∧ ShadeOf lib c p xs ivs by
    obtain ⟨ivs, h1, h2⟩ := this
    exact ⟨xs, _, ivs, by rw [h1]; rfl, h2⟩
  unfold barShadeIf at hsh
  cases hb : (c.cfg .barShade : Bool) with
  | false =>
    rw [hb] at hsh
    cases hsh
    exact ⟨[], rfl, fun _ => rfl, fun h => by rw [hb] at h; cases h⟩
  | true =>
    rw [hb, if_pos rfl] at hsh
    unfold barShade at hsh
    rw [bind_ok_iff] at hsh
    obtain ⟨b, hpb, hsh⟩ := hsh
    have hcol := summary_column hpb
    have hopen : ¬ Closed b → sh = [] → ∃ ivs : List (ℝ × ℝ), barCalls sh = ivs.map (fun iv => .shade c.name p flip iv.1 iv.2) ∧
        ShadeOf lib c p xs ivs := by
      rintro hcl rfl
      refine ⟨[], rfl, fun _ => rfl, fun _ => ⟨.single b, reported_iff.2 ⟨hcol, ?_⟩, ?_, fun bs h => by cases h⟩⟩
      · have hm : c.cfg .multimodal = false := by
          by_contra hm
          rw [Bool.not_eq_false] at hm
          simp only [parameterSummary, hs.modes hm, bind_ok_iff] at hpb
          obtain ⟨m, -, hpb⟩ := hpb
          exact hcl (hdi_closed hpb)
        unfold summaryEntry
        rw [hpb, hm]
        rfl
      · intro b' hb'
        cases hb'
        exact ⟨fun _ => rfl, fun lo hi hl hu => absurd ⟨by rw [hl]; simp, by rw [hu]; simp⟩ hcl⟩
    cases hl : b.lower with
    | none =>
      rw [hl] at hsh
      cases hsh
      exact hopen (fun hc => hc.1 hl) rfl
    | some lo =>
      cases hu : b.upper with
      | none =>
        rw [hl, hu] at hsh
        cases hsh
        exact hopen (fun hc => hc.2 hu) rfl
      | some hi =>
        rw [hl, hu] at hsh
        simp only [bind_ok_iff, pure_ok_iff, ensure_ok_iff] at hsh
        obtain ⟨⟨ivs, fit⟩, hsb, a, ha, z, hz, -, hin, t, -, hsh⟩ := hsh
        subst hsh
        have hends := ends_of ha hz
        refine ⟨ivs, ?_, ⟨fun h => (by rw [hb] at h; cases h), fun _ => ?_⟩⟩
        · have e2 : barCalls (if t = "" then [] else [Call.title t]) = [] := by split <;> rfl
          rw [barCalls_append, e2, List.append_nil, eiv]
        simp only [List.all_eq_true, Bool.and_eq_true, decide_eq_true_eq] at hin
        unfold shadeBounds at hsb
        cases hm : (c.cfg .multimodal : Bool) with
        | false =>
          rw [hm] at hsb
          simp only [Bool.false_eq_true, if_false, bind_ok_iff, pure_ok_iff] at hsb
          obtain ⟨a', ha', z', hz', hsb⟩ := hsb
          cases ha.symm.trans ha'
          cases hz.symm.trans hz'
          cases hsb
          refine ⟨.single b, reported_iff.2 ⟨hcol, ?_⟩, ?_, fun bs h => by cases h⟩
          · unfold summaryEntry
            rw [hpb, hm]
            rfl
          · intro b' hb'
            cases hb'
            refine ⟨fun hc => absurd ⟨by rw [hl]; simp, by rw [hu]; simp⟩ hc, fun lo' hi' hl' hu' => ?_⟩
            cases hl.symm.trans hl'
            cases hu.symm.trans hu'
            exact ⟨a, z, hends, rfl⟩
        | true =>
          rw [hm] at hsb
          simp only [if_true, bind_ok_iff, pure_ok_iff] at hsb
          obtain ⟨m, hmm, ivs', hiv, bs, hbs, hsb⟩ := hsb
          by_cases h2 : ivs'.length < 2
          · rw [if_pos h2] at hsb
            cases hsb
            refine ⟨.single b, reported_iff.2 ⟨hcol, ?_⟩, ?_, fun bs h => by cases h⟩
            · simp only [summaryEntry, hpb, hm, if_true, hmm, hiv, bind, Except.bind, pure, Except.pure]
              rw [if_neg (by omega)]
            · intro b' hb'
              cases hb'
              refine ⟨fun hc => absurd ⟨by rw [hl]; simp, by rw [hu]; simp⟩ hc, fun lo' hi' hl' hu' => ?_⟩
              cases hl.symm.trans hl'
              cases hu.symm.trans hu'
              obtain ⟨h3, h4⟩ := hin _ (List.mem_singleton_self _)
              refine ⟨a, z, hends, ?_⟩
              rw [max_eq_left (le_trans h3 (min_le_left _ _)), min_eq_left (le_trans (le_max_right _ _) h4)]
          · rw [if_neg h2] at hsb
            cases hsb
            obtain ⟨w, hw, hpos⟩ := hs.weights
            refine ⟨.multi bs, reported_iff.2 ⟨hcol, ?_⟩, fun b h => (by cases h), ?_⟩
            · simp only [summaryEntry, hpb, hm, if_true, hmm, hiv, hbs, bind, Except.bind, pure, Except.pure]
              rw [if_pos (by omega)]
            · intro bs' hb'
              cases hb'
              refine ⟨bands_bounds (C25_marginal_valid lib.kde hk c w hw hpos p true none m hmm) hs.area hiv (by omega) hbs,
                a, z, hends, fun iv hiv' => ?_⟩
              obtain ⟨h3, h4⟩ := hin iv hiv'
              exact ⟨le_trans h3 (min_le_left _ _), le_trans (le_max_right _ _) h4⟩

theorem flatten_bars {lib : Lib} (hk : KdeOk lib.kde) {cfg : PlotConfig} {p : String} {flip summary : Bool} {chains : List (Chain ℝ)}
    (hs : ∀ c ∈ chains, Summarised c) {bars : List (List Call)}
    (h : List.Forall₂ (fun c b => ∃ v, plotBars lib cfg p c flip summary = .ok (b, v)) chains bars) :
    ∃ parts, barCalls bars.flatten = parts.flatten ∧ List.Forall₂ (BarsOf lib p flip) chains parts := by
  induction h with
  | nil => exact ⟨[], rfl, .nil⟩
  | cons hv _ ih =>
    obtain ⟨v, hv⟩ := hv
    obtain ⟨parts, h1, h2⟩ := ih fun c hc => hs c (by simp [hc])
    refine ⟨_ :: parts, ?_, .cons (bars_shade hk (hs _ (by simp)) hv) h2⟩
    rw [List.flatten_cons, barCalls_append, h1, List.flatten_cons]

theorem setLim_bar {d : Dir} {e : Option (Option (ℝ × ℝ))} {c : Call} (h : setLim d e = .ok c) : isBar c = false := by
  obtain ⟨_, _, rfl, -⟩ := setLim_setup h
  rfl

theorem axisCalls_bar (cfg : PlotConfig) (blind : List String) (d : Dir) (p : String) (log shown : Bool) :
    ∀ c ∈ axisCalls cfg blind d p log shown, isBar c = false := by
  intro c hc
  unfold axisCalls at hc
  have hl : c = .logScale d ∨ c = .noTicks d ∨ c = .axisLabel d (getLabel cfg.labels p) ∨ c = .logLocator d ∨
      c = .maxNLocator d := by
    by_cases hb : p ∈ blind <;> cases log <;> cases shown <;> simp [hb] at hc <;> tauto
  rcases hl with rfl | rfl | rfl | rfl | rfl <;> rfl

theorem trianglePanel_bar {cfg : PlotConfig} {b : PlottingBase} {n i j : Nat} {p1 p2 : String} {s : List Call}
    (h : trianglePanel cfg b n i j p1 p2 = .ok s) : ∀ c ∈ s, isBar c = false := by
  unfold trianglePanel at h
  by_cases hij : i < j
  · rw [if_pos hij] at h
    cases h
    intro c hc
    simp only [List.mem_cons, List.not_mem_nil, or_false] at hc
    rcases hc with rfl | rfl | rfl <;> rfl
  · rw [if_neg hij] at h
    simp only [bind_ok_iff, pure_ok_iff] at h
    obtain ⟨ylim, hy, xlim, hx, rfl⟩ := h
    intro c hc
    simp only [List.mem_append, List.mem_singleton] at hc
    rcases hc with ((hc | hc) | hc) | rfl
    · exact axisCalls_bar _ _ _ _ _ _ c hc
    · exact axisCalls_bar _ _ _ _ _ _ c hc
    · unfold triangleYlim at hy
      split at hy
      · simp only [bind_ok_iff, pure_ok_iff] at hy
        obtain ⟨_, hy, rfl⟩ := hy
        rw [List.mem_singleton.1 hc]
        exact setLim_bar hy
      · cases hy
        cases hc
    · exact setLim_bar hx

theorem plotTruths_bar (filled : List String) (truths : List (Truth ℝ)) (px py : Option String) :
    ∀ c ∈ plotTruths filled truths px py, isBar c = false := by
  intro c hc
  obtain ⟨t, -, hc⟩ := List.mem_flatMap.1 hc
  simp only [truthCalls] at hc
  revert hc
  generalize px.bind (t.location.lookup ·) = vx
  generalize py.bind (t.location.lookup ·) = vy
  intro hc
  generalize t.marker = tm at hc
  cases vx <;> cases vy <;> cases tm <;>
    simp only [List.nil_append, List.append_nil, List.cons_append, List.mem_cons, List.not_mem_nil, or_false] at hc <;>
    first
      | (subst hc; rfl)
      | (rcases hc with rfl | rfl <;> rfl)

theorem histTruths_bar (lib : Lib) (truths : List (Truth ℝ)) (flip : Bool) (p : String) :
    ∀ c ∈ histTruths lib truths flip p, isBar c = false := by
  cases flip
  · exact plotTruths_bar _ _ _ _
  · exact plotTruths_bar _ _ _ _

/-- **C101** for `plot`: on the diagonal, of every chain with contours and the parameter, in order, the curve is drawn and under it
the interval that `get_summary` reports is shaded (all of them for several modes), as far as the curve goes. -/
theorem C101_plot {lib : Lib} (hk : KdeOk lib.kde) {cfg : PlotConfig} {truths : List (Truth ℝ)} {b : PlottingBase} {fig : Fig}
    (hs : ∀ c ∈ b.chains, Summarised c) (h : plotBase lib cfg truths b = .ok fig) (hh : cfg.plotHists = true) {i : Nat} {p : String}
    {calls : List Call} (hc : ((i, i), calls) ∈ fig.panels) (hp : b.columns[i]? = some p) :
    ∃ parts, barCalls calls = parts.flatten ∧ List.Forall₂ (BarsOf lib p (cfg.flip && decide (b.columns.length = 2 ∧ i = 1)))
      (b.chains.filter fun c => c.cfg .plotContour && decide (p ∈ c.samples.columns)) parts := by
  obtain ⟨-, -, hcase⟩ := plot_cases h hc
  rcases hcase with ⟨hij, -⟩ | ⟨hij, -⟩ | ⟨-, -, p', s, r, hp', hs', hr, rfl⟩
  · omega
  · rw [if_pos hh] at hij
    omega
  cases hp'.symm.trans hp
  have et : ∀ f m, barCalls (s ++ (histTruths lib truths f p ++ r.1 ++ topLim f m)) = barCalls r.1 := by
    intro f m
    have h1 : barCalls (topLim f m) = [] := by cases m <;> rfl
    rw [barCalls_append, barCalls_append, barCalls_append, barCalls_none (trianglePanel_bar hs'),
      barCalls_none (histTruths_bar lib truths f p), h1, List.nil_append, List.nil_append, List.append_nil]
  rw [et]
  obtain ⟨bars, hb1, hb2⟩ := histChains_bars (calls := r.1) (m' := r.2) hr
  rw [hb1]
  exact flatten_bars hk (fun c hc => hs c (List.mem_filter.1 hc).1) hb2

/-- **C101** for `plot_distributions`. -/
theorem C101_distributions {lib : Lib} (hk : KdeOk lib.kde) {cfg : PlotConfig} {truths : List (Truth ℝ)} {colWrap : Nat}
    {b : PlottingBase} {fig : Fig} (hs : ∀ c ∈ b.chains, Summarised c) (h : plotDistributionsBase lib cfg truths colWrap b = .ok fig)
    {i j : Nat} {calls : List Call} {p : String} (hc : ((i, j), calls) ∈ fig.panels)
    (hp : b.columns[i * min b.columns.length colWrap + j]? = some p) :
    ∃ parts, barCalls calls = parts.flatten ∧ List.Forall₂ (BarsOf lib p false)
      (b.chains.filter fun c => c.cfg .plotContour && decide (p ∈ c.plottingColumns)) parts := by
  obtain ⟨-, -, hcells, -⟩ := distributions_panels h
  obtain ⟨-, ⟨hle, -⟩ | ⟨hlt, hd⟩⟩ := hcells _ _ hc
  · rw [List.getElem?_eq_none hle] at hp
    cases hp
  have hg : b.columns.getD (i * min b.columns.length colWrap + j) "" = p := by
    rw [List.getD_eq_getElem?_getD, hp]; rfl
  rw [hg] at hd
  simp only [distPanel, bind_ok_iff, pure_ok_iff] at hd
  obtain ⟨xlim, hx, r, hr, ylim, hy, rfl⟩ := hd
  have hxl : barCalls [xlim] = [] := barCalls_none fun c hc => by rw [List.mem_singleton.1 hc]; exact setLim_bar hx
  have hyl : barCalls [ylim, Call.axisLabel .x p] = [] := by
    unfold distYlim at hy
    split at hy <;> cases hy
    rfl
  have h0 : barCalls [Call.noTicks .y] = [] := rfl
  have hl : barCalls (if p ∈ b.logScales then [Call.logScale .x] else []) = [] := by split <;> rfl
  have hk' : barCalls [if p ∈ b.blind then Call.noTicks .x else if p ∈ b.logScales then .logLocator .x else .maxNLocator .x] = [] := by
    split
    · rfl
    · split <;> rfl
  simp only [barCalls_append, hxl, hyl, h0, hl, hk', barCalls_none (plotTruths_bar lib.filled truths none (some p)), List.nil_append, List.append_nil]
  obtain ⟨bars, hb1, hb2⟩ := distChains_bars (calls := r.1) (m' := r.2) hr
  rw [hb1]
  exact flatten_bars hk (fun c hc => hs c (List.mem_filter.1 hc).1) hb2

/-- **C101** for `plot_summary` without error bars: every cell has the curve of its own chain and parameter. -/
theorem C101_summary {lib : Lib} (hk : KdeOk lib.kde) {cfg : PlotConfig} {truths : List (Truth ℝ)} {b : PlottingBase} {fig : Fig}
    (hs : ∀ c ∈ b.chains, Summarised c) (h : plotSummaryBase lib cfg truths false b = .ok fig) {i k : Nat} {calls : List Call}
    (hc : ((i, k + 1), calls) ∈ fig.panels) : ∃ c p, b.chains[i]? = some c ∧ b.columns[k]? = some p ∧
      (p ∈ c.dataColumns → BarsOf lib p false c (barCalls calls)) ∧ (p ∉ c.dataColumns → barCalls calls = []) := by
  obtain ⟨c, l, hci, hl, hcase⟩ := summary_cell h hc
  have hbl : barCalls l = [] := by
    rcases hl with rfl | ⟨m, rfl⟩ <;> rfl
  rcases hcase with ⟨h0, -⟩ | ⟨k', p, cell, hk', hp, hcell, rfl⟩
  · omega
  obtain rfl : k' = k := by omega
  refine ⟨c, p, hci, hp, ?_⟩
  simp only [summaryCell, bind_ok_iff, pure_ok_iff] at hcell
  obtain ⟨xlim, hx, r, hr, rfl⟩ := hcell
  have h1 : barCalls (if (decide (i < b.chains.length - 1) || decide (p ∈ b.blind)) = true then [Call.noTicks .x] else []) = [] := by
    split <;> rfl
  have h2 : barCalls [Call.noTicks .y, xlim] = [] := barCalls_none fun c hc => by
    rcases List.mem_cons.1 hc with rfl | hc
    · rfl
    · rw [List.mem_singleton.1 hc]; exact setLim_bar hx
  have h3 : barCalls (if p ∈ b.logScales then [Call.logScale .x] else []) = [] := by split <;> rfl
  have h4 : barCalls (if i = 0 then [Call.title (getLabel cfg.labels p)] else []) = [] := by split <;> rfl
  have h5 : barCalls (truths.flatMap (summaryTruth p)) = [] := barCalls_none fun c hc => by
    obtain ⟨t, -, hc⟩ := List.mem_flatMap.1 hc
    unfold summaryTruth at hc
    split at hc
    · cases hc
    · rw [List.mem_singleton.1 hc]; rfl
  simp only [barCalls_append, h1, h2, h3, h4, h5, hbl, List.nil_append, List.append_nil]
  unfold summaryContent at hr
  by_cases hd : p ∈ c.dataColumns
  · refine ⟨fun _ => ?_, fun h => absurd hd h⟩
    rw [if_neg (fun h => h hd)] at hr
    simp only [Bool.false_eq_true, if_false, bind_ok_iff, pure_ok_iff] at hr
    obtain ⟨r', hr, rfl⟩ := hr
    exact bars_shade hk (hs c (List.mem_of_getElem? hci)) (v := r'.2) hr
  · rw [if_pos hd] at hr
    cases hr
    exact ⟨fun h => absurd h hd, fun _ => rfl⟩

/-- An accepted chain without `shift_params` is one. -/
theorem summarised_of_make {a : Args ℝ} {c : Chain ℝ} (hwf : a.samples.WF) (h : Chain.make a = .ok c)
    (hshift : setting a .shiftParams = false) : Summarised c := by
  obtain ⟨-, -, -, -, ⟨w, hw, -, hpos⟩, -, ⟨s, h1, h2, -⟩, -, h3⟩ := C07_accepted_chain_guarantees a c hwf hshift h
  refine ⟨⟨w, hw, hpos⟩, ?_, fun hm => by rw [h1, h2 hm]⟩
  rw [h3 .summaryArea (by simp) (by simp)]
  obtain ⟨col, raw, f0, f, -, k2, -, -, -, -, -, -, k9, -⟩ := Chain.make_ok_iff.1 h
  exact ((constraints_iff a).1 ⟨k2, k9⟩).1.2

/-- The hypotheses are met by a grid of two points with weights 1 and 2: under its curve in `plot` the part with the HDI is
shaded. -/
example (lib : Lib) (hk : KdeOk lib.kde) : ∃ (c : Chain ℝ) (fig : Fig) (calls : List Call) (b : Bound ℝ) (l u a z : ℝ)
    (xs ys : List ℝ), Summarised c ∧ plotBase lib {} [] (oneBase c) = .ok fig ∧ ((0, 0), calls) ∈ fig.panels ∧ Reported lib c "a" (.single b) ∧
    b.lower = some l ∧ b.upper = some u ∧ l < u ∧
    Ends xs a z ∧ barCalls calls = [.marginal "two" "a" false xs ys, .shade "two" "a" false (max l a) (min u z)] := by
  obtain ⟨c, h1, h2⟩ := twoPoint_exists false (u := 1) (v := 2) one_pos two_pos
  have hsum : Summarised c := summarised_of_make (toRaw_WF.2 (twoFrame_wf 1 2)) h1 rfl
  obtain ⟨m, hm, hv, hx, hy⟩ := h2.marginal one_pos two_pos hk true
  obtain ⟨l, x, u, hh, hl0, hlx, hu1, hxu⟩ := two_hdi hv hx hy
  have ha := h2.area
  have hps : parameterSummary lib.kde c "a" = .ok ⟨some l, some x, some u⟩ := by
    simp only [parameterSummary, h2.hdi, hm, ha, bind, Except.bind, hh]
  have hrep : Reported lib c "a" (.single ⟨some l, some x, some u⟩) := by
    refine reported_iff.2 ⟨by rw [h2.samples]; decide, ?_⟩
    simp only [summaryEntry, hps, h2.modal, bind, Except.bind]
    rfl
  obtain ⟨t, ht, htne⟩ := single_text (l := l) (c := x) (u := u) (by
    rintro ⟨-, h0, h0'⟩
    linarith) (some "a")
  have hlu : l ≤ u := by linarith
  have hshade : barShade lib {} c "a" [0, 1] false true = .ok [.shade "two" "a" false l u, .title t] := by
    have hlab : stripDollars (getLabel ({} : PlotConfig).labels "a") = "a" := by decide
    simp only [barShade, hps, shadeBounds, h2.modal, Bool.false_eq_true, two_minmax.1, max_eq_left hl0, min_eq_left hu1,
      two_minmax.2, bind, Except.bind, pure, Except.pure, List.all_cons, List.all_nil, min_eq_left hlu, max_eq_right hlu, hl0, hu1,
      decide_true, Bool.and_self, ensure, barTitle, hlab, ht, List.map_cons, List.map_nil, htne, if_false, if_true, h2.name]
    rfl
  obtain ⟨top, hb⟩ := two_bars h2 one_pos two_pos lib {} false true hshade
  obtain ⟨fig, calls, h3, h4, -⟩ := two_plot h2 lib hb
  obtain ⟨parts, h5, h6⟩ := C101_plot hk (b := oneBase c) (fun c' hc' => by rw [List.mem_singleton.1 hc']; exact hsum) h3 rfl h4
    (p := "a") rfl
  have hf : ((oneBase c).chains.filter fun c => c.cfg .plotContour && decide ("a" ∈ c.samples.columns)) = [c] := by
    have hp : "a" ∈ c.samples.columns := by rw [h2.samples]; exact List.mem_cons_self
    exact List.filter_eq_self.2 fun c' hc' => by rw [List.mem_singleton.1 hc']; simp [h2.contour, hp]
  rw [hf] at h6
  rcases h6 with _ | ⟨⟨xs, ys, ivs, rfl, -, hsh⟩, ⟨⟩⟩
  obtain ⟨fit, hfit, hone, -⟩ := hsh h2.shaded
  obtain rfl : fit = .single ⟨some l, some x, some u⟩ := by
    have := (reported_iff.1 hrep).2.symm.trans (reported_iff.1 hfit).2
    cases this
    rfl
  obtain ⟨a, z, hends, rfl⟩ := (hone _ rfl).2 l u rfl rfl
  refine ⟨c, fig, calls, _, l, u, a, z, xs, ys, hsum, h3, h4, hrep, rfl, rfl, by linarith, hends, ?_⟩
  rw [h5, h2.name]
  rfl

end CC
