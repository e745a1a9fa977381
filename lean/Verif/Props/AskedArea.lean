import Verif.Props.Modes
import Verif.Props.MaxSummary
import Verif.Props.EqualTailed
import Verif.Props.Divide
import Verif.Lemmas.Vee

/-! # C143: the interval reported for a chain holds the area its settings ask for -/

namespace CC
open Spec

/-- The statistic that the documentation promises for a chain: the one given, else HDI for multimodal chains and `max` for others. -/
noncomputable def Spec.askedStatistic (a : Args ℝ) : Stat :=
  match setting a .statistics, setting a .multimodal with
  | some s, _ => s
  | none, true => .hdi
  | none, false => .max

/-- The interval from `l` to `u` holds the mass `area` of the marginal, each statistic as documented: the three that cut off the same
mass at both ends leave out half of the rest on either side; HDI holds at least the mass; `max` holds it within 0.003. -/
def Spec.HoldsArea (m : Marginal ℝ) (area l u : ℝ) : Stat → Prop
  | .hdi => ∃ (i j : Nat) (p q : ℝ), i < j ∧ (places m)[i]? = some l ∧ (places m)[j]? = some u ∧
      (masses m)[i]? = some p ∧ (masses m)[j]? = some q ∧ area ≤ q - p
  | .max => ∃ i j : Nat, l = padX 1000 m i ∧ u = padX 1000 m j ∧ |padMass 1000 m i j - area| < 3 / 1000
  | _ => OnCurve (m.xs.zip m.cs) l ((1 - area) / 2) ∧ OnCurve (m.xs.zip m.cs) u ((1 + area) / 2)

/-- The statistic of an accepted chain is the one promised. -/
theorem accepted_statistic {a : Args ℝ} {c : Chain ℝ} (h : Chain.make a = .ok c) : c.cfg .statistics = some (askedStatistic a) := by
  obtain ⟨_, _, _, _, _, _, _, _, _, _, _, _, _, _, rfl⟩ := Chain.make_ok_iff.1 h
  simp only [resolveStatistics, askedStatistic, setting, set_color_ne (show Key.statistics ≠ .color by decide),
    set_color_ne (show Key.multimodal ≠ .color by decide)]
  cases hs : (Cfg.default ℝ).apply a.config .statistics with
  | some s => simp only [set_color_ne (show Key.statistics ≠ .color by decide), hs]
  | none => cases hm : (Cfg.default ℝ).apply a.config .multimodal <;> simp [Cfg.set]

/-- **C143** (what is reported). Whatever single interval `get_summary` reports for a parameter of an accepted chain, it is an interval
that holds the area given to the constructor on the marginal of the parameter, in the sense of the statistic given to it. -/
theorem C143_reported (lib : Lib) (hk : KdeOk lib.kde) (a : Args ℝ) (hwf : a.samples.WF) (hshift : setting a .shiftParams = false)
    (c : Chain ℝ) (hc : Chain.make a = .ok c) (p : String) (l x u : ℝ)
    (h : Reported lib c p (.single ⟨some l, some x, some u⟩)) :
    ∃ m, smoothedHistogram lib.kde c p (decide (askedStatistic a = .hdi)) none = .ok m ∧ ValidMarginal m ∧ l ≤ u ∧
      HoldsArea m (setting a .summaryArea) l u (askedStatistic a) := by
  obtain ⟨-, -, -, -, ⟨w, hw, -, hpos⟩, -, -, -, hkey⟩ := C07_accepted_chain_guarantees a c hwf hshift hc
  obtain ⟨-, ⟨h0, h1⟩, -⟩ := accepted_settings hwf hshift hc
  have hstat := accepted_statistic hc
  rw [← hkey .summaryArea (by decide) (by decide)]
  obtain ⟨-, h⟩ := reported_iff.1 h
  have hps : parameterSummary lib.kde c p = .ok ⟨some l, some x, some u⟩ := by
    simp only [summaryEntry, bind_ok_iff] at h
    obtain ⟨s, hs, h⟩ := h
    by_cases hmm : c.cfg .multimodal = true
    · rw [if_pos hmm, bind_ok_iff] at h
      obtain ⟨m, -, h⟩ := h
      rw [bind_ok_iff] at h
      obtain ⟨ivs, -, h⟩ := h
      by_cases h2 : 2 ≤ ivs.length
      · rw [if_pos h2, bind_ok_iff] at h
        obtain ⟨bs, -, h⟩ := h
        cases h
      · rw [if_neg h2] at h
        cases h
        exact hs
    · rw [if_neg hmm] at h
      cases h
      exact hs
  simp only [parameterSummary, hstat] at hps
  cases hs : askedStatistic a <;> rw [hs] at hps <;> rw [bind_ok_iff] at hps <;> obtain ⟨m, hm, hps⟩ := hps <;>
    have hv := C25_marginal_valid lib.kde hk c w hw hpos p _ none m hm <;> refine ⟨m, hm, hv, ?_⟩
  all_goals obtain ⟨c0, -, -, hc0, -⟩ := hv.ends
  · obtain ⟨k, y, z, -, -, -, e | ⟨l', u', s, i1, i2, t, e, e1, e2, e3, e4, -, -, -, -, -, -, e5, -⟩⟩ :=
      C29_max_summary m hv (c.cfg .summaryArea)
    · rw [e] at hps
      cases hps
    · rw [e] at hps
      cases hps
      exact ⟨e1.trans e2, i1, i2, e3, e4, e5⟩
  · obtain ⟨g1, g2⟩ := C28_max_central_partial m hv (c.cfg .summaryArea) c0 h0 h1 hc0
    rcases le_or_gt c0 ((1 - c.cfg .summaryArea) / 2) with hle | hgt
    · obtain ⟨_, _, _, _, _, e, e1, e2, e3, -⟩ := g1 hle
      rw [e] at hps
      cases hps
      exact ⟨e1, e2, e3⟩
    · rw [g2 hgt] at hps
      cases hps
  · obtain ⟨g1, g2⟩ := C26_cumulative m hv (c.cfg .summaryArea) c0 h0 h1 hc0
    rcases le_or_gt c0 ((1 - c.cfg .summaryArea) / 2) with hle | hgt
    · obtain ⟨_, _, _, e, e1, e2, e3, -, e4⟩ := g1 hle
      rw [e] at hps
      cases hps
      exact ⟨e1.trans e2, e3, e4⟩
    · rw [g2 hgt] at hps
      cases hps
  · obtain ⟨g1, g2⟩ := C27_mean m hv (c.cfg .summaryArea) c0 h0 h1 hc0
    obtain ⟨g3, -⟩ := C26_cumulative m hv (c.cfg .summaryArea) c0 h0 h1 hc0
    rcases le_or_gt c0 ((1 - c.cfg .summaryArea) / 2) with hle | hgt
    · obtain ⟨_, _, _, e0, e, e3, e4⟩ := g1 hle
      obtain ⟨_, _, _, e0', e1, e2, -⟩ := g3 hle
      rw [e] at hps
      cases hps
      rw [e0] at e0'
      cases e0'
      exact ⟨e1.trans e2, e3, e4⟩
    · rw [g2 hgt] at hps
      cases hps
  · obtain ⟨_, _, _, e, e1, e2, i, j, q, r, e3, e4, e5, e6, e7, e8, -⟩ := C31_hdi_mass hv (c.cfg .summaryArea) h1
    rw [e] at hps
    cases hps
    exact ⟨e1.trans e2, i, j, q, r, e3, e4, e5, e6, e7, e8⟩

/-- The entry of a chain that is not multimodal. -/
theorem entry_single {lib : Lib} {c : Chain ℝ} {p : String} (hmm : c.cfg .multimodal = false) :
    summaryEntry lib.kde c p = (parameterSummary lib.kde c p).map .single := by
  simp only [summaryEntry, hmm]
  cases parameterSummary lib.kde c p <;> rfl

/-- What raises for a parameter raises in `get_summary`. -/
theorem reported_error {lib : Lib} {c : Chain ℝ} {p : String} (hp : p ∈ c.samples.columns) {e : Err}
    (h : summaryEntry lib.kde c p = .error e) (heap : Heap ℝ) (registry : Consumer ℝ) :
    getSummary lib.kde heap registry (some [c]) (some [p]) = .error e := by
  simp only [getSummary, summaryLoop, chainSummary, sanitiseColumns, hp, not_true_eq_false, if_false, bind, Except.bind, pure,
    Except.pure, h]

/-- **C143** (when something is reported). For every parameter of an accepted chain without `multimodal` whose marginal exists: HDI
always gives an interval; `max` always gives a centre, with or without an interval; the other statistics give an interval if the first
grid point holds at most half of the mass left out, and otherwise `get_summary` raises a ValueError. -/
theorem C143_outcome (lib : Lib) (hk : KdeOk lib.kde) (a : Args ℝ) (hwf : a.samples.WF) (hshift : setting a .shiftParams = false)
    (hmm : setting a .multimodal = false) (c : Chain ℝ) (hc : Chain.make a = .ok c) (p : String) (m : Marginal ℝ)
    (hm : smoothedHistogram lib.kde c p (decide (askedStatistic a = .hdi)) none = .ok m) (c0 : ℝ) (hc0 : m.cs.head? = some c0) :
    (askedStatistic a = .hdi → ∃ l x u, Reported lib c p (.single ⟨some l, some x, some u⟩) ∧ l ≤ x ∧ x ≤ u) ∧
    (askedStatistic a = .max → ∃ x, x ∈ m.xs ∧ (Reported lib c p (.single ⟨none, some x, none⟩) ∨
      ∃ l u, Reported lib c p (.single ⟨some l, some x, some u⟩) ∧ l ≤ x ∧ x ≤ u)) ∧
    (askedStatistic a ≠ .hdi → askedStatistic a ≠ .max →
      (c0 ≤ (1 - setting a .summaryArea) / 2 → ∃ l x u, Reported lib c p (.single ⟨some l, some x, some u⟩)) ∧
      ((1 - setting a .summaryArea) / 2 < c0 → ∀ heap registry,
        getSummary lib.kde heap registry (some [c]) (some [p]) = .error .value)) := by
  obtain ⟨-, -, -, -, ⟨w, hw, -, hpos⟩, -, -, -, hkey⟩ := C07_accepted_chain_guarantees a c hwf hshift hc
  obtain ⟨-, ⟨h0, h1⟩, -⟩ := accepted_settings hwf hshift hc
  have hstat := accepted_statistic hc
  rw [← hkey .summaryArea (by decide) (by decide)]
  have hmm' : c.cfg .multimodal = false := by rw [hkey .multimodal (by decide) (by decide)]; exact hmm
  have hv := C25_marginal_valid lib.kde hk c w hw hpos p _ none m hm
  have hp : p ∈ c.samples.columns := by
    have h := hm
    simp only [smoothedHistogram, bind_ok_iff] at h
    obtain ⟨d, hd, -⟩ := h
    exact List.mem_map_of_mem (get_mem hd)
  have rep : ∀ b, parameterSummary lib.kde c p = .ok b → Reported lib c p (.single b) := fun b hb =>
    reported_iff.2 ⟨hp, by rw [entry_single hmm', hb]; rfl⟩
  have err : ∀ e, parameterSummary lib.kde c p = .error e → ∀ heap registry,
      getSummary lib.kde heap registry (some [c]) (some [p]) = .error e := fun e he =>
    reported_error hp (by rw [entry_single hmm', he]; rfl)
  refine ⟨fun hs => ?_, fun hs => ?_, fun hs1 hs2 => ?_⟩
  · obtain ⟨l, x, u, e, e1, e2, -⟩ := C31_hdi_mass hv (c.cfg .summaryArea) h1
    refine ⟨l, x, u, rep _ ?_, e1, e2⟩
    rw [hs] at hm hstat
    simp only [parameterSummary, hstat]
    exact bind_ok_iff.2 ⟨m, hm, e⟩
  · have hps : parameterSummary lib.kde c p = summaryMax m (c.cfg .summaryArea) := by
      rw [hs] at hm hstat
      replace hm : smoothedHistogram lib.kde c p false none = .ok m := hm
      simp only [parameterSummary, hstat, hm, bind, Except.bind]
    obtain ⟨k, y, z, e0, -, -, e | ⟨l', u', s, i1, i2, t, e, e1, e2, -⟩⟩ := C29_max_summary m hv (c.cfg .summaryArea)
    · exact ⟨y, List.mem_of_getElem? e0, .inl (rep _ (hps.trans e))⟩
    · exact ⟨y, List.mem_of_getElem? e0, .inr ⟨l', u', rep _ (hps.trans e), e1, e2⟩⟩
  · cases hs : askedStatistic a with
    | max => exact absurd hs hs2
    | hdi => exact absurd hs hs1
    | maxCentral =>
      rw [hs] at hm hstat
      replace hm : smoothedHistogram lib.kde c p false none = .ok m := hm
      have hps : parameterSummary lib.kde c p = summaryMaxCentral m (c.cfg .summaryArea) := by
        simp only [parameterSummary, hstat, hm, bind, Except.bind]
      obtain ⟨g1, g2⟩ := C28_max_central_partial m hv (c.cfg .summaryArea) c0 h0 h1 hc0
      refine ⟨fun hle => ?_, fun hgt => err _ (hps.trans (g2 hgt))⟩
      obtain ⟨l, x, u, _, _, e, -⟩ := g1 hle
      exact ⟨l, x, u, rep _ (hps.trans e)⟩
    | cumulative =>
      rw [hs] at hm hstat
      replace hm : smoothedHistogram lib.kde c p false none = .ok m := hm
      have hps : parameterSummary lib.kde c p = summaryCumulative m (c.cfg .summaryArea) := by
        simp only [parameterSummary, hstat, hm, bind, Except.bind]
      obtain ⟨g1, g2⟩ := C26_cumulative m hv (c.cfg .summaryArea) c0 h0 h1 hc0
      refine ⟨fun hle => ?_, fun hgt => err _ (hps.trans (g2 hgt))⟩
      obtain ⟨l, x, u, e, -⟩ := g1 hle
      exact ⟨l, x, u, rep _ (hps.trans e)⟩
    | mean =>
      rw [hs] at hm hstat
      replace hm : smoothedHistogram lib.kde c p false none = .ok m := hm
      have hps : parameterSummary lib.kde c p = summaryMean m (c.cfg .summaryArea) := by
        simp only [parameterSummary, hstat, hm, bind, Except.bind]
      obtain ⟨g1, g2⟩ := C27_mean m hv (c.cfg .summaryArea) c0 h0 h1 hc0
      refine ⟨fun hle => ?_, fun hgt => err _ (hps.trans (g2 hgt))⟩
      obtain ⟨l, x, u, -, e, -⟩ := g1 hle
      exact ⟨l, _, u, rep _ (hps.trans e)⟩

/-- **C143** (several intervals). Whatever list of intervals `get_summary` reports for a parameter of an accepted chain, they are, in
increasing order, all runs of at least two grid points at or above a level `t` of the normalised marginal, with the highest point of
each as its centre, and the level is where the mass above it passes the area given to the constructor, within the tolerance of the
search (C35). -/
theorem C143_modes (lib : Lib) (hk : KdeOk lib.kde) (a : Args ℝ) (hwf : a.samples.WF) (hshift : setting a .shiftParams = false)
    (c : Chain ℝ) (hc : Chain.make a = .ok c) (p : String) (bs : List (Bound ℝ)) (h : Reported lib c p (.multi bs)) :
    setting a .multimodal = true ∧ 2 ≤ bs.length ∧
    ∃ m t, ∃ ivs : List (ℝ × ℝ), smoothedHistogram lib.kde c p true none = .ok m ∧ ValidMarginal m ∧
      (∀ iv : ℝ × ℝ, iv ∈ ivs ↔ ∃ s e, IsRun (m.ys.map fun y => decide (t ≤ y / simpson m.ys m.xs)) s e ∧ s < e ∧
        m.xs[s]? = some iv.1 ∧ m.xs[e]? = some iv.2) ∧
      (ivs.Pairwise fun v w => v.1 < v.2 ∧ v.2 < w.1 ∧ w.1 < w.2) ∧
      List.Forall₂ (fun (iv : ℝ × ℝ) (b : Bound ℝ) => ∃ (k : Nat) (x y : ℝ), b = ⟨some iv.1, some x, some iv.2⟩ ∧
        m.xs[k]? = some x ∧ m.ys[k]? = some y ∧ iv.1 ≤ x ∧ x ≤ iv.2 ∧
        ∀ (k' : Nat) (x' y' : ℝ), m.xs[k']? = some x' → m.ys[k']? = some y' → iv.1 ≤ x' → x' ≤ iv.2 → y' ≤ y) ivs bs ∧
      (massAbove m (m.ys.map (· / simpson m.ys m.xs)) t = setting a .summaryArea ∨ ∃ lo hi, 0 ≤ lo ∧ lo ≤ t ∧ t ≤ hi ∧
        setting a .summaryArea ≤ massAbove m (m.ys.map (· / simpson m.ys m.xs)) lo ∧
        massAbove m (m.ys.map (· / simpson m.ys m.xs)) hi ≤ setting a .summaryArea ∧
        ((t - lo < 5 / 10 ^ 4 + 4 / 2 ^ 52 * t ∧ hi - t < 5 / 10 ^ 4 + 4 / 2 ^ 52 * t) ∨
          (lo = t ∧ ∃ v ∈ m.ys, hi - t ≤ v / simpson m.ys m.xs / 2 ^ 100))) := by
  obtain ⟨-, -, -, -, ⟨w, hw, -, hpos⟩, -, -, -, hkey⟩ := C07_accepted_chain_guarantees a c hwf hshift hc
  obtain ⟨-, ⟨h0, h1⟩, -⟩ := accepted_settings hwf hshift hc
  rw [← hkey .summaryArea (by decide) (by decide), ← hkey .multimodal (by decide) (by decide)]
  obtain ⟨-, h⟩ := reported_iff.1 h
  simp only [summaryEntry, bind_ok_iff] at h
  obtain ⟨s, hs, h⟩ := h
  by_cases hmm : c.cfg .multimodal = true
  swap
  · rw [if_neg hmm] at h
    cases h
  rw [if_pos hmm, bind_ok_iff] at h
  obtain ⟨m, hm, h⟩ := h
  rw [bind_ok_iff] at h
  obtain ⟨ivs, hivs, h⟩ := h
  by_cases h2 : 2 ≤ ivs.length
  swap
  · rw [if_neg h2] at h
    cases h
  rw [if_pos h2, bind_ok_iff] at h
  obtain ⟨bs', hbs, h⟩ := h
  cases h
  have hv := C25_marginal_valid lib.kde hk c w hw hpos p _ none m hm
  simp only [hdiIntervals, bind_ok_iff, pure_ok_iff] at hivs
  obtain ⟨b, -, ⟨t, d⟩, hcut, ivs', hmask, hif⟩ := hivs
  obtain ⟨-, hd, -⟩ := hdiCut_spec hv hcut
  obtain ⟨ivs'', hmask', hruns, hord⟩ := C24_mask_intervals m.xs hv.increasing (d.map fun v => decide (t ≤ v))
    (by rw [hd, List.length_map, List.length_map]; exact hv.ys_length)
  rw [hmask] at hmask'
  obtain rfl := Except.ok.inj hmask'
  have hne : ivs' = ivs := by
    cases ivs' with
    | nil => rw [← hif] at h2; simp at h2
    | cons v vs => exact hif
  subst hne
  have hmap : (d.map fun v => decide (t ≤ v)) = m.ys.map fun y => decide (t ≤ y / simpson m.ys m.xs) := by
    rw [hd, List.map_map]
    rfl
  rw [hmap] at hruns
  obtain ⟨bs'', hbs', hf⟩ := C36_multimodal_bounds m hv ivs' (fun iv hiv => by
    obtain ⟨s, e, -, hse, g1, g2⟩ := (hruns iv).1 hiv
    exact ⟨s, e, hse.le, g1, g2⟩)
  rw [hbs] at hbs'
  obtain rfl := Except.ok.inj hbs'
  obtain ⟨-, -, hloc⟩ := C35_cut_partial m hv _ h1 t d hcut
  refine ⟨hmm, hf.length_eq ▸ h2, m, t, ivs', hm, hv, hruns, hord, hf, ?_⟩
  rw [hd] at hloc
  rcases hloc with e | ⟨lo, hi, e1, e2, e3, e4, e5, e6 | ⟨e6, v, hv', e7⟩⟩
  · exact .inl e
  · exact .inr ⟨lo, hi, e1, e2, e3, e4, e5, .inl e6⟩
  · obtain ⟨y, hy, rfl⟩ := List.mem_map.1 hv'
    exact .inr ⟨lo, hi, e1, e2, e3, e4, e5, .inr ⟨e6, y, hy, e7⟩⟩

/-- A grid of two points with the weights 1 and 3: its HDI is reported and holds 0.6827 of the mass. -/
example (lib : Lib) (hk : KdeOk lib.kde) : ∃ c l x u m, Chain.make
    { samples := (twoFrame 1 3).toRaw, name := "two", grid := true, config := modalKw false } = .ok c ∧
    Reported lib c "a" (.single ⟨some l, some x, some u⟩) ∧ smoothedHistogram lib.kde c "a" true none = .ok m ∧
    HoldsArea m (6827 / 10000) l u .hdi := by
  obtain ⟨c, hc, h⟩ := twoPoint_exists false (u := 1) (v := 3) one_pos (by norm_num)
  have hs : askedStatistic { samples := (twoFrame 1 3).toRaw, name := "two", grid := true, config := modalKw false } = .hdi := rfl
  have hwf : (twoFrame (1 : ℝ) 3).toRaw.WF := toRaw_WF.2 (twoFrame_wf 1 3)
  obtain ⟨m, hm, hv, -⟩ := h.marginal one_pos (by norm_num) hk true
  obtain ⟨c0, -, -, hc0, -⟩ := hv.ends
  obtain ⟨l, x, u, hr, -⟩ := (C143_outcome lib hk _ hwf rfl rfl c hc "a" m hm c0 hc0).1 hs
  obtain ⟨m', hm', -, -, hh⟩ := C143_reported lib hk _ hwf rfl c hc "a" l x u hr
  exact ⟨c, l, x, u, m', hc, hr, hm', hh⟩

/-- A grid of three points with the weights 2, 1 and 2 has two modes, to which `C143_modes` applies. -/
example (lib : Lib) (hk : KdeOk lib.kde) : ∃ c bs,
    Chain.make { samples := veeFrame.toRaw, name := "vee", grid := true, config := modalKw true } = .ok c ∧
    Reported lib c "a" (.multi bs) ∧ ∃ m t, smoothedHistogram lib.kde c "a" true none = .ok m ∧
      ∀ b ∈ bs, ∃ l x u, b = ⟨some l, some x, some u⟩ ∧ ∃ s e,
        IsRun (m.ys.map fun y => decide (t ≤ y / simpson m.ys m.xs)) s e ∧ m.xs[s]? = some l ∧ m.xs[e]? = some u := by
  obtain ⟨c, hc, h⟩ := vee_exists
  obtain ⟨-, bs, -, -, -, hr, -⟩ := h.modes hk
  obtain ⟨-, -, m, t, ivs, hm, -, hruns, -, hf, -⟩ := C143_modes lib hk _ (toRaw_WF.2 veeFrame_wf) rfl c hc "a" bs hr
  refine ⟨c, bs, hc, hr, m, t, hm, fun b hb => ?_⟩
  obtain ⟨iv, hiv, k, x, y, rfl, -⟩ := forall₂_mem_right hf hb
  obtain ⟨s, e, g1, -, g2, g3⟩ := (hruns iv).1 hiv
  exact ⟨_, _, _, rfl, s, e, g1, g2, g3⟩

end CC
