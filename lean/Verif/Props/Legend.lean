import Verif.Model.Legend
import Verif.Lemmas.Colour
import Verif.Props.Axes

/-! # C80, C84: the legend of `plot` and the size of its figure -/

namespace CC
open Spec

/-- The chains with an entry in the legend. -/
def Spec.labelled (chains : List (Chain ℝ)) : List (Chain ℝ) := chains.filter fun c => c.showLabelInLegend

/-- The colour of a chain is a hex code. -/
def Spec.HexColour (c : Chain ℝ) (s : String) : Prop := c.cfg .color = some s ∧ s.toList.head? = some '#'

/-- Nothing of a chain and no truth is drawn in a panel. -/
def Spec.Blank (calls : List Call) : Prop := items calls = [] ∧ marks calls = []

/-- A handle has the name and colour of a chain. -/
structure Spec.Stands (a : Artist) (c : Chain ℝ) : Prop where
  label : a.label = "  " ++ c.name
  color : ∀ s, HexColour c s → a.color = s
  ls : a.ls = c.cfg .linestyle

theorem artistOf_ok {c : Chain ℝ} {a : Artist} (h : artistOf c = .ok a) :
    Stands a c ∧ a.lw = (if c.cfg .plotContour = true ∨ c.cfg .plotPoint = false then c.cfg .linewidth else 0) ∧
    a.marker = (if c.cfg .plotPoint = true ∨ c.cfg .plotContour = false
      then some (c.cfg .markerStyle, Real.sqrt (c.cfg .markerSize)) else none) := by
  unfold artistOf at h
  rw [bind_ok_iff] at h
  obtain ⟨col, hcol, h⟩ := h
  have hc : ∀ s, HexColour c s → col = s := by
    rintro s ⟨h1, h2⟩
    rw [h1, format_hash h2] at hcol
    exact (Except.ok.inj hcol).symm
  cases h1 : c.cfg .plotContour <;> cases h2 : c.cfg .plotPoint <;> rw [h1, h2] at h <;> cases h <;>
    exact ⟨⟨rfl, hc, rfl⟩, by simp, by simp⟩

theorem textColors_ok {lc : LegendConfig} {cs : List (Chain ℝ)} {l : List (Option String)} (h : textColors lc cs = .ok l) :
    List.Forall₂ (fun c t => (lc.colorText = false → t = none) ∧
      (lc.colorText = true → ∃ s, t = some s ∧ ∀ s', HexColour c s' → s = s')) cs l := by
  rw [textColors, mapM_ok_iff] at h
  refine h.imp fun c t h => ?_
  cases hl : lc.colorText
  · rw [hl] at h
    cases h
    exact ⟨fun _ => rfl, fun e => by cases e⟩
  · rw [hl, if_pos rfl] at h
    rw [bind_ok_iff] at h
    obtain ⟨s, hs, h⟩ := h
    cases h
    refine ⟨fun e => (by cases e), fun _ => ⟨s, rfl, ?_⟩⟩
    rintro s' ⟨h1, h2⟩
    rw [h1, format_hash h2] at hs
    exact (Except.ok.inj hs).symm

/-- Unfolding of a legend. -/
theorem plotLegend_ok {lc : LegendConfig} {cfg : PlotConfig} {b : PlottingBase} {l : Legend}
    (h : plotLegend lc cfg b = .ok (some l)) :
    legendShown lc b.chains = true ∧
    pyIndex (b.columns.length - rowShift cfg) (legendLocation lc cfg b.columns.length).1 = .ok l.panel.1 ∧
    pyIndex (b.columns.length - rowShift cfg) (legendLocation lc cfg b.columns.length).2 = .ok l.panel.2 ∧
    ∃ artists colors, (labelled b.chains).mapM artistOf = .ok artists ∧
      textColors lc (labelled b.chains) = .ok colors ∧
      l.entries = List.zipWith (fun a col => ⟨a, a.label, col⟩) (if lc.reverse then artists.reverse else artists) colors ∧
      artists.length = (labelled b.chains).length ∧ colors.length = (labelled b.chains).length := by
  unfold plotLegend at h
  split at h
  · cases h
  rename_i hs
  simp only [bind_ok_iff, pure_ok_iff, Option.some.injEq] at h
  obtain ⟨i, hi, j, hj, artists, ha, colors, hc, rfl⟩ := h
  have e : (if cfg.plotHists then b.columns.length else b.columns.length - 1) = b.columns.length - rowShift cfg := by
    unfold rowShift; split <;> rfl
  rw [e] at hi hj
  rw [getArtists, List.filter_filter] at ha
  simp only [Bool.and_self] at ha
  refine ⟨by simpa using hs, hi, hj, artists, colors, ha, hc, rfl, ?_, ?_⟩
  · exact (List.Forall₂.length_eq (mapM_ok_iff.1 ha)).symm
  · exact (List.Forall₂.length_eq (mapM_ok_iff.1 hc)).symm

/-- **C80**: there is a legend if asked for, and by default if there is more than one chain. -/
theorem C80_shown {lc : LegendConfig} {cfg : PlotConfig} {b : PlottingBase} {r : Option Legend}
    (h : plotLegend lc cfg b = .ok r) :
    r ≠ none ↔ lc.showLegend = some true ∨ lc.showLegend = none ∧ 2 ≤ b.chains.length := by
  have key : legendShown lc b.chains = true ↔ lc.showLegend = some true ∨ lc.showLegend = none ∧ 2 ≤ b.chains.length := by
    unfold legendShown
    rcases lc.showLegend with _ | _ | _ <;> simp [Nat.lt_iff_add_one_le]
  rw [← key]
  cases r with
  | none =>
    refine ⟨fun e => absurd rfl e, fun hs => ?_⟩
    simp only [plotLegend, hs, Bool.not_true, Bool.false_eq_true, if_false, bind_ok_iff, pure_ok_iff] at h
    obtain ⟨_, -, _, -, _, -, _, -, h⟩ := h
    cases h
  | some l => exact ⟨fun _ => (plotLegend_ok h).1, fun _ => by simp⟩

/-- **C80**: the legend has one entry for each chain to be named, in order, with its name and its colour. -/
theorem C80_entries_partial {lc : LegendConfig} {cfg : PlotConfig} {b : PlottingBase} {l : Legend}
    (h : plotLegend lc cfg b = .ok (some l)) (hr : lc.reverse = false) :
    List.Forall₂ (fun c (e : LegendEntry) => e.text = "  " ++ c.name ∧ Stands e.handle c ∧
      (lc.colorText = false → e.textColor = none) ∧
      (lc.colorText = true → ∀ s, HexColour c s → e.textColor = some s)) (labelled b.chains) l.entries := by
  obtain ⟨-, -, -, artists, colors, ha, hc, he, hla, hlc⟩ := plotLegend_ok h
  rw [hr] at he
  simp only [Bool.false_eq_true, if_false] at he
  rw [he]
  have h1 := mapM_ok_iff.1 ha
  have h2 := textColors_ok hc
  clear he ha hc h hla hlc
  generalize labelled b.chains = cs at h1 h2
  induction h1 generalizing colors with
  | nil => cases h2; exact .nil
  | cons hd tl ih =>
    cases h2 with
    | cons hd2 tl2 =>
      obtain ⟨hst, -, -⟩ := artistOf_ok hd
      refine .cons ⟨hst.label, hst, hd2.1, fun ht s hs => ?_⟩ (ih _ tl2)
      obtain ⟨s', e, hs'⟩ := hd2.2 ht
      rw [e, hs' s hs]

/-- **C80**: also with the order of the entries turned around each handle has the name and colour of its chain. -/
theorem C80_handles {lc : LegendConfig} {cfg : PlotConfig} {b : PlottingBase} {l : Legend}
    (h : plotLegend lc cfg b = .ok (some l)) :
    List.Forall₂ (fun c (e : LegendEntry) => e.text = "  " ++ c.name ∧ Stands e.handle c)
      (if lc.reverse then (labelled b.chains).reverse else labelled b.chains) l.entries := by
  obtain ⟨-, -, -, artists, colors, ha, hc, he, hla, hlc⟩ := plotLegend_ok h
  have h1 := (mapM_ok_iff.1 ha).imp fun c a h => (artistOf_ok h).1
  have h2 : List.Forall₂ (fun c a => Stands a c) (if lc.reverse then (labelled b.chains).reverse else labelled b.chains)
      (if lc.reverse then artists.reverse else artists) := by
    split
    · exact List.rel_reverse h1
    · exact h1
  have hlen : colors.length = (if lc.reverse then artists.reverse else artists).length := by
    split <;> simp [hla, hlc]
  rw [he]
  clear he ha hc h hla hlc h1
  generalize (if lc.reverse then (labelled b.chains).reverse else labelled b.chains) = cs at h2
  generalize (if lc.reverse then artists.reverse else artists) = as at h2 hlen
  induction h2 generalizing colors with
  | nil => simp
  | cons hd tl ih =>
    cases colors with
    | nil => simp at hlen
    | cons t ts => exact .cons ⟨hd.label, hd⟩ (ih _ (by simpa using hlen))

/-- **C80**: the handle of a chain drawn with contours or as a point has a line exactly for contours and a marker exactly
for points. -/
theorem C80_handle_partial {c : Chain ℝ} {a : Artist} (h : artistOf c = .ok a) (hl : (0 : ℝ) < c.cfg .linewidth)
    (hd : c.cfg .plotContour = true ∨ c.cfg .plotPoint = true) :
    (0 < a.lw ↔ c.cfg .plotContour = true) ∧ (a.marker ≠ none ↔ c.cfg .plotPoint = true) := by
  obtain ⟨-, h1, h2⟩ := artistOf_ok h
  rw [h1, h2]
  cases h3 : c.cfg .plotContour <;> cases h4 : c.cfg .plotPoint <;> simp_all

/-- **C80** fails for chains drawn as clouds only: their handle is that of a chain with contours and a point. -/
theorem C80_violated_cloud {c : Chain ℝ} {a : Artist} (h : artistOf c = .ok a) (hl : (0 : ℝ) < c.cfg .linewidth)
    (hc : c.cfg .plotContour = false) (hp : c.cfg .plotPoint = false) : 0 < a.lw ∧ a.marker ≠ none := by
  obtain ⟨-, h1, h2⟩ := artistOf_ok h
  rw [h1, h2]
  simp [hc, hp, hl]

theorem pyIndex_ok_iff {n i k} : pyIndex n i = .ok k ↔ k < n ∧ (i = k ∨ i + n = k) := by
  unfold pyIndex
  split
  · rename_i h
    rw [Except.ok.injEq]
    omega
  · split
    · rw [Except.ok.injEq]
      omega
    · refine ⟨fun h => (by cases h), fun h => ?_⟩
      omega

/-- **C80**: a configured location is used, counting from the end if negative, and a legend outside of the grid is
refused. -/
theorem C80_location {lc : LegendConfig} {cfg : PlotConfig} {b : PlottingBase} {i j : Int} (hloc : lc.location = some (i, j))
    (hs : legendShown lc b.chains = true) :
    let n : Nat := b.columns.length - if cfg.plotHists then 0 else 1
    (∀ l, plotLegend lc cfg b = .ok (some l) →
      l.panel.1 < n ∧ l.panel.2 < n ∧ (i = l.panel.1 ∨ i + n = l.panel.1) ∧ (j = l.panel.2 ∨ j + n = l.panel.2)) ∧
    ((i < -n ∨ n ≤ i) → plotLegend lc cfg b = .error .index) ∧
    ((-n ≤ i ∧ i < n) → (j < -n ∨ n ≤ j) → plotLegend lc cfg b = .error .index) := by
  intro n
  have hn : rowShift cfg = if cfg.plotHists then 0 else 1 := rfl
  have e : (if cfg.plotHists then b.columns.length else b.columns.length - 1) = n := by
    change _ = b.columns.length - _
    split <;> rfl
  have hl : legendLocation lc cfg b.columns.length = (i, j) := by simp [legendLocation, hloc]
  refine ⟨fun l h => ?_, fun h => ?_, fun h h' => ?_⟩
  · obtain ⟨-, h1, h2, -⟩ := plotLegend_ok h
    rw [hl, hn, pyIndex_ok_iff] at h1 h2
    exact ⟨h1.1, h2.1, h1.2, h2.2⟩
  · have hp : pyIndex n i = .error .index := by
      unfold pyIndex
      rw [if_neg (by omega), if_neg (by omega)]
    simp only [plotLegend, hs, hl, e, hp]
    rfl
  · have hp : pyIndex n j = .error .index := by
      unfold pyIndex
      rw [if_neg (by omega), if_neg (by omega)]
    obtain ⟨k, hk⟩ : ∃ k, pyIndex n i = .ok k := by
      by_cases h0 : 0 ≤ i
      · exact ⟨i.toNat, pyIndex_ok_iff.2 (by omega)⟩
      · exact ⟨(i + n).toNat, pyIndex_ok_iff.2 (by omega)⟩
    simp only [plotLegend, hs, hl, e, hp, hk]
    rfl

/-- **C80**: a setting of `markerfirst` is obeyed; otherwise markers come first unless artists are asked for and the panel is
given by a row smaller than its column. -/
theorem C80_markers {lc : LegendConfig} {cfg : PlotConfig} {b : PlottingBase} {l : Legend}
    (h : plotLegend lc cfg b = .ok (some l)) :
    (∀ m, lc.markerfirst = some m → l.markerfirst = m) ∧
    (lc.markerfirst = none → lc.artists ≠ some true → l.markerfirst = true) ∧
    (lc.markerfirst = none → lc.artists = some true →
      (∀ i j, lc.location = some (i, j) → (l.markerfirst = false ↔ i < j)) ∧
      (lc.location = none → 3 ≤ b.columns.length → l.markerfirst = true)) := by
  unfold plotLegend at h
  split at h
  · cases h
  simp only [bind_ok_iff, pure_ok_iff, Option.some.injEq] at h
  obtain ⟨i, hi, j, hj, artists, ha, colors, hc, rfl⟩ := h
  refine ⟨fun m e => by simp [e], fun e e' => ?_, fun e e' => ⟨fun i j hl => ?_, fun hl hn => ?_⟩⟩
  · rcases hla : lc.artists with _ | _ | _
    · simp [e]
    · simp [e]
    · exact absurd hla e'
  · simp [e, e', legendLocation, hl]
  · have : 2 < b.columns.length := by omega
    simp [e, e', legendLocation, hl, this]

/-- **C80** fails for the order of markers and texts: the panel in the last column can be given as `(0, -1)` or as
`(0, n - 1)`, and the legends differ. -/
theorem C80_violated_markers {lc : LegendConfig} {cfg : PlotConfig} {b : PlottingBase} {l l' : Legend}
    (hm : lc.markerfirst = none) (ha : lc.artists = some true) {n : Nat} (hn : b.columns.length - rowShift cfg = n + 2)
    (h : plotLegend { lc with location := some (0, -1) } cfg b = .ok (some l))
    (h' : plotLegend { lc with location := some (0, (n : Int) + 1) } cfg b = .ok (some l')) :
    l.panel = l'.panel ∧ l.panel = (0, n + 1) ∧ l.entries = l'.entries ∧ l.markerfirst = true ∧ l'.markerfirst = false := by
  have m1 := ((C80_markers h).2.2 hm ha).1 0 (-1) rfl
  have m2 := ((C80_markers h').2.2 hm ha).1 0 ((n : Int) + 1) rfl
  obtain ⟨-, h1, h2, a1, c1, e1, e2, e3, -⟩ := plotLegend_ok h
  obtain ⟨-, h1', h2', a1', c1', e1', e2', e3', -⟩ := plotLegend_ok h'
  rw [hn, pyIndex_ok_iff] at h1 h2 h1' h2'
  simp only [legendLocation, Option.getD_some] at h1 h2 h1' h2'
  have p1 : l.panel = (0, n + 1) := Prod.ext (by omega) (by simp only; omega)
  have p2 : l'.panel = (0, n + 1) := Prod.ext (by omega) (by simp only; omega)
  obtain rfl : a1 = a1' := Except.ok.inj (e1.symm.trans e1')
  obtain rfl : c1 = c1' := Except.ok.inj (e2.symm.trans e2')
  refine ⟨p1.trans p2.symm, p1, e3.trans e3'.symm, ?_, m2.2 (by omega)⟩
  cases hl : l.markerfirst
  · exact absurd (m1.1 hl) (by omega)
  · rfl

/-- **C80**: by default the legend is put in a panel in which nothing is drawn, if there are three or more parameters, or two
with histograms that are not flipped. -/
theorem C80_blank_partial {lib : Lib} {truths : List (Truth ℝ)} {fig : Fig} {lc : LegendConfig} {cfg : PlotConfig}
    {b : PlottingBase} {l : Legend} (hf : plotBase lib cfg truths b = .ok fig) (h : plotLegend lc cfg b = .ok (some l))
    (hloc : lc.location = none)
    (hn : 3 ≤ b.columns.length ∨ b.columns.length = 2 ∧ cfg.plotHists = true ∧ cfg.flip = false) :
    (∃ calls, (l.panel, calls) ∈ fig.panels) ∧ ∀ calls, (l.panel, calls) ∈ fig.panels → Blank calls := by
  obtain ⟨-, h1, h2, -⟩ := plotLegend_ok h
  have hl : legendLocation lc cfg b.columns.length = (0, -1) := by
    simp only [legendLocation, hloc, Option.getD_none]
    rw [if_pos]
    rcases hn with hn | ⟨hn, h3, h4⟩
    · simp only [Bool.or_eq_true, decide_eq_true_eq]
      exact .inr (by omega)
    · simp [h4]
  rw [hl, pyIndex_ok_iff] at h1 h2
  have hlt : l.panel.1 < l.panel.2 := by
    have : rowShift cfg ≤ 1 := by unfold rowShift; split <;> omega
    have h3 : b.columns.length = 2 → rowShift cfg = 0 := by
      intro e
      rcases hn with hn | ⟨-, hp, -⟩
      · omega
      · unfold rowShift; rw [hp]; rfl
    omega
  constructor
  · exact plot_panel_exists hf h1.1 h2.1
  · intro calls hc
    rcases (plot_cases hf (i := l.panel.1) (j := l.panel.2) hc).2.2 with ⟨-, rfl⟩ | ⟨-, hji, -⟩ | ⟨-, e, -⟩
    · exact ⟨rfl, rfl⟩
    · omega
    · omega

/-- **C80** fails for two flipped histograms: the legend is put in the panel that shows the surfaces of both parameters,
although the panel above the diagonal is blank. -/
theorem C80_violated_flip {lib : Lib} {truths : List (Truth ℝ)} {fig : Fig} {lc : LegendConfig} {cfg : PlotConfig}
    {b : PlottingBase} {l : Legend} (hf : plotBase lib cfg truths b = .ok fig) (h : plotLegend lc cfg b = .ok (some l))
    (hloc : lc.location = none) {p q : String} (hn : b.columns = [p, q]) (hh : cfg.plotHists = true) (hflip : cfg.flip = true) :
    l.panel = (1, 0) ∧ (∀ calls, ((1, 0), calls) ∈ fig.panels → items calls = surfaceItems b.chains p q) ∧
    ∃ calls, ((0, 1), calls) ∈ fig.panels ∧ Blank calls := by
  obtain ⟨-, h1, h2, -⟩ := plotLegend_ok h
  have hl : legendLocation lc cfg b.columns.length = (-1, 0) := by simp [legendLocation, hloc, hn, hh, hflip]
  have hr : rowShift cfg = 0 := by unfold rowShift; rw [hh]; rfl
  rw [hl, pyIndex_ok_iff, hn, hr] at h1 h2
  simp only [List.length_cons, List.length_nil] at h1 h2
  obtain ⟨-, hk, hp⟩ := C56_panels hf
  simp only [hh, if_true, Nat.add_zero] at hk hp
  refine ⟨Prod.ext (by omega) (by omega), fun calls hc => ?_, ?_⟩
  · exact (hp 1 0 calls hc).2.1 (by norm_num) p q (by rw [hn]; rfl) (by rw [hn]; rfl)
  · have : (0, 1) ∈ fig.panels.map Prod.fst := (hk 0 1).2 (by rw [hn]; simp)
    obtain ⟨⟨ij, calls⟩, hm, rfl⟩ := List.mem_map.1 this
    refine ⟨calls, hm, ?_⟩
    rw [(hp 0 1 calls hm).1 (by norm_num)]
    exact ⟨rfl, rfl⟩

/-- **C80** fails for a figure of one panel: the legend is put in it. -/
theorem C80_violated_single {lib : Lib} {truths : List (Truth ℝ)} {fig : Fig} {lc : LegendConfig} {cfg : PlotConfig}
    {b : PlottingBase} {l : Legend} (hf : plotBase lib cfg truths b = .ok fig) (h : plotLegend lc cfg b = .ok (some l))
    (hn : b.columns.length = if cfg.plotHists then 1 else 2) :
    l.panel = (0, 0) ∧ ∀ ij calls, (ij, calls) ∈ fig.panels → ij = (0, 0) := by
  obtain ⟨-, h1, h2, -⟩ := plotLegend_ok h
  have hr : b.columns.length - rowShift cfg = 1 := by rw [hn]; unfold rowShift; split <;> rfl
  rw [hr, pyIndex_ok_iff] at h1 h2
  refine ⟨Prod.ext (by omega) (by omega), fun ij calls hc => ?_⟩
  obtain ⟨-, -, hp⟩ := plot_panels hf
  obtain ⟨h3, h4, -⟩ := hp _ _ hc
  exact Prod.ext (by omega) (by omega)

/-- **C80** fails if the legend is turned around by `legend_kwargs={"reverse": True}`: the texts are coloured in the order of
the chains, so each of two chains is named in the colour of the other one. -/
theorem C80_violated_reverse {lc : LegendConfig} {cfg : PlotConfig} {b : PlottingBase} {l : Legend}
    (h : plotLegend lc cfg b = .ok (some l)) (hr : lc.reverse = true) (ht : lc.colorText = true) {c d : Chain ℝ}
    (hb : labelled b.chains = [c, d]) {s t : String} (hs : HexColour c s) (hd : HexColour d t) :
    ∃ e f, l.entries = [e, f] ∧ e.text = "  " ++ d.name ∧ e.textColor = some s ∧ e.handle.color = t ∧
      f.text = "  " ++ c.name ∧ f.textColor = some t ∧ f.handle.color = s := by
  obtain ⟨-, -, -, artists, colors, ha, hc, he, hla, hlc⟩ := plotLegend_ok h
  rw [hb] at ha hc
  have h1 := mapM_ok_iff.1 ha
  have h2 := textColors_ok hc
  rw [hr] at he
  rcases h1 with _ | ⟨a1, _ | ⟨a2, ⟨⟩⟩⟩
  rcases h2 with _ | ⟨t1, _ | ⟨t2, ⟨⟩⟩⟩
  obtain ⟨k1, -, -⟩ := artistOf_ok a1
  obtain ⟨k2, -, -⟩ := artistOf_ok a2
  obtain ⟨s', e1, hs'⟩ := t1.2 ht
  obtain ⟨t', e2, ht'⟩ := t2.2 ht
  subst e1 e2
  refine ⟨_, _, he, k2.label, ?_, k2.color t hd, k1.label, ?_, k1.color s hs⟩
  · exact congrArg some (hs' s hs)
  · exact congrArg some (ht' t hd)

/-- **C80** fails for `legend_artists=False`, described as whether to show artists in the legend: the entries do not depend on
it. -/
theorem C80_violated_artists {lc : LegendConfig} {cfg : PlotConfig} {b : PlottingBase} {l : Legend}
    (h : plotLegend { lc with artists := some true } cfg b = .ok (some l)) :
    ∃ l', plotLegend { lc with artists := some false } cfg b = .ok (some l') ∧ l'.entries = l.entries ∧ l'.panel = l.panel := by
  unfold plotLegend at h ⊢
  have e1 : legendShown { lc with artists := some false } b.chains = legendShown { lc with artists := some true } b.chains := rfl
  have e2 : legendLocation { lc with artists := some false } cfg b.columns.length =
    legendLocation { lc with artists := some true } cfg b.columns.length := rfl
  have e3 : textColors { lc with artists := some false } (labelled b.chains) =
    textColors { lc with artists := some true } (labelled b.chains) := rfl
  rw [e1, e2]
  split at h
  · cases h
  rename_i hs
  rw [if_neg hs]
  simp only [bind_ok_iff, pure_ok_iff, Option.some.injEq] at h ⊢
  obtain ⟨i, hi, j, hj, artists, ha, colors, hc, rfl⟩ := h
  exact ⟨_, ⟨i, hi, j, hj, artists, ha, colors, hc, rfl⟩, rfl, rfl⟩

/-- **C80** (existence): in a grid with panels the legend of chains without a colour or with hex colours is drawn, at the default
location or at one within the grid. -/
theorem C80_exists {lc : LegendConfig} {cfg : PlotConfig} {b : PlottingBase}
    (hn : 0 < b.columns.length - if cfg.plotHists then 0 else 1)
    (hloc : lc.location = none ∨ ∃ i j : Int, lc.location = some (i, j) ∧
      -((b.columns.length - if cfg.plotHists then 0 else 1 : Nat) : Int) ≤ i ∧ i < (b.columns.length - if cfg.plotHists then 0 else 1 : Nat) ∧
      -((b.columns.length - if cfg.plotHists then 0 else 1 : Nat) : Int) ≤ j ∧ j < (b.columns.length - if cfg.plotHists then 0 else 1 : Nat))
    (hc : ∀ c ∈ b.chains, c.cfg .color = none ∨ ∃ s, HexColour c s) : ∃ r, plotLegend lc cfg b = .ok r := by
  unfold plotLegend
  split
  · exact ⟨_, rfl⟩
  have e : (if cfg.plotHists then b.columns.length else b.columns.length - 1) =
    b.columns.length - if cfg.plotHists then 0 else 1 := by split <;> rfl
  have hl : ∃ i j, pyIndex (b.columns.length - if cfg.plotHists then 0 else 1) (legendLocation lc cfg b.columns.length).1 = .ok i ∧
      pyIndex (b.columns.length - if cfg.plotHists then 0 else 1) (legendLocation lc cfg b.columns.length).2 = .ok j := by
    generalize (b.columns.length - if cfg.plotHists then 0 else 1) = n at hn hloc
    have hin : ∀ i : Int, -(n : Int) ≤ i → i < n → ∃ k, pyIndex n i = .ok k := by
      intro i h1 h2
      by_cases h0 : 0 ≤ i
      · exact ⟨i.toNat, pyIndex_ok_iff.2 (by omega)⟩
      · exact ⟨(i + n).toNat, pyIndex_ok_iff.2 (by omega)⟩
    rcases hloc with hloc | ⟨i, j, hloc, i1, i2, j1, j2⟩
    swap
    · obtain ⟨k, hk⟩ := hin i i1 i2
      obtain ⟨k', hk'⟩ := hin j j1 j2
      simp only [legendLocation, hloc, Option.getD_some]
      exact ⟨k, k', hk, hk'⟩
    have h0 : pyIndex n 0 = .ok 0 := pyIndex_ok_iff.2 (by omega)
    have h1 : pyIndex n (-1) = .ok (n - 1) := pyIndex_ok_iff.2 (by omega)
    unfold legendLocation
    rw [hloc, Option.getD_none]
    split
    · exact ⟨_, _, h0, h1⟩
    · exact ⟨_, _, h1, h0⟩
  obtain ⟨i, j, hi, hj⟩ := hl
  have hfmt : ∀ c ∈ b.chains, ∃ s, Colors.format (c.cfg .color) = .ok s := by
    intro c hm
    rcases hc c hm with h | ⟨s, h1, h2⟩
    · rw [h]; exact ⟨_, rfl⟩
    · rw [h1, format_hash h2]; exact ⟨_, rfl⟩
  have ha : ∃ artists, getArtists (b.chains.filter fun c => c.showLabelInLegend) = .ok artists := by
    refine mapM_ok_of_forall fun c hm => ?_
    obtain ⟨s, hs⟩ := hfmt c (List.mem_of_mem_filter (List.mem_of_mem_filter hm))
    unfold artistOf
    rw [hs]
    cases c.cfg .plotContour <;> cases c.cfg .plotPoint <;> exact ⟨_, rfl⟩
  have ht : ∃ colors, textColors lc (b.chains.filter fun c => c.showLabelInLegend) = .ok colors := by
    refine mapM_ok_of_forall fun c hm => ?_
    obtain ⟨s, hs⟩ := hfmt c (List.mem_of_mem_filter hm)
    rw [hs]
    cases lc.colorText <;> exact ⟨_, rfl⟩
  obtain ⟨artists, ha⟩ := ha
  obtain ⟨colors, ht⟩ := ht
  rw [e]
  simp only [hi, hj, ha, ht]
  exact ⟨_, rfl⟩

/-! ### The size of the figure -/

/-- **C84** for sizes given as such, and the growth of growing figures: by the same length for every parameter, proportional
to the factor. -/
theorem C84_sizes_partial (n : Nat) (cax : Bool) (w h f : ℝ) (k : Int) :
    figSize (.size w h) n cax = (w, h) ∧ figSize (.square k) n cax = ((k : ℝ), (k : ℝ)) ∧
    figSize .grow n cax = figSize (.factor 1) n cax ∧
    (figSize (.factor f) (n + 1) cax).1 - (figSize (.factor f) n cax).1 =
      f * ((figSize .grow (n + 1) cax).1 - (figSize .grow n cax).1) ∧
    (figSize (.factor f) (n + 1) cax).2 - (figSize (.factor f) n cax).2 =
      f * ((figSize .grow (n + 1) cax).2 - (figSize .grow n cax).2) ∧
    (figSize (.factor f) n true).1 = (figSize (.factor f) n false).1 + 1 ∧
    (figSize (.factor f) n false).1 = (figSize (.factor f) n cax).2 ∧
    (0 ≤ f → 0 < (figSize (.factor f) n cax).1 ∧ 0 < (figSize (.factor f) n cax).2) := by
  refine ⟨rfl, rfl, rfl, ?_, ?_, ?_, ?_, ?_⟩
  · simp only [figSize]; push_cast; ring
  · simp only [figSize]; push_cast; ring
  · simp [figSize]
  · simp [figSize]
  · intro hf
    have : 0 ≤ f * 2 * (n : ℝ) := by positivity
    simp only [figSize]
    constructor
    · cases cax <;> simp <;> linarith
    · linarith

/-- **C84** for the key words: a column is 5 inches wide and high, a page 10 inches, whatever the number of parameters; colour
bars widen a column by an inch. -/
theorem C84_keywords (n : Nat) :
    figSize .column n false = (5, 5) ∧ figSize .column n true = (6, 5) ∧ ∀ cax, figSize .page n cax = (10, 10) := by
  refine ⟨?_, ?_, fun _ => rfl⟩ <;> norm_num [figSize]

/-- **C84** fails: `GROW` is documented as 1.5 inches per parameter, and adds 2. -/
theorem C84_violated_grow (n : Nat) (cax : Bool) :
    (figSize .grow (n + 1) cax).1 - (figSize .grow n cax).1 = 2 ∧ (figSize .grow (n + 1) cax).2 - (figSize .grow n cax).2 = 2 := by
  constructor <;> simp only [figSize] <;> push_cast <;> ring

/-- **C84** fails: a number is documented to scale the size of `GROW`, and does so only for the factor 1. -/
theorem C84_violated_factor (n : Nat) (cax : Bool) (f : ℝ) :
    (figSize (.factor f) n cax).2 = f * (figSize .grow n cax).2 ↔ f = 1 := by
  simp only [figSize]
  constructor
  · intro h; linarith
  · rintro rfl; ring

/-- **C84** fails: strings are documented to be accepted, and all mean `GROW`. -/
theorem C84_violated_string (n : Nat) (cax : Bool) : (∀ s, figSize (.text s) n cax = figSize .grow n cax) ∧
    figSize (.text "PAGE") n cax ≠ figSize .page n cax := by
  refine ⟨fun _ => rfl, fun h => ?_⟩
  have := congrArg Prod.snd h
  simp only [figSize] at this
  have h2 : (2 : ℝ) * (n : ℝ) = 7 := by linarith
  have h3 : 2 * n = 7 := by exact_mod_cast h2
  omega

/-! ### Examples -/

/-- A legend of two chains with different colours. -/
example : ∃ (b : PlottingBase) (c d : Chain ℝ) (l : Legend), plotLegend {} {} b = .ok (some l) ∧ labelled b.chains = [c, d] ∧
    HexColour c "#3b82f6" ∧ HexColour d "#f97316" ∧ l.panel = (0, 1) ∧ (0 : ℝ) < c.cfg .linewidth ∧
    (∃ e f, l.entries = [e, f] ∧ e.text = "  one" ∧ f.text = "  cloud" ∧ e.textColor = some "#3b82f6") ∧
    ∃ l', plotLegend { reverse := true } {} b = .ok (some l') ∧
      ∃ e f, l'.entries = [e, f] ∧ e.text = "  cloud" ∧ e.textColor = some "#3b82f6" ∧ e.handle.color = "#f97316" := by
  obtain ⟨c1, h1⟩ := gridSingle_exists
  obtain ⟨c2, h2⟩ := cloudPair_exists
  set c : Chain ℝ := { c1 with cfg := c1.cfg.set ⟨.color, some "#3b82f6"⟩, showLabelInLegend := true } with hcd
  set d : Chain ℝ := { c2 with cfg := c2.cfg.set ⟨.color, some "#f97316"⟩, showLabelInLegend := true } with hdd
  have hc : HexColour c "#3b82f6" := ⟨by rw [hcd]; rfl, by decide⟩
  have hd : HexColour d "#f97316" := ⟨by rw [hdd]; rfl, by decide⟩
  have hlab : labelled (demoBase [c, d]).chains = [c, d] := by
    simp [labelled, demoBase, hcd, hdd]
  have hall : ∀ x ∈ (demoBase [c, d]).chains, x.cfg .color = none ∨ ∃ s, HexColour x s := by
    intro x hx
    rcases List.mem_cons.1 hx with rfl | hx
    · exact .inr ⟨_, hc⟩
    · rw [List.mem_singleton] at hx
      exact .inr ⟨_, hx ▸ hd⟩
  have hn1 : c.name = "one" := h1.name
  have hn2 : d.name = "cloud" := h2.name
  have ex : ∀ lc : LegendConfig, lc.showLegend = none → lc.location = none →
      ∃ l, plotLegend lc {} (demoBase [c, d]) = .ok (some l) := by
    intro lc hs hl
    obtain ⟨r, hr⟩ := C80_exists (lc := lc) (cfg := {}) (b := demoBase [c, d]) (by simp [demoBase]) (.inl hl) hall
    have := (C80_shown hr).2 (.inr ⟨hs, by simp [demoBase]⟩)
    cases r with
    | none => exact absurd rfl this
    | some l => exact ⟨l, hr⟩
  obtain ⟨l, hl⟩ := ex {} rfl rfl
  obtain ⟨l', hl'⟩ := ex { reverse := true } rfl rfl
  refine ⟨demoBase [c, d], c, d, l, hl, hlab, hc, hd, ?_, ?_, ?_, l', hl', ?_⟩
  · obtain ⟨-, k1, k2, -⟩ := plotLegend_ok hl
    rw [pyIndex_ok_iff] at k1 k2
    have e1 : (demoBase [c, d]).columns.length - rowShift {} = 2 := rfl
    have e2 : legendLocation {} {} (demoBase [c, d]).columns.length = (0, -1) := rfl
    rw [e1, e2] at k1 k2
    exact Prod.ext (by omega) (by omega)
  · have : (c.cfg .linewidth : ℝ) = 1 := by
      rw [hcd]
      change (c1.cfg .linewidth : ℝ) = 1
      rw [h1.cfg]; rfl
    rw [this]; norm_num
  · have k := C80_entries_partial hl rfl
    rw [hlab] at k
    rcases hle : l.entries with _ | ⟨e, _ | ⟨f, _ | ⟨g, t⟩⟩⟩ <;> rw [hle] at k
    · cases k
    · rcases k with _ | ⟨-, ⟨⟩⟩
    · rcases k with _ | ⟨k1, _ | ⟨k2, -⟩⟩
      exact ⟨e, f, rfl, by rw [k1.1, hn1]; rfl, by rw [k2.1, hn2]; rfl, k1.2.2.2 rfl _ hc⟩
    · rcases k with _ | ⟨-, _ | ⟨-, ⟨⟩⟩⟩
  · obtain ⟨e, f, k1, k2, k3, k4, -⟩ := C80_violated_reverse hl' rfl rfl hlab hc hd
    exact ⟨e, f, k1, by rw [k2, hn2]; rfl, k3, k4⟩

/-- The legend in a blank panel, and in the panel of the surfaces if histograms are flipped. -/
example (lib : Lib) : ∃ (b : PlottingBase) (fig fig' : Fig) (l l' : Legend), plotBase lib {} [] b = .ok fig ∧
    plotBase lib { flip := true } [] b = .ok fig' ∧ plotLegend {} {} b = .ok (some l) ∧
    plotLegend {} { flip := true } b = .ok (some l') ∧ (∀ calls, (l.panel, calls) ∈ fig.panels → Blank calls) ∧
    ∃ calls, (l'.panel, calls) ∈ fig'.panels ∧ items calls = [.cloud "cloud" "a" "b"] := by
  obtain ⟨c1, h1⟩ := gridSingle_exists
  obtain ⟨c2, h2⟩ := cloudPair_exists
  obtain ⟨fig, hf⟩ := demo_triangle lib [] h1 h2
  obtain ⟨fig', hf'⟩ := demo_triangle_cfg lib { flip := true } rfl [] h1 h2
  have hk1 : (c1.cfg .color : Option String) = none := by rw [h1.cfg]; rfl
  have hk2 : (c2.cfg .color : Option String) = none := by rw [h2.cfg]; rfl
  have ex : ∀ cfg : PlotConfig, cfg.plotHists = true → ∃ l, plotLegend {} cfg (demoBase [c1, c2]) = .ok (some l) := by
    intro cfg hh
    obtain ⟨r, hr⟩ := C80_exists (lc := {}) (cfg := cfg) (b := demoBase [c1, c2]) (by simp [demoBase, hh]) (.inl rfl) (by
      intro x hx
      rcases List.mem_cons.1 hx with rfl | hx
      · exact .inl hk1
      · rw [List.mem_singleton] at hx
        exact .inl (hx ▸ hk2))
    have := (C80_shown hr).2 (.inr ⟨rfl, by simp [demoBase]⟩)
    cases r with
    | none => exact absurd rfl this
    | some l => exact ⟨l, hr⟩
  obtain ⟨l, hl⟩ := ex {} rfl
  obtain ⟨l', hl'⟩ := ex { flip := true } rfl
  obtain ⟨-, k⟩ := C80_blank_partial hf hl rfl (.inr ⟨rfl, rfl, rfl⟩)
  obtain ⟨k1, k2, -⟩ := C80_violated_flip hf' hl' rfl (p := "a") (q := "b") rfl rfl rfl
  refine ⟨_, fig, fig', l, l', hf, hf', hl, hl', k, ?_⟩
  obtain ⟨calls, hm⟩ := plot_panel_exists hf' (i := 1) (j := 0) (by simp [demoBase]) (by simp [demoBase])
  refine ⟨calls, k1 ▸ hm, (k2 calls hm).trans ?_⟩
  have hp1 : c1.plottingColumns = ["a"] := (demo_columns h1 (.inl rfl)).trans (by decide)
  have hp2 : c2.plottingColumns = ["a", "b"] := (demo_columns h2 (.inr rfl)).trans (by decide)
  have hk2 : (c2.cfg .plotContour : Bool) = false := by rw [h2.cfg]; rfl
  have hk3 : (c2.cfg .plotCloud : Bool) = true := by rw [h2.cfg]; rfl
  have hk4 : (c2.cfg .plotPoint : Bool) = false := by rw [h2.cfg]; rfl
  simp [surfaceItems, demoBase, hp1, hp2, hk2, hk3, hk4, h2.name]

/-- The same panel given as `(0, -1)` and as `(0, 1)`. -/
example : ∃ (b : PlottingBase) (l l' : Legend),
    plotLegend { artists := some true, location := some (0, -1) } {} b = .ok (some l) ∧
    plotLegend { artists := some true, location := some (0, 1) } {} b = .ok (some l') ∧
    l.panel = l'.panel ∧ l.entries = l'.entries ∧ l.markerfirst = true ∧ l'.markerfirst = false := by
  obtain ⟨c1, h1⟩ := gridSingle_exists
  obtain ⟨c2, h2⟩ := cloudPair_exists
  have hk1 : (c1.cfg .color : Option String) = none := by rw [h1.cfg]; rfl
  have hk2 : (c2.cfg .color : Option String) = none := by rw [h2.cfg]; rfl
  have ex : ∀ j : Int, -2 ≤ j → j < 2 →
      ∃ l, plotLegend { artists := some true, location := some (0, j) } {} (demoBase [c1, c2]) = .ok (some l) := by
    intro j hj hj'
    obtain ⟨r, hr⟩ := C80_exists (lc := { artists := some true, location := some (0, j) }) (cfg := {})
      (b := demoBase [c1, c2]) (by simp [demoBase]) (.inr ⟨0, j, rfl, by simp [demoBase], by simp [demoBase],
        by simpa [demoBase] using hj, by simpa [demoBase] using hj'⟩) (by
      intro x hx
      rcases List.mem_cons.1 hx with rfl | hx
      · exact .inl hk1
      · rw [List.mem_singleton] at hx
        exact .inl (hx ▸ hk2))
    have := (C80_shown hr).2 (.inr ⟨rfl, by simp [demoBase]⟩)
    cases r with
    | none => exact absurd rfl this
    | some l => exact ⟨l, hr⟩
  obtain ⟨l, hl⟩ := ex (-1) (by norm_num) (by norm_num)
  obtain ⟨l', hl'⟩ := ex 1 (by norm_num) (by norm_num)
  obtain ⟨k1, -, k2, k3, k4⟩ := C80_violated_markers (lc := { artists := some true }) (n := 0) rfl rfl rfl hl hl'
  exact ⟨_, l, l', hl, hl', k1, k2, k3, k4⟩

end CC
