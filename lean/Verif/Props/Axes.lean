import Verif.Spec.Axes
import Verif.Lemmas.Draw
import Verif.Props.Blinded

/-! # C77, C78: the scale and the label of an axis belong to the parameter along it -/

namespace CC
open Spec

theorem getLabel_nameOf (labels : List (String × String)) (p : String) : getLabel labels p = nameOf labels p := by
  unfold getLabel nameOf
  induction labels with
  | nil => rfl
  | cons e l ih =>
    obtain ⟨a, t⟩ := e
    by_cases h : p = a
    · subst h; simp
    · have h1 : (p == a) = false := by simp [h]
      have h2 : (a == p) = false := by simp [Ne.symm h]
      simp only [List.lookup_cons, h1, List.find?_cons, h2]
      exact ih

theorem axisTexts_append (d : Dir) (a b : List Call) : axisTexts d (a ++ b) = axisTexts d a ++ axisTexts d b :=
  List.filterMap_append

theorem axisTexts_draw {l : List Call} (h : ∀ c ∈ l, isDraw c = true) (d : Dir) : axisTexts d l = [] :=
  List.filterMap_eq_nil_iff.2 fun c hc => by
    have := h c hc
    cases c <;> first | rfl | cases this

theorem logAxis_append (d : Dir) (a b : List Call) : LogAxis d (a ++ b) ↔ LogAxis d a ∨ LogAxis d b := List.mem_append

theorem logAxis_draw {l : List Call} (h : ∀ c ∈ l, isDraw c = true) (d : Dir) : ¬ LogAxis d l := fun hl => by
  have := h _ hl
  cases this

theorem logAxis_append_draw {a l : List Call} (h : ∀ c ∈ l, isDraw c = true) (d : Dir) :
    LogAxis d (a ++ l) ↔ LogAxis d a := by
  rw [logAxis_append]
  exact or_iff_left (logAxis_draw h d)

theorem axisTexts_append_draw {a l : List Call} (h : ∀ c ∈ l, isDraw c = true) (d : Dir) :
    axisTexts d (a ++ l) = axisTexts d a := by
  rw [axisTexts_append, axisTexts_draw h, List.append_nil]

theorem axisCalls_axes (cfg : PlotConfig) (blind : List String) (d : Dir) (p : String) (log shown : Bool) :
    (∀ e, LogAxis e (axisCalls cfg blind d p log shown) ↔ e = d ∧ log = true) ∧
    (∀ e, axisTexts e (axisCalls cfg blind d p log shown) = if e = d ∧ shown = true then [nameOf cfg.labels p] else []) := by
  rw [← getLabel_nameOf]
  unfold axisCalls
  constructor
  · intro e
    by_cases hb : p ∈ blind <;> cases log <;> cases shown <;> cases d <;> cases e <;> simp [LogAxis, hb]
  · intro e
    by_cases hb : p ∈ blind <;> cases log <;> cases shown <;> cases d <;> cases e <;> simp [axisTexts, axisTextOf, hb, List.filterMap_cons]

/-- Scales and labels of a panel of `plot` on or below the diagonal. -/
theorem trianglePanel_axes {cfg : PlotConfig} {b : PlottingBase} {n i j : Nat} {p1 p2 : String} {s : List Call}
    (h : trianglePanel cfg b n i j p1 p2 = .ok s) (hij : j ≤ i) :
    (LogAxis .x s ↔ (logAxes cfg b.logScales n j p1 p2).1 = true) ∧
    (LogAxis .y s ↔ (logAxes cfg b.logScales n j p1 p2).2 = true) ∧
    axisTexts .x s = (if bottomTicks cfg n i j = true then [nameOf cfg.labels p2] else []) ∧
    axisTexts .y s = (if leftTicks cfg i j = true then [nameOf cfg.labels p1] else []) := by
  unfold trianglePanel at h
  rw [if_neg (by omega)] at h
  simp only [bind_ok_iff, pure_ok_iff] at h
  obtain ⟨ylim, hy, xlim, hx, rfl⟩ := h
  obtain ⟨lo, hi, rfl, -⟩ := setLim_setup hx
  have hyl : ∀ c ∈ ylim ++ [Call.lim .x lo hi], isDraw c = true := by
    intro c hc
    rcases List.mem_append.1 hc with hc | hc
    · unfold triangleYlim at hy
      split at hy
      · simp only [bind_ok_iff, pure_ok_iff] at hy
        obtain ⟨_, hy, rfl⟩ := hy
        obtain ⟨lo, hi, rfl, -⟩ := setLim_setup hy
        rw [List.mem_singleton.1 hc]; rfl
      · cases hy; cases hc
    · rw [List.mem_singleton.1 hc]; rfl
  obtain ⟨x1, x2⟩ := axisCalls_axes cfg b.blind .x p2 (logAxes cfg b.logScales n j p1 p2).1 (bottomTicks cfg n i j)
  obtain ⟨y1, y2⟩ := axisCalls_axes cfg b.blind .y p1 (logAxes cfg b.logScales n j p1 p2).2 (leftTicks cfg i j)
  rw [List.append_assoc]
  refine ⟨?_, ?_, ?_, ?_⟩
  · rw [logAxis_append, logAxis_append, x1, y1]
    simp [logAxis_draw hyl]
  · rw [logAxis_append, logAxis_append, x1, y1]
    simp [logAxis_draw hyl]
  · rw [axisTexts_append, axisTexts_append, x2, y2, axisTexts_draw hyl]
    simp
  · rw [axisTexts_append, axisTexts_append, x2, y2, axisTexts_draw hyl]
    simp

/-- Scales and labels of the panels of `plot` with two parameters. -/
theorem plot_pair_axes {lib : Lib} {cfg : PlotConfig} {truths : List (Truth ℝ)} {b : PlottingBase} {fig : Fig}
    (h : plotBase lib cfg truths b = .ok fig) {i j : Nat} {calls : List Call} (hc : ((i, j), calls) ∈ fig.panels)
    {px py : String} (hij : j ≤ i) (hlt : j < i + if cfg.plotHists then 0 else 1)
    (hx : b.columns[j]? = some px) (hy : b.columns[i + if cfg.plotHists then 0 else 1]? = some py) :
    let n := b.columns.length - if cfg.plotHists then 0 else 1
    (LogAxis .x calls ↔ (logAxes cfg b.logScales n j py px).1 = true) ∧
    (LogAxis .y calls ↔ (logAxes cfg b.logScales n j py px).2 = true) ∧
    axisTexts .x calls = (if bottomTicks cfg n i j = true then [nameOf cfg.labels px] else []) ∧
    axisTexts .y calls = (if leftTicks cfg i j = true then [nameOf cfg.labels py] else []) := by
  intro n
  obtain ⟨-, -, hcase⟩ := plot_cases h hc
  rcases hcase with ⟨h1, -⟩ | ⟨-, -, px', py', s, d, bars, ex, ey, hs, hd, rfl⟩ | ⟨h1, rfl, -⟩
  · omega
  · rw [hx] at ex
    rw [hy] at ey
    cases ex; cases ey
    obtain ⟨k1, k2, k3, k4⟩ := trianglePanel_axes hs hij
    have hdraw : ∀ c ∈ d ++ plotTruths lib.filled truths (some px) (some py), isDraw c = true := by
      intro c hc
      rcases List.mem_append.1 hc with hc | hc
      · exact plotSurface_draw hd c hc
      · exact plotTruths_draw _ _ _ _ c hc
    refine ⟨?_, ?_, ?_, ?_⟩
    · rw [logAxis_append_draw hdraw, k1]
    · rw [logAxis_append_draw hdraw, k2]
    · rw [axisTexts_append_draw hdraw, k3]
    · rw [axisTexts_append_draw hdraw, k4]
  · rw [if_pos h1] at hlt; omega

/-- Scales and labels of the histograms of `plot`. -/
theorem plot_hist_axes {lib : Lib} {cfg : PlotConfig} {truths : List (Truth ℝ)} {b : PlottingBase} {fig : Fig}
    (h : plotBase lib cfg truths b = .ok fig) (hh : cfg.plotHists = true) {i : Nat} {calls : List Call}
    (hc : ((i, i), calls) ∈ fig.panels) {p : String} (hp : b.columns[i]? = some p) :
    (LogAxis .x calls ↔ p ∈ b.logScales ∧ ¬ (cfg.flip = true ∧ i + 1 = b.columns.length)) ∧
    (LogAxis .y calls ↔ p ∈ b.logScales ∧ cfg.flip = true ∧ i + 1 = b.columns.length) ∧
    axisTexts .x calls = (if i + 1 = b.columns.length ∧ cfg.flip = false then [nameOf cfg.labels p] else []) ∧
    axisTexts .y calls = [] ∧
    (∀ it ∈ items calls, ∃ c, it = .hist c p (cfg.flip && decide (b.columns.length = 2 ∧ i = 1))) := by
  obtain ⟨hi, -, hcase⟩ := plot_cases h hc
  rw [if_pos hh, Nat.sub_zero] at hi
  rcases hcase with ⟨h1, -⟩ | ⟨h1, -⟩ | ⟨-, -, p', s, r, ep, hs, hr, rfl⟩
  · omega
  · rw [if_pos hh] at h1; omega
  rw [hp] at ep
  cases ep
  rw [if_pos hh, Nat.sub_zero] at hs
  obtain ⟨k1, k2, k3, k4⟩ := trianglePanel_axes hs le_rfl
  have hflip : (cfg.flip && decide (i = b.columns.length - 1)) = true ↔ cfg.flip = true ∧ i + 1 = b.columns.length := by
    rw [Bool.and_eq_true, decide_eq_true_eq]
    exact and_congr_right fun _ => by omega
  have hdraw : ∀ c ∈ histTruths lib truths (cfg.flip && decide (b.columns.length = 2 ∧ i = 1)) p ++ r.1 ++
      topLim (cfg.flip && decide (b.columns.length = 2 ∧ i = 1)) r.2, isDraw c = true := by
    intro c hc
    rcases List.mem_append.1 hc with hc | hc
    · rcases List.mem_append.1 hc with hc | hc
      · exact histTruths_draw _ _ _ _ c hc
      · exact histChains_draw hr c hc
    · exact topLim_draw _ _ c hc
  refine ⟨?_, ?_, ?_, ?_, ?_⟩
  · rw [logAxis_append_draw hdraw, k1, logAxes, if_pos rfl, ← hflip]
    by_cases hl : p ∈ b.logScales <;> by_cases hf : (cfg.flip && decide (i = b.columns.length - 1)) = true <;>
      simp only [hl, hf, if_true, if_false, Bool.false_eq_true, true_and, false_and, not_true_eq_false, not_false_eq_true]
  · rw [logAxis_append_draw hdraw, k2, logAxes, if_pos rfl, ← hflip]
    by_cases hl : p ∈ b.logScales <;> by_cases hf : (cfg.flip && decide (i = b.columns.length - 1)) = true <;>
      simp only [hl, hf, if_true, if_false, Bool.false_eq_true, true_and, false_and]
  · rw [axisTexts_append_draw hdraw, k3]
    congr 1
    simp only [bottomTicks, Bool.not_eq_true', Bool.or_eq_false_iff, decide_eq_false_iff_not, ne_eq, not_not,
      Bool.and_eq_false_iff, eq_iff_iff]
    constructor
    · rintro ⟨e, he⟩
      exact ⟨by omega, by tauto⟩
    · rintro ⟨e, he⟩
      exact ⟨by omega, .inl he⟩
  · rw [axisTexts_append_draw hdraw, k4, if_neg]
    simp only [leftTicks, hh, Bool.true_and]
    by_cases hi0 : i = 0 <;> simp [hi0]
  · intro it hit
    rw [items_append, (items_of_setup (trianglePanel_setup hs)).1, List.nil_append, items_append, items_append] at hit
    have e1 := (histChains_items (calls := r.1) (m' := r.2) hr).1
    have e2 : items (histTruths lib truths (cfg.flip && decide (b.columns.length = 2 ∧ i = 1)) p) = [] := by
      cases (cfg.flip && decide (b.columns.length = 2 ∧ i = 1))
      · exact (plotTruths_marks _ _ _ _).1
      · exact (plotTruths_marks _ _ _ _).1
    have e3 := (items_of_setup fun c hc => ((topLim_setup (cfg.flip && decide (b.columns.length = 2 ∧ i = 1)) r.2).1 c hc).1).1
    rw [e1, e2, e3, List.nil_append, List.append_nil] at hit
    obtain ⟨c, -, rfl⟩ := List.mem_map.1 hit
    exact ⟨_, rfl⟩

/-- **C77** for the panels of `plot` with two parameters: each axis is logarithmic exactly if its own parameter is to be
shown so. -/
theorem C77_pairs {lib : Lib} {cfg : PlotConfig} {truths : List (Truth ℝ)} {b : PlottingBase} {fig : Fig}
    (h : plotBase lib cfg truths b = .ok fig) {i j : Nat} {calls : List Call} (hc : ((i, j), calls) ∈ fig.panels)
    {px py : String} (hij : j ≤ i) (hlt : j < i + if cfg.plotHists then 0 else 1)
    (hx : b.columns[j]? = some px) (hy : b.columns[i + if cfg.plotHists then 0 else 1]? = some py) (hxy : px ≠ py) :
    (LogAxis .x calls ↔ px ∈ b.logScales) ∧ (LogAxis .y calls ↔ py ∈ b.logScales) := by
  obtain ⟨h1, h2, -⟩ := plot_pair_axes h hc hij hlt hx hy
  rw [h1, h2, logAxes, if_neg (Ne.symm hxy)]
  exact ⟨decide_eq_true_iff, decide_eq_true_iff⟩

/-- **C77** for the histograms of `plot`, except for the last one if histograms are to be flipped and there are not
exactly two: the axis of the values is logarithmic exactly if the parameter is to be shown so, and the axis of the
densities never is. -/
theorem C77_hists_partial {lib : Lib} {cfg : PlotConfig} {truths : List (Truth ℝ)} {b : PlottingBase} {fig : Fig}
    (h : plotBase lib cfg truths b = .ok fig) (hh : cfg.plotHists = true) {i : Nat} {calls : List Call}
    (hc : ((i, i), calls) ∈ fig.panels) {p : String} (hp : b.columns[i]? = some p)
    (hlast : cfg.flip = false ∨ b.columns.length = 2 ∨ i + 1 < b.columns.length) :
    let d := valueAxis cfg.flip b.columns.length i
    (LogAxis d calls ↔ p ∈ b.logScales) ∧ ¬ LogAxis (otherAxis d) calls ∧
    ∀ it ∈ items calls, ∃ c, it = .hist c p (decide (d = .y)) := by
  intro d
  obtain ⟨h1, h2, -, -, h5⟩ := plot_hist_axes h hh hc hp
  have hi : i < b.columns.length := (List.getElem?_eq_some_iff.1 hp).1
  by_cases hf : cfg.flip = true ∧ b.columns.length = 2 ∧ i = 1
  · have hd : d = .y := if_pos hf
    rw [hd]
    refine ⟨?_, ?_, ?_⟩
    · rw [h2]
      exact ⟨fun a => a.1, fun a => ⟨a, hf.1, by omega⟩⟩
    · change ¬ LogAxis .x calls
      rw [h1]
      rintro ⟨-, hn⟩
      exact hn ⟨hf.1, by omega⟩
    · intro it hit
      obtain ⟨c, e⟩ := h5 it hit
      refine ⟨c, ?_⟩
      rw [e, hf.1, decide_eq_true hf.2]
      rfl
  · have hd : d = .x := if_neg hf
    have hn : ¬ (cfg.flip = true ∧ i + 1 = b.columns.length) := by
      rintro ⟨hf1, hi1⟩
      rcases hlast with hl | hl | hl
      · rw [hf1] at hl; cases hl
      · exact hf ⟨hf1, hl, by omega⟩
      · omega
    rw [hd]
    refine ⟨?_, ?_, ?_⟩
    · rw [h1]
      exact ⟨fun a => a.1, fun a => ⟨a, hn⟩⟩
    · change ¬ LogAxis .y calls
      rw [h2]
      rintro ⟨-, hn'⟩
      exact hn hn'
    · intro it hit
      obtain ⟨c, e⟩ := h5 it hit
      refine ⟨c, ?_⟩
      rw [e]
      have : (cfg.flip && decide (b.columns.length = 2 ∧ i = 1)) = false := by
        rw [Bool.eq_false_iff]
        intro hc
        rw [Bool.and_eq_true, decide_eq_true_eq] at hc
        exact hf hc
      rw [this]
      rfl

/-- **C77** fails for the last histogram if histograms are to be flipped and there are not exactly two: the values run
along the horizontal axis, which is linear, and the densities along a logarithmic one. -/
theorem C77_violated {lib : Lib} {cfg : PlotConfig} {truths : List (Truth ℝ)} {b : PlottingBase} {fig : Fig}
    (h : plotBase lib cfg truths b = .ok fig) (hh : cfg.plotHists = true) (hf : cfg.flip = true) {i : Nat}
    {calls : List Call} (hc : ((i, i), calls) ∈ fig.panels) {p : String} (hp : b.columns[i]? = some p)
    (hlast : i + 1 = b.columns.length) (h2 : b.columns.length ≠ 2) (hl : p ∈ b.logScales) :
    ¬ LogAxis .x calls ∧ LogAxis .y calls ∧ ∀ it ∈ items calls, ∃ c, it = .hist c p false := by
  obtain ⟨k1, k2, -, -, k5⟩ := plot_hist_axes h hh hc hp
  refine ⟨?_, k2.2 ⟨hl, hf, hlast⟩, ?_⟩
  · rw [k1]
    rintro ⟨-, hn⟩
    exact hn ⟨hf, hlast⟩
  · intro it hit
    obtain ⟨c, e⟩ := k5 it hit
    exact ⟨c, by rw [e]; simp [h2]⟩

theorem plotWalk_axes {chain label : String} {values : List ℝ} {extents : Option (Option (ℝ × ℝ))} {log : Bool}
    {calls : List Call} (h : plotWalk chain label values extents log = .ok calls) :
    ¬ LogAxis .x calls ∧ (LogAxis .y calls ↔ log = true) ∧ axisTexts .x calls = [] ∧ axisTexts .y calls = [label] := by
  simp only [plotWalk, bind_ok_iff, pure_ok_iff, ensure_ok_iff] at h
  obtain ⟨lim, hlim, -, -, rfl⟩ := h
  have hl : lim = [] ∨ ∃ lo hi, lim = [.lim .y lo hi] := by
    cases extents with
    | none => cases hlim; exact .inl rfl
    | some e =>
      simp only [walkLim, bind_ok_iff, pure_ok_iff] at hlim
      obtain ⟨c, hc, rfl⟩ := hlim
      obtain ⟨lo, hi, rfl, -⟩ := setLim_setup hc
      exact .inr ⟨lo, hi, rfl⟩
  rcases hl with rfl | ⟨lo, hi, rfl⟩ <;> cases log <;>
    simp [LogAxis, axisTexts, axisTextOf, List.filterMap_cons]

/-- Scales and labels of the walks of several chains. -/
theorem walks_axes {f : Chain ℝ → Res (List Call)} {chains : List (Chain ℝ)} {walks : List (List Call)}
    (h : chains.mapM f = .ok walks) {shown : Chain ℝ → Bool} {log : Bool} {label : String}
    (hf : ∀ c ∈ chains, ∀ r, f c = .ok r → ¬ LogAxis .x r ∧ (LogAxis .y r ↔ log = true ∧ shown c = true) ∧
      axisTexts .x r = [] ∧ axisTexts .y r = if shown c = true then [label] else []) :
    ¬ LogAxis .x walks.flatten ∧ (LogAxis .y walks.flatten ↔ log = true ∧ ∃ c ∈ chains, shown c = true) ∧
      axisTexts .x walks.flatten = [] ∧
      axisTexts .y walks.flatten = List.replicate (chains.filter shown).length label := by
  replace h := mapM_ok_iff.1 h
  induction h with
  | nil => simp [LogAxis, axisTexts]
  | @cons c r cs rs hr _ ih =>
    obtain ⟨h1, h2, h3, h4⟩ := hf c (by simp) r hr
    obtain ⟨i1, i2, i3, i4⟩ := ih fun c hc => hf c (by simp [hc])
    rw [List.flatten_cons, logAxis_append, logAxis_append, axisTexts_append, axisTexts_append, h2, h3, h4, i2, i3, i4]
    refine ⟨by tauto, ?_, rfl, ?_⟩
    · simp only [List.mem_cons, exists_eq_or_imp]
      tauto
    · cases e : shown c <;> simp [e, List.replicate_succ]

/-- **C77** and **C78** for the parameters of `plot_walks`: the values run vertically; this axis is logarithmic exactly if
the parameter is to be shown so and carries the label of the parameter, once for each chain drawn; the horizontal axis
is linear and has no label. -/
theorem walkPanel_axes {cfg : PlotConfig} {b : PlottingBase} {truths : List (Truth ℝ)} {p : String} {calls : List Call}
    (h : walkPanel cfg b truths p = .ok calls) :
    ¬ LogAxis .x calls ∧ (LogAxis .y calls ↔ p ∈ b.logScales ∧ ∃ c ∈ b.chains, p ∈ c.dataColumns) ∧
      axisTexts .x calls = [] ∧
      axisTexts .y calls = List.replicate (b.chains.filter fun c => decide (p ∈ c.dataColumns)).length (nameOf cfg.labels p) := by
  simp only [walkPanel, bind_ok_iff, pure_ok_iff] at h
  obtain ⟨walks, hw, rfl⟩ := h
  have key := walks_axes hw (shown := fun c => decide (p ∈ c.dataColumns)) (log := decide (p ∈ b.logScales))
    (label := nameOf cfg.labels p) (by
      intro c _ r hr
      by_cases hp : p ∈ c.dataColumns
      · simp only [if_pos hp, bind_ok_iff] at hr
        obtain ⟨v, -, hr⟩ := hr
        obtain ⟨h1, h2, h3, h4⟩ := plotWalk_axes hr
        refine ⟨h1, ?_, h3, ?_⟩
        · rw [h2]; simp [hp]
        · rw [h4, getLabel_nameOf]; simp [hp]
      · simp only [if_neg hp] at hr
        cases hr
        simp [LogAxis, axisTexts, hp])
  have ht : ∀ c ∈ truths.flatMap (walkTruth p), isDraw c = true := by
    intro c hc
    obtain ⟨t, -, hc⟩ := List.mem_flatMap.1 hc
    unfold walkTruth at hc
    split at hc
    · cases hc
    · rw [List.mem_singleton.1 hc]; rfl
  have hb : ∀ d, ¬ LogAxis d (if p ∈ b.blind then [Call.noTicks .y] else []) ∧
      axisTexts d (if p ∈ b.blind then [Call.noTicks .y] else []) = [] := by
    intro d
    split <;> simp [LogAxis, axisTexts, axisTextOf]
  obtain ⟨k1, k2, k3, k4⟩ := key
  refine ⟨?_, ?_, ?_, ?_⟩
  · rw [logAxis_append, logAxis_append_draw ht]
    exact fun hc => hc.elim k1 (hb _).1
  · rw [logAxis_append, logAxis_append_draw ht, k2]
    simp [(hb .y).1]
  · rw [axisTexts_append, axisTexts_append_draw ht, k3, (hb _).2]; rfl
  · rw [axisTexts_append, axisTexts_append_draw ht, k4, (hb _).2, List.append_nil]

/-- **C77** for `plot_walks`. -/
theorem C77_walks {cfg : PlotConfig} {truths : List (Truth ℝ)} {pw pp lw : Bool} {b : PlottingBase} {fig : Fig}
    (h : plotWalksBase cfg truths pw pp lw b = .ok fig) {i j : Nat} {calls : List Call} (hc : ((i, j), calls) ∈ fig.panels) :
    let e := (if pp = true ∧ ∃ c ∈ b.chains, c.logPosterior.isSome = true then 1 else 0) + (if pw then 1 else 0)
    ¬ LogAxis .x calls ∧ (i < e → ¬ LogAxis .y calls) ∧
    (e ≤ i → ∃ p, b.columns[i - e]? = some p ∧
      ((∃ c ∈ b.chains, p ∈ c.dataColumns) → (LogAxis .y calls ↔ p ∈ b.logScales))) := by
  intro e
  obtain ⟨h1, h2⟩ := walks_cases h hc
  by_cases hi : i < e
  · have key : ¬ LogAxis .x calls ∧ ¬ LogAxis .y calls := by
      rcases h1 hi with h | h
      · simp only [posteriorPanel, bind_ok_iff, pure_ok_iff] at h
        obtain ⟨walks, hw, rfl⟩ := h
        obtain ⟨k1, k2, -⟩ := walks_axes hw (shown := fun c => c.logPosterior.isSome) (log := false)
          (label := getLabel cfg.labels "$\\log(P)$") (by
            intro c _ r hr
            cases hl : c.logPosterior with
            | none =>
              rw [hl] at hr
              cases hr
              simp [LogAxis, axisTexts]
            | some l =>
              rw [hl] at hr
              simp only [bind_ok_iff] at hr
              obtain ⟨m, -, hr⟩ := hr
              simpa using plotWalk_axes hr)
        exact ⟨k1, by rw [k2]; simp⟩
      · simp only [weightPanel, bind_ok_iff, pure_ok_iff] at h
        obtain ⟨walks, hw, rfl⟩ := h
        obtain ⟨k1, k2, -⟩ := walks_axes hw (shown := fun _ => true) (log := false)
          (label := getLabel cfg.labels (if lw then "$\\log_{10}$Weight" else "Weight")) (by
            intro c _ r hr
            simp only [bind_ok_iff] at hr
            obtain ⟨m, -, hr⟩ := hr
            simpa using plotWalk_axes hr)
        exact ⟨k1, by rw [k2]; simp⟩
    exact ⟨key.1, fun _ => key.2, fun hn => absurd hi (by omega)⟩
  · obtain ⟨p, hp, hw⟩ := h2 (by omega)
    obtain ⟨k1, k2, -⟩ := walkPanel_axes hw
    exact ⟨k1, fun hn => absurd hn hi, fun _ => ⟨p, hp, fun hex => by rw [k2]; exact and_iff_left hex⟩⟩

theorem distPanel_axes {lib : Lib} {cfg : PlotConfig} {b : PlottingBase} {truths : List (Truth ℝ)} {p : String}
    {calls : List Call} (h : distPanel lib cfg b truths p = .ok calls) :
    (LogAxis .x calls ↔ p ∈ b.logScales) ∧ ¬ LogAxis .y calls ∧ axisTexts .x calls = [p] ∧ axisTexts .y calls = [] := by
  simp only [distPanel, bind_ok_iff, pure_ok_iff] at h
  obtain ⟨xlim, hx, r, hr, ylim, hy, rfl⟩ := h
  obtain ⟨lo, hi, rfl, -⟩ := setLim_setup hx
  obtain ⟨m, rfl⟩ : ∃ m, ylim = .lim .y 0 m := by
    revert hy
    generalize r.2 = o
    intro hy
    cases o <;> cases hy
    exact ⟨_, rfl⟩
  have h1 := distChains_draw hr
  have h2 := plotTruths_draw lib.filled truths none (some p)
  have hend : ∀ d, ¬ LogAxis d [Call.lim .y 0 m, Call.axisLabel .x p] ∧
      axisTexts d [Call.lim .y 0 m, Call.axisLabel .x p] = if d = .x then [p] else [] := by
    intro d
    cases d <;> simp [LogAxis, axisTexts, axisTextOf, List.filterMap_cons]
  refine ⟨?_, ?_, ?_, ?_⟩
  · rw [logAxis_append, logAxis_append_draw h2, logAxis_append_draw h1]
    simp only [(hend .x).1, or_false]
    by_cases h1 : p ∈ b.logScales <;> by_cases h2 : p ∈ b.blind <;> simp [LogAxis, h1, h2]
  · rw [logAxis_append, logAxis_append_draw h2, logAxis_append_draw h1]
    simp only [(hend .y).1, or_false]
    by_cases h1 : p ∈ b.logScales <;> by_cases h2 : p ∈ b.blind <;> simp [LogAxis, h1, h2]
  · rw [axisTexts_append, axisTexts_append_draw h2, axisTexts_append_draw h1, (hend .x).2]
    by_cases h1 : p ∈ b.logScales <;> by_cases h2 : p ∈ b.blind <;>
      simp [axisTexts, axisTextOf, h1, h2, List.filterMap_cons]
  · rw [axisTexts_append, axisTexts_append_draw h2, axisTexts_append_draw h1, (hend .y).2]
    by_cases h1 : p ∈ b.logScales <;> by_cases h2 : p ∈ b.blind <;>
      simp [axisTexts, axisTextOf, h1, h2, List.filterMap_cons]

theorem summaryCell_axes {lib : Lib} {cfg : PlotConfig} {b : PlottingBase} {truths : List (Truth ℝ)} {errorbar : Bool}
    {i : Nat} {c : Chain ℝ} {p : String} {cell : List Call × Option ℝ}
    (h : summaryCell lib cfg b truths errorbar i c p = .ok cell) :
    (LogAxis .x cell.1 ↔ p ∈ b.logScales) ∧ ¬ LogAxis .y cell.1 ∧ axisTexts .x cell.1 = [] ∧ axisTexts .y cell.1 = [] := by
  simp only [summaryCell, bind_ok_iff, pure_ok_iff] at h
  obtain ⟨xlim, hx, r, hr, rfl⟩ := h
  obtain ⟨lo, hi, rfl, -⟩ := setLim_setup hx
  have h1 := summaryContent_draw hr
  have h2 := summaryTruth_draw truths p
  simp only
  rw [logAxis_append_draw h1, logAxis_append_draw h2, logAxis_append_draw h1, logAxis_append_draw h2,
    axisTexts_append_draw h1, axisTexts_append_draw h2, axisTexts_append_draw h1, axisTexts_append_draw h2]
  generalize (decide (i < b.chains.length - 1) || decide (p ∈ b.blind)) = t
  by_cases h1 : p ∈ b.logScales <;> cases t <;> by_cases h3 : i = 0 <;>
    simp [LogAxis, axisTexts, axisTextOf, h1, h3, List.filterMap_cons]

theorem distributions_panel {lib : Lib} {cfg : PlotConfig} {truths : List (Truth ℝ)} {w : Nat} {b : PlottingBase} {fig : Fig}
    (h : plotDistributionsBase lib cfg truths w b = .ok fig) {i j : Nat} {calls : List Call}
    (hc : ((i, j), calls) ∈ fig.panels) {p : String} (hp : b.columns[i * min b.columns.length w + j]? = some p) :
    distPanel lib cfg b truths p = .ok calls := by
  obtain ⟨-, -, hpan, -⟩ := distributions_panels h
  have hlt := (List.getElem?_eq_some_iff.1 hp).1
  rcases (hpan _ _ hc).2 with ⟨hn, -⟩ | ⟨-, hd⟩
  · exact absurd hlt (Nat.not_lt.2 hn)
  · rw [List.getD_eq_getElem?_getD, hp, Option.getD_some] at hd
    exact hd

/-- **C77** for `plot_distributions`. -/
theorem C77_distributions {lib : Lib} {cfg : PlotConfig} {truths : List (Truth ℝ)} {w : Nat} {b : PlottingBase} {fig : Fig}
    (h : plotDistributionsBase lib cfg truths w b = .ok fig) {i j : Nat} {calls : List Call}
    (hc : ((i, j), calls) ∈ fig.panels) {p : String} (hp : b.columns[i * min b.columns.length w + j]? = some p) :
    (LogAxis .x calls ↔ p ∈ b.logScales) ∧ ¬ LogAxis .y calls := by
  obtain ⟨h1, h2, -⟩ := distPanel_axes (distributions_panel h hc hp)
  exact ⟨h1, h2⟩

/-- **C77** for `plot_summary`. -/
theorem C77_summary {lib : Lib} {cfg : PlotConfig} {truths : List (Truth ℝ)} {errorbar : Bool} {b : PlottingBase} {fig : Fig}
    (h : plotSummaryBase lib cfg truths errorbar b = .ok fig) {i j : Nat} {calls : List Call}
    (hc : ((i, j + 1), calls) ∈ fig.panels) {p : String} (hp : b.columns[j]? = some p) :
    (LogAxis .x calls ↔ p ∈ b.logScales) ∧ ¬ LogAxis .y calls := by
  obtain ⟨c, l, -, hl, ⟨hj, -⟩ | ⟨k, p', cell, hj, ep, hcell, rfl⟩⟩ := summary_cell h hc
  · omega
  · obtain rfl : j = k := by omega
    rw [hp] at ep
    cases ep
    have hd : ∀ c ∈ l, isDraw c = true := by
      rcases hl with rfl | ⟨m, rfl⟩
      · simp
      · intro c hc
        rw [List.mem_singleton.1 hc]; rfl
    obtain ⟨h1, h2, -⟩ := summaryCell_axes hcell
    rw [logAxis_append_draw hd, logAxis_append_draw hd]
    exact ⟨h1, h2⟩

/-! ### labels -/

theorem mem_ite_singleton {c : Prop} [Decidable c] {s t : String} (h : t ∈ if c then [s] else []) : t = s := by
  by_cases hc : c
  · rw [if_pos hc] at h; exact List.mem_singleton.1 h
  · rw [if_neg hc] at h; cases h

/-- **C78** for the panels of `plot` with two parameters: a label on an axis is that of the parameter along it. -/
theorem C78_pairs {lib : Lib} {cfg : PlotConfig} {truths : List (Truth ℝ)} {b : PlottingBase} {fig : Fig}
    (h : plotBase lib cfg truths b = .ok fig) {i j : Nat} {calls : List Call} (hc : ((i, j), calls) ∈ fig.panels)
    {px py : String} (hij : j ≤ i) (hlt : j < i + if cfg.plotHists then 0 else 1)
    (hx : b.columns[j]? = some px) (hy : b.columns[i + if cfg.plotHists then 0 else 1]? = some py) :
    (∀ t ∈ axisTexts .x calls, t = nameOf cfg.labels px) ∧ ∀ t ∈ axisTexts .y calls, t = nameOf cfg.labels py := by
  obtain ⟨-, -, h3, h4⟩ := plot_pair_axes h hc hij hlt hx hy
  rw [h3, h4]
  exact ⟨fun t ht => mem_ite_singleton ht, fun t ht => mem_ite_singleton ht⟩

/-- **C78** for the histograms of `plot`: a label on the axis of the values is that of the parameter, and the axis of the
densities has none. -/
theorem C78_hists {lib : Lib} {cfg : PlotConfig} {truths : List (Truth ℝ)} {b : PlottingBase} {fig : Fig}
    (h : plotBase lib cfg truths b = .ok fig) (hh : cfg.plotHists = true) {i : Nat} {calls : List Call}
    (hc : ((i, i), calls) ∈ fig.panels) {p : String} (hp : b.columns[i]? = some p) :
    let d := valueAxis cfg.flip b.columns.length i
    (∀ t ∈ axisTexts d calls, t = nameOf cfg.labels p) ∧ axisTexts (otherAxis d) calls = [] := by
  intro d
  obtain ⟨-, -, h3, h4, -⟩ := plot_hist_axes h hh hc hp
  by_cases hf : cfg.flip = true ∧ b.columns.length = 2 ∧ i = 1
  · have hd : d = .y := if_pos hf
    rw [hd, h4]
    refine ⟨by simp, ?_⟩
    change axisTexts .x calls = []
    rw [h3, if_neg]
    rw [hf.1]
    simp
  · have hd : d = .x := if_neg hf
    rw [hd]
    refine ⟨?_, h4⟩
    rw [h3]
    intro t ht
    split at ht
    · exact List.mem_singleton.1 ht
    · cases ht

theorem plot_panel_exists {lib : Lib} {cfg : PlotConfig} {truths : List (Truth ℝ)} {b : PlottingBase} {fig : Fig}
    (h : plotBase lib cfg truths b = .ok fig) {i j : Nat} (hi : i < b.columns.length - if cfg.plotHists then 0 else 1)
    (hj : j < b.columns.length - if cfg.plotHists then 0 else 1) : ∃ calls, ((i, j), calls) ∈ fig.panels := by
  obtain ⟨-, hk, -⟩ := plot_panels h
  have : (i, j) ∈ fig.panels.map Prod.fst := by
    rw [hk, mem_gridPanels]
    exact ⟨hi, hj⟩
  obtain ⟨⟨ij, calls⟩, hm, e⟩ := List.mem_map.1 this
  cases e
  exact ⟨calls, hm⟩

/-- **C78** for `plot`: every parameter is named on some axis along which it runs, unless histograms are to be flipped
and there are too few parameters (one with histograms, two without). -/
theorem C78_named_partial {lib : Lib} {cfg : PlotConfig} {truths : List (Truth ℝ)} {b : PlottingBase} {fig : Fig}
    (h : plotBase lib cfg truths b = .ok fig) {u : Nat} {p : String} (hp : b.columns[u]? = some p)
    (hfew : cfg.flip = false ∨ (cfg.plotHists = true ∧ 2 ≤ b.columns.length) ∨ 3 ≤ b.columns.length) :
    ∃ i j calls d, ((i, j), calls) ∈ fig.panels ∧ j ≤ i ∧ axisTexts d calls = [nameOf cfg.labels p] ∧
      (d = .x ∧ j = u ∨ d = .y ∧ i + (if cfg.plotHists then 0 else 1) = u) := by
  have hu : u < b.columns.length := (List.getElem?_eq_some_iff.1 hp).1
  have hpos := (plot_panels h).1
  have col : ∀ v, v < b.columns.length → ∃ q, b.columns[v]? = some q := fun v hv => ⟨_, List.getElem?_eq_getElem hv⟩
  cases hh : cfg.plotHists with
  | true =>
    rw [rowShift, hh] at hpos
    simp only [if_true, Nat.sub_zero] at hpos
    by_cases hlast : u + 1 = b.columns.length
    · cases hf : cfg.flip with
      | false =>
        obtain ⟨calls, hc⟩ := plot_panel_exists h (i := u) (j := u) (by simpa [hh]) (by simpa [hh])
        obtain ⟨-, -, k3, -⟩ := plot_hist_axes h hh hc hp
        refine ⟨u, u, calls, .x, hc, le_rfl, ?_, .inl ⟨rfl, rfl⟩⟩
        rw [k3, if_pos ⟨hlast, hf⟩]
      | true =>
        have h2 : 2 ≤ b.columns.length := by
          rcases hfew with hn | hn | hn
          · rw [hf] at hn; cases hn
          · exact hn.2
          · omega
        obtain ⟨calls, hc⟩ := plot_panel_exists h (i := u) (j := 0) (by simpa [hh]) (by simpa [hh])
        obtain ⟨q, hq⟩ := col 0 (by omega)
        obtain ⟨-, -, -, k4⟩ := plot_pair_axes h hc (Nat.zero_le _) (by simp [hh]; omega) hq (by simpa [hh] using hp)
        refine ⟨u, 0, calls, .y, hc, Nat.zero_le _, ?_, .inr ⟨rfl, by simp⟩⟩
        rw [k4, if_pos]
        have : u ≠ 0 := by omega
        simp [leftTicks, this]
    · obtain ⟨calls, hc⟩ := plot_panel_exists h (i := b.columns.length - 1) (j := u) (by simp [hh]; omega) (by simpa [hh])
      obtain ⟨q, hq⟩ := col (b.columns.length - 1) (by omega)
      obtain ⟨-, -, k3, -⟩ := plot_pair_axes h hc (by omega) (by simp [hh]; omega) hp (by simpa [hh] using hq)
      refine ⟨_, u, calls, .x, hc, by omega, ?_, .inl ⟨rfl, rfl⟩⟩
      rw [k3, if_pos]
      have : u ≠ b.columns.length - 1 := by omega
      simp [bottomTicks, hh, this]
  | false =>
    rw [rowShift, hh] at hpos
    simp only [Bool.false_eq_true, if_false] at hpos
    by_cases hlast : u + 1 = b.columns.length
    · obtain ⟨calls, hc⟩ := plot_panel_exists h (i := u - 1) (j := 0) (by simp [hh]; omega) (by simp [hh]; omega)
      obtain ⟨q, hq⟩ := col 0 (by omega)
      have hu1 : u - 1 + 1 = u := by omega
      obtain ⟨-, -, -, k4⟩ := plot_pair_axes h hc (Nat.zero_le _) (by simp [hh]) hq (by simpa [hh, hu1] using hp)
      refine ⟨u - 1, 0, calls, .y, hc, Nat.zero_le _, ?_, .inr ⟨rfl, by simpa using hu1⟩⟩
      rw [k4, if_pos]
      simp [leftTicks, hh]
    · by_cases hfl : cfg.flip = true ∧ u + 2 = b.columns.length
      · have h3 : 3 ≤ b.columns.length := by
          rcases hfew with hn | hn | hn
          · rw [hfl.1] at hn; cases hn
          · rw [hh] at hn; cases hn.1
          · exact hn
        obtain ⟨calls, hc⟩ := plot_panel_exists h (i := u - 1) (j := 0) (by simp [hh]; omega) (by simp [hh]; omega)
        obtain ⟨q, hq⟩ := col 0 (by omega)
        have hu1 : u - 1 + 1 = u := by omega
        obtain ⟨-, -, -, k4⟩ := plot_pair_axes h hc (Nat.zero_le _) (by simp [hh]) hq (by simpa [hh, hu1] using hp)
        refine ⟨u - 1, 0, calls, .y, hc, Nat.zero_le _, ?_, .inr ⟨rfl, by simpa using hu1⟩⟩
        rw [k4, if_pos]
        simp [leftTicks, hh]
      · obtain ⟨calls, hc⟩ := plot_panel_exists h (i := b.columns.length - 2) (j := u) (by simp [hh]; omega) (by simp [hh]; omega)
        obtain ⟨q, hq⟩ := col (b.columns.length - 2 + 1) (by omega)
        obtain ⟨-, -, k3, -⟩ := plot_pair_axes h hc (by omega) (by simp [hh]; omega) hp (by simpa [hh] using hq)
        refine ⟨_, u, calls, .x, hc, by omega, ?_, .inl ⟨rfl, rfl⟩⟩
        rw [k3, if_pos]
        simp only [bottomTicks, hh, Bool.false_eq_true, if_false, Bool.not_eq_true', Bool.or_eq_false_iff,
          decide_eq_false_iff_not, ne_eq, not_not, Bool.and_eq_false_iff]
        refine ⟨by omega, ?_⟩
        cases hf : cfg.flip with
        | false => exact .inl rfl
        | true => exact .inr fun hc => hfl ⟨hf, by omega⟩

/-- **C78** fails for a single histogram if histograms are to be flipped: no axis names the parameter. -/
theorem C78_violated_single {lib : Lib} {cfg : PlotConfig} {truths : List (Truth ℝ)} {b : PlottingBase} {fig : Fig}
    (h : plotBase lib cfg truths b = .ok fig) (hh : cfg.plotHists = true) (hf : cfg.flip = true) {p : String}
    (hp : b.columns = [p]) {ij : Nat × Nat} {calls : List Call} (hc : (ij, calls) ∈ fig.panels) (d : Dir) :
    axisTexts d calls = [] := by
  obtain ⟨i, j⟩ := ij
  obtain ⟨hi, hj, -⟩ := plot_cases h hc
  simp only [hh, if_true, hp, List.length_singleton, Nat.sub_zero, Nat.lt_one_iff] at hi hj
  subst hi; subst hj
  obtain ⟨-, -, h3, h4, -⟩ := plot_hist_axes h hh hc (p := p) (by rw [hp]; rfl)
  cases d
  · rw [h3, if_neg]; simp [hf]
  · exact h4

/-- **C78** fails for a single panel without histograms if histograms are to be flipped: the horizontal axis does not
name its parameter. -/
theorem C78_violated_pair {lib : Lib} {cfg : PlotConfig} {truths : List (Truth ℝ)} {b : PlottingBase} {fig : Fig}
    (h : plotBase lib cfg truths b = .ok fig) (hh : cfg.plotHists = false) (hf : cfg.flip = true) {p q : String}
    (hp : b.columns = [p, q]) {ij : Nat × Nat} {calls : List Call} (hc : (ij, calls) ∈ fig.panels) :
    axisTexts .x calls = [] ∧ axisTexts .y calls = [nameOf cfg.labels q] := by
  obtain ⟨i, j⟩ := ij
  obtain ⟨hi, hj, -⟩ := plot_cases h hc
  simp only [hh, Bool.false_eq_true, if_false, hp, List.length_cons, List.length_nil] at hi hj
  obtain rfl : i = 0 := by omega
  obtain rfl : j = 0 := by omega
  obtain ⟨-, -, h3, h4⟩ := plot_pair_axes h hc (px := p) (py := q) le_rfl (by simp [hh]) (by rw [hp]; rfl) (by rw [hp, hh]; rfl)
  constructor
  · rw [h3, if_neg]; simp [bottomTicks, hf, hh, hp]
  · rw [h4, if_pos]; simp [leftTicks, hh]

/-- **C78** for `plot_walks`: every label names the parameter of its panel, and there is one if a chain with this
parameter is drawn. -/
theorem C78_walks {cfg : PlotConfig} {truths : List (Truth ℝ)} {pw pp lw : Bool} {b : PlottingBase} {fig : Fig}
    (h : plotWalksBase cfg truths pw pp lw b = .ok fig) {i j : Nat} {calls : List Call} (hc : ((i, j), calls) ∈ fig.panels) :
    let e := (if pp = true ∧ ∃ c ∈ b.chains, c.logPosterior.isSome = true then 1 else 0) + (if pw then 1 else 0)
    e ≤ i → ∃ p, b.columns[i - e]? = some p ∧ axisTexts .x calls = [] ∧
      (∀ t ∈ axisTexts .y calls, t = nameOf cfg.labels p) ∧
      ((∃ c ∈ b.chains, p ∈ c.dataColumns) → axisTexts .y calls ≠ []) := by
  intro e hi
  obtain ⟨p, hp, hw⟩ := (walks_cases h hc).2 hi
  obtain ⟨-, -, k3, k4⟩ := walkPanel_axes hw
  refine ⟨p, hp, k3, ?_, ?_⟩
  · rw [k4]
    exact fun t ht => List.eq_of_mem_replicate ht
  · rintro ⟨c, hc, hpc⟩
    rw [k4]
    intro hn
    rw [List.replicate_eq_nil_iff, List.length_eq_zero_iff, List.filter_eq_nil_iff] at hn
    exact hn c hc (decide_eq_true hpc)

/-- **C78** for `plot_distributions`, for parameters without a label of their own: the axis of the values carries the
name. -/
theorem C78_distributions_partial {lib : Lib} {cfg : PlotConfig} {truths : List (Truth ℝ)} {w : Nat} {b : PlottingBase}
    {fig : Fig} (h : plotDistributionsBase lib cfg truths w b = .ok fig) {i j : Nat} {calls : List Call}
    (hc : ((i, j), calls) ∈ fig.panels) {p : String} (hp : b.columns[i * min b.columns.length w + j]? = some p)
    (hl : nameOf cfg.labels p = p) : axisTexts .x calls = [nameOf cfg.labels p] ∧ axisTexts .y calls = [] := by
  obtain ⟨-, -, h3, h4⟩ := distPanel_axes (distributions_panel h hc hp)
  rw [hl]
  exact ⟨h3, h4⟩

/-- **C78** fails for `plot_distributions`: a configured label is not shown. -/
theorem C78_violated_distributions {lib : Lib} {cfg : PlotConfig} {truths : List (Truth ℝ)} {w : Nat} {b : PlottingBase}
    {fig : Fig} (h : plotDistributionsBase lib cfg truths w b = .ok fig) {i j : Nat} {calls : List Call}
    (hc : ((i, j), calls) ∈ fig.panels) {p : String} (hp : b.columns[i * min b.columns.length w + j]? = some p)
    (hl : nameOf cfg.labels p ≠ p) : nameOf cfg.labels p ∉ axisTexts .x calls ∧ axisTexts .x calls = [p] := by
  obtain ⟨-, -, h3, -⟩ := distPanel_axes (distributions_panel h hc hp)
  rw [h3]
  exact ⟨by simpa using hl, rfl⟩

/-- **C78** for `plot_summary`: the cells of the first row are headed by the label of their parameter, the other ones
have no heading, and no axis has a label. -/
theorem C78_summary {lib : Lib} {cfg : PlotConfig} {truths : List (Truth ℝ)} {errorbar : Bool} {b : PlottingBase} {fig : Fig}
    (h : plotSummaryBase lib cfg truths errorbar b = .ok fig) {i j : Nat} {calls : List Call}
    (hc : ((i, j + 1), calls) ∈ fig.panels) {p : String} (hp : b.columns[j]? = some p) :
    titles calls = (if i = 0 then [nameOf cfg.labels p] else []) ∧ axisTexts .x calls = [] ∧ axisTexts .y calls = [] := by
  obtain ⟨c, l, -, hl, ⟨hj, -⟩ | ⟨k, p', cell, hj, ep, hcell, rfl⟩⟩ := summary_cell h hc
  · omega
  · obtain rfl : j = k := by omega
    rw [hp] at ep
    cases ep
    have hd : (∀ c ∈ l, isDraw c = true) ∧ titles l = [] := by
      rcases hl with rfl | ⟨m, rfl⟩
      · exact ⟨by simp, rfl⟩
      · refine ⟨?_, rfl⟩
        intro c hc
        rw [List.mem_singleton.1 hc]; rfl
    obtain ⟨-, -, h3, h4⟩ := summaryCell_axes hcell
    rw [axisTexts_append_draw hd.1, axisTexts_append_draw hd.1, titles_append, hd.2, (summaryCell_setup hcell).2.1,
      getLabel_nameOf, List.append_nil]
    exact ⟨rfl, h3, h4⟩

/-! ### examples -/

/-- A plot of the column `a` alone, on a logarithmic axis. -/
noncomputable def soloBase (c : Chain ℝ) : PlottingBase where
  chains := [c]
  columns := ["a"]
  extents := [("a", some (0, 1))]
  blind := []
  logScales := ["a"]

theorem solo_bars (lib : Lib) (cfg : PlotConfig) {c : Chain ℝ} (hc : DemoChain c singleFrame "one" true barKw)
    (flip summary : Bool) :
    plotBars lib cfg "a" c flip summary = .ok ([.marginal "one" "a" flip [0, 1] [1 / 2, 1 / 2]], 1 / 2) := by
  rw [demo_bars hc lib cfg one_pos (col := "a") rfl rfl]
  norm_num

theorem solo_plot (lib : Lib) (cfg : PlotConfig) (hh : cfg.plotHists = true) (truths : List (Truth ℝ)) {c : Chain ℝ}
    (hc : DemoChain c singleFrame "one" true barKw) :
    ∃ fig calls, plotBase lib cfg truths (soloBase c) = .ok fig ∧ ((0, 0), calls) ∈ fig.panels ∧
      items calls = [.hist "one" "a" false] := by
  have hk : (c.cfg .plotContour : Bool) = true := by rw [hc.cfg]; rfl
  have hcol : c.samples.columns = ["a", "weight"] := by rw [hc.samples]; rfl
  have hs : ∃ s, trianglePanel cfg (soloBase c) 1 0 0 "a" "a" = .ok s := by
    unfold trianglePanel triangleYlim
    rw [show (soloBase c).extents.lookup "a" = some (some (0, 1)) from rfl]
    rw [if_neg (by omega)]
    split <;> exact ⟨_, rfl⟩
  obtain ⟨s, hs⟩ := hs
  have hd : ∀ S, ∃ r, drawPanel lib cfg (soloBase c) truths S false 1 0 0 "a" "a" = .ok r := by
    intro S
    simp [drawPanel, hh, histPanel, histChains, show (soloBase c).chains = [c] from rfl, hk, hcol, solo_bars lib cfg hc,
      bind, Except.bind, pure, Except.pure]
  have hf : ∃ fig, plotBase lib cfg truths (soloBase c) = .ok fig := by
    obtain ⟨r, hr⟩ := hd (cfg.summarise && decide (([c].filter fun c => c.cfg .plotContour).length = 1))
    simp only [plotBase, show (soloBase c).columns = ["a"] from rfl, show (soloBase c).chains = [c] from rfl, hh, if_true,
      List.length_singleton, show gridPanels 1 1 = [(0, 0)] from rfl, List.mapM_cons, List.mapM_nil, List.getD_cons_zero, hs,
      show decide (1 = 2) = false from rfl, Bool.false_and, hr, ensure, bind, Except.bind, pure, Except.pure]
    simp
  obtain ⟨fig, hf⟩ := hf
  obtain ⟨calls, hcalls⟩ := plot_panel_exists hf (i := 0) (j := 0) (by simp [hh, soloBase]) (by simp [hh, soloBase])
  refine ⟨fig, calls, hf, hcalls, ?_⟩
  obtain ⟨flip, -, hi⟩ : ∃ flip, True ∧ items calls = histItems [c] "a" flip := by
    obtain ⟨-, -, hcase⟩ := plot_cases hf hcalls
    rcases hcase with ⟨h1, -⟩ | ⟨h1, -⟩ | ⟨-, -, p', s, r, ep, hs, hr, rfl⟩
    · omega
    · rw [if_pos hh] at h1; omega
    · cases ep
      refine ⟨cfg.flip && decide ((soloBase c).columns.length = 2 ∧ (0 : Nat) = 1), trivial, ?_⟩
      rw [items_append, (items_of_setup (trianglePanel_setup hs)).1, List.nil_append, items_append, items_append,
        (histChains_items (calls := r.1) (m' := r.2) hr).1,
        (items_of_setup fun c hc => ((topLim_setup _ r.2).1 c hc).1).1]
      have e2 : ∀ flip, items (histTruths lib truths flip "a") = [] := by
        intro flip
        cases flip
        · exact (plotTruths_marks _ _ _ _).1
        · exact (plotTruths_marks _ _ _ _).1
      rw [e2, List.nil_append, List.append_nil]
      rfl
  obtain ⟨-, -, -, -, h5⟩ := plot_hist_axes hf hh hcalls (p := "a") rfl
  have e : items calls = [.hist "one" "a" flip] := by
    rw [hi]
    simp [histItems, hk, hcol, hc.name]
  rw [e] at h5 ⊢
  obtain ⟨c', ec⟩ := h5 _ (List.mem_singleton.2 rfl)
  have hff : (cfg.flip && decide ((soloBase c).columns.length = 2 ∧ (0 : Nat) = 1)) = false := by simp
  rw [hff] at ec
  cases ec
  rfl

/-- A histogram with its values along a logarithmic horizontal axis, which carries the label of the parameter. -/
example (lib : Lib) : ∃ (b : PlottingBase) (fig : Fig) (calls : List Call),
    plotBase lib { labels := [("a", "alpha")] } [] b = .ok fig ∧ ((0, 0), calls) ∈ fig.panels ∧
    items calls = [.hist "one" "a" false] ∧ LogAxis .x calls ∧ ¬ LogAxis .y calls ∧ axisTexts .x calls = ["alpha"] := by
  obtain ⟨c, hc⟩ := gridSingle_exists
  obtain ⟨fig, calls, hf, hcalls, hi⟩ := solo_plot lib { labels := [("a", "alpha")] } rfl [] hc
  obtain ⟨h1, h2, -⟩ := C77_hists_partial hf rfl hcalls (p := "a") rfl (.inl rfl)
  obtain ⟨-, -, h3, -⟩ := plot_hist_axes hf rfl hcalls (p := "a") rfl
  refine ⟨_, fig, calls, hf, hcalls, hi, h1.2 (by simp [soloBase]), h2, ?_⟩
  rw [h3]
  rfl

/-- With flipped histograms: a linear horizontal axis, a logarithmic axis of the densities, and no label. -/
example (lib : Lib) : ∃ (b : PlottingBase) (fig : Fig) (calls : List Call),
    plotBase lib { labels := [("a", "alpha")], flip := true } [] b = .ok fig ∧ ((0, 0), calls) ∈ fig.panels ∧
    b.columns = ["a"] ∧ "a" ∈ b.logScales ∧ items calls = [.hist "one" "a" false] ∧ ¬ LogAxis .x calls ∧ LogAxis .y calls ∧
    axisTexts .x calls = [] ∧ axisTexts .y calls = [] := by
  obtain ⟨c, hc⟩ := gridSingle_exists
  obtain ⟨fig, calls, hf, hcalls, hi⟩ := solo_plot lib { labels := [("a", "alpha")], flip := true } rfl [] hc
  obtain ⟨h1, h2, -⟩ := C77_violated hf rfl rfl hcalls (p := "a") rfl rfl (by simp [soloBase]) (by simp [soloBase])
  exact ⟨_, fig, calls, hf, hcalls, rfl, by simp [soloBase], hi, h1, h2,
    C78_violated_single hf rfl rfl rfl hcalls .x, C78_violated_single hf rfl rfl rfl hcalls .y⟩

/-- `plot_distributions` names a column although it has a label. -/
example (lib : Lib) : ∃ (b : PlottingBase) (fig : Fig) (calls : List Call),
    plotDistributionsBase lib { labels := [("a", "alpha")] } [] 4 b = .ok fig ∧ ((0, 0), calls) ∈ fig.panels ∧
    b.columns = ["a"] ∧ axisTexts .x calls = ["a"] ∧ LogAxis .x calls := by
  obtain ⟨c, hc⟩ := gridSingle_exists
  have hp : c.plottingColumns = ["a"] := (demo_columns hc (.inl rfl)).trans (by decide)
  have hk : (c.cfg .plotContour : Bool) = true := by rw [hc.cfg]; rfl
  have hpan : ∃ r, distPanel lib { labels := [("a", "alpha")] } (soloBase c) [] "a" = .ok r := by
    simp [distPanel, show (soloBase c).chains = [c] from rfl, show (soloBase c).extents.lookup "a" = some (some (0, 1)) from rfl,
      setLim, distChains, hk, hp, solo_bars lib _ hc, topStep, distYlim, bind, Except.bind, pure, Except.pure]
  obtain ⟨r, hr⟩ := hpan
  have hf : plotDistributionsBase lib { labels := [("a", "alpha")] } [] 4 (soloBase c) = .ok { panels := [((0, 0), r)] } := by
    simp [plotDistributionsBase, show (soloBase c).columns = ["a"] from rfl, show gridPanels 1 1 = [(0, 0)] from rfl, hr,
      ensure, bind, Except.bind, pure, Except.pure]
  have hcalls : ((0, 0), r) ∈ ({ panels := [((0, 0), r)] } : Fig).panels := by simp
  exact ⟨_, _, r, hf, hcalls, rfl,
    (C78_violated_distributions hf hcalls (p := "a") rfl (by decide)).2,
    (C77_distributions hf hcalls (p := "a") rfl).1.2 (by simp [soloBase])⟩

/-- Two parameters with and without a label of their own. -/
example : nameOf [("a", "alpha")] "a" = "alpha" ∧ nameOf [("a", "alpha")] "b" = "b" := by decide

/-- A figure of two parameters: each is named on an axis along which it runs. -/
example (lib : Lib) : ∃ (b : PlottingBase) (fig : Fig), plotBase lib {} [] b = .ok fig ∧ b.columns = ["a", "b"] ∧
    (∃ i j calls d, ((i, j), calls) ∈ fig.panels ∧ axisTexts d calls = ["a"]) ∧
    ∃ i j calls d, ((i, j), calls) ∈ fig.panels ∧ axisTexts d calls = ["b"] := by
  obtain ⟨c1, h1⟩ := gridSingle_exists
  obtain ⟨c2, h2⟩ := cloudPair_exists
  obtain ⟨fig, hf⟩ := demo_triangle lib [] h1 h2
  obtain ⟨i, j, calls, d, ha, -, hb, -⟩ := C78_named_partial hf (u := 0) (p := "a") rfl (.inl rfl)
  obtain ⟨i', j', calls', d', ha', -, hb', -⟩ := C78_named_partial hf (u := 1) (p := "b") rfl (.inl rfl)
  exact ⟨_, fig, hf, rfl, ⟨i, j, calls, d, ha, hb⟩, i', j', calls', d', ha', hb'⟩

end CC
