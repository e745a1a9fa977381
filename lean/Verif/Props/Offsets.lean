import Verif.Model.Offsets
import Verif.Props.Axes

/-! # C100: factors and offsets of tick labels -/

namespace CC

namespace Spec

/-- What matplotlib gives: a factor or offset belongs to an axis with ticks on a linear scale. -/
def TickOffsets (offset : Nat → Nat → Dir → String) (fig : Fig) : Prop :=
  ∀ i j d calls, ((i, j), calls) ∈ fig.panels → offset i j d ≠ "" → Call.maxNLocator d ∈ calls

/-- The label of an axis together with a factor or offset: nothing is added if there is none. -/
def offsetTexts (name offset : String) : String := if offset = "" then name else name ++ " [" ++ offset ++ "]"

end Spec

open Spec

theorem labelNow_eq (d : Dir) (calls : List Call) : labelNow d calls = ((axisTexts d calls).getLast?).getD "" := by
  have key : ∀ (l : List Call) (t : String), l.foldl (fun t c => match c with
      | .axisLabel e s => if e = d then s else t
      | _ => t) t = ((axisTexts d l).getLast?).getD t := by
    intro l
    induction l with
    | nil => intro t; rfl
    | cons c l ih =>
      intro t
      rw [List.foldl_cons, ih]
      have hcons : ∀ s, ((s :: axisTexts d l).getLast?).getD t = ((axisTexts d l).getLast?).getD s := by
        intro s
        rw [List.getLast?_cons]
        rfl
      cases c with
      | axisLabel e s =>
        by_cases he : e = d
        · have : axisTexts d (Call.axisLabel e s :: l) = s :: axisTexts d l := by
            simp [axisTexts, axisTextOf, he]
          rw [this, hcons]
          simp [he]
        · have : axisTexts d (Call.axisLabel e s :: l) = axisTexts d l := by
            simp [axisTexts, axisTextOf, he]
          rw [this]
          simp [he]
      | _ => rfl
  exact key calls ""

theorem axisCalls_locator (cfg : PlotConfig) (blind : List String) (d e : Dir) (p : String) (log shown : Bool)
    (h : Call.maxNLocator e ∈ axisCalls cfg blind d p log shown) : e = d ∧ shown = true := by
  unfold axisCalls at h
  by_cases hb : p ∈ blind <;> cases log <;> cases shown <;> (simp [hb] at h; try simp [h])

/-- Ticks of a panel of `plot`. -/
theorem trianglePanel_locator {cfg : PlotConfig} {b : PlottingBase} {n i j : Nat} {p1 p2 : String} {s : List Call}
    (h : trianglePanel cfg b n i j p1 p2 = .ok s) {d : Dir} (hd : Call.maxNLocator d ∈ s) :
    j ≤ i ∧ (d = .x ∧ bottomTicks cfg n i j = true ∨ d = .y ∧ leftTicks cfg i j = true) := by
  unfold trianglePanel at h
  by_cases hij : i < j
  · rw [if_pos hij] at h
    cases h
    simp at hd
  · rw [if_neg hij] at h
    simp only [bind_ok_iff, pure_ok_iff] at h
    obtain ⟨ylim, hy, xlim, hx, rfl⟩ := h
    obtain ⟨lo, hi, rfl, -⟩ := setLim_setup hx
    refine ⟨by omega, ?_⟩
    simp only [List.mem_append, List.mem_singleton] at hd
    rcases hd with ((hd | hd) | hd) | hd
    · exact .inl (axisCalls_locator _ _ _ _ _ _ _ hd)
    · exact .inr (axisCalls_locator _ _ _ _ _ _ _ hd)
    · unfold triangleYlim at hy
      split at hy
      · simp only [bind_ok_iff, pure_ok_iff] at hy
        obtain ⟨_, hy, rfl⟩ := hy
        obtain ⟨lo, hi, rfl, -⟩ := setLim_setup hy
        simp at hd
      · cases hy; cases hd
    · cases hd

theorem not_locator_draw {l : List Call} (h : ∀ c ∈ l, isDraw c = true) (d : Dir) : Call.maxNLocator d ∉ l := fun hl => by
  have := h _ hl
  cases this

/-- An axis with ticks: where it is, and its label. -/
theorem plot_locator {lib : Lib} {cfg : PlotConfig} {truths : List (Truth ℝ)} {b : PlottingBase} {fig : Fig}
    (h : plotBase lib cfg truths b = .ok fig) {i j : Nat} {calls : List Call} (hc : ((i, j), calls) ∈ fig.panels)
    {d : Dir} (hd : Call.maxNLocator d ∈ calls) :
    (d = .x ∧ i + 1 = b.columns.length - (if cfg.plotHists then 0 else 1) ∧
      ∃ p, b.columns[j]? = some p ∧ axisTexts .x calls = [nameOf cfg.labels p]) ∨
    (d = .y ∧ j = 0 ∧ ∃ p, b.columns[i + if cfg.plotHists then 0 else 1]? = some p ∧
      axisTexts .y calls = [nameOf cfg.labels p]) := by
  have bottom : ∀ n, i < n → bottomTicks cfg n i j = true → i + 1 = n := by
    intro n hi hb
    simp only [bottomTicks, Bool.not_eq_true', Bool.or_eq_false_iff, decide_eq_false_iff_not, ne_eq, not_not] at hb
    omega
  have left : leftTicks cfg i j = true → j = 0 := by
    intro hb
    simp only [leftTicks, Bool.not_eq_true', Bool.or_eq_false_iff, decide_eq_false_iff_not, ne_eq, not_not] at hb
    exact hb.1
  obtain ⟨hi, -, hcase⟩ := plot_cases h hc
  rcases hcase with ⟨h1, rfl⟩ | ⟨-, hij, px, py, s, dr, bars, ex, ey, hs, hdr, rfl⟩ | ⟨hh, rfl, p, s, r, ep, hs, hr, rfl⟩
  · simp at hd
  · have hdraw : ∀ c ∈ dr ++ plotTruths lib.filled truths (some px) (some py), isDraw c = true := by
      intro c hc
      rcases List.mem_append.1 hc with hc | hc
      · exact plotSurface_draw hdr c hc
      · exact plotTruths_draw _ _ _ _ c hc
    have hs' : Call.maxNLocator d ∈ s := by
      rcases List.mem_append.1 hd with hd | hd
      · exact hd
      · exact absurd hd (not_locator_draw hdraw d)
    obtain ⟨-, -, k3, k4⟩ := trianglePanel_axes hs hij
    rw [axisTexts_append_draw hdraw, axisTexts_append_draw hdraw, k3, k4]
    rcases (trianglePanel_locator hs hs').2 with ⟨e, hb⟩ | ⟨e, hb⟩
    · exact .inl ⟨e, bottom _ hi hb, px, ex, if_pos hb⟩
    · exact .inr ⟨e, left hb, py, ey, if_pos hb⟩
  · have hdraw : ∀ c ∈ histTruths lib truths (cfg.flip && decide (b.columns.length = 2 ∧ i = 1)) p ++ r.1 ++
        topLim (cfg.flip && decide (b.columns.length = 2 ∧ i = 1)) r.2, isDraw c = true := by
      intro c hc
      rcases List.mem_append.1 hc with hc | hc
      · rcases List.mem_append.1 hc with hc | hc
        · exact histTruths_draw _ _ _ _ c hc
        · exact histChains_draw hr c hc
      · exact topLim_draw _ _ c hc
    have hs' : Call.maxNLocator d ∈ s := by
      rcases List.mem_append.1 hd with hd | hd
      · exact hd
      · exact absurd hd (not_locator_draw hdraw d)
    obtain ⟨-, -, k3, k4⟩ := trianglePanel_axes hs le_rfl
    rw [axisTexts_append_draw hdraw, axisTexts_append_draw hdraw, k3, k4]
    rcases (trianglePanel_locator hs hs').2 with ⟨e, hb⟩ | ⟨e, hb⟩
    · exact .inl ⟨e, bottom _ hi hb, p, ep, if_pos hb⟩
    · refine .inr ⟨e, left hb, p, ?_, if_pos hb⟩
      rw [if_pos hh]
      exact ep

/-- **C100**: no factor or offset of tick labels is lost. Wherever matplotlib finds one, the axis is given the label of its parameter
followed by it in brackets. Missing: the labels of the other axes, which get a blank at the end (`C100_violated`). -/
theorem C100_offsets_partial {lib : Lib} {cfg : PlotConfig} {truths : List (Truth ℝ)} {b : PlottingBase} {fig : Fig}
    (h : plotBase lib cfg truths b = .ok fig) {offset : Nat → Nat → Dir → String} (ho : TickOffsets offset fig)
    {i j : Nat} {calls : List Call} (hc : ((i, j), calls) ∈ fig.panels) {d : Dir} (hd : offset i j d ≠ "") :
    ∃ p, b.columns[if d = .x then j else i + if cfg.plotHists then 0 else 1]? = some p ∧
      ((i, j), d, offsetTexts (nameOf cfg.labels p) (offset i j d)) ∈
        offsetLabels (b.columns.length - if cfg.plotHists then 0 else 1) offset fig := by
  have text : ∀ name, name ++ " " ++ "[" = name ++ " [" := by
    intro name
    rw [String.append_assoc]
    rfl
  rcases plot_locator h hc (ho i j d calls hc hd) with ⟨rfl, hi, p, hp, ht⟩ | ⟨rfl, hj, p, hp, ht⟩
  · refine ⟨p, by simpa using hp, List.mem_append_left _ (List.mem_map.2 ⟨((i, j), calls), ?_, ?_⟩)⟩
    · rw [List.mem_filter]
      exact ⟨hc, decide_eq_true (by simp only; omega)⟩
    · rw [labelNow_eq, ht, offsetLabel, if_pos hd, offsetTexts, if_neg hd]
      simp only [List.getLast?_singleton, Option.getD_some, ← text, String.append_assoc]
  · refine ⟨p, by simpa using hp, List.mem_append_right _ (List.mem_map.2 ⟨((i, j), calls), ?_, ?_⟩)⟩
    · rw [List.mem_filter]
      exact ⟨hc, decide_eq_true hj⟩
    · rw [labelNow_eq, ht, offsetLabel, if_pos hd, offsetTexts, if_neg hd]
      simp only [List.getLast?_singleton, Option.getD_some, ← text, String.append_assoc]

/-- **C100** is violated where there is neither factor nor offset: a blank is added to the label, and axes without a label get a
label of one blank. -/
theorem C100_violated {lib : Lib} {cfg : PlotConfig} {truths : List (Truth ℝ)} {b : PlottingBase} {fig : Fig}
    (h : plotBase lib cfg truths b = .ok fig) :
    ∃ i j d t, ((i, j), d, t) ∈ offsetLabels (b.columns.length - if cfg.plotHists then 0 else 1) (fun _ _ _ => "") fig ∧
      ∀ calls, ((i, j), calls) ∈ fig.panels →
        t = ((axisTexts d calls).getLast?).getD "" ++ " " ∧ t ≠ offsetTexts (((axisTexts d calls).getLast?).getD "") "" := by
  have hpos := (plot_panels h).1
  obtain ⟨calls, hc⟩ := plot_panel_exists h (i := 0) (j := 0) hpos hpos
  refine ⟨0, 0, .y, _, List.mem_append_right _ (List.mem_map.2 ⟨((0, 0), calls), ?_, rfl⟩), ?_⟩
  · rw [List.mem_filter]
    exact ⟨hc, rfl⟩
  · intro calls' hc'
    have : calls' = calls := by
      have hn : (fig.panels.map Prod.fst).Nodup := by
        rw [(plot_panels h).2.1]
        exact gridPanels_nodup _ _
      exact congrArg Prod.snd (List.inj_on_of_nodup_map hn hc' hc rfl)
    subst this
    simp only
    rw [labelNow_eq, offsetLabel, if_neg (by simp), offsetTexts, if_pos rfl, String.append_empty]
    refine ⟨rfl, fun e => ?_⟩
    have := congrArg String.length e
    rw [String.length_append] at this
    have e1 : (" " : String).length = 1 := rfl
    omega

/-- A figure of two parameters whose second one has large values: the factor is appended to the label below the second histogram. -/
example (lib : Lib) : ∃ (b : PlottingBase) (fig : Fig) (offset : Nat → Nat → Dir → String), plotBase lib {} [] b = .ok fig ∧
    TickOffsets offset fig ∧ ((1, 1), Dir.x, "b [1e6]") ∈ offsetLabels 2 offset fig := by
  obtain ⟨c1, h1⟩ := gridSingle_exists
  obtain ⟨c2, h2⟩ := cloudPair_exists
  obtain ⟨fig, hf⟩ := demo_triangle lib [] h1 h2
  have ho : TickOffsets (fun i j d => if i = 1 ∧ j = 1 ∧ d = .x then "1e6" else "") fig := by
    intro i j d calls hc hne
    by_cases e : i = 1 ∧ j = 1 ∧ d = .x
    · obtain ⟨rfl, rfl, rfl⟩ := e
      obtain ⟨-, -, s, dr, bars, hs, -, rfl⟩ := (plot_panels hf).2.2 _ _ hc
      refine List.mem_append_left _ ?_
      unfold trianglePanel at hs
      rw [if_neg (by simp)] at hs
      simp only [bind_ok_iff, pure_ok_iff] at hs
      obtain ⟨ylim, -, xlim, -, rfl⟩ := hs
      exact List.mem_append_left _ (List.mem_append_left _ (List.mem_append_left _ (List.mem_append_right _
        (List.mem_singleton.2 rfl))))
    · simp only [if_neg e, ne_eq, not_true_eq_false] at hne
  obtain ⟨calls, hc⟩ := plot_panel_exists hf (i := 1) (j := 1) Nat.one_lt_two Nat.one_lt_two
  obtain ⟨p, hp, hm⟩ := C100_offsets_partial hf ho hc (d := .x) (by decide)
  have : p = "b" := (Option.some.inj hp).symm
  subst this
  exact ⟨_, fig, _, hf, ho, hm⟩

end CC
