import Verif.Props.TruthLines
import Verif.Props.Ranges
import Mathlib.Order.Bounds.Basic

/-! # C59: vertical ranges of `plot_summary` -/

namespace CC
open Spec

theorem curves_append (a b : List Call) : curves (a ++ b) = curves a ++ curves b := List.filterMap_append
theorem lims_append (d : Dir) (a b : List Call) : lims d (a ++ b) = lims d a ++ lims d b := List.filterMap_append

theorem barShade_curves {lib : Lib} {cfg : PlotConfig} {p : String} {c : Chain ℝ} {xs : List ℝ} {flip summary : Bool}
    {calls : List Call} (h : barShade lib cfg c p xs flip summary = .ok calls) :
    curves calls = [] ∧ ∀ d, lims d calls = [] := by
  unfold barShade at h
  simp only [bind_ok_iff] at h
  obtain ⟨b, -, h⟩ := h
  split at h
  · simp only [bind_ok_iff] at h
    obtain ⟨⟨ivs, s⟩, -, a, -, z, -, -, -, title, ht, h⟩ := h
    rw [pure_ok_iff] at h
    subst h
    constructor
    · rw [curves, List.filterMap_eq_nil_iff]
      intro c hc
      rcases List.mem_append.1 hc with hc | hc
      · obtain ⟨_, -, rfl⟩ := List.mem_map.1 hc; rfl
      · split at hc
        · cases hc
        · rw [List.mem_singleton.1 hc]; rfl
    · intro d
      rw [lims, List.filterMap_eq_nil_iff]
      intro c hc
      rcases List.mem_append.1 hc with hc | hc
      · obtain ⟨_, -, rfl⟩ := List.mem_map.1 hc; rfl
      · split at hc
        · cases hc
        · rw [List.mem_singleton.1 hc]; rfl
  · cases h
    exact ⟨rfl, fun _ => rfl⟩

/-- A histogram draws one curve, and returns its largest value. -/
theorem plotBars_curves {lib : Lib} {cfg : PlotConfig} {p : String} {c : Chain ℝ} {flip summary : Bool}
    {calls : List Call} {v : ℝ} (h : plotBars lib cfg p c flip summary = .ok (calls, v)) :
    (∃ ys, curves calls = [(p, ys)] ∧ v ∈ ys ∧ ∀ y ∈ ys, y ≤ v) ∧ ∀ d, lims d calls = [] := by
  unfold plotBars at h
  simp only [bind_ok_iff] at h
  obtain ⟨⟨xs, ys⟩, -, hh, -, top, htop, shade, hs, h⟩ := h
  rw [pure_ok_iff] at h
  cases h
  have hs' : curves shade = [] ∧ ∀ d, lims d shade = [] := by
    unfold barShadeIf at hs
    split at hs
    · exact barShade_curves hs
    · cases hs
      exact ⟨rfl, fun _ => rfl⟩
  refine ⟨⟨_, ?_, arrMax_ok_iff.1 htop⟩, fun d => hs'.2 d⟩
  change _ :: curves shade = _
  rw [hs'.1]

theorem summaryTruth_curves (truths : List (Truth ℝ)) (p : String) :
    curves (truths.flatMap (summaryTruth p)) = [] ∧ ∀ d, lims d (truths.flatMap (summaryTruth p)) = [] := by
  have key : ∀ c ∈ truths.flatMap (summaryTruth p), ∃ x k, c = .vline x k := by
    intro c hc
    obtain ⟨t, -, hc⟩ := List.mem_flatMap.1 hc
    unfold summaryTruth at hc
    split at hc
    · cases hc
    · exact ⟨_, _, List.mem_singleton.1 hc⟩
  constructor
  · rw [curves, List.filterMap_eq_nil_iff]
    intro c hc
    obtain ⟨_, _, rfl⟩ := key c hc
    rfl
  · intro d
    rw [lims, List.filterMap_eq_nil_iff]
    intro c hc
    obtain ⟨_, _, rfl⟩ := key c hc
    rfl

/-- Curve, largest value and ranges of a cell without error bars. -/
theorem summaryCell_curves {lib : Lib} {cfg : PlotConfig} {b : PlottingBase} {truths : List (Truth ℝ)}
    {i : Nat} {c : Chain ℝ} {p : String} {cell : List Call × Option ℝ}
    (h : summaryCell lib cfg b truths false i c p = .ok cell) :
    lims .y cell.1 = [] ∧ (cell.2 = none ∧ curves cell.1 = [] ∨
      ∃ ys v, cell.2 = some v ∧ curves cell.1 = [(p, ys)] ∧ v ∈ ys ∧ ∀ y ∈ ys, y ≤ v) := by
  simp only [summaryCell, bind_ok_iff, pure_ok_iff] at h
  obtain ⟨xlim, hx, r, hr, rfl⟩ := h
  obtain ⟨lo, hi, rfl, -⟩ := setLim_setup hx
  have hr' : lims .y r.1 = [] ∧ (r.2 = none ∧ curves r.1 = [] ∨
      ∃ ys v, r.2 = some v ∧ curves r.1 = [(p, ys)] ∧ v ∈ ys ∧ ∀ y ∈ ys, y ≤ v) := by
    unfold summaryContent at hr
    by_cases h1 : p ∉ c.dataColumns
    · rw [if_pos h1] at hr
      cases hr
      exact ⟨rfl, .inl ⟨rfl, rfl⟩⟩
    · rw [if_neg h1, if_neg Bool.false_ne_true, bind_ok_iff] at hr
      obtain ⟨v, hv, hr⟩ := hr
      rw [pure_ok_iff] at hr
      subst hr
      obtain ⟨⟨ys, g1, g2, g3⟩, g4⟩ := plotBars_curves (calls := v.1) (v := v.2) hv
      exact ⟨g4 _, .inr ⟨ys, v.2, rfl, g1, g2, g3⟩⟩
  obtain ⟨t1, t2⟩ := summaryTruth_curves truths p
  have e1 : ∀ q : Bool, curves ((if q = true then [Call.noTicks .x] else []) ++ [.noTicks .y, .lim .x lo hi] ++
      (if p ∈ b.logScales then [.logScale .x] else []) ++ (if i = 0 then [.title (getLabel cfg.labels p)] else [])) = [] := by
    intro q
    by_cases hl : p ∈ b.logScales <;> by_cases hi0 : i = 0 <;> cases q <;> simp [hl, hi0, curves, curveOf, List.filterMap_cons]
  have e2 : ∀ q : Bool, lims .y ((if q = true then [Call.noTicks .x] else []) ++ [.noTicks .y, .lim .x lo hi] ++
      (if p ∈ b.logScales then [.logScale .x] else []) ++ (if i = 0 then [.title (getLabel cfg.labels p)] else [])) = [] := by
    intro q
    by_cases hl : p ∈ b.logScales <;> by_cases hi0 : i = 0 <;> cases q <;> simp [hl, hi0, lims, limOf, List.filterMap_cons]
  refine ⟨?_, ?_⟩
  · rw [lims_append, lims_append, e2, t2, hr'.1]; rfl
  · rw [curves_append, curves_append, e1, t1, List.nil_append, List.nil_append]
    exact hr'.2

/-- `max_vals` holds the largest value of each column. -/
theorem lookup_maxVals (cells : List (String × Option ℝ)) (p : String) :
    ((maxVals cells).lookup p = none ↔ ∀ v, (p, some v) ∉ cells) ∧
    ∀ m, (maxVals cells).lookup p = some m → IsGreatest {v | (p, some v) ∈ cells} m := by
  induction cells using List.reverseRecOn with
  | nil => simp [maxVals]
  | append_singleton cells e ih =>
    obtain ⟨q, o⟩ := e
    have hs : maxVals (cells ++ [(q, o)]) = maxValsStep (maxVals cells) (q, o) := by simp [maxVals]
    rw [hs]
    cases o with
    | none =>
      have : maxValsStep (maxVals cells) (q, none) = maxVals cells := rfl
      rw [this]
      simpa using ih
    | some w =>
      -- the new value of the dictionary
      have hv : (maxValsStep (maxVals cells) (q, some w)).lookup p =
          if p = q then some (match (maxVals cells).lookup p with | none => w | some m => max m w)
          else (maxVals cells).lookup p := by
        unfold maxValsStep
        by_cases hpq : p = q
        · subst hpq
          rw [if_pos rfl]
          simp only
          cases hl : (maxVals cells).lookup p with
          | none => simp only [lookup_dictSet, if_true]
          | some m =>
            simp only
            by_cases hm : m < w
            · rw [if_pos hm, lookup_dictSet, if_pos rfl, max_eq_right hm.le]
            · rw [if_neg hm, hl, max_eq_left (not_lt.1 hm)]
        · rw [if_neg hpq]
          simp only
          cases hl : (maxVals cells).lookup q with
          | none => simp only [lookup_dictSet, if_neg hpq]
          | some m =>
            simp only
            by_cases hm : m < w
            · rw [if_pos hm, lookup_dictSet, if_neg hpq]
            · rw [if_neg hm]
      rw [hv]
      by_cases hpq : p = q
      · subst hpq
        rw [if_pos rfl]
        refine ⟨Iff.intro (fun h => by simp at h) (fun h => absurd (by simp : (p, some w) ∈ cells ++ [(p, some w)]) (h w)), ?_⟩
        intro m hm
        obtain ⟨ih1, ih2⟩ := ih
        simp only [Option.some.injEq] at hm
        subst hm
        have hset : ∀ v, (p, some v) ∈ cells ++ [(p, some w)] ↔ (p, some v) ∈ cells ∨ v = w := by
          intro v; simp
        cases hl : (maxVals cells).lookup p with
        | none =>
          have := ih1.1 hl
          refine ⟨(hset _).2 (.inr rfl), ?_⟩
          intro v hv
          rcases (hset _).1 hv with hv | rfl
          · exact absurd hv (this v)
          · exact le_rfl
        | some m =>
          obtain ⟨g1, g2⟩ := ih2 m hl
          refine ⟨?_, ?_⟩
          · rcases max_choice m w with h | h <;> simp only [h]
            · exact (hset _).2 (.inl g1)
            · exact (hset _).2 (.inr rfl)
          · intro v hv
            rcases (hset _).1 hv with hv | rfl
            · exact (g2 hv).trans (le_max_left _ _)
            · exact le_max_right _ _
      · rw [if_neg hpq]
        have hset : ∀ v, (p, some v) ∈ cells ++ [(q, some w)] ↔ (p, some v) ∈ cells := by
          intro v; simp [hpq]
        simp only [hset]
        exact ih

/-- The largest ordinate of all curves of a column in a figure. -/
def Spec.IsTop (fig : Fig) (p : String) (m : ℝ) : Prop :=
  IsGreatest {y | ∃ ij calls ys, (ij, calls) ∈ fig.panels ∧ (p, ys) ∈ curves calls ∧ y ∈ ys} m

/-- **C59** (what is proved). Without error bars the panel of the `k`-th column gets the range `0` to 1.1 times the
largest ordinate of all curves of the *next* column; the last column's panels are left to matplotlib, and the panel
with the name of the chain gets the range of the first column. Missing, because the code does something else: the
range of the panel's own column. -/
theorem C59_limits_partial {lib : Lib} {cfg : PlotConfig} {truths : List (Truth ℝ)} {b : PlottingBase} {fig : Fig}
    (h : plotSummaryBase lib cfg truths false b = .ok fig) {i j : Nat} {calls : List Call} (hc : ((i, j), calls) ∈ fig.panels) :
    (∀ q, b.columns[j]? = some q → ∃ m, IsTop fig q m ∧ lims .y calls = [(0, 11 / 10 * m)]) ∧
    (b.columns.length ≤ j → lims .y calls = []) := by
  obtain ⟨-, -, rows, ls, hr, hl, hlen, hp⟩ := summary_panels h
  set cells := rows.flatMap fun r => List.zipWith (fun p cell => (p, cell.2)) b.columns r with hcells
  -- the cell of a row
  have hcell : ∀ (i k : Nat) (row : List (List Call × Option ℝ)) (cell : List Call × Option ℝ), rows[i]? = some row →
      row[k]? = some cell → ∃ c p, b.chains[i]? = some c ∧ b.columns[k]? = some p ∧
        summaryCell lib cfg b truths false i c p = .ok cell ∧ (p, cell.2) ∈ cells := by
    intro i k row cell hrow hk
    obtain ⟨h1, h2⟩ := List.getElem?_eq_some_iff.1 hrow
    have hi : i < b.chains.zipIdx.length := by rw [hr.length_eq]; exact h1
    have hi' : i < b.chains.length := by simpa using hi
    have := (List.forall₂_iff_get.1 hr).2 i hi h1
    simp only [List.get_eq_getElem, List.getElem_zipIdx, Nat.zero_add] at this
    rw [h2] at this
    obtain ⟨h3, h4⟩ := List.getElem?_eq_some_iff.1 hk
    have hk' : k < b.columns.length := by rw [this.length_eq]; exact h3
    have h5 := (List.forall₂_iff_get.1 this).2 k hk' h3
    simp only [List.get_eq_getElem] at h5
    rw [h4] at h5
    refine ⟨_, _, List.getElem?_eq_getElem hi', List.getElem?_eq_getElem hk', h5, ?_⟩
    rw [hcells, List.mem_flatMap]
    refine ⟨row, List.mem_of_getElem? hrow, ?_⟩
    rw [List.mem_iff_getElem]
    exact ⟨k, by simp; omega, by simp [h4]⟩
  have hls : ∀ l ∈ ls, curves l = [] := by
    intro l hl'
    rcases summaryLimits_setup hl l hl' with rfl | ⟨m, rfl⟩ <;> rfl
  have hlsD : ∀ j, curves (ls.getD j []) = [] := by
    intro j
    rw [List.getD_eq_getElem?_getD]
    cases e : ls[j]? with
    | none => rfl
    | some l => exact hls l (List.mem_of_getElem? e)
  -- the largest value of the cells is the largest ordinate of the figure
  have htop : ∀ q m, IsGreatest {v | (q, some v) ∈ cells} m → IsTop fig q m := by
    rintro q m ⟨hm, hub⟩
    constructor
    · rw [Set.mem_ofPred_eq, hcells, List.mem_flatMap] at hm
      obtain ⟨row, hrow, hm⟩ := hm
      obtain ⟨i, hi, rfl⟩ := List.getElem_of_mem hrow
      obtain ⟨k, hk, e⟩ := List.getElem_of_mem hm
      rw [List.length_zipWith, lt_min_iff] at hk
      simp only [List.getElem_zipWith, Prod.mk.injEq] at e
      obtain ⟨c, p, hc, hcol, hs, -⟩ := hcell i k _ _ (List.getElem?_eq_getElem hi) (List.getElem?_eq_getElem hk.2)
      rw [List.getElem?_eq_getElem hk.1] at hcol
      cases hcol
      rcases (summaryCell_curves hs).2 with ⟨e', -⟩ | ⟨ys, v, e', hcur, hv, -⟩
      · rw [e.2] at e'; cases e'
      · rw [e.2] at e'
        cases e'
        refine ⟨(i, k + 1), _, ys, (hp _ _).2 ⟨c, _, hc, List.getElem?_eq_getElem hi, .inr ⟨k, _, rfl,
          List.getElem?_eq_getElem hk.2, rfl⟩⟩, ?_, hv⟩
        rw [curves_append, hcur, hlsD, e.1]
        simp
    · rintro y ⟨ij, calls, ys, hcalls, hcur, hy⟩
      obtain ⟨c, row, hc, hrow, ⟨hj, l, hl0, rfl⟩ | ⟨k, cell, hj, hk, rfl⟩⟩ := (hp _ _).1 hcalls
      · rw [curves_append, hls l (List.mem_of_getElem? hl0)] at hcur
        cases hcur
      · obtain ⟨c', p, hc', hcol, hs, hmem⟩ := hcell _ k _ _ hrow hk
        rw [curves_append, hlsD, List.append_nil] at hcur
        rcases (summaryCell_curves hs).2 with ⟨-, e'⟩ | ⟨ys', v, e', hcur', -, hv⟩
        · rw [e'] at hcur; cases hcur
        · rw [hcur', List.mem_singleton] at hcur
          cases hcur
          rw [e'] at hmem
          exact (hv y hy).trans (hub hmem)
  -- the range of the panel
  have hlim : lims .y calls = lims .y (ls.getD j []) := by
    obtain ⟨c, row, hc, hrow, ⟨hj, l, hl0, rfl⟩ | ⟨k, cell, hj, hk, rfl⟩⟩ := (hp _ _).1 hc
    · simp only at hj
      subst hj
      rw [lims_append, List.getD_eq_getElem?_getD, hl0]
      rfl
    · simp only at hj
      subst hj
      obtain ⟨c', p, hc', hcol, hs, -⟩ := hcell _ k _ _ hrow hk
      rw [lims_append, (summaryCell_curves hs).1, List.nil_append]
  constructor
  · intro q hq
    obtain ⟨h1, h2⟩ := List.getElem?_eq_some_iff.1 hq
    have h3 := mapM_ok_iff.1 hl
    have h4 : j < ls.length := by omega
    have h5 := (List.forall₂_iff_get.1 h3).2 j h1 h4
    simp only [List.get_eq_getElem, Bool.false_eq_true, if_false] at h5
    rw [h2] at h5
    cases ht : (maxVals cells).lookup q with
    | none => rw [ht] at h5; cases h5
    | some m =>
      rw [ht] at h5
      refine ⟨m, htop q m ((lookup_maxVals cells q).2 m ht), ?_⟩
      rw [hlim, List.getD_eq_getElem?_getD, List.getElem?_eq_getElem h4, Option.getD_some, ← Except.ok.inj h5]
      rfl
  · intro hj
    rw [hlim, List.getD_eq_getElem?_getD, List.getElem?_eq_none (by omega)]
    rfl

/-- A panel fits its curves: they are not higher than the range set last, if one is set. -/
def Spec.Fits (calls : List Call) : Prop :=
  ∀ r, (lims .y calls).getLast? = some r → ∀ p ys, (p, ys) ∈ curves calls → ∀ y ∈ ys, r.1 ≤ y ∧ y ≤ r.2

/-- **C59** is violated: a chain over a grid with points 0 and 1 of `a` and 0 and 10 of `b` has densities 1/2 and
1/20; the panel of `a` is cut off at 11/200. -/
theorem C59_violated (lib : Lib) : ∃ (c : Chain ℝ) (b : PlottingBase) (fig : Fig) (calls : List Call),
    (∃ a, Chain.make a = .ok c) ∧ b.chains = [c] ∧ plotSummaryBase lib {} [] false b = .ok fig ∧
    ((0, 1), calls) ∈ fig.panels ∧ b.columns[0]? = some "a" ∧ ("a", [1 / 2, 1 / 2]) ∈ curves calls ∧
    (lims .y calls).getLast? = some (0, 11 / 200) ∧ ¬ Fits calls := by
  obtain ⟨c, hc⟩ := gridPair_exists
  obtain ⟨ca, cb, fig, hf, hp, ha, -⟩ := demo_summary lib [] hc
  have hm : ((0, 1), ca ++ [Call.lim .y 0 (11 / 10 * (1 / 20))]) ∈ fig.panels := by rw [hp]; simp
  have hcur : ("a", [1 / 2, 1 / 2]) ∈ curves (ca ++ [Call.lim .y 0 (11 / 10 * (1 / 20))]) := by
    rw [curves, List.mem_filterMap]
    exact ⟨_, List.mem_append_left _ ha, rfl⟩
  have hlast : (lims .y (ca ++ [Call.lim .y 0 (11 / 10 * (1 / 20))])).getLast? = some (0, 11 / 200) := by
    rw [lims_append, show lims .y [Call.lim .y 0 (11 / 10 * (1 / 20))] = [((0 : ℝ), 11 / 10 * (1 / 20))] from rfl]
    simp
    norm_num
  refine ⟨c, demoBase [c], fig, _, hc.valid, rfl, hf, hm, rfl, hcur, hlast, ?_⟩
  intro hfit
  have := (hfit _ hlast _ _ hcur (1 / 2) (by simp)).2
  norm_num at this

/-- The first column's panels of that plot have the range of the second one. -/
example (lib : Lib) : ∃ (b : PlottingBase) (fig : Fig) (calls : List Call) (m : ℝ),
    plotSummaryBase lib {} [] false b = .ok fig ∧ ((0, 1), calls) ∈ fig.panels ∧ b.columns = ["a", "b"] ∧ IsTop fig "b" m ∧
    lims .y calls = [(0, 11 / 10 * m)] := by
  obtain ⟨c, hc⟩ := gridPair_exists
  obtain ⟨ca, cb, fig, hf, hp, -⟩ := demo_summary lib [] hc
  have hm : ((0, 1), ca ++ [Call.lim .y 0 (11 / 10 * (1 / 20))]) ∈ fig.panels := by rw [hp]; simp
  obtain ⟨m, h1, h2⟩ := (C59_limits_partial hf hm).1 "b" rfl
  exact ⟨_, fig, _, m, hf, hm, rfl, h1, h2⟩

end CC
