import Verif.Model.Colorbars
import Verif.Props.Blinded
import Verif.Props.Ranges
import Verif.Props.WalkPanels
import Verif.Lemmas.Dict
import Verif.Props.Emcee

/-! # C93: colour bars -/

namespace CC

/-- The chain draws clouds coloured by `p` on the figure: it has two of the parameters shown. -/
def Spec.ColouredBy (b : PlottingBase) (p : String) (c : Chain ℝ) : Prop :=
  c ∈ b.chains ∧ (c.cfg .plotCloud : Bool) = true ∧ c.cfg .colorParam = some p ∧
    ∃ (i j : Nat) (px py : String), j < i ∧ b.columns[j]? = some px ∧ b.columns[i]? = some py ∧
      px ∈ c.plottingColumns ∧ py ∈ c.plottingColumns

/-- A scale that reaches from the least to the greatest value. -/
def Spec.ScaleOf (vals : List ℝ) (lo hi : ℝ) : Prop := lo ∈ vals ∧ hi ∈ vals ∧ ∀ v ∈ vals, lo ≤ v ∧ v ≤ hi

/-- The names that are spelled out. -/
def Spec.spelled : List (String × String) :=
  [("weight", "Weights"), ("log_weight", "log(Weights)"), ("posterior", "log(Posterior)")]

open Spec

theorem foldl_dictMerge {α β : Type} [DecidableEq α] (ds : List (List (α × β))) (acc : List (α × β)) :
    ds.foldl dictMerge acc = dictMerge acc ds.flatten := by
  induction ds generalizing acc with
  | nil => rfl
  | cons d ds ih => rw [List.foldl_cons, ih, List.flatten_cons, dictMerge_append]

theorem mem_of_merge {α β : Type} [DecidableEq α] {ds : List (List (α × β))} {e : α × β} (h : e ∈ ds.foldl dictMerge []) :
    ∃ d ∈ ds, e ∈ d := by
  rw [foldl_dictMerge] at h
  obtain ⟨pre, post, h1, -⟩ := (dictMerge_nil_spec ds.flatten).2 e h
  have : e ∈ ds.flatten := by rw [h1]; simp
  exact List.mem_flatten.1 this

theorem merge_keys {α β : Type} [DecidableEq α] (ds : List (List (α × β))) :
    ((ds.foldl dictMerge []).map Prod.fst).Nodup ∧
    ∀ k, k ∈ (ds.foldl dictMerge []).map Prod.fst ↔ ∃ d ∈ ds, k ∈ d.map Prod.fst := by
  rw [foldl_dictMerge]
  have := (dictMerge_nil_spec ds.flatten).1
  refine ⟨this.nodup, fun k => ?_⟩
  rw [this.mem k]
  simp only [List.mem_map, List.mem_flatten]
  constructor
  · rintro ⟨e, ⟨d, hd, he⟩, rfl⟩
    exact ⟨d, hd, e, he, rfl⟩
  · rintro ⟨d, hd, e, he, rfl⟩
    exact ⟨e, ⟨d, hd, he⟩, rfl⟩

theorem mapM_ok_of_forall' {α β : Type} {f : α → Res β} {l : List α} (h : ∀ a ∈ l, ∃ b, f a = .ok b) :
    ∃ bs, l.mapM f = .ok bs := by
  induction l with
  | nil => exact ⟨[], rfl⟩
  | cons a l ih =>
    obtain ⟨b, hb⟩ := h a (by simp)
    obtain ⟨bs, hbs⟩ := ih fun x hx => h x (by simp [hx])
    exact ⟨b :: bs, by simp [hb, hbs, bind, Except.bind, pure, Except.pure]⟩

/-- What the drawing of a chain says about its entry: there is one exactly for coloured clouds, and it holds the values drawn. -/
theorem chainPaths_of_draw {lib : Lib} {cfg : PlotConfig} {px py : String} {c : Chain ℝ} {r : List Call × List String}
    (h : surfaceChain lib cfg px py c = .ok r) :
    ∃ d, chainPaths px py c = .ok d ∧ d.map Prod.fst = r.2 ∧
      (∀ e ∈ d, px ∈ c.plottingColumns ∧ py ∈ c.plottingColumns ∧ (c.cfg .plotCloud : Bool) = true ∧ c.cfg .colorParam = some e.1 ∧
        e.2.cmap = c.cfg .cmap ∧ ∃ xs ys, Call.cloud c.name px py xs ys (some e.2.values) ∈ r.1) ∧
      (∀ n qx qy xs ys vals, Call.cloud n qx qy xs ys (some vals) ∈ r.1 → n = c.name ∧ ∃ e ∈ d, e.2.values = vals) ∧
      (px ∈ c.plottingColumns → py ∈ c.plottingColumns → (c.cfg .plotCloud : Bool) = true → ∀ p, c.cfg .colorParam = some p →
        p ∈ d.map Prod.fst) := by
  unfold surfaceChain at h
  unfold chainPaths
  split at h
  · rename_i hn
    rw [if_pos hn]
    cases h
    refine ⟨[], rfl, rfl, by simp, by simp, fun h1 h2 => ?_⟩
    rcases hn with hn | hn
    · exact absurd h1 hn
    · exact absurd h2 hn
  · rename_i hn
    rw [if_neg hn]
    push Not at hn
    rw [bind_ok_iff] at h
    obtain ⟨cloud, hcl, h⟩ := h
    rw [bind_ok_iff] at h
    obtain ⟨contour, hco, h⟩ := h
    rw [bind_ok_iff] at h
    obtain ⟨point, hpt, h⟩ := h
    cases pure_ok_iff.1 h
    have hcont : ∀ n qx qy xs ys vals, Call.cloud n qx qy xs ys (some vals) ∉ contour := by
      intro n qx qy xs ys vals hm
      unfold contourCalls at hco
      split at hco
      · rw [bind_ok_iff] at hco
        obtain ⟨q, hq, hco⟩ := hco
        cases pure_ok_iff.1 hco
        rw [List.mem_singleton] at hm
        subst hm
        simp only [plotContour, bind_ok_iff, pure_ok_iff] at hq
        obtain ⟨_, -, _, -, _, -, _, -, _, -, _, -, hq⟩ := hq
        cases hq
      · cases hco; cases hm
    have hpo : ∀ n qx qy xs ys vals, Call.cloud n qx qy xs ys (some vals) ∉ point := by
      intro n qx qy xs ys vals hm
      unfold pointCalls at hpt
      split at hpt
      · unfold plotPoint at hpt
        rw [bind_ok_iff] at hpt
        obtain ⟨q, hq, hpt⟩ := hpt
        split at hpt
        · cases pure_ok_iff.1 hpt; cases hm
        · split at hpt
          · cases pure_ok_iff.1 hpt; simp at hm
          · cases pure_ok_iff.1 hpt; cases hm
      · cases hpt; cases hm
    unfold cloudCalls at hcl
    cases hpc : (c.cfg .plotCloud : Bool) with
    | false =>
      rw [hpc] at hcl
      simp only [Bool.false_eq_true, if_false] at hcl ⊢
      cases hcl
      refine ⟨[], rfl, rfl, by simp, ?_, by simp⟩
      intro n qx qy xs ys vals hm
      simp only [List.nil_append, List.mem_append] at hm
      rcases hm with hm | hm
      · exact absurd hm (hcont _ _ _ _ _ _)
      · exact absurd hm (hpo _ _ _ _ _ _)
    | true =>
      rw [hpc] at hcl
      simp only [if_true] at hcl ⊢
      rw [bind_ok_iff] at hcl
      obtain ⟨q, hq, hcl⟩ := hcl
      cases pure_ok_iff.1 hcl
      unfold plotCloud at hq
      rw [bind_ok_iff] at hq
      obtain ⟨x, hx, hq⟩ := hq
      rw [bind_ok_iff] at hq
      obtain ⟨y, hy, hq⟩ := hq
      rw [bind_ok_iff] at hq
      obtain ⟨skip, hs, hq⟩ := hq
      rw [bind_ok_iff] at hq
      obtain ⟨cd, hcd, hq⟩ := hq
      cases pure_ok_iff.1 hq
      refine ⟨cloudEntry c skip cd (c.cfg .colorParam), ?_, ?_⟩
      · simp only [cloudPath, hx, hs, hcd, bind, Except.bind, pure, Except.pure]
      cases hcp : c.cfg .colorParam with
      | none =>
        have e : cd = none := by
          unfold Chain.colorData at hcd
          rw [hcp] at hcd
          cases hcd
          rfl
        subst e
        refine ⟨rfl, by simp [cloudEntry], ?_, by simp⟩
        intro n qx qy xs ys vals hm
        simp only [List.mem_append, List.mem_singleton, Option.map_none] at hm
        rcases hm with (hm | hm) | hm
        · cases hm
        · exact absurd hm (hcont _ _ _ _ _ _)
        · exact absurd hm (hpo _ _ _ _ _ _)
      | some p =>
        have e : ∃ v, cd = some v := by
          unfold Chain.colorData at hcd
          rw [hcp] at hcd
          simp only [bind_ok_iff] at hcd
          obtain ⟨v, -, hcd⟩ := hcd
          exact ⟨v, (pure_ok_iff.1 hcd).symm⟩
        obtain ⟨v, rfl⟩ := e
        refine ⟨rfl, ?_, ?_, ?_⟩
        · intro e he
          simp only [cloudEntry, List.mem_singleton] at he
          subst he
          refine ⟨hn.1, hn.2, trivial, rfl, rfl, everyNth skip x, everyNth skip y, ?_⟩
          simp only [List.mem_append, List.mem_singleton]
          exact .inl (.inl rfl)
        · intro n qx qy xs ys vals hm
          simp only [List.mem_append, List.mem_singleton, Option.map_some] at hm
          rcases hm with (hm | hm) | hm
          · cases hm
            exact ⟨rfl, _, List.mem_singleton_self _, rfl⟩
          · exact absurd hm (hcont _ _ _ _ _ _)
          · exact absurd hm (hpo _ _ _ _ _ _)
        · intro _ _ _ q hq
          cases hq
          simp [cloudEntry]


/-- The values of an entry are determined by the chain and the column. -/
theorem chainPaths_values {px py : String} {c : Chain ℝ} {d : List (String × Scatter)} (h : chainPaths px py c = .ok d)
    (hwf : c.samples.WF) {e : String × Scatter} (he : e ∈ d) :
    ∃ k z, cloudStep c.samples.index.length (c.cfg .numCloud) = .ok k ∧ c.samples.get e.1 = .ok z ∧ e.2.values = everyNth k z := by
  unfold chainPaths at h
  split at h
  · cases h; cases he
  split at h
  · unfold cloudPath at h
    rw [bind_ok_iff] at h
    obtain ⟨x, hx, h⟩ := h
    rw [bind_ok_iff] at h
    obtain ⟨k, hk, h⟩ := h
    rw [bind_ok_iff] at h
    obtain ⟨cd, hcd, h⟩ := h
    cases pure_ok_iff.1 h
    cases hcp : c.cfg .colorParam with
    | none => rw [hcp] at he; cases cd <;> cases he
    | some p =>
      unfold Chain.colorData at hcd
      rw [hcp] at hcd he
      simp only [bind_ok_iff] at hcd
      obtain ⟨v, hv, hcd⟩ := hcd
      cases pure_ok_iff.1 hcd
      simp only [cloudEntry, List.mem_singleton] at he
      subst he
      refine ⟨k, v, ?_, hv, rfl⟩
      rw [← hk, hwf.2 _ (get_mem hx)]
  · cases h; cases he

/-- What the drawing of a panel says about its dictionary. -/
theorem panelPaths_of_draw {lib : Lib} {cfg : PlotConfig} {b : PlottingBase} {truths : List (Truth ℝ)} {su fl : Bool}
    {nx i j : Nat} {p1 p2 : String} {r : List Call × List String}
    (h : drawPanel lib cfg b truths su fl nx i j p1 p2 = .ok r) :
    ∃ d, panelPaths cfg b i j p1 p2 = .ok d ∧ (∀ k, k ∈ d.map Prod.fst ↔ k ∈ r.2) ∧
      ∀ e ∈ d, ¬ i < j ∧ (cfg.plotHists && decide (i = j)) = false ∧ ∃ c ∈ b.chains, ∃ dc, chainPaths p2 p1 c = .ok dc ∧ e ∈ dc ∧
        p2 ∈ c.plottingColumns ∧ p1 ∈ c.plottingColumns ∧ (c.cfg .plotCloud : Bool) = true ∧ c.cfg .colorParam = some e.1 ∧
        e.2.cmap = c.cfg .cmap ∧ ∃ xs ys, Call.cloud c.name p2 p1 xs ys (some e.2.values) ∈ r.1 := by
  unfold drawPanel at h
  unfold panelPaths
  split at h
  · rename_i hij
    cases h
    rw [if_pos hij]
    exact ⟨[], rfl, by simp, by simp⟩
  rename_i hij
  rw [if_neg hij]
  split at h
  · rename_i hh
    rw [if_pos hh]
    rw [bind_ok_iff] at h
    obtain ⟨q, -, h⟩ := h
    cases pure_ok_iff.1 h
    exact ⟨[], rfl, by simp, by simp⟩
  rename_i hh
  rw [if_neg hh]
  rw [bind_ok_iff] at h
  obtain ⟨q, hq, h⟩ := h
  cases pure_ok_iff.1 h
  unfold plotSurface at hq
  rw [bind_ok_iff] at hq
  obtain ⟨rs, hrs, hq⟩ := hq
  cases pure_ok_iff.1 hq
  unfold surfacePaths
  have hex : ∃ ds, b.chains.mapM (chainPaths p2 p1) = .ok ds := by
    refine mapM_ok_of_forall' fun c hc => ?_
    obtain ⟨x, -, hx⟩ := mapM_ok_mem hrs hc
    obtain ⟨d, hd, -⟩ := chainPaths_of_draw hx
    exact ⟨d, hd⟩
  obtain ⟨ds, hds⟩ := hex
  refine ⟨ds.foldl dictMerge [], by rw [hds]; rfl, fun k => ?_, fun e he => ?_⟩
  · rw [(merge_keys ds).2 k]
    simp only [List.mem_flatMap]
    constructor
    · rintro ⟨d, hd, hk⟩
      obtain ⟨c, hc, hcd⟩ := mapM_ok_mem_right hds hd
      obtain ⟨x, hx, hcx⟩ := mapM_ok_mem hrs hc
      obtain ⟨d', hd', hkeys, -⟩ := chainPaths_of_draw hcx
      rw [hcd] at hd'
      cases hd'
      exact ⟨x, hx, hkeys ▸ hk⟩
    · rintro ⟨x, hx, hk⟩
      obtain ⟨c, hc, hcx⟩ := mapM_ok_mem_right hrs hx
      obtain ⟨d, hd, hkeys, -⟩ := chainPaths_of_draw hcx
      obtain ⟨d', hd', hcd⟩ := mapM_ok_mem hds hc
      rw [hd] at hcd
      cases hcd
      exact ⟨d, hd', hkeys ▸ hk⟩
  · refine ⟨hij, by simpa using hh, ?_⟩
    obtain ⟨d, hd, hed⟩ := mem_of_merge he
    obtain ⟨c, hc, hcd⟩ := mapM_ok_mem_right hds hd
    obtain ⟨x, hx, hcx⟩ := mapM_ok_mem hrs hc
    obtain ⟨d', hd', -, hall, -⟩ := chainPaths_of_draw hcx
    rw [hcd] at hd'
    cases hd'
    obtain ⟨h1, h2, h3, h4, h5, xs, ys, h6⟩ := hall e hed
    exact ⟨c, hc, d, hcd, hed, h1, h2, h3, h4, h5, xs, ys,
      List.mem_append_left _ (List.mem_flatMap.2 ⟨x, hx, h6⟩)⟩

/-- The dictionary of a figure that can be drawn. -/
theorem plotPaths_of_plot {lib : Lib} {cfg : PlotConfig} {truths : List (Truth ℝ)} {b : PlottingBase} {fig : Fig}
    (h : plotBase lib cfg truths b = .ok fig) :
    ∃ ps, plotPaths cfg b = .ok ps ∧ (ps.map Prod.fst).Nodup ∧ (∀ k, k ∈ ps.map Prod.fst ↔ k ∈ fig.colorbars) ∧
      ∀ e ∈ ps, ∃ c, ColouredBy b e.1 c ∧ (∃ px py d, chainPaths px py c = .ok d ∧ e ∈ d) ∧ e.2.cmap = c.cfg .cmap ∧
        ∃ ij calls px py xs ys, (ij, calls) ∈ fig.panels ∧ Call.cloud c.name px py xs ys (some e.2.values) ∈ calls := by
  have h0 := h
  simp only [plotBase, bind_ok_iff, pure_ok_iff, ensure_ok_iff, decide_eq_true_eq] at h
  obtain ⟨-, hn, setup, hs, draws, hd, rfl⟩ := h
  unfold plotPaths
  simp only
  set g := gridPanels (if cfg.plotHists = true then b.columns else b.columns.tail).length
    (if cfg.plotHists = true then b.columns else b.columns.dropLast).length with hg
  have hex : ∃ ds, (g.mapM fun ij => panelPaths cfg b ij.1 ij.2
      ((if cfg.plotHists = true then b.columns else b.columns.tail).getD ij.1 "")
      ((if cfg.plotHists = true then b.columns else b.columns.dropLast).getD ij.2 "")) = .ok ds := by
    refine mapM_ok_of_forall' fun ij hij => ?_
    obtain ⟨x, -, hx⟩ := mapM_ok_mem hd hij
    obtain ⟨d, hd, -⟩ := panelPaths_of_draw hx
    exact ⟨d, hd⟩
  obtain ⟨ds, hds⟩ := hex
  refine ⟨ds.foldl dictMerge [], by rw [hds]; rfl, (merge_keys ds).1, fun k => ?_, fun e he => ?_⟩
  · rw [(merge_keys ds).2 k]
    simp only [List.mem_reverse, List.mem_dedup, List.mem_flatMap]
    constructor
    · rintro ⟨d, hd', hk⟩
      obtain ⟨ij, hc, hcd⟩ := mapM_ok_mem_right hds hd'
      obtain ⟨x, hx, hcx⟩ := mapM_ok_mem hd hc
      obtain ⟨d', hd', hkeys, -⟩ := panelPaths_of_draw hcx
      rw [hcd] at hd'
      cases hd'
      exact ⟨x, hx, (hkeys k).1 hk⟩
    · rintro ⟨x, hx, hk⟩
      obtain ⟨ij, hc, hcx⟩ := mapM_ok_mem_right hd hx
      obtain ⟨d, hd1, hkeys, -⟩ := panelPaths_of_draw hcx
      obtain ⟨d', hd', hcd⟩ := mapM_ok_mem hds hc
      rw [hd1] at hcd
      cases hcd
      exact ⟨d, hd', (hkeys k).2 hk⟩
  · obtain ⟨d, hdm, hed⟩ := mem_of_merge he
    obtain ⟨ij, hij, hcd⟩ := mapM_ok_mem_right hds hdm
    -- the panel as drawn
    have hkeys := (plot_panels h0).2.1
    have hpan := (plot_panels h0).2.2
    have hgn : g = gridPanels (b.columns.length - rowShift cfg) (b.columns.length - rowShift cfg) := by
      rw [hg, rowShift]; cases cfg.plotHists <;> simp
    have hm : ij ∈ ((gridPanels (if cfg.plotHists = true then b.columns else b.columns.tail).length
        (if cfg.plotHists = true then b.columns else b.columns.dropLast).length).zip
        (List.zipWith (fun s d => s ++ d.1) setup draws)).map Prod.fst := by
      rw [hkeys, ← hgn]; exact hij
    obtain ⟨⟨ij', calls⟩, hmem, rfl⟩ := List.mem_map.1 hm
    obtain ⟨hi, hj, s, dd, bars, -, hdraw, rfl⟩ := hpan _ _ hmem
    simp only at hi hj hdraw hcd
    have e1 : (if cfg.plotHists = true then b.columns else b.columns.tail).getD ij'.1 "" =
        b.columns.getD (ij'.1 + rowShift cfg) "" := by
      unfold rowShift
      cases cfg.plotHists
      · exact getD_tail ..
      · rfl
    have e2 : (if cfg.plotHists = true then b.columns else b.columns.dropLast).getD ij'.2 "" = b.columns.getD ij'.2 "" := by
      unfold rowShift at hj
      cases hh : cfg.plotHists
      · rw [hh] at hj
        exact getD_dropLast (by simpa using hj)
      · rfl
    rw [e1, e2] at hcd
    obtain ⟨d', hd', -, hall⟩ := panelPaths_of_draw hdraw
    rw [hcd] at hd'
    cases hd'
    obtain ⟨hij1, hij2, c, hc, dc, hdc, hedc, h1, h2, h3, h4, h5, xs, ys, h6⟩ := hall e hed
    refine ⟨c, ⟨hc, h3, h4, ij'.1 + rowShift cfg, ij'.2, b.columns.getD ij'.2 "", b.columns.getD (ij'.1 + rowShift cfg) "", ?_, ?_, ?_,
      h1, h2⟩, ⟨_, _, dc, hdc, hedc⟩, h5, ij', s ++ dd, _, _, xs, ys, hmem, List.mem_append_right _ h6⟩
    · unfold rowShift
      cases hh : cfg.plotHists
      · simp; omega
      · rw [hh] at hij2
        simp only [Bool.true_and, decide_eq_false_iff_not] at hij2
        simp; omega
    · rw [List.getD_eq_getElem?_getD, List.getElem?_eq_getElem (by omega), Option.getD_some]
    · rw [List.getD_eq_getElem?_getD, List.getElem?_eq_getElem (by omega), Option.getD_some]


theorem everyNth_ne_nil {α : Type} {k : Nat} {l : List α} (h : l ≠ []) : everyNth k l ≠ [] := by
  cases l with
  | nil => exact absurd rfl h
  | cons x xs => rw [everyNth]; simp

theorem arrMin_exists {l : List ℝ} (h : l ≠ []) : ∃ v, arrMin l = .ok v := by
  cases l with
  | nil => exact absurd rfl h
  | cons x xs => exact ⟨_, rfl⟩

theorem arrMax_exists {l : List ℝ} (h : l ≠ []) : ∃ v, arrMax l = .ok v := by
  cases l with
  | nil => exact absurd rfl h
  | cons x xs => exact ⟨_, rfl⟩

theorem colorbarOf_ok {cfg : PlotConfig} {e : String × Scatter} {bar : Colorbar} (h : colorbarOf cfg e = .ok bar) :
    bar.column = e.1 ∧ bar.label = barLabel cfg e.1 ∧ bar.cmap = e.2.cmap ∧ ScaleOf e.2.values bar.lo bar.hi := by
  unfold colorbarOf at h
  rw [bind_ok_iff] at h
  obtain ⟨lo, hlo, h⟩ := h
  rw [bind_ok_iff] at h
  obtain ⟨hi, hhi, h⟩ := h
  cases pure_ok_iff.1 h
  obtain ⟨h1, h2⟩ := arrMin_ok_iff.1 hlo
  obtain ⟨h3, h4⟩ := arrMax_ok_iff.1 hhi
  exact ⟨rfl, rfl, rfl, h1, h3, fun v hv => ⟨h2 v hv, h4 v hv⟩⟩

theorem barLabel_spec (cfg : PlotConfig) (p : String) :
    barLabel cfg p = (spelled.lookup ((cfg.labels.lookup p).getD p)).getD ((cfg.labels.lookup p).getD p) := by
  unfold barLabel
  have : getLabel cfg.labels p = (cfg.labels.lookup p).getD p := rfl
  rw [this]
  generalize (cfg.labels.lookup p).getD p = l
  simp only [spelled, List.lookup]
  by_cases h1 : l = "weight"
  · subst h1; rfl
  by_cases h2 : l = "log_weight"
  · subst h2; rfl
  by_cases h3 : l = "posterior"
  · subst h3; rfl
  rw [if_neg h1, if_neg h2, if_neg h3, beq_false_of_ne h1, beq_false_of_ne h2, beq_false_of_ne h3]
  rfl

/-- **C93** (bars). A figure has exactly one colour bar for every column that colours a cloud in it. It is labelled like the
column, the usual names of weights and posterior spelled out, and its colours and its scale are those of a cloud of the figure. -/
theorem C93_bars {lib : Lib} {cfg : PlotConfig} {truths : List (Truth ℝ)} {b : PlottingBase} {fig : Fig}
    (h : plotBase lib cfg truths b = .ok fig) (hwf : ∀ c ∈ b.chains, c.samples.WF ∧ c.samples.index ≠ []) :
    ∃ bars, plotColorbars cfg b = .ok bars ∧ (bars.map Colorbar.column).Nodup ∧
      (∀ p, p ∈ bars.map Colorbar.column ↔ p ∈ fig.colorbars) ∧
      (∀ p, p ∈ bars.map Colorbar.column ↔ ∃ c, ColouredBy b p c) ∧
      (∀ bar ∈ bars, bar.label = (spelled.lookup ((cfg.labels.lookup bar.column).getD bar.column)).getD
        ((cfg.labels.lookup bar.column).getD bar.column)) ∧
      ∀ bar ∈ bars, ∃ c, ColouredBy b bar.column c ∧ bar.cmap = c.cfg .cmap ∧
        ∃ ij calls px py xs ys vals, (ij, calls) ∈ fig.panels ∧ Call.cloud c.name px py xs ys (some vals) ∈ calls ∧
          ScaleOf vals bar.lo bar.hi := by
  obtain ⟨ps, hps, hnd, hkeys, hent⟩ := plotPaths_of_plot h
  have hex : ∃ bars, ps.mapM (colorbarOf cfg) = .ok bars := by
    refine mapM_ok_of_forall' fun e he => ?_
    obtain ⟨c, hcol, ⟨px, py, d, hd, hed⟩, -⟩ := hent e he
    obtain ⟨k, z, -, hz, hv⟩ := chainPaths_values hd (hwf c hcol.1).1 hed
    have hne : e.2.values ≠ [] := by
      rw [hv]
      refine everyNth_ne_nil fun hz0 => (hwf c hcol.1).2 ?_
      have := (hwf c hcol.1).1.2 _ (get_mem hz)
      rw [hz0] at this
      exact List.length_eq_zero_iff.1 this.symm
    obtain ⟨lo, hlo⟩ := arrMin_exists hne
    obtain ⟨hi, hhi⟩ := arrMax_exists hne
    exact ⟨_, by unfold colorbarOf; rw [hlo, hhi]; rfl⟩
  obtain ⟨bars, hbars⟩ := hex
  have hcols : bars.map Colorbar.column = ps.map Prod.fst := by
    have hf := mapM_ok_iff.1 hbars
    clear hbars hent hkeys hnd hps
    induction hf with
    | nil => rfl
    | cons h1 _ ih => rw [List.map_cons, List.map_cons, ih, (colorbarOf_ok h1).1]
  refine ⟨bars, by unfold plotColorbars; rw [hps]; exact hbars, by rw [hcols]; exact hnd, by rw [hcols]; exact hkeys, fun p => ?_,
    fun bar hbar => ?_, fun bar hbar => ?_⟩
  · rw [hcols]
    constructor
    · intro hp
      obtain ⟨e, he, rfl⟩ := List.mem_map.1 hp
      obtain ⟨c, hcol, -⟩ := hent e he
      exact ⟨c, hcol⟩
    · rintro ⟨c, hc, hcl, hcp, i, j, px, py, hij, hx, hy, hpx, hpy⟩
      exact (hkeys p).2 (C57_violated_colourbar h hc hcl hcp hij hx hy hpx hpy)
  · obtain ⟨e, he, heb⟩ := mapM_ok_mem_right hbars hbar
    obtain ⟨h1, h2, -⟩ := colorbarOf_ok heb
    rw [h2, h1, barLabel_spec]
  · obtain ⟨e, he, heb⟩ := mapM_ok_mem_right hbars hbar
    obtain ⟨h1, -, h3, h4⟩ := colorbarOf_ok heb
    obtain ⟨c, hcol, -, hcm, ij, calls, px, py, xs, ys, hpan, hcall⟩ := hent e he
    exact ⟨c, h1 ▸ hcol, h3.trans hcm, ij, calls, px, py, xs, ys, e.2.values, hpan, hcall, h4⟩

/-- **C93** (clouds, partial: only if no other chain of the figure is coloured by the same column). Every coloured cloud has a colour
bar, with its colours, and the bar reaches from the least to the greatest value shown. -/
theorem C93_clouds_partial {lib : Lib} {cfg : PlotConfig} {truths : List (Truth ℝ)} {b : PlottingBase} {fig : Fig}
    (h : plotBase lib cfg truths b = .ok fig) (hwf : ∀ c ∈ b.chains, c.samples.WF) {bars : List Colorbar}
    (hb : plotColorbars cfg b = .ok bars) {ij : Nat × Nat} {calls : List Call} (hc : (ij, calls) ∈ fig.panels)
    {n px py : String} {xs ys vals : List ℝ} (hm : Call.cloud n px py xs ys (some vals) ∈ calls) :
    ∃ c p bar, ColouredBy b p c ∧ n = c.name ∧ bar ∈ bars ∧ bar.column = p ∧
      ((∀ c', ColouredBy b p c' → c' = c) → bar.cmap = c.cfg .cmap ∧ ScaleOf vals bar.lo bar.hi) := by
  obtain ⟨i, j⟩ := ij
  obtain ⟨hi, hj, hcase⟩ := plot_cases h hc
  have key : ∃ c ∈ b.chains, n = c.name ∧ ∃ qx qy d e, chainPaths qx qy c = .ok d ∧ e ∈ d ∧ e.2.values = vals ∧ ColouredBy b e.1 c := by
    rcases hcase with ⟨-, rfl⟩ | ⟨hji, -, qx, qy, s, dd, bs, hx, hy, hs, hd, rfl⟩ | ⟨-, rfl, p, s, r, -, hs, hr, rfl⟩
    · simp at hm
    · have hs0 : Call.cloud n px py xs ys (some vals) ∉ s := by
        intro hs1
        have := (items_of_setup (trianglePanel_setup hs)).1
        rw [items, List.filterMap_eq_nil_iff] at this
        exact absurd (this _ hs1) (by simp [itemOf])
      have ht : Call.cloud n px py xs ys (some vals) ∉ plotTruths lib.filled truths (some qx) (some qy) := by
        intro hs1
        have := (plotTruths_marks lib.filled truths (some qx) (some qy)).1
        rw [items, List.filterMap_eq_nil_iff] at this
        exact absurd (this _ hs1) (by simp [itemOf])
      simp only [List.mem_append, hs0, ht, false_or, or_false] at hm
      unfold plotSurface at hd
      rw [bind_ok_iff] at hd
      obtain ⟨rs, hrs, hd⟩ := hd
      cases pure_ok_iff.1 hd
      obtain ⟨r, hr, hmr⟩ := List.mem_flatMap.1 hm
      obtain ⟨c, hcm, hcr⟩ := mapM_ok_mem_right hrs hr
      obtain ⟨d, hd, -, hent, hcl, -⟩ := chainPaths_of_draw hcr
      obtain ⟨hn, e, he, hev⟩ := hcl _ _ _ _ _ _ hmr
      obtain ⟨h1, h2, h3, h4, -⟩ := hent e he
      exact ⟨c, hcm, hn, qx, qy, d, e, hd, he, hev, hcm, h3, h4, _, j, qx, qy, hji, hx, hy, h1, h2⟩
    · exfalso
      have hit : Item.cloud n px py ∈ items r.1 := by
        have : Call.cloud n px py xs ys (some vals) ∈ r.1 := by
          have hs0 : Call.cloud n px py xs ys (some vals) ∉ s := by
            intro hs1
            have := (items_of_setup (trianglePanel_setup hs)).1
            rw [items, List.filterMap_eq_nil_iff] at this
            exact absurd (this _ hs1) (by simp [itemOf])
          have ht : Call.cloud n px py xs ys (some vals) ∉
              histTruths lib truths (cfg.flip && decide (b.columns.length = 2 ∧ i = 1)) p := by
            intro hs1
            unfold histTruths at hs1
            split at hs1
            · have := (plotTruths_marks lib.filled truths none (some p)).1
              rw [items, List.filterMap_eq_nil_iff] at this
              exact absurd (this _ hs1) (by simp [itemOf])
            · have := (plotTruths_marks lib.filled truths (some p) none).1
              rw [items, List.filterMap_eq_nil_iff] at this
              exact absurd (this _ hs1) (by simp [itemOf])
          have hl : Call.cloud n px py xs ys (some vals) ∉
              topLim (cfg.flip && decide (b.columns.length = 2 ∧ i = 1)) r.2 := by
            intro hs1
            unfold topLim at hs1
            split at hs1 <;> simp at hs1
          simpa only [List.mem_append, hs0, ht, hl, false_or, or_false] using hm
        exact List.mem_filterMap.2 ⟨_, this, rfl⟩
      rw [(histChains_items (calls := r.1) (m' := r.2) hr).1] at hit
      simp [histItems] at hit
  obtain ⟨c, hcm, hn, qx, qy, d, e, hd, he, rfl, hcol⟩ := key
  obtain ⟨ps, hps, hnd, hkeys, hent⟩ := plotPaths_of_plot h
  have hp : e.1 ∈ ps.map Prod.fst := by
    obtain ⟨h1, h2, h3, i', j', px', py', h4, h5, h6, h7, h8⟩ := hcol
    exact (hkeys _).2 (C57_violated_colourbar h h1 h2 h3 h4 h5 h6 h7 h8)
  obtain ⟨e', he', hee⟩ := List.mem_map.1 hp
  unfold plotColorbars at hb
  rw [hps] at hb
  change ps.mapM (colorbarOf cfg) = _ at hb
  obtain ⟨bar, hbar, hbe⟩ := mapM_ok_mem hb he'
  obtain ⟨g1, -, g3, g4⟩ := colorbarOf_ok hbe
  refine ⟨c, e.1, bar, hcol, hn, hbar, g1.trans hee, fun huniq => ?_⟩
  obtain ⟨c', hcol', ⟨rx, ry, d', hd', hed'⟩, hcm', -⟩ := hent e' he'
  have : c' = c := huniq c' (hee ▸ hcol')
  subst this
  refine ⟨g3.trans hcm', ?_⟩
  obtain ⟨k1, z1, a1, a2, a3⟩ := chainPaths_values hd (hwf c' hcm) he
  obtain ⟨k2, z2, b1, b2, b3⟩ := chainPaths_values hd' (hwf c' hcm) hed'
  rw [a1] at b1
  cases b1
  rw [hee, a2] at b2
  cases b2
  rw [a3, ← b3]
  exact g4


/-- Samples of `a`, `b` and of a column `z` of colours. -/
noncomputable def barFrame (u v : ℝ) : Frame ℝ :=
  ⟨[.int 0, .int 1], [("a", [0, 1]), ("b", [0, 10]), ("z", [u, v]), ("weight", [1, 1])]⟩

theorem barFrame_wf (u v : ℝ) : (barFrame u v).WF := by
  refine ⟨?_, by simp [barFrame]⟩
  change ["a", "b", "z", "weight"].Nodup
  decide

theorem barFrame_columns (u v : ℝ) : (barFrame u v).columns = ["a", "b", "z", "weight"] := rfl

/-- A chain drawn as a cloud of `a` and `b` coloured by `z`. -/
structure ColourChain (c : Chain ℝ) (name : String) (u v : ℝ) : Prop where
  wf : c.samples.WF ∧ c.samples.index ≠ []
  cloud : (c.cfg .plotCloud : Bool) = true
  param : c.cfg .colorParam = some "z"
  columns : c.plottingColumns = ["a", "b"]
  draw : ∀ (lib : Lib) (cfg : PlotConfig),
    surfaceChain lib cfg "a" "b" c = .ok ([.cloud name "a" "b" [0, 1] [0, 10] (some [u, v])], ["z"])
  path : chainPaths "a" "b" c = .ok [("z", ⟨"viridis", [u, v]⟩)]

theorem colourChain_exists (name : String) (u v : ℝ) : ∃ c, ColourChain c name u v := by
  have key := plain_chain_colour (K := ℝ) false [⟨.plotContour, false⟩, ⟨.plotCloud, true⟩, ⟨.colorParam, some "z"⟩] rfl
    (by change (0 : ℝ) ≤ 6827 / 10000 ∧ (6827 / 10000 : ℝ) ≤ 1; constructor <;> norm_num)
    (by change (1 : ℝ) ≤ 10; norm_num) rfl (by intro h; cases h) (barFrame u v) (barFrame_wf u v)
    (by simp [barFrame]) (w := [1, 1]) (by intro p hp; cases hp; rw [barFrame_columns]; decide) rfl (by simp) name 1 le_rfl (one_dvd _)
  obtain ⟨c, -, hsam, hwc, hpc, -, -, -, hname, hcfg⟩ := key
  have h1 : (c.cfg .plotCloud : Bool) = true := by rw [hcfg]; rfl
  have h2 : (c.cfg .plotContour : Bool) = false := by rw [hcfg]; rfl
  have h3 : (c.cfg .plotPoint : Bool) = false := by rw [hcfg]; rfl
  have h4 : c.cfg .colorParam = some "z" := by rw [hcfg]; rfl
  have h5 : (c.cfg .numCloud : ℝ) = 10000 := by rw [hcfg]; rfl
  have h6 : c.cfg .cmap = "viridis" := by rw [hcfg]; rfl
  have ha : c.samples.get "a" = .ok [0, 1] := by rw [hsam]; rfl
  have hb : c.samples.get "b" = .ok [0, 10] := by rw [hsam]; rfl
  have hz : c.samples.get "z" = .ok [u, v] := by rw [hsam]; rfl
  have hp : c.plottingColumns = ["a", "b"] := by
    rw [Chain.plottingColumns, Chain.dataColumns, h4, h1, hsam, hwc, hpc]
    rw [barFrame_columns]
    decide
  have hs : cloudStep 2 10000 = .ok 1 := by
    have : ⌊((2 : ℕ) : ℝ) / 10000⌋ = 0 := by
      rw [Int.floor_eq_zero_iff]; constructor <;> norm_num
    rw [cloudStep, this]
    simp [ensure, bind, Except.bind, pure, Except.pure]
  have he : ∀ a b : ℝ, everyNth 1 [a, b] = [a, b] := fun a b => everyNth_one _
  refine ⟨c, ⟨?_, ?_⟩, h1, h4, hp, fun lib cfg => ?_, ?_⟩
  · rw [hsam]; exact barFrame_wf u v
  · rw [hsam]; simp [barFrame]
  · simp [surfaceChain, hp, cloudCalls, h1, plotCloud, ha, hb, hz, h5, hs, Chain.colorData, h4, he, contourCalls, h2, pointCalls,
      h3, hname, bind, Except.bind, pure, Except.pure]
  · simp [chainPaths, hp, h1, cloudPath, ha, hz, h5, hs, Chain.colorData, h4, he, h6, cloudEntry, bind, Except.bind, pure, Except.pure]

theorem colour_figure (lib : Lib) {chains : List (Chain ℝ)} {vals : List (String × ℝ × ℝ)}
    (h : List.Forall₂ (fun c e => ColourChain c e.1 e.2.1 e.2.2) chains vals) :
    ∃ calls bars, plotBase lib { plotHists := false } [] (demoBase chains) = .ok ⟨[((0, 0), calls)], bars⟩ ∧
      (∀ e ∈ vals, Call.cloud e.1 "a" "b" [0, 1] [0, 10] (some [e.2.1, e.2.2]) ∈ calls) ∧
      plotPaths { plotHists := false } (demoBase chains) =
        .ok ((vals.map fun e => [("z", (⟨"viridis", [e.2.1, e.2.2]⟩ : Scatter))]).foldl dictMerge []) := by
  have hsc : chains.mapM (surfaceChain lib { plotHists := false } "a" "b") =
      .ok (vals.map fun e => ([.cloud e.1 "a" "b" [0, 1] [0, 10] (some [e.2.1, e.2.2])], ["z"])) := by
    rw [mapM_ok_iff]
    induction h with
    | nil => exact .nil
    | cons h _ ih => exact .cons (h.draw _ _) ih
  have hcp : chains.mapM (chainPaths "a" "b") = .ok (vals.map fun e => [("z", (⟨"viridis", [e.2.1, e.2.2]⟩ : Scatter))]) := by
    rw [mapM_ok_iff]
    clear hsc
    induction h with
    | nil => exact .nil
    | cons h _ ih => exact .cons h.path ih
  have hl : List.lookup "b" [("a", some ((0 : ℝ), (1 : ℝ))), ("b", some (0, 10))] = some (some (0, 10)) := rfl
  have h1 : ∃ s, trianglePanel { plotHists := false } (demoBase chains) 1 0 0 "b" "a" = .ok s := by
    simp [demoBase, trianglePanel, triangleYlim, setLim, hl, bind, Except.bind, pure, Except.pure]
  obtain ⟨s, h1⟩ := h1
  have hg : gridPanels 1 1 = [(0, 0)] := rfl
  have h2 : plotSurface lib { plotHists := false } chains "a" "b" = .ok
      ((vals.map fun e => (([.cloud e.1 "a" "b" [0, 1] [0, 10] (some [e.2.1, e.2.2])] : List Call), ["z"])).flatMap Prod.fst,
       (vals.map fun e => (([.cloud e.1 "a" "b" [0, 1] [0, 10] (some [e.2.1, e.2.2])] : List Call), ["z"])).flatMap Prod.snd) := by
    unfold plotSurface
    rw [hsc]
    rfl
  have h3 : ∀ su fl nx, drawPanel lib { plotHists := false } (demoBase chains) [] su fl nx 0 0 "b" "a" = .ok
      ((vals.map fun e => (([.cloud e.1 "a" "b" [0, 1] [0, 10] (some [e.2.1, e.2.2])] : List Call), ["z"])).flatMap Prod.fst ++ [],
       (vals.map fun e => (([.cloud e.1 "a" "b" [0, 1] [0, 10] (some [e.2.1, e.2.2])] : List Call), ["z"])).flatMap Prod.snd) := by
    intro su fl nx
    have hch : (demoBase chains).chains = chains := rfl
    simp only [drawPanel, hch, h2, Nat.lt_irrefl, Bool.false_and, Bool.false_eq_true, if_false, bind, Except.bind, pure, Except.pure]
    rfl
  have hcols : (demoBase chains).columns = ["a", "b"] := rfl
  refine ⟨_, _, by
    simp only [plotBase, hcols, Bool.false_eq_true, if_false, List.tail_cons, List.length_cons, List.length_nil, Nat.zero_add,
      List.dropLast_cons_cons, List.dropLast_singleton, hg, List.mapM_cons, List.mapM_nil, List.getD_cons_zero, h3, h1, Nat.add_sub_cancel,
      bind, Except.bind, pure, Except.pure, ensure, Nat.zero_lt_one, decide_true, if_true, List.zipWith_cons_cons, List.zipWith_nil_left,
      List.zip_cons_cons, List.zip_nil_left]
    rfl, ?_, ?_⟩
  · intro e he
    refine List.mem_append_right _ (List.mem_append_left _ (List.mem_flatMap.2 ⟨_, List.mem_map.2 ⟨e, he, rfl⟩, ?_⟩))
    exact List.mem_singleton_self _
  · have hch : (demoBase chains).chains = chains := rfl
    have h4 : panelPaths { plotHists := false } (demoBase chains) 0 0 "b" "a" =
        .ok ((vals.map fun e => [("z", (⟨"viridis", [e.2.1, e.2.2]⟩ : Scatter))]).foldl dictMerge []) := by
      simp only [panelPaths, Nat.lt_irrefl, Bool.false_and, Bool.false_eq_true, if_false, surfacePaths, hch, hcp, bind, Except.bind,
        pure, Except.pure]
    simp only [plotPaths, hcols, Bool.false_eq_true, if_false, List.tail_cons, List.length_cons, List.length_nil, Nat.zero_add,
      List.dropLast_cons_cons, List.dropLast_singleton, hg, List.mapM_cons, List.mapM_nil, List.getD_cons_zero, h4, bind, Except.bind,
      pure, Except.pure, List.foldl_cons, List.foldl_nil]
    rw [foldl_dictMerge]
    congr 1
    generalize (vals.map fun e => [("z", (⟨"viridis", [e.2.1, e.2.2]⟩ : Scatter))]).flatten = l
    have hnd : ((dictMerge [] l).map Prod.fst).Nodup := (dictMerge_nil_spec l).1.nodup
    have := dictMerge_nodup [] (dictMerge [] l) (by simpa using hnd)
    simpa using this

/-- **C93** (violation). Two clouds coloured by `z`, one from 3 to 4 and one from 10 to 20: the only colour bar says that the colours
reach from 10 to 20. -/
theorem C93_violated (lib : Lib) : ∃ (b : PlottingBase) (fig : Fig) (calls : List Call) (bar : Colorbar),
    plotBase lib { plotHists := false } [] b = .ok fig ∧ plotColorbars { plotHists := false } b = .ok [bar] ∧ bar.column = "z" ∧
    ((0, 0), calls) ∈ fig.panels ∧ .cloud "one" "a" "b" [0, 1] [0, 10] (some [3, 4]) ∈ calls ∧ bar.lo = 10 ∧ bar.hi = 20 ∧
    ¬ ScaleOf [3, 4] bar.lo bar.hi ∧ ∀ c ∈ b.chains, ColouredBy b "z" c := by
  obtain ⟨c, hc⟩ := colourChain_exists "one" 3 4
  obtain ⟨d, hd⟩ := colourChain_exists "two" 10 20
  obtain ⟨calls, bars, hf, hcl, hp⟩ := colour_figure lib (chains := [c, d]) (vals := [("one", 3, 4), ("two", 10, 20)])
    (.cons hc (.cons hd .nil))
  have hm : ([("one", (3 : ℝ), (4 : ℝ)), ("two", 10, 20)].map fun e => [("z", (⟨"viridis", [e.2.1, e.2.2]⟩ : Scatter))]).foldl dictMerge [] =
      [("z", ⟨"viridis", [10, 20]⟩)] := rfl
  rw [hm] at hp
  refine ⟨demoBase [c, d], _, calls, ⟨"z", "z", "viridis", 10, 20⟩, hf, ?_, rfl, by simp, hcl ("one", 3, 4) (by simp), rfl, rfl, ?_, ?_⟩
  · unfold plotColorbars
    rw [hp]
    have h1 : arrMin [(10 : ℝ), 20] = .ok 10 := arrMin_ok_iff.2 ⟨by simp, by simp; norm_num⟩
    have h2 : arrMax [(10 : ℝ), 20] = .ok 20 := arrMax_ok_iff.2 ⟨by simp, by simp; norm_num⟩
    simp only [bind, Except.bind, List.mapM_cons, List.mapM_nil, colorbarOf, h1, h2, pure, Except.pure]
    rfl
  · rintro ⟨h, -⟩
    norm_num at h
  · intro e he
    have hex : ∃ n u v, ColourChain e n u v := by
      simp only [demoBase, List.mem_cons, List.not_mem_nil, or_false] at he
      rcases he with rfl | rfl
      · exact ⟨_, _, _, hc⟩
      · exact ⟨_, _, _, hd⟩
    obtain ⟨n, u, v, h⟩ := hex
    exact ⟨he, h.cloud, h.param, 1, 0, "a", "b", by omega, rfl, rfl, by simp [h.columns], by simp [h.columns]⟩

/-- A figure with one coloured cloud meets the hypotheses of `C93_bars` and `C93_clouds_partial`. -/
example (lib : Lib) : ∃ (b : PlottingBase) (fig : Fig) (calls : List Call),
    plotBase lib { plotHists := false } [] b = .ok fig ∧ (∀ c ∈ b.chains, c.samples.WF ∧ c.samples.index ≠ []) ∧
    ((0, 0), calls) ∈ fig.panels ∧ .cloud "one" "a" "b" [0, 1] [0, 10] (some [3, 4]) ∈ calls ∧
    ∀ p c c', ColouredBy b p c → ColouredBy b p c' → c' = c := by
  obtain ⟨c, hc⟩ := colourChain_exists "one" 3 4
  obtain ⟨calls, bars, hf, hcl, -⟩ := colour_figure lib (chains := [c]) (vals := [("one", 3, 4)]) (.cons hc .nil)
  refine ⟨demoBase [c], _, calls, hf, ?_, by simp, hcl ("one", 3, 4) (by simp), ?_⟩
  · intro e he
    simp only [demoBase, List.mem_singleton] at he
    subst he
    exact hc.wf
  · intro p c1 c2 h1 h2
    have e1 := h1.1
    have e2 := h2.1
    simp only [demoBase, List.mem_singleton] at e1 e2
    rw [e1, e2]

end CC
