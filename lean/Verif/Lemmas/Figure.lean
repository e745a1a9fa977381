import Verif.Model.Figure
import Verif.Lemmas.Except
import Mathlib.Data.List.Forall2

/-! # Lemmas: the panels of a figure -/

namespace CC

theorem mem_gridPanels {r c : Nat} {ij : Nat × Nat} : ij ∈ gridPanels r c ↔ ij.1 < r ∧ ij.2 < c := by
  obtain ⟨i, j⟩ := ij
  simp only [gridPanels, List.mem_flatMap, List.mem_range, List.mem_map, Prod.mk.injEq]
  constructor
  · rintro ⟨a, ha, b, hb, rfl, rfl⟩; exact ⟨ha, hb⟩
  · rintro ⟨ha, hb⟩; exact ⟨i, ha, j, hb, rfl, rfl⟩

theorem gridPanels_nodup (r c : Nat) : (gridPanels r c).Nodup := by
  rw [gridPanels, List.nodup_flatMap]
  constructor
  · intro i _
    exact List.nodup_range.map fun a b h => (Prod.mk.inj h).2
  · refine List.nodup_range.imp fun {a b} hab => ?_
    intro x hx hy
    obtain ⟨_, -, rfl⟩ := List.mem_map.1 hx
    obtain ⟨_, -, h⟩ := List.mem_map.1 hy
    exact hab (Prod.mk.inj h).1.symm

theorem zip_fst_of_length {α β : Type} {l : List α} {r : List β} (h : l.length = r.length) :
    (l.zip r).map Prod.fst = l := by
  rw [List.map_fst_zip]
  exact h.le

/-- Entries of two lists run through by `mapM`. -/
theorem mem_zip_mapM {α β : Type} {f : α → Res β} {l : List α} {r : List β} (h : l.mapM f = .ok r) {a : α} {b : β}
    (hm : (a, b) ∈ l.zip r) : a ∈ l ∧ f a = .ok b := by
  replace h := mapM_ok_iff.1 h
  induction h with
  | nil => cases hm
  | cons hab _ ih =>
    rcases List.mem_cons.1 hm with e | hm
    · cases e; exact ⟨by simp, hab⟩
    · obtain ⟨h1, h2⟩ := ih hm
      exact ⟨List.mem_cons_of_mem _ h1, h2⟩

theorem exists_mem_zip {α β : Type} {l : List α} {r : List β} (h : l.length = r.length) {a : α} (ha : a ∈ l) :
    ∃ b, (a, b) ∈ l.zip r := by
  obtain ⟨i, hi, rfl⟩ := List.getElem_of_mem ha
  refine ⟨r[i]'(by omega), ?_⟩
  rw [List.mem_iff_getElem]
  exact ⟨i, by simp; omega, by simp⟩

theorem getD_tail (l : List String) (i : Nat) : l.tail.getD i "" = l.getD (i + 1) "" := by
  cases l <;> simp

theorem getD_dropLast {l : List String} {i : Nat} (h : i < l.length - 1) : l.dropLast.getD i "" = l.getD i "" := by
  simp only [List.getD_eq_getElem?_getD, List.getElem?_dropLast, if_pos h]

theorem mem_zip_two {α β γ δ : Type} {f : α → Res β} {g : α → Res γ} {l : List α} {r : List β} {t : List γ}
    {k : β → γ → δ} (hf : l.mapM f = .ok r) (hg : l.mapM g = .ok t) {a : α} {d : δ}
    (hm : (a, d) ∈ l.zip (List.zipWith k r t)) : a ∈ l ∧ ∃ b c, f a = .ok b ∧ g a = .ok c ∧ d = k b c := by
  replace hf := mapM_ok_iff.1 hf
  replace hg := mapM_ok_iff.1 hg
  induction hf generalizing t with
  | nil => cases hm
  | cons hab _ ih =>
    cases hg with
    | cons hac hg =>
      rcases List.mem_cons.1 hm with e | hm
      · cases e; exact ⟨by simp, _, _, hab, hac, rfl⟩
      · obtain ⟨h1, h2⟩ := ih hm hg
        exact ⟨List.mem_cons_of_mem _ h1, h2⟩

/-- Whether histograms shift the rows: the vertical parameter of row `i` is column `i + rowShift`. -/
def rowShift (cfg : PlotConfig) : Nat := if cfg.plotHists then 0 else 1

/-- The panels of `plot`. -/
theorem plot_panels {lib : Lib} {cfg : PlotConfig} {truths : List (Truth ℝ)} {b : PlottingBase} {fig : Fig}
    (h : plotBase lib cfg truths b = .ok fig) :
    let n := b.columns.length - rowShift cfg
    0 < n ∧ fig.panels.map Prod.fst = gridPanels n n ∧
    ∀ ij calls, (ij, calls) ∈ fig.panels → ij.1 < n ∧ ij.2 < n ∧ ∃ s d bars,
      trianglePanel cfg b n ij.1 ij.2 (b.columns.getD (ij.1 + rowShift cfg) "") (b.columns.getD ij.2 "") = .ok s ∧
      drawPanel lib cfg b truths
        (cfg.summarise && decide ((b.chains.filter fun c => c.cfg .plotContour).length = 1))
        (decide (b.columns.length = 2) && cfg.plotHists && cfg.flip) n ij.1 ij.2
        (b.columns.getD (ij.1 + rowShift cfg) "") (b.columns.getD ij.2 "") = .ok (d, bars) ∧ calls = s ++ d := by
  simp only [plotBase, bind_ok_iff, pure_ok_iff, ensure_ok_iff, decide_eq_true_eq] at h
  obtain ⟨-, hn, setup, hs, draws, hd, rfl⟩ := h
  have hls := (mapM_ok_iff.1 hs).length_eq
  have hld := (mapM_ok_iff.1 hd).length_eq
  have hlen : ∀ k : List Call → List Call × List String → List Call,
      (gridPanels (if cfg.plotHists = true then b.columns else b.columns.tail).length
        (if cfg.plotHists = true then b.columns else b.columns.dropLast).length).length =
        (List.zipWith k setup draws).length := by
    intro k
    rw [List.length_zipWith, ← hls, ← hld, Nat.min_self]
  have hkeys := zip_fst_of_length (hlen fun s d => s ++ d.1)
  cases hp : cfg.plotHists with
  | true =>
    simp only [hp, if_true, rowShift, Nat.sub_zero, Nat.add_zero] at *
    refine ⟨hn, hkeys, fun ij calls hm => ?_⟩
    obtain ⟨h1, s, ⟨d, bars⟩, h2, h3, h4⟩ := mem_zip_two hs hd hm
    rw [mem_gridPanels] at h1
    exact ⟨h1.1, h1.2, s, d, bars, h2, h3, h4⟩
  | false =>
    simp only [hp, Bool.false_eq_true, if_false, rowShift, List.length_tail, List.length_dropLast] at *
    refine ⟨hn, hkeys, fun ij calls hm => ?_⟩
    obtain ⟨h1, s, ⟨d, bars⟩, h2, h3, h4⟩ := mem_zip_two hs hd hm
    rw [mem_gridPanels] at h1
    rw [getD_tail, getD_dropLast h1.2] at h2 h3
    exact ⟨h1.1, h1.2, s, d, bars, h2, h3, h4⟩

/-- The panels of `plot_distributions`. -/
theorem distributions_panels {lib : Lib} {cfg : PlotConfig} {truths : List (Truth ℝ)} {colWrap : Nat} {b : PlottingBase}
    {fig : Fig} (h : plotDistributionsBase lib cfg truths colWrap b = .ok fig) :
    let n := b.columns.length
    let cols := min n colWrap
    0 < cols ∧ (fig.panels.map Prod.fst).Nodup ∧
    (∀ ij calls, (ij, calls) ∈ fig.panels → ij.2 < cols ∧
      (n ≤ ij.1 * cols + ij.2 ∧ calls = [.axisOff] ∨
       ij.1 * cols + ij.2 < n ∧ distPanel lib cfg b truths (b.columns.getD (ij.1 * cols + ij.2) "") = .ok calls)) ∧
    ∀ k < n, ∃ calls, ((k / cols, k % cols), calls) ∈ fig.panels := by
  intro n cols
  simp only [plotDistributionsBase, bind_ok_iff, pure_ok_iff, ensure_ok_iff, decide_eq_true_eq] at h
  obtain ⟨-, hw, -, hn, panels, hp, rfl⟩ := h
  have hlen := (mapM_ok_iff.1 hp).length_eq
  have hc : 0 < cols := by simp only [cols, n]; omega
  refine ⟨hc, ?_, ?_, ?_⟩
  · simp only [zip_fst_of_length hlen]
    exact gridPanels_nodup _ _
  · intro ij calls hm
    obtain ⟨h1, h2⟩ := mem_zip_mapM hp hm
    refine ⟨(mem_gridPanels.1 h1).2, ?_⟩
    by_cases hk : n ≤ ij.1 * cols + ij.2
    · rw [if_pos hk] at h2
      cases h2
      exact .inl ⟨hk, rfl⟩
    · rw [if_neg hk] at h2
      exact .inr ⟨by omega, h2⟩
  · intro k hk
    refine exists_mem_zip hlen ?_
    rw [mem_gridPanels]
    refine ⟨?_, Nat.mod_lt _ hc⟩
    simp only [cols]
    by_cases hnw : n ≤ colWrap
    · rw [Nat.min_eq_left hnw, Nat.div_eq_of_lt hk]
      exact Nat.div_pos (by omega) (by omega)
    · rw [Nat.min_eq_right (by omega), Nat.div_lt_iff_lt_mul (by omega)]
      have h3 := Nat.div_add_mod (n + colWrap - 1) colWrap
      have h4 := Nat.mod_lt (n + colWrap - 1) (show 0 < colWrap by omega)
      rw [Nat.mul_comm] at h3
      change k < (n + colWrap - 1) / colWrap * colWrap
      omega

theorem grid_zip_aux {α : Type} (L : Nat) (rows : List (List α)) (h : ∀ r ∈ rows, r.length = L) (s : Nat) :
    (((List.range' s rows.length).flatMap fun i => (List.range L).map fun j => (i, j)).zip rows.flatten) =
      (rows.zipIdx s).flatMap fun r => r.1.zipIdx.map fun e => ((r.2, e.2), e.1) := by
  induction rows generalizing s with
  | nil => rfl
  | cons r rows ih =>
    have hr : r.length = L := h r (by simp)
    rw [List.length_cons, List.range'_succ, List.flatMap_cons, List.flatten_cons, List.zip_append (by simp [hr]),
      ih (fun r hr => h r (by simp [hr])), List.zipIdx_cons, List.flatMap_cons]
    congr 1
    refine List.ext_getElem (by simp [hr]) fun i h1 h2 => ?_
    simp

theorem grid_zip {α : Type} (L : Nat) (rows : List (List α)) (h : ∀ r ∈ rows, r.length = L) :
    (gridPanels rows.length L).zip rows.flatten =
      rows.zipIdx.flatMap fun r => r.1.zipIdx.map fun e => ((r.2, e.2), e.1) := by
  rw [gridPanels, List.range_eq_range' (n := rows.length)]
  exact grid_zip_aux L rows h 0

theorem mem_grid_zip {α : Type} (L : Nat) (rows : List (List α)) (h : ∀ r ∈ rows, r.length = L) (ij : Nat × Nat) (x : α) :
    (ij, x) ∈ (gridPanels rows.length L).zip rows.flatten ↔ ∃ r, rows[ij.1]? = some r ∧ r[ij.2]? = some x := by
  rw [grid_zip L rows h, List.mem_flatMap]
  constructor
  · rintro ⟨⟨r, i⟩, hr, hx⟩
    obtain ⟨⟨y, j⟩, hy, e⟩ := List.mem_map.1 hx
    cases e
    exact ⟨r, List.mk_mem_zipIdx_iff_getElem?.1 hr, List.mk_mem_zipIdx_iff_getElem?.1 hy⟩
  · rintro ⟨r, h1, h2⟩
    exact ⟨(r, ij.1), List.mk_mem_zipIdx_iff_getElem?.2 h1,
      List.mem_map.2 ⟨(x, ij.2), List.mk_mem_zipIdx_iff_getElem?.2 h2, rfl⟩⟩

/-- The panels of `plot_summary`. -/
theorem summary_panels {lib : Lib} {cfg : PlotConfig} {truths : List (Truth ℝ)} {errorbar : Bool} {b : PlottingBase}
    {fig : Fig} (h : plotSummaryBase lib cfg truths errorbar b = .ok fig) :
    b.columns ≠ [] ∧ b.chains ≠ [] ∧
    ∃ (rows : List (List (List Call × Option ℝ))) (lims : List (List Call)),
      List.Forall₂ (fun ci row => List.Forall₂ (fun p cell => summaryCell lib cfg b truths errorbar ci.2 ci.1 p = .ok cell)
        b.columns row) b.chains.zipIdx rows ∧
      summaryLimits errorbar b.columns
        (maxVals (rows.flatMap fun r => List.zipWith (fun p cell => (p, cell.2)) b.columns r)) = .ok lims ∧
      lims.length = b.columns.length ∧
      ∀ ij calls, (ij, calls) ∈ fig.panels ↔ ∃ c row, b.chains[ij.1]? = some c ∧ rows[ij.1]? = some row ∧
        ((ij.2 = 0 ∧ ∃ l, lims[0]? = some l ∧ calls = [.axisOff, .text c.name] ++ l) ∨
         ∃ k cell, ij.2 = k + 1 ∧ row[k]? = some cell ∧ calls = cell.1 ++ (lims.getD (k + 1) [])) := by
  simp only [plotSummaryBase, bind_ok_iff, pure_ok_iff, ensure_ok_iff, Bool.and_eq_true, Bool.not_eq_true',
    List.isEmpty_eq_false_iff] at h
  obtain ⟨-, ⟨hc, hch⟩, rows, hrows, lims, hlims, rfl⟩ := h
  have hr := mapM_ok_iff.1 hrows
  have hr' : List.Forall₂ (fun ci row => List.Forall₂ (fun p cell =>
      summaryCell lib cfg b truths errorbar ci.2 ci.1 p = .ok cell) b.columns row) b.chains.zipIdx rows :=
    hr.imp fun ci row h => mapM_ok_iff.1 h
  have hlen : lims.length = b.columns.length := (mapM_ok_iff.1 hlims).length_eq.symm
  have hlr : b.chains.length = rows.length := by
    have := hr.length_eq
    simpa using this
  have hrow : ∀ row ∈ rows, row.length = b.columns.length := by
    intro row hm
    obtain ⟨i, hi, rfl⟩ := List.getElem_of_mem hm
    have := (List.forall₂_iff_get.1 hr').2 i (by rw [hr'.length_eq]; exact hi) hi
    simpa using this.length_eq.symm
  refine ⟨hc, hch, rows, lims, hr', hlims, hlen, fun ij calls => ?_⟩
  set lines := (b.chains.zip rows).map fun cr : Chain ℝ × List (List Call × Option ℝ) =>
    List.zipWith (· ++ ·) ([.axisOff, .text cr.1.name] :: cr.2.map Prod.fst) (lims ++ [[]]) with hl
  have e : lines.length = b.chains.length := by simp [lines, hlr]
  have hL : ∀ r ∈ lines, r.length = b.columns.length + 1 := by
    intro r hm
    obtain ⟨cr, hcr, rfl⟩ := List.mem_map.1 hm
    have := hrow cr.2 (List.of_mem_zip hcr).2
    simp [hlen, this]
  change (ij, calls) ∈ (gridPanels b.chains.length (b.columns.length + 1)).zip (List.flatMap _ _) ↔ _
  rw [List.flatMap_def, ← hl, ← e, mem_grid_zip _ _ hL]
  have hpos : 0 < lims.length := by rw [hlen]; exact List.length_pos_iff.2 hc
  have hget : ∀ k, (lims ++ [[]])[k]? = if k ≤ lims.length then some (lims.getD k []) else none := by
    intro k
    rw [List.getElem?_append, List.getD_eq_getElem?_getD]
    by_cases h1 : k < lims.length
    · rw [if_pos h1, if_pos h1.le, List.getElem?_eq_getElem h1]; rfl
    · rw [if_neg h1]
      by_cases h2 : k ≤ lims.length
      · have h3 : lims[k]? = none := List.getElem?_eq_none (by omega)
        rw [if_pos h2, show k - lims.length = 0 by omega, h3]; rfl
      · rw [if_neg h2]
        exact List.getElem?_eq_none (by simp; omega)
  simp only [lines, List.getElem?_map, Option.map_eq_some_iff, List.getElem?_zip_eq_some]
  constructor
  · rintro ⟨r, ⟨cr, ⟨h1, h2⟩, rfl⟩, h3⟩
    refine ⟨cr.1, cr.2, h1, h2, ?_⟩
    obtain ⟨i, j⟩ := ij
    rw [List.getElem?_zipWith_eq_some] at h3
    obtain ⟨x, y, hx, hy, rfl⟩ := h3
    rw [hget] at hy
    cases j with
    | zero =>
      left
      rw [if_pos (Nat.zero_le _)] at hy
      cases hy
      cases hx
      exact ⟨rfl, _, List.getElem?_eq_getElem hpos, by
        rw [List.getD_eq_getElem?_getD, List.getElem?_eq_getElem hpos]; rfl⟩
    | succ k =>
      right
      rw [List.getElem?_cons_succ, List.getElem?_map, Option.map_eq_some_iff] at hx
      obtain ⟨cell, hcell, rfl⟩ := hx
      by_cases h4 : k + 1 ≤ lims.length
      · rw [if_pos h4] at hy
        cases hy
        exact ⟨k, cell, rfl, hcell, rfl⟩
      · rw [if_neg h4] at hy
        cases hy
  · rintro ⟨c, row, h1, h2, h3⟩
    refine ⟨_, ⟨(c, row), ⟨h1, h2⟩, rfl⟩, ?_⟩
    rw [List.getElem?_zipWith_eq_some]
    obtain ⟨i, j⟩ := ij
    rcases h3 with ⟨rfl, l, hl, rfl⟩ | ⟨k, cell, rfl, hcell, rfl⟩
    · refine ⟨_, l, rfl, ?_, rfl⟩
      rw [hget, if_pos (Nat.zero_le _), List.getD_eq_getElem?_getD, hl]
      rfl
    · refine ⟨cell.1, lims.getD (k + 1) [], ?_, ?_, rfl⟩
      · rw [List.getElem?_cons_succ, List.getElem?_map, hcell]; rfl
      · rw [hget, if_pos]
        have h5 := hrow row (List.mem_of_getElem? h2)
        have h6 := (List.getElem?_eq_some_iff.1 hcell).1
        omega

end CC
