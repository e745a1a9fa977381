import Verif.Lemmas.Make
import Verif.Lemmas.Frame
import Verif.Lemmas.Colour
import Mathlib.Tactic.Linarith

/-! # C07, C09: the chain constructor and its columns -/

namespace CC
open Spec

section
variable {K : Type}

theorem set_color_ne {c : Cfg K} {col : Option String} {k : Key} (h : k ≠ .color) :
    c.set ⟨.color, col⟩ k = c k := by
  simp [Cfg.set, h]

theorem resolveStatistics_ne {c : Cfg K} {k : Key} (h : k ≠ .statistics) :
    resolveStatistics c k = c k := by
  unfold resolveStatistics
  cases hs : c .statistics with
  | none => simp [Cfg.set, h]
  | some s => rfl

theorem resolveStatistics_statistics (c : Cfg K) :
    resolveStatistics c .statistics = match c .statistics with
      | none => if c .multimodal then some .hdi else some .max
      | some s => some s := by
  unfold resolveStatistics
  cases hs : c .statistics with
  | none => simp [Cfg.set]
  | some s => simp [hs]

variable [Field K] [LinearOrder K]

/-- What the weight step does, for a table with distinct labels. -/
theorem addWeights_ok_iff {f raw : RawFrame K} (hwf : f.WF) {wc : String} :
    addWeights f wc = .ok raw ↔
      (ColLabel.str wc ∈ f.cols.map Prod.fst ∧ raw = f ∧
        ∀ c ∈ f.cols, c.1 = .str wc → ∀ x ∈ c.2, x.gtZero = true) ∨
      (ColLabel.str wc ∉ f.cols.map Prod.fst ∧ wc = "weight" ∧
        raw = { f with cols := f.cols ++ [(.str wc, List.replicate f.index.length (.fin 1))] }) := by
  unfold addWeights
  cases h : f.cols.lookup (.str wc) with
  | none =>
    have hn : ColLabel.str wc ∉ f.cols.map Prod.fst := fun hm => by
      rw [← lookup_isSome_iff, h] at hm; cases hm
    simp only [hn, false_and, false_or, not_false_eq_true, true_and]
    by_cases hw : wc = "weight" <;> simp [hw, eq_comm]
  | some w =>
    have hm : ColLabel.str wc ∈ f.cols.map Prod.fst := by
      rw [← lookup_isSome_iff, h]; rfl
    have hwm := lookup_mem h
    simp only [hm, true_and, not_true_eq_false, false_and, or_false]
    have huniq : ∀ c ∈ f.cols, c.1 = .str wc → c.2 = w := by
      intro c hc hc1
      obtain ⟨i, hi, rfl⟩ := List.getElem_of_mem hc
      obtain ⟨j, hj, hj'⟩ := List.getElem_of_mem hwm
      have : i = j := by
        have h1 : (f.cols.map Prod.fst)[i]'(by simpa using hi) = .str wc := by simpa using hc1
        have h2 : (f.cols.map Prod.fst)[j]'(by simpa using hj) = .str wc := by simp [hj']
        exact (List.Nodup.getElem_inj_iff hwf.1).1 (h1.trans h2.symm)
      subst this
      rw [hj']
    constructor
    · intro h'
      split at h'
      · rename_i hall
        cases h'
        refine ⟨rfl, fun c hc hc1 x hx => ?_⟩
        rw [huniq c hc hc1] at hx
        exact List.all_eq_true.1 hall x hx
      · cases h'
    · rintro ⟨rfl, hall⟩
      rw [if_pos]
      exact List.all_eq_true.2 fun x hx => hall _ hwm rfl x hx

theorem constraints_iff (a : Args K) :
    ((((Cfg.default K).apply a.config).constraintsOk && a.constraintsOk) = true ∧
      a.numEffDataPoints.all Flt.isFinite = true) ↔
    (0 ≤ setting a .summaryArea ∧ setting a .summaryArea ≤ 1) ∧ 1 ≤ setting a .markerSize ∧
    1 ≤ a.walkers ∧ (∀ n, a.numFreeParams = some n → 0 ≤ n) ∧
    (∀ x, a.numEffDataPoints = some x → ∃ v, x = .fin v ∧ 0 ≤ v) ∧
    (a.histogramRelativeHeight = .posInf ∨
      ∃ v, a.histogramRelativeHeight = .fin v ∧ 0 ≤ v) := by
  simp only [Cfg.constraintsOk, Args.constraintsOk, Bool.and_eq_true, decide_eq_true_eq, setting]
  have h1 : a.numFreeParams.all (fun n => decide (0 ≤ n)) = true ↔
      ∀ n, a.numFreeParams = some n → 0 ≤ n := by
    cases a.numFreeParams <;> simp
  have h2 : (a.numEffDataPoints.all Flt.geZero = true ∧
      a.numEffDataPoints.all Flt.isFinite = true) ↔
      ∀ x, a.numEffDataPoints = some x → ∃ v, x = .fin v ∧ 0 ≤ v := by
    cases hx : a.numEffDataPoints with
    | none => simp
    | some x => cases x <;> simp [Flt.geZero, Flt.isFinite]
  have h3 : a.histogramRelativeHeight.geZero = true ↔ (a.histogramRelativeHeight = .posInf ∨
      ∃ v, a.histogramRelativeHeight = .fin v ∧ 0 ≤ v) := by
    cases hx : a.histogramRelativeHeight <;> simp [Flt.geZero]
  rw [h1, h3, ← h2]
  tauto

/-- **C07** (acceptance). Without `shift_params`, the constructor succeeds exactly on the documented
inputs: every table of doubles (including NaN and infinities) and every combination of settings. -/
theorem C07_constructor_accepts_iff (a : Args K) (hwf : a.samples.WF)
    (hshift : setting a .shiftParams = false) :
    (∃ c, Chain.make a = .ok c) ↔ Acceptable a := by
  have hs : ∀ col, (((Cfg.default K).apply a.config).set ⟨.color, col⟩) .shiftParams = false := by
    intro col; rw [set_color_ne (by simp)]; exact hshift
  have hcp : ∀ col, (((Cfg.default K).apply a.config).set ⟨.color, col⟩) .colorParam
      = setting a .colorParam := by
    intro col; rw [set_color_ne (by simp)]; rfl
  have hmm : ∀ col, (!((resolveStatistics (((Cfg.default K).apply a.config).set ⟨.color, col⟩))
        .multimodal &&
        decide ((resolveStatistics (((Cfg.default K).apply a.config).set ⟨.color, col⟩)) .statistics
          ≠ some .hdi))) = true ↔
      (setting a .multimodal = true →
        setting a .statistics = none ∨ setting a .statistics = some .hdi) := by
    intro col
    rw [resolveStatistics_statistics, resolveStatistics_ne (k := .multimodal) (by simp),
      set_color_ne (k := .multimodal) (by simp), set_color_ne (k := .statistics) (by simp)]
    simp only [setting]
    cases (Cfg.default K).apply a.config .multimodal <;>
      cases (Cfg.default K).apply a.config .statistics <;> simp
  constructor
  · rintro ⟨c, hc⟩
    obtain ⟨col, raw, f0, f, h1, h2, h3, h4, h5, h6, h7, h8, h9, h10, -⟩ := Chain.make_ok_iff.1 hc
    rw [hs, shiftIf, if_neg (by simp)] at h6
    cases h6
    rw [hcp] at h8
    rw [hmm] at h10
    obtain ⟨k1, k2, k3, k4, k5, k6⟩ := (constraints_iff a).1 ⟨h2, h9⟩
    have hlab := checkColumns_isOk.1 ⟨f0, h5⟩
    have hraw := checkColumns_ok_iff.1 h5
    have hw := (addWeights_ok_iff hwf).1 h4
    have hsub : ∀ c ∈ a.samples.cols, c ∈ raw.cols := by
      intro c hc
      rcases hw with ⟨-, rfl, -⟩ | ⟨-, -, rfl⟩
      · exact hc
      · simp [hc]
    have hidx : raw.index = a.samples.index := by
      rcases hw with ⟨-, rfl, -⟩ | ⟨-, -, rfl⟩ <;> rfl
    have hidx' : f0.index = a.samples.index := by rw [← hidx, hraw]; rfl
    simp only [RawFrame.empty, Bool.or_eq_false_iff, List.isEmpty_eq_false_iff] at h3
    refine ⟨(validateColor_ok_iff _).1 ⟨col, h1⟩, k1, k2, k3, k4, k5, k6, h3.1, h3.2,
      fun c hc => (hlab c (hsub c hc)).1, ?_, ?_, ?_, ?_, ?_, h10⟩
    · intro c hc x hx
      have := (hlab c (hsub c hc)).2 x hx
      cases x <;> simp [Flt.isFinite] at this ⊢
    · intro c hc hc1 v hv
      rcases hw with ⟨-, rfl, hpos⟩ | ⟨hn, -, -⟩
      · simpa [Flt.gtZero] using hpos c hc hc1 _ hv
      · exact absurd (List.mem_map.2 ⟨c, hc, hc1⟩) hn
    · rcases hw with ⟨hm, -, -⟩ | ⟨-, hn, -⟩
      · exact .inl hm
      · exact .inr hn
    · rw [hidx', beq_iff_eq] at h7
      have : (a.walkers.toNat : Int) ∣ a.samples.index.length :=
        Int.natCast_dvd_natCast.2 (Nat.dvd_of_mod_eq_zero h7)
      rwa [Int.toNat_of_nonneg (by omega)] at this
    · intro p hp
      rw [hp] at h8
      simp only [Option.all_some, decide_eq_true_eq, Frame.columns, List.mem_map] at h8
      obtain ⟨d, hd, rfl⟩ := h8
      have : ColLabel.str d.1 ∈ raw.cols.map Prod.fst := by
        rw [hraw]
        simp only [Frame.toRaw, List.map_map, List.mem_map]
        exact ⟨d, hd, rfl⟩
      rcases hw with ⟨hm, rfl, -⟩ | ⟨hm, -, rfl⟩
      · simpa [finalLabels, hm] using this
      · rw [finalLabels, if_neg hm]; simpa using this
  · intro H
    obtain ⟨col, hcol⟩ := (validateColor_ok_iff _).2 H.colour
    obtain ⟨k1, k2⟩ := (constraints_iff a).2
      ⟨H.area, H.markerSize, H.walkersPos, H.freeParams, H.effPoints, H.height⟩
    have hraw : ∃ raw, addWeights a.samples a.weightColumn = .ok raw := by
      by_cases hm : ColLabel.str a.weightColumn ∈ a.samples.cols.map Prod.fst
      · refine ⟨a.samples, (addWeights_ok_iff hwf).2 (.inl ⟨hm, rfl, fun c hc hc1 x hx => ?_⟩)⟩
        obtain ⟨v, rfl⟩ := H.finite c hc x hx
        simpa [Flt.gtZero] using H.weights c hc hc1 v hx
      · exact ⟨_, (addWeights_ok_iff hwf).2 (.inr ⟨hm, H.weightColumn.resolve_left hm, rfl⟩)⟩
    obtain ⟨raw, hraw⟩ := hraw
    have hw := (addWeights_ok_iff hwf).1 hraw
    have hidx : raw.index = a.samples.index := by
      rcases hw with ⟨-, rfl, -⟩ | ⟨-, -, rfl⟩ <;> rfl
    have hf : ∃ f, checkColumns raw = .ok f := by
      rw [checkColumns_isOk]
      have old : ∀ c ∈ a.samples.cols, (∃ s, c.1 = .str s) ∧ ∀ x ∈ c.2, x.isFinite = true := by
        intro c hc
        refine ⟨H.labels c hc, fun x hx => ?_⟩
        obtain ⟨v, rfl⟩ := H.finite c hc x hx
        rfl
      intro c hc
      rcases hw with ⟨-, rfl, -⟩ | ⟨-, -, rfl⟩
      · exact old c hc
      · simp only [List.mem_append, List.mem_singleton] at hc
        rcases hc with hc | rfl
        · exact old c hc
        · refine ⟨⟨_, rfl⟩, fun x hx => ?_⟩
          rw [List.eq_of_mem_replicate hx]; rfl
    obtain ⟨f, hf⟩ := hf
    have hfr := checkColumns_ok_iff.1 hf
    have hidx' : f.index = a.samples.index := by rw [← hidx, hfr]; rfl
    refine ⟨_, Chain.make_ok_iff.2 ⟨col, raw, f, f, hcol, k1, ?_, hraw, hf, ?_, ?_, ?_, k2,
      (hmm col).2 H.multimodal, rfl⟩⟩
    · simp [RawFrame.empty, H.hasRow, H.hasColumn]
    · rw [hs]; rfl
    · rw [hidx', beq_iff_eq]
      have h1 := H.walkers
      rw [← Int.toNat_of_nonneg (show 0 ≤ a.walkers from le_trans (by omega) H.walkersPos)] at h1
      exact Nat.mod_eq_zero_of_dvd (Int.natCast_dvd_natCast.1 h1)
    · rw [hcp]
      cases hp : setting a .colorParam with
      | none => rfl
      | some p =>
        have := H.colourColumn p hp
        have hin : ColLabel.str p ∈ raw.cols.map Prod.fst := by
          rcases hw with ⟨hm, rfl, -⟩ | ⟨hm, -, rfl⟩
          · simpa [finalLabels, hm] using this
          · rw [finalLabels, if_neg hm] at this; simpa using this
        rw [hfr] at hin
        simp only [Frame.toRaw, List.map_map, List.mem_map, Function.comp_apply] at hin
        obtain ⟨d, hd, hd'⟩ := hin
        simp only [Option.all_some, decide_eq_true_eq, Frame.columns, List.mem_map]
        exact ⟨d, hd, by simpa using hd'⟩

omit [Field K] [LinearOrder K] in
theorem toRaw_WF {f : Frame K} : f.toRaw.WF ↔ f.WF := by
  simp only [RawFrame.WF, Frame.WF, Frame.toRaw, List.map_map, List.mem_map, forall_exists_index,
    and_imp, forall_apply_eq_imp_iff₂, List.length_map]
  refine and_congr_left fun _ => ?_
  have : (Prod.fst ∘ fun c : String × List K => (ColLabel.str c.1, c.2.map Flt.fin))
      = ColLabel.str ∘ Prod.fst := rfl
  rw [this, ← List.map_map]
  exact List.nodup_map_iff (fun a b h => by cases h; rfl)

theorem addWeights_WF {f raw : RawFrame K} (hwf : f.WF) {wc : String}
    (h : addWeights f wc = .ok raw) : raw.WF ∧ raw.index = f.index := by
  rcases (addWeights_ok_iff hwf).1 h with ⟨-, rfl, -⟩ | ⟨hn, -, rfl⟩
  · exact ⟨hwf, rfl⟩
  · refine ⟨⟨?_, ?_⟩, rfl⟩
    · simp only [List.map_append, List.map_cons, List.map_nil]
      rw [List.nodup_append]
      refine ⟨hwf.1, by simp, ?_⟩
      intro x hx y hy
      simp only [List.mem_singleton] at hy
      rintro rfl
      exact hn (hy ▸ hx)
    · intro c hc
      simp only [List.mem_append, List.mem_singleton] at hc
      rcases hc with hc | rfl
      · exact hwf.2 c hc
      · simp

theorem lookup_eq_some_of_mem {α β : Type _} [DecidableEq α] {d : List (α × β)}
    (hd : (d.map Prod.fst).Nodup) {k : α} {v : β} (h : (k, v) ∈ d) : d.lookup k = some v := by
  induction d with
  | nil => simp at h
  | cons e d ih =>
    obtain ⟨a, b⟩ := e
    simp only [List.map_cons, List.nodup_cons] at hd
    by_cases hk : k = a
    · subst hk
      simp only [List.mem_cons, Prod.mk.injEq, true_and] at h
      rcases h with rfl | h
      · simp
      · exact absurd (List.mem_map.2 ⟨_, h, rfl⟩) hd.1
    · have : (k == a) = false := by simpa using hk
      simp only [List.mem_cons, Prod.mk.injEq, hk, false_and, false_or] at h
      simp only [List.lookup_cons, this]
      exact ih hd.2 h

/-- The validated table before a possible mean shift, and its weights. -/
theorem make_frame {a : Args K} {raw : RawFrame K} {f : Frame K} (hwf : a.samples.WF)
    (h1 : addWeights a.samples a.weightColumn = .ok raw) (h2 : checkColumns raw = .ok f)
    [IsStrictOrderedRing K] :
    f.WF ∧ f.index = a.samples.index ∧
    ∃ w, f.get a.weightColumn = .ok w ∧ w.length = f.index.length ∧ ∀ x ∈ w, 0 < x := by
  obtain ⟨hw1, hw2⟩ := addWeights_WF hwf h1
  have hraw := checkColumns_ok_iff.1 h2
  subst hraw
  have hfwf := toRaw_WF.1 hw1
  refine ⟨hfwf, hw2, ?_⟩
  have hmem : ∃ w, (a.weightColumn, w) ∈ f.cols ∧ ∀ x ∈ w, 0 < x := by
    rcases (addWeights_ok_iff hwf).1 h1 with ⟨hm, hf, hpos⟩ | ⟨-, -, hf⟩
    · rw [← hf] at hm hpos
      simp only [Frame.toRaw, List.map_map, List.mem_map, Function.comp_apply] at hm
      obtain ⟨d, hd, hd'⟩ := hm
      simp only [ColLabel.str.injEq] at hd'
      refine ⟨d.2, by rw [← hd']; exact hd, fun x hx => ?_⟩
      have := hpos (.str d.1, d.2.map .fin) (List.mem_map.2 ⟨d, hd, rfl⟩) (by rw [hd'])
        (.fin x) (List.mem_map.2 ⟨x, hx, rfl⟩)
      simpa [Flt.gtZero] using this
    · have : (ColLabel.str a.weightColumn, List.replicate a.samples.index.length (Flt.fin 1))
          ∈ f.toRaw.cols := by rw [hf]; simp
      simp only [Frame.toRaw, List.mem_map] at this
      obtain ⟨d, hd, hd'⟩ := this
      simp only [Prod.mk.injEq, ColLabel.str.injEq] at hd'
      refine ⟨d.2, by rw [← hd'.1]; exact hd, fun x hx => ?_⟩
      have hx' : Flt.fin x ∈ d.2.map Flt.fin := List.mem_map.2 ⟨x, hx, rfl⟩
      rw [hd'.2] at hx'
      have := List.eq_of_mem_replicate hx'
      cases this
      exact zero_lt_one
  obtain ⟨w, hw, hpos⟩ := hmem
  refine ⟨w, ?_, hfwf.2 _ hw, hpos⟩
  simp [Frame.get, lookup_eq_some_of_mem hfwf.1 hw]

/-- **C07** (guarantees). An accepted chain (without `shift_params`) has at least one row, the
user's samples unchanged (with a column of ones appended when there was no weight column), a
positive weight for every row, a whole number of rows per walker, a statistic, HDI if multimodal,
an existing colour column, and the user's other settings. -/
theorem C07_accepted_chain_guarantees [IsStrictOrderedRing K] (a : Args K) (c : Chain K)
    (hwf : a.samples.WF) (hshift : setting a .shiftParams = false) (h : Chain.make a = .ok c) :
    c.samples.WF ∧ c.samples.index = a.samples.index ∧ c.samples.index ≠ [] ∧
    (c.samples.toRaw = a.samples ∨
      (ColLabel.str "weight" ∉ a.samples.cols.map Prod.fst ∧ c.samples.toRaw =
        { a.samples with cols := a.samples.cols ++
          [(.str "weight", List.replicate a.samples.index.length (.fin 1))] })) ∧
    (∃ w, c.weights = .ok w ∧ w.length = c.samples.index.length ∧ ∀ x ∈ w, 0 < x) ∧
    (1 ≤ c.walkers ∧ (c.walkers : Int) = a.walkers ∧ c.walkers ∣ c.samples.index.length) ∧
    (∃ s, c.cfg .statistics = some s ∧ (c.cfg .multimodal = true → s = .hdi) ∧
      (∀ t, setting a .statistics = some t → s = t)) ∧
    (∀ p, c.cfg .colorParam = some p → p ∈ c.samples.columns) ∧
    (∀ k, k ≠ .color → k ≠ .statistics → c.cfg k = setting a k) := by
  obtain ⟨col, raw, f0, f, h1, h2, h3, h4, h5, h6, h7, h8, h9, h10, rfl⟩ := Chain.make_ok_iff.1 h
  have hs : (((Cfg.default K).apply a.config).set ⟨.color, col⟩) .shiftParams = false := by
    rw [set_color_ne (by simp)]; exact hshift
  rw [hs, shiftIf, if_neg (by simp)] at h6
  cases h6
  obtain ⟨hf1, hf2, hf3⟩ := make_frame hwf h4 h5
  have hset : ∀ k, k ≠ .color → k ≠ .statistics →
      resolveStatistics (((Cfg.default K).apply a.config).set ⟨.color, col⟩) k = setting a k := by
    intro k hk1 hk2
    rw [resolveStatistics_ne hk2, set_color_ne hk1]; rfl
  obtain ⟨-, -, k3, -⟩ := (constraints_iff a).1 ⟨h2, h9⟩
  refine ⟨hf1, hf2, ?_, ?_, hf3, ⟨?_, ?_, ?_⟩, ?_, ?_, hset⟩
  · simp only [RawFrame.empty, Bool.or_eq_false_iff, List.isEmpty_eq_false_iff] at h3
    simpa [hf2] using h3.1
  · have hraw := checkColumns_ok_iff.1 h5
    rcases (addWeights_ok_iff hwf).1 h4 with ⟨-, hr, -⟩ | ⟨hn, hw, hr⟩
    · left; rw [← hr, hraw]
    · right; rw [hw] at hr hn; exact ⟨hn, by rw [← hr, hraw]⟩
  · simp only; omega
  · simp only; omega
  · exact Nat.dvd_of_mod_eq_zero (beq_iff_eq.1 h7)
  · simp only [Bool.not_eq_true', Bool.and_eq_false_iff, decide_eq_false_iff_not, not_not] at h10
    simp only [resolveStatistics_statistics, resolveStatistics_ne (k := .multimodal) (by simp)]
      at h10 ⊢
    have hst : (((Cfg.default K).apply a.config).set ⟨.color, col⟩) .statistics
        = setting a .statistics := set_color_ne (by simp)
    rw [hst] at h10 ⊢
    cases hx : setting a .statistics with
    | none =>
      by_cases hm : (((Cfg.default K).apply a.config).set ⟨.color, col⟩) .multimodal = true
      · exact ⟨.hdi, by simp [hm], fun _ => rfl, by simp⟩
      · exact ⟨.max, by simp [hm], fun h => absurd h hm, by simp⟩
    | some t =>
      refine ⟨t, rfl, fun hm => ?_, fun t' ht' => by simpa using ht'⟩
      rw [hx] at h10
      simpa [hm] using h10
  · intro p hp
    have hcp := hset .colorParam (by simp) (by simp)
    simp only at hp
    rw [hcp] at hp
    rw [set_color_ne (by simp)] at h8
    change Option.all _ (setting a .colorParam) = true at h8
    rw [hp] at h8
    simpa using h8

omit [Field K] [LinearOrder K] in
/-- **C09** (parameters). `data_columns` lists, in table order, exactly the columns that are neither
the weight column nor the posterior column nor reserved; without repeats if the table has none. -/
theorem C09_data_columns (c : Chain K) :
    c.dataColumns.Sublist c.samples.columns ∧
    (c.samples.columns.Nodup → c.dataColumns.Nodup) ∧
    ∀ n, n ∈ c.dataColumns ↔
      n ∈ c.samples.columns ∧ n ≠ c.weightColumn ∧ n ≠ c.posteriorColumn ∧ ¬ Reserved n := by
  refine ⟨List.filter_sublist, fun h => h.sublist List.filter_sublist, fun n => ?_⟩
  have hres : pyLower n ∈ Chain.reserved ↔ Reserved n := by
    have key : ∀ r : String, pyLower n = r ↔ n.toList.map Char.toLower = r.toList := by
      intro r
      rw [pyLower]
      constructor
      · rintro rfl; simp
      · intro h; rw [h]; simp
    simp only [Chain.reserved, Reserved, List.mem_cons, List.not_mem_nil, or_false,
      exists_eq_or_imp, key, exists_eq_left]
  simp only [Chain.dataColumns, List.mem_filter, Bool.and_eq_true, Bool.not_eq_true',
    Bool.or_eq_false_iff, beq_eq_false_iff_ne, decide_eq_false_iff_not, hres, ne_eq]
  tauto

omit [Field K] [LinearOrder K] in
/-- **C09** (plotted parameters). `plotting_columns` is `data_columns`, minus the colour column
exactly when a cloud is plotted. -/
theorem C09_plotting_columns (c : Chain K) (n : String) :
    c.plottingColumns.Sublist c.dataColumns ∧
    (n ∈ c.plottingColumns ↔
      n ∈ c.dataColumns ∧ ¬ (c.cfg .plotCloud = true ∧ c.cfg .colorParam = some n)) := by
  unfold Chain.plottingColumns
  cases hp : c.cfg .plotCloud with
  | false => simp
  | true =>
    refine ⟨by simp, ?_⟩
    simp only [Bool.not_true, Bool.false_eq_true, if_false, List.mem_filter, decide_eq_true_eq,
      true_and, ne_eq]
    exact and_congr_right fun _ => not_congr eq_comm

end

/-! ### Concrete inputs meeting the hypotheses -/

/-- Two rows, two columns, no weights; two walkers. -/
def demoArgs : Args ℚ :=
  { samples := { index := [.int 0, .int 1], cols := [(.str "a", [.fin 1, .fin 2]),
      (.str "b", [.fin 3, .fin 5])] }
    name := "demo", walkers := 2, config := [⟨.color, some "lg"⟩, ⟨.multimodal, true⟩] }

example : demoArgs.samples.WF ∧ Spec.setting demoArgs .shiftParams = false ∧
    ∃ c, Chain.make demoArgs = .ok c := by
  have hwf : demoArgs.samples.WF := by
    refine ⟨by decide, ?_⟩
    simp [demoArgs]
  have hs : Spec.setting demoArgs .shiftParams = false := by decide +kernel
  refine ⟨hwf, hs, (C07_constructor_accepts_iff _ hwf hs).2 ?_⟩
  refine ⟨?_, ?_, ?_, ?_, ?_, ?_, ?_, ?_, ?_, ?_, ?_, ?_, ?_, ?_, ?_, ?_⟩
  · right; right
    refine ⟨by decide +kernel, by decide⟩
  · decide +kernel
  · decide +kernel
  all_goals simp [demoArgs, Spec.setting, Cfg.apply, Cfg.set, Cfg.default]

/-- A NaN cell is rejected. -/
example : ¬ ∃ c, Chain.make (K := ℚ)
    { samples := ⟨[.int 0], [(.str "a", [.nan])]⟩, name := "x" } = .ok c := by
  rw [C07_constructor_accepts_iff _ ⟨by simp, by simp⟩ (by decide +kernel)]
  intro h
  obtain ⟨v, hv⟩ := h.finite _ (List.mem_singleton.2 rfl) .nan (by simp)
  cases hv

end CC
