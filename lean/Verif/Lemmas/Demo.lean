import Verif.Lemmas.Divide

/-! A source of accepted chains, for examples over any ordered field. -/

namespace CC
open Spec
variable {K : Type} [Field K] [LinearOrder K] [IsStrictOrderedRing K]

theorem plain_chain_colour (g : Bool) (kw : List (Kwarg K))
    (hcol : (Cfg.default K).apply kw .color = none)
    (harea : 0 ≤ (Cfg.default K).apply kw .summaryArea ∧ (Cfg.default K).apply kw .summaryArea ≤ 1)
    (hsize : 1 ≤ (Cfg.default K).apply kw .markerSize)
    (hshift : (Cfg.default K).apply kw .shiftParams = false)
    (hmm : (Cfg.default K).apply kw .multimodal = true →
      (Cfg.default K).apply kw .statistics = none ∨ (Cfg.default K).apply kw .statistics = some .hdi)
    (f : Frame K) (hf : f.WF) (hne : f.index ≠ []) {w : List K}
    (hcp : ∀ p, (Cfg.default K).apply kw .colorParam = some p → p ∈ f.columns)
    (hw : f.get "weight" = .ok w) (hpos : ∀ x ∈ w, 0 < x) (name : String)
    (k : Nat) (hk : 1 ≤ k) (hdvd : k ∣ f.index.length) :
    ∃ c, Chain.make { samples := f.toRaw, name := name, walkers := k, grid := g, config := kw } = .ok c ∧ c.samples = f ∧
      c.weightColumn = "weight" ∧ c.posteriorColumn = "log_posterior" ∧ c.power = 1 ∧
      c.grid = g ∧ c.walkers = k ∧ c.name = name ∧
      c.cfg = resolveStatistics (((Cfg.default K).apply kw).set ⟨.color, none⟩) := by
  have hwf : f.toRaw.WF := toRaw_WF.2 hf
  have hs : setting (K := K) { samples := f.toRaw, name := name, walkers := k, grid := g, config := kw } .shiftParams = false := hshift
  have hmem := get_mem hw
  have hfin : ∀ c ∈ f.toRaw.cols, ∃ d ∈ f.cols, c = (.str d.1, d.2.map .fin) := by
    intro c hc
    simp only [Frame.toRaw, List.mem_map] at hc
    obtain ⟨d, hd, rfl⟩ := hc
    exact ⟨d, hd, rfl⟩
  have hacc : Acceptable (K := K) { samples := f.toRaw, name := name, walkers := k, grid := g, config := kw } := by
    refine ⟨by rw [setting, hcol]; trivial, harea, hsize, Int.ofNat_le.2 hk, by simp, by simp,
      Or.inr ⟨1, rfl, zero_le_one⟩, hne, ?_, ?_, ?_, ?_, ?_, ?_, ?_, ?_⟩
    · simp only [Frame.toRaw]
      intro h
      rw [List.map_eq_nil_iff] at h
      rw [h] at hmem
      cases hmem
    · intro c hc
      obtain ⟨d, -, rfl⟩ := hfin c hc
      exact ⟨_, rfl⟩
    · intro c hc x hx
      obtain ⟨d, -, rfl⟩ := hfin c hc
      simp only [List.mem_map] at hx
      obtain ⟨v, -, rfl⟩ := hx
      exact ⟨v, rfl⟩
    · intro c hc hc1 v hv
      obtain ⟨d, hd, rfl⟩ := hfin c hc
      simp only [List.mem_map, ColLabel.str.injEq] at hv hc1
      obtain ⟨u, hu, hu'⟩ := hv
      cases hu'
      have : f.get "weight" = .ok d.2 := get_of_mem hf.1 (by rw [← hc1]; exact hd)
      rw [hw] at this
      cases this
      exact hpos v hu
    · exact Or.inr rfl
    · exact Int.natCast_dvd_natCast.2 hdvd
    · intro p hp
      have hm : ColLabel.str p ∈ f.toRaw.cols.map Prod.fst := by
        obtain ⟨d, hd, rfl⟩ := List.mem_map.1 (hcp p hp)
        simp only [Frame.toRaw, List.map_map, List.mem_map, Function.comp]
        exact ⟨d, hd, rfl⟩
      unfold finalLabels
      split
      · exact hm
      · exact List.mem_append_left _ hm
    · exact hmm
  obtain ⟨c, hc⟩ := (C07_constructor_accepts_iff _ hwf hs).2 hacc
  have hcs := (make_toRaw (f := f) hf rfl (mem_columns_of_get hw) hc).2 hs
  obtain ⟨col, _, _, _, hcol', _, _, _, _, _, _, _, _, _, rfl⟩ := Chain.make_ok_iff.1 hc
  refine ⟨_, hc, hcs, rfl, rfl, rfl, rfl, rfl, rfl, ?_⟩
  simp only [hcol, validateColor, Except.ok.injEq] at hcol'
  subst hcol'
  rfl

theorem plain_chain_cfg (g : Bool) (kw : List (Kwarg K))
    (hcol : (Cfg.default K).apply kw .color = none)
    (harea : 0 ≤ (Cfg.default K).apply kw .summaryArea ∧ (Cfg.default K).apply kw .summaryArea ≤ 1)
    (hsize : 1 ≤ (Cfg.default K).apply kw .markerSize)
    (hcp : (Cfg.default K).apply kw .colorParam = none)
    (hshift : (Cfg.default K).apply kw .shiftParams = false)
    (hmm : (Cfg.default K).apply kw .multimodal = true →
      (Cfg.default K).apply kw .statistics = none ∨ (Cfg.default K).apply kw .statistics = some .hdi)
    (f : Frame K) (hf : f.WF) (hne : f.index ≠ []) {w : List K}
    (hw : f.get "weight" = .ok w) (hpos : ∀ x ∈ w, 0 < x) (name : String)
    (k : Nat) (hk : 1 ≤ k) (hdvd : k ∣ f.index.length) :
    ∃ c, Chain.make { samples := f.toRaw, name := name, walkers := k, grid := g, config := kw } = .ok c ∧ c.samples = f ∧
      c.weightColumn = "weight" ∧ c.posteriorColumn = "log_posterior" ∧ c.power = 1 ∧
      c.grid = g ∧ c.walkers = k ∧ c.name = name ∧
      c.cfg = resolveStatistics (((Cfg.default K).apply kw).set ⟨.color, none⟩) := by
  exact plain_chain_colour g kw hcol harea hsize hshift hmm f hf hne (by rw [hcp]; simp) hw hpos name k hk hdvd

theorem plain_chain_walkers (f : Frame K) (hf : f.WF) (hne : f.index ≠ []) {w : List K}
    (hw : f.get "weight" = .ok w) (hpos : ∀ x ∈ w, 0 < x) (name : String)
    (k : Nat) (hk : 1 ≤ k) (hdvd : k ∣ f.index.length) :
    ∃ c, Chain.make { samples := f.toRaw, name := name, walkers := k } = .ok c ∧ c.samples = f ∧
      c.weightColumn = "weight" ∧ c.posteriorColumn = "log_posterior" ∧ c.power = 1 ∧
      c.grid = false ∧ c.walkers = k ∧ c.name = name := by
  obtain ⟨c, h1, h2, h3, h4, h5, h6, h7, h8, -⟩ :=
    plain_chain_cfg false [] rfl
      (by change (0 : K) ≤ 6827 / 10000 ∧ (6827 / 10000 : K) ≤ 1; constructor <;> norm_num)
      (by change (1 : K) ≤ 10; norm_num) rfl rfl (by intro h; cases h) f hf hne hw hpos name k hk hdvd
  exact ⟨c, h1, h2, h3, h4, h5, h6, h7, h8⟩

theorem plain_chain (f : Frame K) (hf : f.WF) (hne : f.index ≠ []) {w : List K}
    (hw : f.get "weight" = .ok w) (hpos : ∀ x ∈ w, 0 < x) (name : String) :
    ∃ c, Chain.make { samples := f.toRaw, name := name } = .ok c ∧ c.samples = f ∧
      c.weightColumn = "weight" ∧ c.posteriorColumn = "log_posterior" ∧ c.power = 1 ∧
      c.grid = false ∧ c.walkers = 1 ∧ c.name = name :=
  plain_chain_walkers f hf hne hw hpos name 1 le_rfl (one_dvd _)

end CC
