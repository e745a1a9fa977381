import Verif.Model.Consumer
import Verif.Lemmas.Except

/-! Inversion of the chain constructor. -/

namespace CC
variable {K : Type} [Field K] [LinearOrder K]

theorem Chain.make_ok_iff {a : Args K} {c : Chain K} : Chain.make a = .ok c ↔
    ∃ col raw f0 f,
      validateColor (((Cfg.default K).apply a.config) .color) = .ok col ∧
      (((Cfg.default K).apply a.config).constraintsOk && a.constraintsOk) = true ∧
      a.samples.empty = false ∧
      addWeights a.samples a.weightColumn = .ok raw ∧
      checkColumns raw = .ok f0 ∧
      shiftIf ((((Cfg.default K).apply a.config).set ⟨.color, col⟩) .shiftParams)
        a.weightColumn f0 = .ok f ∧
      (f.index.length % a.walkers.toNat == 0) = true ∧
      Option.all (fun p => decide (p ∈ f.columns))
        ((((Cfg.default K).apply a.config).set ⟨.color, col⟩) .colorParam) = true ∧
      a.numEffDataPoints.all Flt.isFinite = true ∧
      (!((resolveStatistics (((Cfg.default K).apply a.config).set ⟨.color, col⟩)) .multimodal &&
        decide ((resolveStatistics (((Cfg.default K).apply a.config).set ⟨.color, col⟩)) .statistics
          ≠ some .hdi))) = true ∧
      c = { cfg := resolveStatistics (((Cfg.default K).apply a.config).set ⟨.color, col⟩)
            userSet := a.config.map (·.1)
            samples := f
            name := a.name
            weightColumn := a.weightColumn
            posteriorColumn := a.posteriorColumn
            walkers := a.walkers.toNat
            grid := a.grid
            numFreeParams := a.numFreeParams.map Int.toNat
            numEffDataPoints := a.numEffDataPoints.bind Flt.toFin?
            power := a.power
            showLabelInLegend := a.showLabelInLegend
            histogramRelativeHeight := a.histogramRelativeHeight } := by
  unfold Chain.make
  simp only [bind_ok_iff, ensure_ok_iff, pure_ok_iff]
  constructor
  · rintro ⟨col, h1, _, h2, _, h3, raw, h4, f0, h5, f, h6, _, h7, _, h8, _, h9, _, h10, h11⟩
    exact ⟨col, raw, f0, f, h1, h2, by simpa using h3, h4, h5, h6, h7, h8, h9, h10, h11.symm⟩
  · rintro ⟨col, raw, f0, f, h1, h2, h3, h4, h5, h6, h7, h8, h9, h10, h11⟩
    exact ⟨col, h1, ⟨⟩, h2, ⟨⟩, by simpa using h3, raw, h4, f0, h5, f, h6, ⟨⟩, h7, ⟨⟩, h8, ⟨⟩, h9,
      ⟨⟩, h10, h11.symm⟩


theorem Chain.make_name {a : Args K} {c : Chain K} (h : Chain.make a = .ok c) : c.name = a.name := by
  obtain ⟨_, _, _, _, _, _, _, _, _, _, _, _, _, _, rfl⟩ := Chain.make_ok_iff.1 h
  rfl

end CC
