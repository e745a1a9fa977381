import Verif.Props.Divide
import Verif.Props.Columns

/-! # C139: a chain made again from what it says of itself is the same chain -/

set_option linter.unusedSectionVars false

namespace CC
open Spec

variable {K : Type} [Field K] [LinearOrder K]

/-- The call that makes a chain from everything that the chain `c` says of itself: its samples, its fields and every setting
(`model_dump()` and the samples). -/
def Spec.dumpArgs (c : Chain K) : Args K :=
  { samples := c.samples.toRaw
    name := c.name
    config := Key.all.map fun k => ⟨k, c.cfg k⟩
    weightColumn := c.weightColumn
    posteriorColumn := c.posteriorColumn
    walkers := c.walkers
    grid := c.grid
    numFreeParams := c.numFreeParams.map Int.ofNat
    numEffDataPoints := c.numEffDataPoints.map .fin
    power := c.power
    showLabelInLegend := c.showLabelInLegend
    histogramRelativeHeight := c.histogramRelativeHeight }

variable [IsStrictOrderedRing K]

theorem dump_setting (c : Chain K) : (Cfg.default K).apply (dumpArgs c).config = c.cfg := by
  funext k
  refine (apply_dump _ _ _ k).trans (if_pos ?_)
  cases k <;> decide

theorem rebuild_frame {a : Args K} {c : Chain K} (hwf : a.samples.WF) (hshift : setting a .shiftParams = false) (h : Chain.make a = .ok c) :
    c.samples.toRaw.empty = false ∧ addWeights c.samples.toRaw c.weightColumn = .ok c.samples.toRaw ∧
      checkColumns c.samples.toRaw = .ok c.samples := by
  obtain ⟨w1, -, w3, w4, -⟩ := make_WF hwf h
  obtain ⟨-, -, -, -, ⟨w, hw, -, hpos⟩, -⟩ := C07_accepted_chain_guarantees a c hwf hshift h
  refine ⟨?_, ?_, checkColumns_ok_iff.2 rfl⟩
  · have : c.samples.cols ≠ [] := by
      intro h0
      simp [Frame.columns, h0] at w4
    simp [RawFrame.empty, Frame.toRaw, w3, this]
  · rw [Chain.weights, Frame.get] at hw
    unfold addWeights
    rw [lookup_toRaw]
    cases hl : c.samples.cols.lookup c.weightColumn with
    | none => rw [hl] at hw; cases hw
    | some v =>
      rw [hl] at hw
      obtain rfl : v = w := Except.ok.inj hw
      simp only [Option.map_some]
      refine if_pos ?_
      simpa [Flt.gtZero] using hpos

/-- **C139**. A chain made again from its own samples, with the arguments of the first call, is the same chain. -/
theorem C139_again_partial (a : Args K) (c : Chain K) (hwf : a.samples.WF) (hshift : setting a .shiftParams = false)
    (h : Chain.make a = .ok c) : Chain.make { a with samples := c.samples.toRaw } = .ok c := by
  obtain ⟨e1, e2, e3⟩ := rebuild_frame hwf hshift h
  obtain ⟨col, raw, f0, f, h1, h2, h3, h4, h5, h6, h7, h8, h9, h10, rfl⟩ := Chain.make_ok_iff.1 h
  refine Chain.make_ok_iff.2 ⟨col, _, _, f, h1, h2, e1, e2, e3, ?_, h7, h8, h9, h10, rfl⟩
  have hs : (((Cfg.default K).apply a.config).set ⟨.color, col⟩) .shiftParams = false := by
    rw [set_color_ne (by simp)]; exact hshift
  rw [hs]
  rfl

/-- **C139**. A chain made again from its own samples, its fields and all its settings is the same chain, but that all settings count as
given by the user. -/
theorem C139_dump_partial (a : Args K) (c : Chain K) (hwf : a.samples.WF) (hshift : setting a .shiftParams = false)
    (h : Chain.make a = .ok c) : Chain.make (dumpArgs c) = .ok { c with userSet := Key.all } := by
  obtain ⟨e1, e2, e3⟩ := rebuild_frame hwf hshift h
  have hset := dump_setting c
  obtain ⟨-, -, -, -, -, -, ⟨st, hst, hst', -⟩, hcp, hk⟩ := C07_accepted_chain_guarantees a c hwf hshift h
  have hsh : c.cfg .shiftParams = false := (hk _ (by simp) (by simp)).trans hshift
  have hcolor : validateColor (c.cfg .color) = .ok (c.cfg .color) := by
    obtain ⟨col, raw, f0, f, h1, -, -, -, -, -, -, -, -, -, rfl⟩ := Chain.make_ok_iff.1 h
    have e : resolveStatistics (((Cfg.default K).apply a.config).set ⟨.color, col⟩) .color = col := by
      rw [resolveStatistics_ne (by simp)]
      simp [Cfg.set]
    change validateColor (resolveStatistics (((Cfg.default K).apply a.config).set ⟨.color, col⟩) .color) =
      .ok (resolveStatistics (((Cfg.default K).apply a.config).set ⟨.color, col⟩) .color)
    rw [e]
    rcases validateColor_result h1 with ⟨-, rfl⟩ | ⟨s, t, -, rfl, -, ht⟩
    · rfl
    · exact validateColor_hash ht
  have hid : (c.cfg.set ⟨.color, c.cfg .color⟩) = c.cfg := by
    funext k
    by_cases hk : k = .color
    · subst hk; simp [Cfg.set]
    · simp [Cfg.set, Function.update_of_ne hk]
  have hres : resolveStatistics c.cfg = c.cfg := by
    unfold resolveStatistics
    rw [hst]
  have hcon : ((c.cfg.constraintsOk && (dumpArgs c).constraintsOk) = true ∧ (dumpArgs c).numEffDataPoints.all Flt.isFinite = true) := by
    obtain ⟨w1, w2, w3, w4, w5, w6⟩ := make_WF hwf h
    rw [← hset]
    refine (constraints_iff (dumpArgs c)).2 ?_
    obtain ⟨col, raw, f0, f, -, h2, -, -, -, -, -, -, h9, -, hc⟩ := Chain.make_ok_iff.1 h
    obtain ⟨k1, k2, k3, k4, k5, k6⟩ := (constraints_iff a).1 ⟨h2, h9⟩
    have q : ∀ k, setting (dumpArgs c) k = c.cfg k := fun k => congrFun hset k
    rw [q, q, hk _ (by simp) (by simp), hk _ (by simp) (by simp)]
    refine ⟨k1, k2, ?_, ?_, ?_, ?_⟩
    · change (1 : Int) ≤ (c.walkers : Int)
      omega
    · intro n hn
      obtain ⟨m, -, rfl⟩ := Option.map_eq_some_iff.1 hn
      exact Int.natCast_nonneg m
    · intro x hx
      obtain ⟨v, hv, rfl⟩ := Option.map_eq_some_iff.1 hx
      refine ⟨v, rfl, ?_⟩
      rw [hc] at hv
      obtain ⟨y, hy, hy'⟩ := Option.bind_eq_some_iff.1 hv
      obtain ⟨u, rfl, hu⟩ := k5 y hy
      cases hy'
      exact hu
    · have : (dumpArgs c).histogramRelativeHeight = a.histogramRelativeHeight := by
        change c.histogramRelativeHeight = _
        rw [hc]
      rw [this]
      exact k6
  obtain ⟨w1, w2, w3, w4, w5, w6⟩ := make_WF hwf h
  refine Chain.make_ok_iff.2 ⟨c.cfg .color, _, _, c.samples, ?_, ?_, e1, e2, e3, ?_, ?_, ?_, hcon.2, ?_, ?_⟩
  all_goals try rw [hset]
  all_goals try rw [hid]
  · exact hcolor
  · exact hcon.1
  · rw [hsh]; rfl
  · simpa [dumpArgs] using Nat.mod_eq_zero_of_dvd w6
  · cases hp : c.cfg .colorParam with
    | none => rfl
    | some p => simpa using hcp p hp
  · rw [hres, hst]
    cases hmm : c.cfg .multimodal with
    | false => rfl
    | true => simp [hst' hmm]
  · rw [hres]
    obtain ⟨cfg, us, sm, nm, wc, pc, wk, g, nf, ne, pw, sl, hr⟩ := c
    have hkeys : (dumpArgs ⟨cfg, us, sm, nm, wc, pc, wk, g, nf, ne, pw, sl, hr⟩ : Args K).config.map (·.1) = Key.all := by
      simp only [dumpArgs, List.map_map]
      exact List.map_id _
    rw [hkeys]
    cases nf <;> cases ne <;> simp [dumpArgs, Flt.toFin?]

/-- **C139** (negation, for every chain). A chain with `shift_params` cannot be made again: its samples are rejected. -/
theorem C139_violated_shift (a : Args K) (c : Chain K) (hwf : a.samples.WF) (hshift : setting a .shiftParams = true)
    (h : Chain.make a = .ok c) : (∃ e, Chain.make { a with samples := c.samples.toRaw } = .error e) ∧
      ∃ e, Chain.make (dumpArgs c) = .error e := by
  obtain ⟨w1, w2, w3, w4, w5, w6⟩ := make_WF hwf h
  obtain ⟨w, hw, x, hx, hx0⟩ := C08_weights_destroyed a c hwf hshift h
  have hwc : c.weightColumn = a.weightColumn := by
    obtain ⟨_, _, _, _, _, _, _, _, _, _, _, _, _, _, rfl⟩ := Chain.make_ok_iff.1 h
    rfl
  have key : ∀ b : Args K, b.samples = c.samples.toRaw → b.weightColumn = c.weightColumn → ∃ e, Chain.make b = .error e := by
    intro b hb hbw
    rcases exists_ok_or_error (Chain.make b) with ⟨d, hd⟩ | he
    · exfalso
      obtain ⟨⟨w', hw', hpos⟩, -⟩ := make_toRaw w1 hb (by rw [hbw]; exact w4) hd
      rw [hbw] at hw'
      obtain rfl := Except.ok.inj (hw.symm.trans hw')
      exact absurd (hpos x hx) (not_lt.2 hx0)
    · exact he
  exact ⟨key _ rfl hwc.symm, key _ rfl rfl⟩

/-- **C139** (negation, concrete). This chain is accepted and cannot be made again. -/
theorem C139_violated : ∃ c, Chain.make shiftDemo = .ok c ∧ (∃ e, Chain.make { shiftDemo with samples := c.samples.toRaw } = .error e) ∧
    ∃ e, Chain.make (dumpArgs c) = .error e := by
  have hc : ∃ c, Chain.make shiftDemo = .ok c := ⟨_, Chain.make_ok_iff.2 ⟨none,
      ⟨[.int 0, .int 1], [(.str "a", [.fin 0, .fin 1]), (.str "weight", [.fin 1, .fin 1])]⟩,
    { index := [.int 0, .int 1], cols := [("a", [0, 1]), ("weight", [1, 1])] },
    { index := [.int 0, .int 1], cols := [("a", [-1/2, 1/2]), ("weight", [0, 0])] },
    by decide +kernel, by decide +kernel, rfl, by decide +kernel, by decide +kernel,
    by decide +kernel, by decide +kernel, by decide +kernel, by decide +kernel, by decide +kernel,
    rfl⟩⟩
  obtain ⟨c, hc⟩ := hc
  exact ⟨c, hc, C139_violated_shift _ c ⟨by simp [shiftDemo], by simp [shiftDemo]⟩ (by decide +kernel) hc⟩

/-- The hypotheses of the two theorems are met by a chain with a named colour, which is kept as a code. -/
example : demoArgs.samples.WF ∧ setting demoArgs .shiftParams = false ∧
    ∃ c, Chain.make demoArgs = .ok c ∧ c.cfg .color = some "#84cc16" ∧ setting demoArgs .color = some "lg" := by
  refine ⟨⟨by decide, by simp [demoArgs]⟩, by decide +kernel, _, Chain.make_ok_iff.2 ⟨some "#84cc16",
      ⟨[.int 0, .int 1], [(.str "a", [.fin 1, .fin 2]), (.str "b", [.fin 3, .fin 5]),
        (.str "weight", [.fin 1, .fin 1])]⟩,
    { index := [.int 0, .int 1], cols := [("a", [1, 2]), ("b", [3, 5]), ("weight", [1, 1])] },
    _, by decide +kernel, by decide +kernel, rfl, by decide +kernel, by decide +kernel, rfl,
    by decide +kernel, by decide +kernel, by decide +kernel, by decide +kernel, rfl⟩, by decide +kernel, by decide +kernel⟩

end CC
