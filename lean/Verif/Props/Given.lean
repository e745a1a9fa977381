import Verif.Props.Isolation

/-! # C111: summaries of chains given as objects -/

namespace CC
open Spec

/-- The chains of a list of registry entries. -/
def Spec.objects (h : Heap ℝ) (es : List (String × Ref)) : List (Chain ℝ) := es.filterMap fun e => h[e.2]?

theorem chainsOf_objects (h : Heap ℝ) (s : Consumer ℝ) : chainsOf h s = objects h s.chains := by
  simp only [chainsOf, copyChains, objects, List.map_filterMap]
  congr 1
  funext e
  cases h[e.2]? <;> rfl

/-- **C111.** If the global override leaves the settings of summaries alone, `get_summary` of some of the registered chains,
given as objects, is what it reports if these chains are the only ones. What is missing from the full property is
overrides of such settings, see `C111_ignored` and `C111_violated`. -/
theorem C111_given_partial (kde : KdeFn) (h : Heap ℝ) (s : Consumer ℝ)
    (hov : ∀ o, s.override = some o → ∀ k ∈ summaryKeys, k ∉ o.userSet) (es : List (String × Ref))
    (hu : uncoloured (objects h es) ≤ 88) (cols : List String) :
    getSummary kde h s (some (objects h es)) (some cols) =
      getSummary kde h { s with chains := es } none (some cols) := by
  have e := chainsOf_objects h { s with chains := es }
  rw [getSummary_registered kde h { s with chains := es } hov (by rw [e]; exact hu), e]
  rfl

/-- In particular for all registered chains, and for every chain on its own. -/
theorem C111_all (kde : KdeFn) (h : Heap ℝ) (s : Consumer ℝ) (hv : s.Valid h)
    (hov : ∀ o, s.override = some o → ∀ k ∈ summaryKeys, k ∉ o.userSet)
    (hu : uncoloured (objects h s.chains) ≤ 88) (hn : ((objects h s.chains).map (·.name)).Nodup) (cols : List String) :
    getSummary kde h s (some (objects h s.chains)) (some cols) = getSummary kde h s none (some cols) ∧
    getSummary kde h s none (some cols) =
      (s.chains.mapM fun e => getSummary kde h s (some (objects h [e])) (some cols)).map List.flatten := by
  refine ⟨C111_given_partial kde h s hov _ hu cols, ?_⟩
  rw [C63_isolated kde h s hv hov (by rw [chainsOf_objects]; exact hu) (by rw [chainsOf_objects]; exact hn) cols]
  congr 2
  funext e
  have h1 : uncoloured (objects h [e]) ≤ 88 := by
    refine le_trans (List.length_filter_le _ _) ?_
    refine le_trans (List.length_filterMap_le _ _) ?_
    simp
  exact (C111_given_partial kde h { chains := [e] } (by intro o ho; cases ho) [e] h1 cols).symm

/-- **C111** (what happens otherwise). Nothing of the configuration is applied to chains given as objects: the summary is the same
whatever the consumer holds, its override included. -/
theorem C111_ignored (kde : KdeFn) (h h' : Heap ℝ) (s s' : Consumer ℝ) (cs : List (Chain ℝ)) (cols : Option (List String)) :
    getSummary kde h s (some cs) cols = getSummary kde h' s' (some cs) cols := rfl

theorem smoothedHistogram_cfg (kde : KdeFn) (c : Chain ℝ) (g : Cfg ℝ) (h1 : g .smooth = c.cfg .smooth)
    (h2 : g .kde = c.cfg .kde) (h3 : g .bins = c.cfg .bins) (col : String) (pad : Bool) (u : Option Bool) :
    smoothedHistogram kde (c.withCfg g) col pad u = smoothedHistogram kde c col pad u := by
  have hs : (c.withCfg g).smoothValue = c.smoothValue := by
    simp only [Chain.smoothValue, Chain.withCfg, h1]
    rfl
  have hb : getBins (c.withCfg g) = getBins c := by
    simp only [getBins, hs]
    simp only [Chain.withCfg, h3]
  have hmb : ∀ d w p, marginalBins (c.withCfg g) d w p = marginalBins c d w p := by
    intro d w p
    simp only [marginalBins, hs, hb]
    rfl
  have hmy : ∀ d w b h x y xs, marginalYs kde (c.withCfg g) u d w b h x y xs
      = marginalYs kde c u d w b h x y xs := by
    intro d w b h x y xs
    simp only [marginalYs, hs]
    simp only [Chain.withCfg, h2]
  simp only [smoothedHistogram, hmb, hmy]
  rfl

/-- The override of the witness: `ChainConfig(statistics="hdi")`. -/
noncomputable def hdiOverride : Config ℝ := ⟨Cfg.apply (Cfg.default ℝ) [⟨.statistics, some Stat.hdi⟩], [.statistics]⟩

/-- **C111** (violation). A consumer with one chain whose statistic is `max_central` and an override that sets `hdi`: asked for all
chains, `get_summary` reports the interval with its centre; asked for the same chain, it reports a centre below the lower
limit. -/
theorem C111_violated (kde : KdeFn) (hkde : KdeOk kde) : ∃ c, Chain.make (skewArgs .maxCentral) = .ok c ∧
    let h : Heap ℝ := [c]
    let s : Consumer ℝ := { chains := [("skew", 0)], override := some hdiOverride }
    ∃ l x u l' x' u',
      getSummary kde h s none (some ["x"]) = .ok [("skew", [("x", .single ⟨some l, some x, some u⟩)])] ∧
      getSummary kde h s (some [c]) (some ["x"]) = .ok [("skew", [("x", .single ⟨some l', some x', some u'⟩)])] ∧
      l ≤ x ∧ x' < l' := by
  obtain ⟨c, hc, l', x', u', hp', hlt⟩ := C28_violated kde hkde
  obtain ⟨c', m, hc', hst, har, hmm, hsam, -, hname, hm, hv, -⟩ := skew_chain kde hkde .maxCentral
  obtain rfl : c = c' := by rw [hc] at hc'; exact Except.ok.inj hc'
  obtain ⟨l, x, u, hs, hlx, -⟩ := C31_hdi_mass hv (6827 / 10000 : ℝ) (by norm_num)
  refine ⟨c, hc, ?_⟩
  intro h s
  have hco : chainsOf h s = [c] := by simp [chainsOf, copyChains, h, s]
  have hu : uncoloured (chainsOf h s) ≤ 88 := by
    rw [hco]; exact le_trans (List.length_filter_le _ _) (by simp)
  have hcols : c.samples.columns = ["x", "weight"] := by rw [hsam]; rfl
  refine ⟨l, x, u, l', x', u', ?_, ?_, hlx, hlt⟩
  · set g := Spec.resolved (some hdiOverride) c.userSet (numContourChains h s) c.cfg (Spec.autoColours.getD 0 "") with hg
    have hkeep : ∀ k ∈ summaryKeys, k ≠ Key.statistics → g k = c.cfg k := by
      intro k hk hne
      have ha : Spec.auto (numContourChains h s) c.cfg (Spec.autoColours.getD 0 "") k = none := by
        simp only [summaryKeys, List.mem_cons, List.not_mem_nil, or_false] at hk
        rcases hk with rfl | rfl | rfl | rfl | rfl | rfl <;> rfl
      rw [hg]
      unfold Spec.resolved
      simp only [ha, Option.getD_none, ite_self]
      rw [if_neg (by simpa [hdiOverride] using hne)]
    have hgs : g .statistics = some Stat.hdi := rfl
    have hga : g .summaryArea = (6827 / 10000 : ℝ) := by
      rw [hkeep _ (by simp [summaryKeys]) (by intro h; cases h)]; exact har
    have hgm : g .multimodal = false := by
      rw [hkeep _ (by simp [summaryKeys]) (by intro h; cases h)]; exact hmm
    have he : summaryEntry kde (c.withCfg g) "x" = .ok (.single ⟨some l, some x, some u⟩) := by
      rw [C37_lists]
      refine ⟨_, ?_, Or.inl ⟨hgm, rfl⟩⟩
      have e := smoothedHistogram_cfg kde c g (hkeep _ (by simp [summaryKeys]) (by intro h; cases h))
        (hkeep _ (by simp [summaryKeys]) (by intro h; cases h)) (hkeep _ (by simp [summaryKeys]) (by intro h; cases h)) "x"
      have e1 : (c.withCfg g).cfg .statistics = some Stat.hdi := hgs
      have e2 : (c.withCfg g).cfg .summaryArea = (6827 / 10000 : ℝ) := hga
      simp only [parameterSummary, e1, e2, e, hm, bind, Except.bind, hs]
    have hcs : chainSummary kde (c.withCfg g) ["x"] [] = .ok [("x", .single ⟨some l, some x, some u⟩)] := by
      have hcols' : (c.withCfg g).samples.columns = ["x", "weight"] := hcols
      simp [chainSummary, hcols', he, bind, Except.bind, dictSet]
    have hfd := finalDict_eq h s hu
    rw [hco] at hfd
    simp only [getSummary, hfd, plotChains, bind, Except.bind, pure, Except.pure, sanitiseColumns]
    have hz : ((copyChains h s).map Prod.fst) = ["skew"] := by simp [copyChains, h, s]
    rw [hz]
    have hr : resolvedChains (numContourChains h s) s.override [c] 0 = [c.withCfg g] := rfl
    rw [hr]
    have hnm : (c.withCfg g).name = "skew" := hname
    simp [summaryLoop, hcs, bind, Except.bind, dictSet, hnm]
  · have he : summaryEntry kde c "x" = .ok (.single ⟨some l', some x', some u'⟩) := by
      rw [C37_lists]
      exact ⟨_, hp', Or.inl ⟨hmm, rfl⟩⟩
    have hcs : chainSummary kde c ["x"] [] = .ok [("x", .single ⟨some l', some x', some u'⟩)] := by
      simp [chainSummary, hcols, he, bind, Except.bind, dictSet]
    simp [getSummary, sanitiseColumns, summaryLoop, hcs, bind, Except.bind, pure, Except.pure, dictSet, hname]

/-- Two chains and an override of the line width: the hypotheses of `C111_given_partial` and `C111_all` are met. -/
example (kde : KdeFn) (hkde : KdeOk kde) : ∃ c, Chain.make (skewArgs .hdi) = .ok c ∧
    let h : Heap ℝ := [c, { c with name := "other" }]
    let s : Consumer ℝ := { chains := [("skew", 0), ("other", 1)],
                            override := some ⟨(Cfg.default ℝ).set ⟨.linewidth, (3 : ℝ)⟩, [.linewidth]⟩ }
    s.Valid h ∧ (∀ o, s.override = some o → ∀ k ∈ summaryKeys, k ∉ o.userSet) ∧ uncoloured (objects h s.chains) ≤ 88 ∧
      ((objects h s.chains).map (·.name)).Nodup ∧
      getSummary kde h s (some [c, { c with name := "other" }]) (some ["x"]) = getSummary kde h s none (some ["x"]) := by
  obtain ⟨c, m, hc, -, -, -, -, -, hname, -⟩ := skew_chain kde hkde .hdi
  refine ⟨c, hc, ?_⟩
  intro h s
  have ho : objects h s.chains = [c, { c with name := "other" }] := by simp [objects, h, s]
  have hu : uncoloured (objects h s.chains) ≤ 88 := by
    rw [ho]; exact le_trans (List.length_filter_le _ _) (by simp)
  have hov : ∀ o, s.override = some o → ∀ k ∈ summaryKeys, k ∉ o.userSet := by
    intro o h1
    cases h1
    simp [summaryKeys]
  refine ⟨?_, hov, hu, by rw [ho]; simp [hname], ?_⟩
  · intro e he
    simp only [s, List.mem_cons, List.not_mem_nil, or_false] at he
    rcases he with rfl | rfl <;> simp [h]
  · rw [← ho]
    exact C111_given_partial kde h s hov _ hu _

end CC
