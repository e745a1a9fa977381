import Verif.Props.Request

/-! # C63: chains do not influence each other's summaries -/

namespace CC
open Spec

/-- The settings a summary may depend on. -/
def Spec.summaryKeys : List Key := [.statistics, .summaryArea, .multimodal, .kde, .smooth, .bins]

theorem smoothedHistogram_withCfg (kde : KdeFn) (c : Chain ℝ) (g : Cfg ℝ)
    (hg : ∀ k ∈ summaryKeys, g k = c.cfg k) (col : String) (pad : Bool) (u : Option Bool) :
    smoothedHistogram kde (c.withCfg g) col pad u = smoothedHistogram kde c col pad u := by
  have h1 : g .smooth = c.cfg .smooth := hg _ (by simp [summaryKeys])
  have h2 : g .kde = c.cfg .kde := hg _ (by simp [summaryKeys])
  have h3 : g .bins = c.cfg .bins := hg _ (by simp [summaryKeys])
  have hs : (c.withCfg g).smoothValue = c.smoothValue := by
    simp only [Chain.smoothValue, Chain.withCfg, h1]
    rfl
  have hb : getBins (c.withCfg g) = getBins c := by
    simp only [getBins, hs]
    simp only [Chain.withCfg, h3]
  have hmb : ∀ d w p, marginalBins (c.withCfg g) d w p = marginalBins c d w p := by
    intro d w p
    simp only [marginalBins, hs, hb]
    rfl
  have hmy : ∀ d w b h x y xs, marginalYs kde (c.withCfg g) u d w b h x y xs
      = marginalYs kde c u d w b h x y xs := by
    intro d w b h x y xs
    simp only [marginalYs, hs]
    simp only [Chain.withCfg, h2]
  simp only [smoothedHistogram, hmb, hmy]
  rfl

theorem summaryEntry_withCfg (kde : KdeFn) (c : Chain ℝ) (g : Cfg ℝ)
    (hg : ∀ k ∈ summaryKeys, g k = c.cfg k) (col : String) :
    summaryEntry kde (c.withCfg g) col = summaryEntry kde c col := by
  have h1 : g .statistics = c.cfg .statistics := hg _ (by simp [summaryKeys])
  have h2 : g .summaryArea = c.cfg .summaryArea := hg _ (by simp [summaryKeys])
  have h3 : g .multimodal = c.cfg .multimodal := hg _ (by simp [summaryKeys])
  have hm := smoothedHistogram_withCfg kde c g hg col
  have hp : parameterSummary kde (c.withCfg g) col = parameterSummary kde c col := by
    simp only [parameterSummary, hm]
    simp only [Chain.withCfg, h1, h2]
  simp only [summaryEntry, hp, hm]
  simp only [Chain.withCfg, h2, h3]

theorem chainSummary_withCfg (kde : KdeFn) (c : Chain ℝ) (g : Cfg ℝ)
    (hg : ∀ k ∈ summaryKeys, g k = c.cfg k) (cols : List String) (res : List (String × Summary ℝ)) :
    chainSummary kde (c.withCfg g) cols res = chainSummary kde c cols res := by
  induction cols generalizing res with
  | nil => rfl
  | cons p ps ih =>
    simp only [chainSummary, summaryEntry_withCfg kde c g hg, ih]
    rfl

/-- Resolution of the automatic settings leaves the others alone. -/
theorem resolved_summaryKeys (ov : Option (Config ℝ)) (user : List Key) (n : Nat) (c : Cfg ℝ) (col : String)
    (hov : ∀ o, ov = some o → ∀ k ∈ summaryKeys, k ∉ o.userSet) :
    ∀ k ∈ summaryKeys, Spec.resolved ov user n c col k = c k := by
  intro k hk
  have ha : Spec.auto n c col k = none := by
    simp only [summaryKeys, List.mem_cons, List.not_mem_nil, or_false] at hk
    rcases hk with rfl | rfl | rfl | rfl | rfl | rfl <;> rfl
  unfold Spec.resolved
  simp only [ha, Option.getD_none, ite_self]
  cases ov with
  | none => rfl
  | some o => simp only; rw [if_neg (hov o rfl k hk)]

theorem summaryLoop_resolved (kde : KdeFn) (n : Nat) (ov : Option (Config ℝ))
    (hov : ∀ o, ov = some o → ∀ k ∈ summaryKeys, k ∉ o.userSet) (cols : List String)
    (cs : List (Chain ℝ)) (u : Nat) (res : List (String × List (String × Summary ℝ))) :
    summaryLoop kde cols (resolvedChains n ov cs u) res = summaryLoop kde cols cs res := by
  induction cs generalizing u res with
  | nil => rfl
  | cons c cs ih =>
    simp only [resolvedChains, summaryLoop, chainSummary_withCfg kde c _
      (resolved_summaryKeys ov c.userSet n c.cfg _ hov), ih]
    rfl

/-- With explicit columns, the summaries are those of the registered chains themselves. -/
theorem getSummary_registered (kde : KdeFn) (h : Heap ℝ) (s : Consumer ℝ)
    (hov : ∀ o, s.override = some o → ∀ k ∈ summaryKeys, k ∉ o.userSet)
    (hu : uncoloured (chainsOf h s) ≤ 88) (cols : List String) :
    getSummary kde h s none (some cols) = summaryLoop kde cols (chainsOf h s) [] := by
  have hl : (resolvedChains (numContourChains h s) s.override (chainsOf h s) 0).length ≤
      ((copyChains h s).map Prod.fst).length := by
    rw [resolvedChains_length, chainsOf, List.length_map, List.length_map]
  simp only [getSummary, finalDict_eq h s hu, plotChains, bind, Except.bind, pure, Except.pure,
    sanitiseColumns, List.map_snd_zip hl]
  simp only [Bool.true_or, List.filter_true]
  exact summaryLoop_resolved kde _ _ hov _ _ _ _

theorem summaryLoop_nodup (kde : KdeFn) (cols : List String) (cs : List (Chain ℝ))
    (res : List (String × List (String × Summary ℝ)))
    (hn : (res.map Prod.fst ++ cs.map (·.name)).Nodup) :
    summaryLoop kde cols cs res =
      (cs.mapM fun c => (chainSummary kde c cols []).map fun r => (c.name, r)).map (res ++ ·) := by
  induction cs generalizing res with
  | nil => simp [summaryLoop, pure, Except.pure, Except.map]
  | cons c cs ih =>
    have hc : c.name ∉ res.map Prod.fst := by
      rw [List.nodup_append] at hn
      exact fun hm => hn.2.2 _ hm c.name (by simp) rfl
    simp only [summaryLoop, List.mapM_cons]
    cases hr : chainSummary kde c cols [] with
    | error e => rfl
    | ok r =>
      have hd : dictSet res c.name r = res ++ [(c.name, r)] := by
        unfold dictSet
        rw [if_neg hc]
      change summaryLoop kde cols cs (dictSet res c.name r) = _
      rw [hd, ih _ (by simpa [List.append_assoc] using hn)]
      change _ = ((cs.mapM fun c => (chainSummary kde c cols []).map fun r => (c.name, r)) >>= fun rs =>
        pure ((c.name, r) :: rs)).map (res ++ ·)
      generalize (cs.mapM fun c => (chainSummary kde c cols []).map fun r => (c.name, r)) = A
      cases A with
      | error e => rfl
      | ok rs => simp [Except.map, pure, Except.pure, bind, Except.bind]

/-- **C63**. With explicit columns, the summary of a consumer is the concatenation of the summaries of
consumers that hold just one of its chains: no chain influences what is reported for another. The
overriding settings, if any, must not concern the summaries themselves. -/
theorem C63_isolated (kde : KdeFn) (h : Heap ℝ) (s : Consumer ℝ) (hv : s.Valid h)
    (hov : ∀ o, s.override = some o → ∀ k ∈ summaryKeys, k ∉ o.userSet)
    (hu : uncoloured (chainsOf h s) ≤ 88) (hn : ((chainsOf h s).map (·.name)).Nodup) (cols : List String) :
    getSummary kde h s none (some cols) =
      (s.chains.mapM fun e => getSummary kde h { chains := [e] } none (some cols)).map List.flatten := by
  rw [getSummary_registered kde h s hov hu, summaryLoop_nodup _ _ _ _ (by simpa using hn)]
  have hone : ∀ e ∈ s.chains, ∃ c, h[e.2]? = some c ∧
      getSummary kde h { chains := [e] } none (some cols) =
        (chainSummary kde c cols []).map fun r => [(c.name, r)] := by
    intro e he
    obtain ⟨c, hc⟩ : ∃ c, h[e.2]? = some c := by
      have := hv e he
      exact ⟨_, List.getElem?_eq_getElem this⟩
    refine ⟨c, hc, ?_⟩
    have hco : chainsOf h { chains := [e] } = [c] := by
      simp [chainsOf, copyChains, hc]
    rw [getSummary_registered kde h _ (by intro o ho; cases ho) (by
      rw [hco]; simp only [uncoloured]; exact le_trans (List.length_filter_le _ _) (by simp)), hco]
    simp only [summaryLoop]
    cases chainSummary kde c cols [] with
    | error e => rfl
    | ok r => simp [bind, Except.bind, Except.map, dictSet]
  clear hu hn hov hv
  obtain ⟨chains, t, o⟩ := s
  simp only [chainsOf, copyChains] at hone ⊢
  clear t o
  induction chains with
  | nil => rfl
  | cons e es ih =>
    obtain ⟨c, hc, he⟩ := hone e (by simp)
    have ih' := ih fun x hx => hone x (List.mem_cons_of_mem _ hx)
    simp only [List.filterMap_cons, hc, Option.map_some, List.map_cons, List.mapM_cons, he]
    cases chainSummary kde c cols [] with
    | error e => rfl
    | ok r =>
      simp only [Except.map, bind, Except.bind] at ih' ⊢
      revert ih'
      generalize (List.mapM _ _ : Res (List (String × List (String × Summary ℝ)))) = A
      generalize (List.mapM _ _ : Res (List (List (String × List (String × Summary ℝ))))) = B
      intro ih'
      cases A <;> cases B <;> simp_all [pure, Except.pure]

/-- Two chains with one parameter. -/
example (kde : KdeFn) (hkde : KdeOk kde) : ∃ c b, Chain.make (skewArgs .hdi) = .ok c ∧
    let h : Heap ℝ := [c, { c with name := "other" }]
    let s : Consumer ℝ := { chains := [("skew", 0), ("other", 1)] }
    s.Valid h ∧ uncoloured (chainsOf h s) ≤ 88 ∧ ((chainsOf h s).map (·.name)).Nodup ∧
      getSummary kde h s none (some ["x"]) =
        .ok [("skew", [("x", .single b)]), ("other", [("x", .single b)])] := by
  obtain ⟨c, m, hc, hst, har, hmm, hsam, -, hname, hm, hv, -⟩ := skew_chain kde hkde .hdi
  obtain ⟨l, ce, u, hs, -⟩ := C31_hdi_mass hv (6827 / 10000 : ℝ) (by norm_num)
  have he : summaryEntry kde c "x" = .ok (.single ⟨some l, some ce, some u⟩) := by
    rw [C37_lists]
    refine ⟨_, ?_, Or.inl ⟨hmm, rfl⟩⟩
    simp only [parameterSummary, hst, har, hm, bind, Except.bind, hs]
  have hcols : c.samples.columns = ["x", "weight"] := by rw [hsam]; rfl
  have hcs : chainSummary kde c ["x"] [] = .ok [("x", .single ⟨some l, some ce, some u⟩)] := by
    simp [chainSummary, hcols, he, bind, Except.bind, dictSet]
  have hcs' : chainSummary kde { c with name := "other" } ["x"] [] =
      .ok [("x", .single ⟨some l, some ce, some u⟩)] := hcs
  refine ⟨c, ⟨some l, some ce, some u⟩, hc, ?_⟩
  intro h s
  have hco : chainsOf h s = [c, { c with name := "other" }] := by
    simp [chainsOf, copyChains, h, s]
  have hu : uncoloured (chainsOf h s) ≤ 88 := by
    rw [hco]; exact le_trans (List.length_filter_le _ _) (by simp)
  refine ⟨?_, hu, by rw [hco]; simp [hname], ?_⟩
  · intro e he
    simp only [s, List.mem_cons, List.not_mem_nil, or_false] at he
    rcases he with rfl | rfl <;> simp [h]
  · rw [getSummary_registered kde h s (by intro o ho; cases ho) hu, hco]
    simp [summaryLoop, hcs, hcs', bind, Except.bind, dictSet, hname]

end CC
