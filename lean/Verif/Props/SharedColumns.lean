import Verif.Props.AutoColours

/-! # C133: figures of all chains and default parameters, for chains that share their columns -/

namespace CC
open Spec

/-- The parameters by default of chains with the columns `L`: each of `L` once, if there is a chain. -/
theorem columns_shared {L : List String} {cs : List (Chain ℝ)} (h : ∀ c ∈ cs, c.plottingColumns = L) :
    sanitiseColumns none cs = if cs = [] then [] else L.foldl (fun res col => if col ∈ res then res else res ++ [col]) [] := by
  have keep : ∀ (l res : List String), (∀ x ∈ l, x ∈ res) → l.foldl (fun res col => if col ∈ res then res else res ++ [col]) res = res := by
    intro l
    induction l with
    | nil => intro res _; rfl
    | cons x l ih =>
      intro res hr
      rw [List.foldl_cons, if_pos (hr x List.mem_cons_self)]
      exact ih res fun y hy => hr y (List.mem_cons_of_mem _ hy)
  have mem : ∀ (l res : List String), (∀ x ∈ res, x ∈ l.foldl (fun res col => if col ∈ res then res else res ++ [col]) res) ∧
      ∀ x ∈ l, x ∈ l.foldl (fun res col => if col ∈ res then res else res ++ [col]) res := by
    intro l
    induction l with
    | nil => intro res; exact ⟨fun x hx => hx, fun x hx => by cases hx⟩
    | cons y l ih =>
      intro res
      rw [List.foldl_cons]
      obtain ⟨h1, h2⟩ := ih (if y ∈ res then res else res ++ [y])
      refine ⟨fun x hx => h1 x ?_, fun x hx => ?_⟩
      · split
        · exact hx
        · exact List.mem_append_left _ hx
      · rcases List.mem_cons.1 hx with rfl | hx
        · refine h1 x ?_
          split
          · assumption
          · simp
        · exact h2 x hx
  cases cs with
  | nil => rfl
  | cons c cs =>
    rw [if_neg (by simp)]
    simp only [sanitiseColumns, List.foldl_cons, h c List.mem_cons_self]
    have h' : ∀ d ∈ cs, d.plottingColumns = L := fun d hd => h d (List.mem_cons_of_mem _ hd)
    clear h
    generalize hr : L.foldl (fun res col => if col ∈ res then res else res ++ [col]) [] = R
    have hL : ∀ x ∈ L, x ∈ R := fun x hx => hr ▸ (mem L []).2 x hx
    clear hr
    induction cs with
    | nil => rfl
    | cons d cs ih =>
      rw [List.foldl_cons, h' d List.mem_cons_self, keep L R hL]
      exact ih fun e he => h' e (List.mem_cons_of_mem _ he)

/-- By default the parameters are those of the chains. -/
theorem sanitise_default (cfg : PlotConfig) (d : List (String × Chain ℝ)) (wide : Bool) :
    sanitise cfg d .all none wide =
      sanitise cfg d .all (some (sanitiseColumns none ((d.map Prod.snd).filter fun c => !c.skip))) wide := rfl

/-- Chains that share their columns have the same parameters by default in any order. -/
theorem default_order {d d' : List (String × Chain ℝ)} (hp : (paled d').Perm (paled d)) {L : List String}
    (hL : ∀ e ∈ d, e.2.plottingColumns = L) : sanitiseColumns none ((d'.map Prod.snd).filter fun c => !c.skip) =
      sanitiseColumns none ((d.map Prod.snd).filter fun c => !c.skip) := by
  have hm : ∀ e ∈ d', ∃ e₀ ∈ d, pale e.2 = pale e₀.2 := by
    intro e he
    have : (e.1, pale e.2) ∈ paled d := hp.mem_iff.1 (List.mem_map_of_mem (f := fun e : String × Chain ℝ => (e.1, pale e.2)) he)
    obtain ⟨e₀, h0, h1⟩ := List.mem_map.1 this
    exact ⟨e₀, h0, (congrArg Prod.snd h1).symm⟩
  have hL' : ∀ e ∈ d', e.2.plottingColumns = L := by
    intro e he
    obtain ⟨e₀, h0, h1⟩ := hm e he
    have h2 : (pale e.2).plottingColumns = (pale e₀.2).plottingColumns := by rw [h1]
    exact Eq.trans h2 (hL e₀ h0)
  have hlen : ((d'.map Prod.snd).filter fun c => !c.skip).length = ((d.map Prod.snd).filter fun c => !c.skip).length := by
    have key : ∀ l : List (String × Chain ℝ), ((l.map Prod.snd).filter fun c => !c.skip).length =
        (((paled l).map Prod.snd).filter fun c => !c.skip).length := by
      intro l
      simp only [paled, List.map_map, List.filter_map, List.length_map]
      rfl
    rw [key d', key d]
    exact ((hp.map _).filter _).length_eq
  have hsub : ∀ (l : List (String × Chain ℝ)), (∀ e ∈ l, e.2.plottingColumns = L) →
      ∀ c ∈ (l.map Prod.snd).filter fun c => !c.skip, c.plottingColumns = L := by
    intro l hl c hc
    obtain ⟨e, he, rfl⟩ := List.mem_map.1 (List.mem_filter.1 hc).1
    exact hl e he
  rw [columns_shared (hsub d' hL'), columns_shared (hsub d hL)]
  have : ((d'.map Prod.snd).filter fun c => !c.skip) = [] ↔ ((d.map Prod.snd).filter fun c => !c.skip) = [] := by
    rw [← List.length_eq_zero_iff, hlen, List.length_eq_zero_iff]
  by_cases h0 : ((d.map Prod.snd).filter fun c => !c.skip) = []
  · rw [if_pos h0, if_pos (this.2 h0)]
  · rw [if_neg h0, if_neg fun h => h0 (this.1 h)]

/-- **C133, partial** (default parameters). If the chains share their columns, a consumer to which they were added in another order draws the same
walks, distributions and corner plots of all chains and default parameters, up to the order in which the chains of a panel are drawn and up to
automatic colours. Missing: chains with different columns, whose columns are listed in the order of the chains. -/
theorem C133_default_partial (lib : Lib) (cfg : PlotConfig) (truths : List (Truth ℝ)) {h : Heap ℝ} {s s' : Consumer ℝ} (ho : OtherOrder s s')
    (hov : ∀ o, s.override = some o → Shadable o.vals) (hcs : ∀ e ∈ copyChains h s, Shadable e.2.cfg) {d : List (String × Chain ℝ)}
    (hfd : finalDict h s = .ok d) {L : List String} (hL : ∀ e ∈ d, e.2.plottingColumns = L)
    (plotWeights plotPosterior logWeight : Bool) (colWrap : Nat) (draw : List (String × Chain ℝ) → Res Fig)
    (hd : draw ∈ [fun d => plotWalks cfg truths plotWeights plotPosterior logWeight d .all none,
      fun d => plotDistributions lib cfg truths colWrap d .all none, fun d => plot lib cfg truths d .all none])
    {g : Fig} (hg : draw d = .ok g) : ∃ g', (do draw (← finalDict h s')) = .ok g' ∧ SameShown g g' := by
  obtain ⟨d', hfd', hp⟩ := final_order ho hfd
  have he := default_order hp hL
  set X := sanitiseColumns none ((d.map Prod.snd).filter fun c => !c.skip) with hX
  have eq : ∀ F : PlottingBase → Res Fig, (do F (← sanitise cfg d' .all none true)) = (do F (← sanitise cfg d' .all (some X) true)) := by
    intro F
    rw [sanitise_default, he]
  have use : ∀ f : List (String × Chain ℝ) → Res Fig, (∃ g', (do f (← finalDict h s')) = .ok g' ∧ SameShown g g') → draw d' = f d' →
      ∃ g', (do draw (← finalDict h s')) = .ok g' ∧ SameShown g g' := by
    rintro f ⟨g', h1, h2⟩ h3
    rw [hfd'] at h1 ⊢
    exact ⟨g', h3.trans h1, h2⟩
  simp only [List.mem_cons, List.not_mem_nil, or_false] at hd
  rcases hd with rfl | rfl | rfl
  · refine use (fun d => plotWalks cfg truths plotWeights plotPosterior logWeight d .all (some X))
      (C133_figures_partial lib cfg truths ho X plotWeights plotPosterior logWeight colWrap
        (fun d r => plotWalks cfg truths plotWeights plotPosterior logWeight d r (some X)) (by simp) ?_) ?_
    · rw [hfd]; exact hg
    · exact eq (plotWalksBase cfg truths plotWeights plotPosterior logWeight)
  · refine use (fun d => plotDistributions lib cfg truths colWrap d .all (some X))
      (C133_figures_partial lib cfg truths ho X plotWeights plotPosterior logWeight colWrap
        (fun d r => plotDistributions lib cfg truths colWrap d r (some X)) (by simp) ?_) ?_
    · rw [hfd]; exact hg
    · exact eq (plotDistributionsBase lib cfg truths colWrap)
  · refine use (fun d => plot lib cfg truths d .all (some X)) (C133_shades_partial lib cfg truths ho hov hcs X ?_) ?_
    · rw [hfd]; exact hg
    · exact eq (plotBase lib cfg truths)

/-- Non-vacuity: two chains with the columns `a` and `b` and automatic colours, drawn as clouds, added in either order. -/
example (lib : Lib) : ∃ (h : Heap ℝ) (s s' : Consumer ℝ) (cfg : PlotConfig) (g g' : Fig), s'.chains ≠ s.chains ∧ OtherOrder s s' ∧
    (∀ o, s.override = some o → Shadable o.vals) ∧ (∀ e ∈ copyChains h s, Shadable e.2.cfg) ∧
    (∃ d, finalDict h s = .ok d ∧ ∀ e ∈ d, e.2.plottingColumns = ["a", "b"]) ∧
    (do plot lib cfg [] (← finalDict h s) .all none) = .ok g ∧
    (do plot lib cfg [] (← finalDict h s') .all none) = .ok g' ∧ SameShown g g' ∧
    ∃ calls, ((0, 0), calls) ∈ g.panels ∧ .cloud "x" "a" "b" [1] [5] none ∈ calls ∧ .cloud "y" "a" "b" [1] [5] none ∈ calls := by
  have mk : ∀ name : String, ∃ c : Chain ℝ, c.name = name ∧ c.samples = rowFrame ∧ c.weightColumn = "weight" ∧
      c.posteriorColumn = "log_posterior" ∧ c.cfg .plotContour = false ∧ c.cfg .plotCloud = true ∧ c.cfg .plotPoint = false ∧
      c.cfg .colorParam = none ∧ (c.cfg .numCloud : ℝ) = 10000 ∧ Shadable c.cfg ∧ c.cfg .color = none := by
    intro name
    obtain ⟨c, -, hsam, hwc, hpc, -, -, -, hname, hcfg⟩ := plain_chain_cfg (K := ℝ) false
      [⟨.plotContour, false⟩, ⟨.plotCloud, true⟩] rfl
      (by change (0 : ℝ) ≤ 6827 / 10000 ∧ (6827 / 10000 : ℝ) ≤ 1; constructor <;> norm_num)
      (by change (1 : ℝ) ≤ 10; norm_num) rfl rfl (by intro h; cases h) rowFrame ⟨by decide, by simp [rowFrame]⟩
      (by simp [rowFrame]) (w := [1]) rfl (by simp) name 1 le_rfl (one_dvd _)
    have hg : (c.cfg .shadeGradient : ℝ) = 1 := by rw [hcfg]; rfl
    have hcl : c.cfg .color = none := by rw [hcfg]; rfl
    exact ⟨c, hname, hsam, hwc, hpc, by rw [hcfg]; rfl, by rw [hcfg]; rfl, by rw [hcfg]; rfl, by rw [hcfg]; rfl, by rw [hcfg]; rfl,
      ⟨fun s hs => absurd (hcl.symm.trans hs) (by simp), by rw [hg]; norm_num, by rw [hg]; norm_num⟩, hcl⟩
  have draw : ∀ (c : Chain ℝ) (v : Cfg ℝ) (name : String), c.name = name → c.samples = rowFrame → c.weightColumn = "weight" →
      c.posteriorColumn = "log_posterior" → v .plotContour = false → v .plotCloud = true → v .plotPoint = false → v .colorParam = none →
      (v .numCloud : ℝ) = 10000 → ((c.withCfg v).skip = false ∧ (c.withCfg v).plottingColumns = ["a", "b"]) ∧
      ∀ lib cfg, surfaceChain lib cfg "a" "b" (c.withCfg v) = .ok ([.cloud name "a" "b" [1] [5] none], []) := by
    intro c v name hname hsam hwc hpc h2 h1 h3 h4 h5
    have k1 : (c.withCfg v).cfg .plotCloud = true := h1
    have k2 : (c.withCfg v).cfg .plotContour = false := h2
    have k3 : (c.withCfg v).cfg .plotPoint = false := h3
    have k4 : (c.withCfg v).cfg .colorParam = none := h4
    have k5 : ((c.withCfg v).cfg .numCloud : ℝ) = 10000 := h5
    have ha : (c.withCfg v).samples.get "a" = .ok [1] := by change c.samples.get "a" = _; rw [hsam]; rfl
    have hb : (c.withCfg v).samples.get "b" = .ok [5] := by change c.samples.get "b" = _; rw [hsam]; rfl
    have hn : (c.withCfg v).name = name := hname
    have hd : (c.withCfg v).dataColumns = ["a", "b"] := by
      change c.dataColumns = _
      rw [Chain.dataColumns, hsam, hwc, hpc, show rowFrame.columns = ["a", "b", "weight", "log_posterior"] from rfl]
      decide
    have hp : (c.withCfg v).plottingColumns = ["a", "b"] := by
      rw [Chain.plottingColumns, hd, k4, k1]
      decide
    have hs : cloudStep 1 10000 = .ok 1 := by
      have : ⌊((1 : ℕ) : ℝ) / 10000⌋ = 0 := by
        rw [Int.floor_eq_zero_iff]; constructor <;> norm_num
      rw [cloudStep, this]
      simp [ensure, bind, Except.bind, pure, Except.pure]
    have he : ∀ a : ℝ, everyNth 1 [a] = [a] := by intro a; simp [everyNth]
    have hem : (c.withCfg v).samples.empty = false := by change c.samples.empty = false; rw [hsam]; rfl
    refine ⟨⟨by simp [Chain.skip, k1, k2, k3, hem], hp⟩, fun lib cfg => ?_⟩
    simp [surfaceChain, hp, cloudCalls, k1, plotCloud, ha, hb, k5, hs, Chain.colorData, k4, he, contourCalls, k2, pointCalls,
      k3, hn, bind, Except.bind, pure, Except.pure]
  obtain ⟨c, c1, c2, c3, c4, c5, c6, c7, c8, c9, c10, c11⟩ := mk "x"
  obtain ⟨d, d1, d2, d3, d4, d5, d6, d7, d8, d9, d10, d11⟩ := mk "y"
  set s : Consumer ℝ := { chains := [("x", 0), ("y", 1)] } with hs
  set s' : Consumer ℝ := { chains := [("y", 1), ("x", 0)] } with hs'
  have ho : OtherOrder s s' := ⟨.swap _ _ _, rfl⟩
  have hov : ∀ o, s.override = some o → Shadable o.vals := by intro o h; cases h
  have hcs : ∀ e ∈ copyChains [c, d] s, Shadable e.2.cfg ∧ e.2.cfg .color = none := by
    simp [copyChains, hs, c10, c11, d10, d11]
  have hco : chainsOf [c, d] s = [c, d] := by simp [chainsOf, copyChains, hs]
  set cfg : PlotConfig := { plotHists := false, extents := [("a", 0, 1), ("b", 0, 10)] } with hcfg
  obtain ⟨v, w, hfd, ⟨⟨v1, v0⟩, v2⟩, ⟨w1, w0⟩, w2⟩ : ∃ v w, finalDict [c, d] s = .ok [("x", c.withCfg v), ("y", d.withCfg w)] ∧
      (((c.withCfg v).skip = false ∧ (c.withCfg v).plottingColumns = ["a", "b"]) ∧
        ∀ lib cfg, surfaceChain lib cfg "a" "b" (c.withCfg v) = .ok ([.cloud "x" "a" "b" [1] [5] none], [])) ∧
      (((d.withCfg w).skip = false ∧ (d.withCfg w).plottingColumns = ["a", "b"]) ∧
        ∀ lib cfg, surfaceChain lib cfg "a" "b" (d.withCfg w) = .ok ([.cloud "y" "a" "b" [1] [5] none], [])) := by
    rw [finalDict_eq _ _ (by rw [hco]; exact le_trans (List.length_filter_le _ _) (by simp)), hco]
    simp only [resolvedChains, copyChains, hs]
    refine ⟨_, _, rfl, draw c _ "x" c1 c2 c3 c4 ?_ ?_ ?_ ?_ ?_, draw d _ "y" d1 d2 d3 d4 ?_ ?_ ?_ ?_ ?_⟩
    · exact (resolved_own _ _ _ _ _ rfl).trans c5
    · exact (resolved_own _ _ _ _ _ rfl).trans c6
    · exact (resolved_own _ _ _ _ _ rfl).trans c7
    · exact (resolved_own _ _ _ _ _ rfl).trans c8
    · exact (resolved_own _ _ _ _ _ rfl).trans c9
    · exact (resolved_own _ _ _ _ _ rfl).trans d5
    · exact (resolved_own _ _ _ _ _ rfl).trans d6
    · exact (resolved_own _ _ _ _ _ rfl).trans d7
    · exact (resolved_own _ _ _ _ _ rfl).trans d8
    · exact (resolved_own _ _ _ _ _ rfl).trans d9
  have hfig : ∃ fig calls, (do plot lib cfg [] (← finalDict [c, d] s) .all none) = .ok fig ∧
      ((0, 0), calls) ∈ fig.panels ∧ .cloud "x" "a" "b" [1] [5] none ∈ calls ∧ .cloud "y" "a" "b" [1] [5] none ∈ calls := by
    rw [hfd]
    have hb : sanitise cfg [("x", c.withCfg v), ("y", d.withCfg w)] .all none true = .ok (demoBase [c.withCfg v, d.withCfg w]) := by
      simp [sanitise, plotChains, v1, w1, v0, w0, sanitiseColumns, customExtents, sanitiseBlinds, hcfg, demoBase, bind, Except.bind, pure, Except.pure]
    obtain ⟨st, h1⟩ := demo_setup cfg [c.withCfg v, d.withCfg w] 1 0 0 "b" "a" (.inr rfl) (.inl rfl)
    have hg : gridPanels 1 1 = [(0, 0)] := rfl
    have h3 : ∀ su fl nx, drawPanel lib cfg (demoBase [c.withCfg v, d.withCfg w]) [] su fl nx 0 0 "b" "a" = .ok
        ([.cloud "x" "a" "b" [1] [5] none, .cloud "y" "a" "b" [1] [5] none], []) := by
      intro su fl nx
      have hph : cfg.plotHists = false := rfl
      have hch : (demoBase [c.withCfg v, d.withCfg w]).chains = [c.withCfg v, d.withCfg w] := rfl
      simp [drawPanel, hch, hph, plotSurface, v2, w2, plotTruths, bind, Except.bind, pure, Except.pure]
    have hcols : (demoBase [c.withCfg v, d.withCfg w]).columns = ["a", "b"] := rfl
    have hph : cfg.plotHists = false := rfl
    refine ⟨_, _, by
      simp only [plot, hb, plotBase, hcols, hph, Bool.false_eq_true, if_false, List.tail_cons, List.length_cons, List.length_nil, Nat.zero_add,
        List.dropLast_cons_cons, List.dropLast_singleton, hg, List.mapM_cons, List.mapM_nil, List.getD_cons_zero, h3, h1, Nat.add_sub_cancel,
        bind, Except.bind, pure, Except.pure, ensure, Nat.zero_lt_one, decide_true, if_true, List.zipWith_cons_cons, List.zipWith_nil_left,
        List.zip_cons_cons, List.zip_nil_left]
      rfl, List.mem_singleton.2 rfl, ?_, ?_⟩ <;> simp
  obtain ⟨fig, calls, hf, hm, hcall⟩ := hfig
  have hL : ∀ e ∈ [("x", c.withCfg v), ("y", d.withCfg w)], e.2.plottingColumns = ["a", "b"] := by simp [v0, w0]
  have hf2 := hf
  rw [hfd] at hf2
  obtain ⟨fig', hf', hsame⟩ := C133_default_partial lib cfg [] ho hov (fun e he => (hcs e he).1) hfd hL false false false 4
    (fun d => plot lib cfg [] d .all none) (by simp) hf2
  exact ⟨[c, d], s, s', cfg, fig, fig', by simp [hs, hs'], ho, hov, fun e he => (hcs e he).1, ⟨_, hfd, hL⟩, hf, hf', hsame, calls, hm, hcall⟩

/-! ### different columns -/

/-- The parameters by default start with the first of the first chain. -/
theorem columns_first {c : Chain ℝ} {cs : List (Chain ℝ)} {x : String} {l : List String} (h : c.plottingColumns = x :: l) :
    ∃ t, sanitiseColumns none (c :: cs) = x :: t := by
  have one : ∀ (l : List String) (r : List String), ∃ t, l.foldl (fun res col => if col ∈ res then res else res ++ [col]) (x :: r) = x :: t := by
    intro l
    induction l with
    | nil => intro r; exact ⟨r, rfl⟩
    | cons y l ih =>
      intro r
      rw [List.foldl_cons]
      split
      · exact ih r
      · exact ih (r ++ [y])
  have all : ∀ (cs : List (Chain ℝ)) (r : List String), ∃ t, cs.foldl (fun res c =>
      c.plottingColumns.foldl (fun res col => if col ∈ res then res else res ++ [col]) res) (x :: r) = x :: t := by
    intro cs
    induction cs with
    | nil => intro r; exact ⟨r, rfl⟩
    | cons d cs ih =>
      intro r
      obtain ⟨t, ht⟩ := one d.plottingColumns r
      rw [List.foldl_cons, ht]
      exact ih t
  obtain ⟨t, ht⟩ := one l []
  obtain ⟨u, hu⟩ := all cs t
  refine ⟨u, ?_⟩
  simp only [sanitiseColumns, List.foldl_cons, h, List.not_mem_nil, if_false, List.nil_append, ht]
  exact hu

/-- The first panel of the walks by default shows the first parameter of the first chain. -/
theorem walks_first {cfg : PlotConfig} {truths : List (Truth ℝ)} {lw : Bool} {n : String} {c : Chain ℝ} {rest : List (String × Chain ℝ)}
    (hc : c.skip = false) {x : String} {l : List String} (hx : c.plottingColumns = x :: l) {g : Fig}
    (hg : plotWalks cfg truths false false lw ((n, c) :: rest) .all none = .ok g) :
    ∃ calls ps, g.panels = ((0, 0), calls) :: ps ∧ nameOf cfg.labels x ∈ axisTexts .y calls ∧
      ∀ t ∈ axisTexts .y calls, t = nameOf cfg.labels x := by
  simp only [plotWalks, bind_ok_iff] at hg
  obtain ⟨b, hb, hg⟩ := hg
  simp only [sanitise, bind_ok_iff, pure_ok_iff] at hb
  obtain ⟨cs, hcs, d, hd, rfl⟩ := hb
  simp only [plotChains, pure_bind, pure_ok_iff, List.map_cons, List.filter_cons, hc, Bool.not_false, Bool.or_true, if_true] at hcs
  subst hcs
  obtain ⟨t, ht⟩ := columns_first (cs := (rest.map Prod.snd).filter fun c => false || !c.skip) hx
  simp only [plotWalksBase, bind_ok_iff, pure_ok_iff, ht, Bool.false_and, Bool.false_eq_true, if_false, Nat.add_zero, List.length_cons,
    List.range_succ_eq_map, List.mapM_cons, Nat.zero_le, if_true, Nat.sub_self, List.getD_cons_zero] at hg
  obtain ⟨-, -, ps, ⟨calls, hcalls, ps, -, rfl⟩, rfl⟩ := hg
  obtain ⟨-, -, -, h4⟩ := walkPanel_axes hcalls
  refine ⟨calls, _, rfl, ?_, ?_⟩
  · rw [h4, List.mem_replicate]
    refine ⟨?_, rfl⟩
    simp [(C09_plotting_columns c x).1.subset (show x ∈ c.plottingColumns by rw [hx]; exact List.mem_cons_self)]
  · intro u hu
    rw [h4] at hu
    exact List.eq_of_mem_replicate hu

/-- **C133** is violated by default parameters if the columns differ: the walks of all chains do not show the same if the first parameters of the
first chains have different labels, which is so for two chains in either order. -/
theorem C133_columns_violated {cfg : PlotConfig} {truths : List (Truth ℝ)} {lw : Bool} {n m : String} {c e : Chain ℝ}
    {rest rest' : List (String × Chain ℝ)} (hc : c.skip = false) (he : e.skip = false) {x y : String} {l l' : List String}
    (hx : c.plottingColumns = x :: l) (hy : e.plottingColumns = y :: l') (hxy : nameOf cfg.labels x ≠ nameOf cfg.labels y) {g g' : Fig}
    (hg : plotWalks cfg truths false false lw ((n, c) :: rest) .all none = .ok g)
    (hg' : plotWalks cfg truths false false lw ((m, e) :: rest') .all none = .ok g') : ¬ SameShown g g' := by
  intro hs
  obtain ⟨calls, ps, h1, h2, -⟩ := walks_first hc hx hg
  obtain ⟨calls', ps', k1, -, k3⟩ := walks_first he hy hg'
  have := hs.panels
  rw [h1, k1] at this
  have hp := (List.forall₂_cons.1 this).1.2
  exact hxy (k3 _ ((hp.filterMap _).mem_iff.2 h2))

/-- Non-vacuity: a chain with the columns `a`, `b` and one with the columns `b`, `a`, added in either order. -/
example : ∃ (h : Heap ℝ) (s s' : Consumer ℝ) (cfg : PlotConfig) (g g' : Fig), OtherOrder s s' ∧
    (do plotWalks cfg [] false false false (← finalDict h s) .all none) = .ok g ∧
    (do plotWalks cfg [] false false false (← finalDict h s') .all none) = .ok g' ∧ ¬ SameShown g g' := by
  let turned : Frame ℝ := ⟨[.int 0], [("b", [5]), ("a", [1]), ("weight", [1]), ("log_posterior", [1])]⟩
  have mk : ∀ (name : String) (fr : Frame ℝ) (cols : List String), fr = rowFrame ∧ cols = ["a", "b"] ∨ fr = turned ∧ cols = ["b", "a"] →
      ∃ c : Chain ℝ, c.name = name ∧ ∀ v : Cfg ℝ, v .plotContour = c.cfg .plotContour → v .plotCloud = c.cfg .plotCloud →
        v .colorParam = c.cfg .colorParam → (c.withCfg v).skip = false ∧ (c.withCfg v).plottingColumns = cols ∧
        (c.withCfg v).dataColumns = cols ∧ (c.withCfg v).samples.get "a" = .ok [1] ∧ (c.withCfg v).samples.get "b" = .ok [5] := by
    intro name fr cols hfr
    have hcol : fr.columns = cols ++ ["weight", "log_posterior"] := by rcases hfr with ⟨rfl, rfl⟩ | ⟨rfl, rfl⟩ <;> rfl
    have hcols : cols = ["a", "b"] ∨ cols = ["b", "a"] := hfr.imp And.right And.right
    obtain ⟨c, -, hsam, hwc, hpc, -, -, -, hname, hcfg⟩ := plain_chain_cfg (K := ℝ) false
      [⟨.plotContour, false⟩, ⟨.plotCloud, true⟩] rfl
      (by change (0 : ℝ) ≤ 6827 / 10000 ∧ (6827 / 10000 : ℝ) ≤ 1; constructor <;> norm_num)
      (by change (1 : ℝ) ≤ 10; norm_num) rfl rfl (by intro h; cases h) fr
      (by rcases hfr with ⟨rfl, -⟩ | ⟨rfl, -⟩
          · exact ⟨by decide, by simp [rowFrame]⟩
          · exact ⟨by decide, by simp [turned]⟩)
      (by rcases hfr with ⟨rfl, -⟩ | ⟨rfl, -⟩ <;> simp [rowFrame, turned]) (w := [1])
      (by rcases hfr with ⟨rfl, -⟩ | ⟨rfl, -⟩ <;> rfl) (by simp) name 1 le_rfl (one_dvd _)
    refine ⟨c, hname, fun v h1 h2 h3 => ?_⟩
    have k1 : (c.withCfg v).cfg .plotCloud = true := h2.trans (by rw [hcfg]; rfl)
    have k4 : (c.withCfg v).cfg .colorParam = none := h3.trans (by rw [hcfg]; rfl)
    have hem : (c.withCfg v).samples.empty = false := by
      change c.samples.empty = false
      rw [hsam]
      rcases hfr with ⟨rfl, -⟩ | ⟨rfl, -⟩ <;> rfl
    have hd : (c.withCfg v).dataColumns = cols := by
      change c.dataColumns = _
      rw [Chain.dataColumns, hsam, hwc, hpc, hcol]
      rcases hcols with rfl | rfl <;> decide
    refine ⟨by simp [Chain.skip, k1, hem], ?_, hd, ?_, ?_⟩
    · rw [Chain.plottingColumns, hd, k4, k1]
      rcases hcols with rfl | rfl <;> decide
    · change c.samples.get "a" = _
      rw [hsam]
      rcases hfr with ⟨rfl, -⟩ | ⟨rfl, -⟩ <;> rfl
    · change c.samples.get "b" = _
      rw [hsam]
      rcases hfr with ⟨rfl, -⟩ | ⟨rfl, -⟩ <;> rfl
  obtain ⟨c, c1, hc⟩ := mk "x" rowFrame ["a", "b"] (.inl ⟨rfl, rfl⟩)
  obtain ⟨d, d1, hd⟩ := mk "y" turned ["b", "a"] (.inr ⟨rfl, rfl⟩)
  set s : Consumer ℝ := { chains := [("x", 0), ("y", 1)] } with hs
  set s' : Consumer ℝ := { chains := [("y", 1), ("x", 0)] } with hs'
  set cfg : PlotConfig := { extents := [("a", 0, 1), ("b", 0, 10)] } with hcfg
  have ht : ∀ x : ℝ, thin [x] = [x] := by
    intro x
    rw [thin, if_neg]
    unfold maxPoints
    simp
  have hco : chainsOf [c, d] s = [c, d] := by simp [chainsOf, copyChains, hs]
  have hco' : chainsOf [c, d] s' = [d, c] := by simp [chainsOf, copyChains, hs']
  obtain ⟨v, w, hfd, ⟨v1, v2, v3, v4, v5⟩, w1, w2, w3, w4, w5⟩ : ∃ v w, finalDict [c, d] s = .ok [("x", c.withCfg v), ("y", d.withCfg w)] ∧
      ((c.withCfg v).skip = false ∧ (c.withCfg v).plottingColumns = ["a", "b"] ∧
        (c.withCfg v).dataColumns = ["a", "b"] ∧ (c.withCfg v).samples.get "a" = .ok [1] ∧ (c.withCfg v).samples.get "b" = .ok [5]) ∧
      (d.withCfg w).skip = false ∧ (d.withCfg w).plottingColumns = ["b", "a"] ∧
        (d.withCfg w).dataColumns = ["b", "a"] ∧ (d.withCfg w).samples.get "a" = .ok [1] ∧ (d.withCfg w).samples.get "b" = .ok [5] := by
    rw [finalDict_eq _ _ (by rw [hco]; exact le_trans (List.length_filter_le _ _) (by simp)), hco]
    simp only [resolvedChains, copyChains, hs]
    exact ⟨_, _, rfl, hc _ (resolved_own _ _ _ _ _ rfl) (resolved_own _ _ _ _ _ rfl) (resolved_own _ _ _ _ _ rfl),
      hd _ (resolved_own _ _ _ _ _ rfl) (resolved_own _ _ _ _ _ rfl) (resolved_own _ _ _ _ _ rfl)⟩
  obtain ⟨v', w', hfd', ⟨a1, a2, a3, a4, a5⟩, b1, b2, b3, b4, b5⟩ : ∃ v w, finalDict [c, d] s' = .ok [("y", d.withCfg w), ("x", c.withCfg v)] ∧
      ((c.withCfg v).skip = false ∧ (c.withCfg v).plottingColumns = ["a", "b"] ∧
        (c.withCfg v).dataColumns = ["a", "b"] ∧ (c.withCfg v).samples.get "a" = .ok [1] ∧ (c.withCfg v).samples.get "b" = .ok [5]) ∧
      (d.withCfg w).skip = false ∧ (d.withCfg w).plottingColumns = ["b", "a"] ∧
        (d.withCfg w).dataColumns = ["b", "a"] ∧ (d.withCfg w).samples.get "a" = .ok [1] ∧ (d.withCfg w).samples.get "b" = .ok [5] := by
    rw [finalDict_eq _ _ (by rw [hco']; exact le_trans (List.length_filter_le _ _) (by simp)), hco']
    simp only [resolvedChains, copyChains, hs']
    exact ⟨_, _, rfl, hc _ (resolved_own _ _ _ _ _ rfl) (resolved_own _ _ _ _ _ rfl) (resolved_own _ _ _ _ _ rfl),
      hd _ (resolved_own _ _ _ _ _ rfl) (resolved_own _ _ _ _ _ rfl) (resolved_own _ _ _ _ _ rfl)⟩
  have hr : List.range 2 = [0, 1] := rfl
  obtain ⟨g, hg⟩ : ∃ g, plotWalks cfg [] false false false [("x", c.withCfg v), ("y", d.withCfg w)] .all none = .ok g := by
    simp [plotWalks, plotWalksBase, sanitise, plotChains, v1, w1, v2, w2, v3, w3, v4, w4, v5, w5, sanitiseColumns, customExtents, hcfg, hr, ht,
      walkPanel, plotWalk, walkLim, setLim, ensure, bind, Except.bind, pure, Except.pure, List.lookup]
  obtain ⟨g', hg'⟩ : ∃ g, plotWalks cfg [] false false false [("y", d.withCfg w'), ("x", c.withCfg v')] .all none = .ok g := by
    simp [plotWalks, plotWalksBase, sanitise, plotChains, a1, b1, a2, b2, a3, b3, a4, b4, a5, b5, sanitiseColumns, customExtents, hcfg, hr, ht,
      walkPanel, plotWalk, walkLim, setLim, ensure, bind, Except.bind, pure, Except.pure, List.lookup]
  refine ⟨[c, d], s, s', cfg, g, g', ⟨.swap _ _ _, rfl⟩, by rw [hfd]; exact hg, by rw [hfd']; exact hg', ?_⟩
  exact C133_columns_violated v1 b1 v2 b2 (by simp [nameOf, hcfg]) hg hg'

end CC
