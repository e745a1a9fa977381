import Verif.Props.OrderFigures
import Verif.Props.DrawnContours
import Verif.Props.Stack

/-! # C133: corner plots of chains with automatic colours -/

set_option linter.unusedSectionVars false

namespace CC
open Spec

/-- Settings from which shades can be computed: colours, if given, are hex colours, and the gradient lies between -2 and 10. -/
structure Spec.Shadable (cfg : Cfg ℝ) : Prop where
  colour : ∀ s, cfg .color = some s → ∃ p, rgb s = some p
  above : (-2 : ℝ) < cfg .shadeGradient
  below : (cfg .shadeGradient : ℝ) < 10

/-- All automatic colours are hex colours. -/
theorem autoColours_rgb : ∀ s ∈ autoColours, (rgb s).isSome := by decide +kernel

section shades

theorem colours_none {c : Chain ℝ} (hc : Shadable c.cfg) : contourColours c 0 = .error .index := by
  obtain ⟨base, hb⟩ : ∃ base, Colors.format (c.cfg .color) = .ok base := by
    cases h : (c.cfg .color : Option String) with
    | none => exact ⟨_, rfl⟩
    | some s =>
      obtain ⟨⟨r, g, b⟩, hp⟩ := hc.colour s h
      obtain ⟨r1, r0, g1, g0, b1, b0, x1, x0, y1, y0, z1, z0, hs, -⟩ := rgb_some hp
      exact ⟨s, format_hash (by rw [hs]; rfl)⟩
  have hz : shadeFactors (c.cfg .shadeGradient : ℝ) 0 = [] := by
    unfold shadeFactors
    dsimp only
    split_ifs <;> rfl
  unfold contourColours scaleColours
  rw [hb, hz]
  rfl

theorem pale_shadable {c : Chain ℝ} (hc : Shadable c.cfg) : Shadable (pale c).cfg :=
  ⟨fun s h => (by
    have : (pale c).cfg .color = none := by simp [pale, Chain.withCfg, Cfg.set]
    rw [this] at h
    cases h), hc.above, hc.below⟩

/-- Whether the shades exist does not depend on the colour. -/
theorem colours_pale {c : Chain ℝ} (hc : Shadable c.cfg) {α : Type} (n : Nat) (k : Res α) :
    (do let _ ← contourColours (pale c) n; k) = (do let _ ← contourColours c n; k) := by
  rcases Nat.eq_zero_or_pos n with rfl | hn
  · rw [colours_none hc, colours_none (pale_shadable hc)]
  · obtain ⟨r, hr⟩ := contourColours_exists hc.colour hc.above hc.below hn
    obtain ⟨r', hr'⟩ := contourColours_exists (c := pale c) (pale_shadable hc).colour hc.above hc.below hn
    rw [hr, hr']
    rfl

variable (lib : Lib) (cfg : PlotConfig) (truths : List (Truth ℝ))

theorem surfaceChain_pale {c : Chain ℝ} (hc : Shadable c.cfg) (px py : String) :
    surfaceChain lib cfg px py (pale c) = surfaceChain lib cfg px py c := by
  have h1 : plotContour lib cfg (pale c) px py = plotContour lib cfg c px py := by
    unfold plotContour
    exact colours_pale hc _ _
  unfold surfaceChain contourCalls
  rw [h1]
  rfl

theorem plotBase_pale {b : PlottingBase} (hb : ∀ c ∈ b.chains, Shadable c.cfg) :
    plotBase lib cfg truths { b with chains := b.chains.map pale } = plotBase lib cfg truths b := by
  have h1 : ∀ summarise flip nx i j p1 p2, drawPanel lib cfg { b with chains := b.chains.map pale } truths summarise flip nx i j p1 p2 =
      drawPanel lib cfg b truths summarise flip nx i j p1 p2 := by
    intro summarise flip nx i j p1 p2
    have h2 : (b.chains.mapM fun c => surfaceChain lib cfg p2 p1 (pale c)) = b.chains.mapM (surfaceChain lib cfg p2 p1) := by
      generalize b.chains = l at hb
      induction l with
      | nil => rfl
      | cons c l ih =>
        rw [List.mapM_cons, List.mapM_cons, ih fun d hd => hb d (List.mem_cons_of_mem _ hd), surfaceChain_pale lib cfg (hb c List.mem_cons_self)]
    unfold drawPanel
    simp only [histPanel, hist_eq, plotSurface, mapM_before, h2,
      filter_pale (fun c => !(!(c.cfg .plotContour) || decide (p1 ∉ c.samples.columns))) fun _ => rfl]
    rfl
  unfold plotBase
  simp only [h1, filter_pale (fun c => c.cfg .plotContour) fun _ => rfl, List.length_map]
  rfl

end shades

section final

/-- The final settings have hex colours and gradients between -2 and 10 if those of the chains and of the override do. -/
theorem resolved_shadable {n : Nat} {ov : Option (Config ℝ)} (hov : ∀ o, ov = some o → Shadable o.vals) {cs : List (Chain ℝ)}
    (hcs : ∀ c ∈ cs, Shadable c.cfg) {u : Nat} (hu : u + uncoloured cs ≤ 88) : ∀ c ∈ resolvedChains n ov cs u, Shadable c.cfg := by
  induction cs generalizing u with
  | nil => intro c hc; cases hc
  | cons c cs ih =>
    have hc := hcs c List.mem_cons_self
    intro d hd
    rw [resolvedChains, List.mem_cons] at hd
    rcases hd with rfl | hd
    · have hown : ∀ s, (if Key.color ∈ c.userSet then c.cfg .color else (auto n c.cfg (autoColours.getD u "") .color).getD (c.cfg .color)) = some s →
          ∃ p, rgb s = some p := by
        intro s hs
        split at hs
        · exact hc.colour s hs
        · simp only [auto] at hs
          split at hs
          · rename_i hn
            have hlt : u < autoColours.length := by
              have : uncoloured (c :: cs) = uncoloured cs + 1 := by simp [uncoloured, hn]
              rw [autoColours_length]
              omega
            rw [Option.getD_some, Option.some.injEq] at hs
            rw [← hs, List.getD_eq_getElem?_getD, List.getElem?_eq_getElem hlt, Option.getD_some]
            exact Option.isSome_iff_exists.1 (autoColours_rgb _ (List.getElem_mem _))
          · exact hc.colour s hs
      have hgr : ∀ o, ov = some o → Shadable o.vals := hov
      have hg : Spec.resolved ov c.userSet n c.cfg (autoColours.getD u "") .shadeGradient = c.cfg .shadeGradient ∨
          ∃ o, ov = some o ∧ Spec.resolved ov c.userSet n c.cfg (autoColours.getD u "") .shadeGradient = o.vals .shadeGradient := by
        cases ov with
        | none => exact .inl (resolved_own _ _ _ _ _ rfl)
        | some o =>
          simp only [Spec.resolved]
          split
          · exact .inr ⟨o, rfl, rfl⟩
          · left
            simp only [auto, Option.getD_none, ite_self]
      refine ⟨fun s hs => ?_, ?_, ?_⟩
      · change Spec.resolved ov c.userSet n c.cfg (autoColours.getD u "") .color = some s at hs
        cases ov with
        | none => exact hown s hs
        | some o =>
          simp only [Spec.resolved] at hs
          split at hs
          · exact (hov o rfl).colour s hs
          · exact hown s hs
      · change (-2 : ℝ) < Spec.resolved ov c.userSet n c.cfg (autoColours.getD u "") .shadeGradient
        rcases hg with hg | ⟨o, ho, hg⟩
        · rw [hg]; exact hc.above
        · rw [hg]; exact (hov o ho).above
      · change (Spec.resolved ov c.userSet n c.cfg (autoColours.getD u "") .shadeGradient : ℝ) < 10
        rcases hg with hg | ⟨o, ho, hg⟩
        · rw [hg]; exact hc.below
        · rw [hg]; exact (hov o ho).below
    · refine ih (fun c hc => hcs c (List.mem_cons_of_mem _ hc)) ?_ d hd
      by_cases hn : c.cfg .color = none
      · have : uncoloured (c :: cs) = uncoloured cs + 1 := by simp [uncoloured, hn]
        rw [if_pos hn]
        omega
      · have : uncoloured (c :: cs) = uncoloured cs := by simp [uncoloured, hn]
        rw [if_neg hn]
        omega

theorem final_shadable {h : Heap ℝ} {s : Consumer ℝ} (hov : ∀ o, s.override = some o → Shadable o.vals)
    (hcs : ∀ e ∈ copyChains h s, Shadable e.2.cfg) {d : List (String × Chain ℝ)} (hd : finalDict h s = .ok d) : ∀ e ∈ d, Shadable e.2.cfg := by
  have hu : uncoloured (chainsOf h s) ≤ 88 := by
    by_contra hu
    have := (finalChains_eq h s).2 (by omega)
    simp only [finalDict, this, bind, Except.bind] at hd
    cases hd
  rw [finalDict_eq h s hu] at hd
  cases hd
  intro e he
  refine resolved_shadable hov (fun c hc => ?_) (by simpa using hu) e.2 (List.of_mem_zip he).2
  obtain ⟨e', he', rfl⟩ := List.mem_map.1 hc
  exact hcs e' he'

end final

section figures

variable (lib : Lib) (cfg : PlotConfig) (truths : List (Truth ℝ))

theorem plotChains_entry {d : List (String × Chain ℝ)} {req : ChainReq ℝ} {sk : Bool} {cs : List (Chain ℝ)} (h : plotChains d req sk = .ok cs) :
    ∀ c ∈ cs, c ∈ d.map Prod.snd := by
  have hget : ∀ n c, dictGet d n = .ok c → c ∈ d.map Prod.snd := by
    intro n c hc
    unfold dictGet at hc
    cases hl : d.lookup n with
    | none => rw [hl] at hc; cases hc
    | some c' =>
      rw [hl] at hc
      cases hc
      obtain ⟨l₁, l₂, rfl, -⟩ := List.lookup_eq_some_iff.1 hl
      simp
  intro c hc
  unfold plotChains at h
  cases req with
  | all =>
    cases h
    exact (List.mem_filter.1 hc).1
  | list r =>
    obtain ⟨l, hl, h⟩ := bind_ok_iff.1 h
    cases h
    obtain ⟨x, -, hx⟩ := forall₂_mem_right (mapM_ok_iff.1 hl) (List.mem_filter.1 hc).1
    exact hget _ _ hx
  | dict r =>
    obtain ⟨l, hl, h⟩ := bind_ok_iff.1 h
    cases h
    obtain ⟨x, -, hx⟩ := forall₂_mem_right (mapM_ok_iff.1 hl) (List.mem_filter.1 hc).1
    exact hget _ _ hx

/-- A corner plot does not depend on the colours of the chains, if these can be shaded. -/
theorem plot_pale {d : List (String × Chain ℝ)} (hd : ∀ e ∈ d, Shadable e.2.cfg) (req : ChainReq ℝ) (columns : Option (List String)) :
    plot lib cfg truths (paled d) req columns = plot lib cfg truths d req columns := by
  simp only [plot, sanitise_pale, Res.bind_map]
  cases hs : sanitise cfg d req columns true with
  | error _ => rfl
  | ok b =>
    refine plotBase_pale lib cfg truths fun c hc => ?_
    simp only [sanitise, bind_ok_iff, pure_ok_iff] at hs
    obtain ⟨cs, hcs, e, -, rfl⟩ := hs
    obtain ⟨x, hx, rfl⟩ := List.mem_map.1 (plotChains_entry hcs c hc)
    exact hd x hx

variable {h : Heap ℝ} {s s' : Consumer ℝ} (ho : OtherOrder s s') (hov : ∀ o, s.override = some o → Shadable o.vals)
  (hcs : ∀ e ∈ copyChains h s, Shadable e.2.cfg)
include ho hov hcs

theorem final_shadable_order {d' : List (String × Chain ℝ)} (hd' : finalDict h s' = .ok d') : ∀ e ∈ d', Shadable e.2.cfg := by
  refine final_shadable (fun o h => hov o (by rw [← ho.override]; exact h)) (fun e he => hcs e ?_) hd'
  exact (ho.chains.filterMap _).mem_iff.1 he

/-- **C133, partial** (corner plots, automatic colours). Whether chains are given colours or get automatic ones: a consumer to which the chains
were added in another order draws the same corner plot of all chains and given parameters, up to the order in which the chains of a panel are
drawn and up to the colours, which are no part of a call. Given colours must be hex colours and gradients lie between -2 and 10. Missing:
default parameters. -/
theorem C133_shades_partial (columns : List String) {g : Fig} (hg : (do plot lib cfg truths (← finalDict h s) .all (some columns)) = .ok g) :
    ∃ g', (do plot lib cfg truths (← finalDict h s') .all (some columns)) = .ok g' ∧ SameShown g g' := by
  obtain ⟨d, hfd, hg⟩ := bind_ok_iff.1 hg
  obtain ⟨d', hfd', hp⟩ := final_order ho hfd
  rw [hfd']
  change ∃ g', plot lib cfg truths d' .all (some columns) = .ok g' ∧ _
  rw [← plot_pale lib cfg truths (final_shadable hov hcs hfd)] at hg
  rw [← plot_pale lib cfg truths (final_shadable_order ho hov hcs hfd')]
  obtain ⟨b, hb, hg⟩ := bind_ok_iff.1 hg
  obtain ⟨b', h1, h2, h3⟩ := sanitise_reorder hp cfg columns true hb
  obtain ⟨g', h4, h5⟩ := plotBase_reorder h2 h3 lib cfg truths hg
  exact ⟨g', bind_ok_iff.2 ⟨b', h1, h4⟩, h5⟩

/-- **C133** (corner plots of chains asked for, automatic colours). If the chains to draw are asked for by name or object, the corner plot does
not depend on the order of adding, up to the colours; error for error. -/
theorem C133_asked_shades (hn : (s.chains.map Prod.fst).Nodup) {req : ChainReq ℝ} (hreq : req ≠ .all) (columns : Option (List String))
    {d : List (String × Chain ℝ)} (hfd : finalDict h s = .ok d) :
    (do plot lib cfg truths (← finalDict h s') req columns) = plot lib cfg truths d req columns := by
  obtain ⟨d', hfd', hp⟩ := final_order ho hfd
  have hnd : ((paled d).map Prod.fst).Nodup := by
    have := finalDict_names hn hfd
    simp only [paled, List.map_map]
    exact this
  rw [hfd']
  change plot lib cfg truths d' req columns = _
  rw [← plot_pale lib cfg truths (final_shadable hov hcs hfd), ← plot_pale lib cfg truths (final_shadable_order ho hov hcs hfd')]
  simp only [plot, sanitise, plotChains_reorder hp hnd hreq]

end figures

/-- Two chains with automatic colours, added in both orders: the corner plot shows the clouds of both. -/
example (lib : Lib) : ∃ (h : Heap ℝ) (s s' : Consumer ℝ) (cfg : PlotConfig) (g g' : Fig), s'.chains ≠ s.chains ∧ OtherOrder s s' ∧
    (∀ o, s.override = some o → Shadable o.vals) ∧ (∀ e ∈ copyChains h s, Shadable e.2.cfg ∧ e.2.cfg .color = none) ∧
    (do plot lib cfg [] (← finalDict h s) .all (some ["a", "b"])) = .ok g ∧
    (do plot lib cfg [] (← finalDict h s') .all (some ["a", "b"])) = .ok g' ∧ SameShown g g' ∧
    ∃ calls, ((0, 0), calls) ∈ g.panels ∧ .cloud "x" "a" "b" [1] [5] none ∈ calls ∧ .cloud "y" "a" "b" [1] [5] none ∈ calls := by
  have mk : ∀ name : String, ∃ c : Chain ℝ, c.name = name ∧ c.samples = rowFrame ∧ c.weightColumn = "weight" ∧
      c.posteriorColumn = "log_posterior" ∧ c.cfg .plotContour = false ∧ c.cfg .plotCloud = true ∧ c.cfg .plotPoint = false ∧
      c.cfg .colorParam = none ∧ (c.cfg .numCloud : ℝ) = 10000 ∧ Shadable c.cfg ∧ c.cfg .color = none := by
    intro name
    obtain ⟨c, -, hsam, hwc, hpc, -, -, -, hname, hcfg⟩ := plain_chain_cfg (K := ℝ) false
      [⟨.plotContour, false⟩, ⟨.plotCloud, true⟩] rfl
      (by change (0 : ℝ) ≤ 6827 / 10000 ∧ (6827 / 10000 : ℝ) ≤ 1; constructor <;> norm_num)
      (by change (1 : ℝ) ≤ 10; norm_num) rfl rfl (by intro h; cases h) rowFrame ⟨by decide, by simp [rowFrame]⟩
      (by simp [rowFrame]) (w := [1]) rfl (by simp) name 1 le_rfl (one_dvd _)
    have hg : (c.cfg .shadeGradient : ℝ) = 1 := by rw [hcfg]; rfl
    have hcl : c.cfg .color = none := by rw [hcfg]; rfl
    exact ⟨c, hname, hsam, hwc, hpc, by rw [hcfg]; rfl, by rw [hcfg]; rfl, by rw [hcfg]; rfl, by rw [hcfg]; rfl, by rw [hcfg]; rfl,
      ⟨fun s hs => absurd (hcl.symm.trans hs) (by simp), by rw [hg]; norm_num, by rw [hg]; norm_num⟩, hcl⟩
  have draw : ∀ (c : Chain ℝ) (v : Cfg ℝ) (name : String), c.name = name → c.samples = rowFrame → c.weightColumn = "weight" →
      c.posteriorColumn = "log_posterior" → v .plotContour = false → v .plotCloud = true → v .plotPoint = false → v .colorParam = none →
      (v .numCloud : ℝ) = 10000 → (c.withCfg v).skip = false ∧
      ∀ lib cfg, surfaceChain lib cfg "a" "b" (c.withCfg v) = .ok ([.cloud name "a" "b" [1] [5] none], []) := by
    intro c v name hname hsam hwc hpc h2 h1 h3 h4 h5
    have k1 : (c.withCfg v).cfg .plotCloud = true := h1
    have k2 : (c.withCfg v).cfg .plotContour = false := h2
    have k3 : (c.withCfg v).cfg .plotPoint = false := h3
    have k4 : (c.withCfg v).cfg .colorParam = none := h4
    have k5 : ((c.withCfg v).cfg .numCloud : ℝ) = 10000 := h5
    have ha : (c.withCfg v).samples.get "a" = .ok [1] := by change c.samples.get "a" = _; rw [hsam]; rfl
    have hb : (c.withCfg v).samples.get "b" = .ok [5] := by change c.samples.get "b" = _; rw [hsam]; rfl
    have hn : (c.withCfg v).name = name := hname
    have hd : (c.withCfg v).dataColumns = ["a", "b"] := by
      change c.dataColumns = _
      rw [Chain.dataColumns, hsam, hwc, hpc, show rowFrame.columns = ["a", "b", "weight", "log_posterior"] from rfl]
      decide
    have hp : (c.withCfg v).plottingColumns = ["a", "b"] := by
      rw [Chain.plottingColumns, hd, k4, k1]
      decide
    have hs : cloudStep 1 10000 = .ok 1 := by
      have : ⌊((1 : ℕ) : ℝ) / 10000⌋ = 0 := by
        rw [Int.floor_eq_zero_iff]; constructor <;> norm_num
      rw [cloudStep, this]
      simp [ensure, bind, Except.bind, pure, Except.pure]
    have he : ∀ a : ℝ, everyNth 1 [a] = [a] := by intro a; simp [everyNth]
    have hem : (c.withCfg v).samples.empty = false := by change c.samples.empty = false; rw [hsam]; rfl
    refine ⟨by simp [Chain.skip, k1, k2, k3, hem], fun lib cfg => ?_⟩
    simp [surfaceChain, hp, cloudCalls, k1, plotCloud, ha, hb, k5, hs, Chain.colorData, k4, he, contourCalls, k2, pointCalls,
      k3, hn, bind, Except.bind, pure, Except.pure]
  obtain ⟨c, c1, c2, c3, c4, c5, c6, c7, c8, c9, c10, c11⟩ := mk "x"
  obtain ⟨d, d1, d2, d3, d4, d5, d6, d7, d8, d9, d10, d11⟩ := mk "y"
  set s : Consumer ℝ := { chains := [("x", 0), ("y", 1)] } with hs
  set s' : Consumer ℝ := { chains := [("y", 1), ("x", 0)] } with hs'
  have ho : OtherOrder s s' := ⟨.swap _ _ _, rfl⟩
  have hov : ∀ o, s.override = some o → Shadable o.vals := by intro o h; cases h
  have hcs : ∀ e ∈ copyChains [c, d] s, Shadable e.2.cfg ∧ e.2.cfg .color = none := by
    simp [copyChains, hs, c10, c11, d10, d11]
  have hco : chainsOf [c, d] s = [c, d] := by simp [chainsOf, copyChains, hs]
  set cfg : PlotConfig := { plotHists := false, extents := [("a", 0, 1), ("b", 0, 10)] } with hcfg
  obtain ⟨v, w, hfd, ⟨v1, v2⟩, w1, w2⟩ : ∃ v w, finalDict [c, d] s = .ok [("x", c.withCfg v), ("y", d.withCfg w)] ∧
      ((c.withCfg v).skip = false ∧ ∀ lib cfg, surfaceChain lib cfg "a" "b" (c.withCfg v) = .ok ([.cloud "x" "a" "b" [1] [5] none], [])) ∧
      ((d.withCfg w).skip = false ∧ ∀ lib cfg, surfaceChain lib cfg "a" "b" (d.withCfg w) = .ok ([.cloud "y" "a" "b" [1] [5] none], [])) := by
    rw [finalDict_eq _ _ (by rw [hco]; exact le_trans (List.length_filter_le _ _) (by simp)), hco]
    simp only [resolvedChains, copyChains, hs]
    refine ⟨_, _, rfl, draw c _ "x" c1 c2 c3 c4 ?_ ?_ ?_ ?_ ?_, draw d _ "y" d1 d2 d3 d4 ?_ ?_ ?_ ?_ ?_⟩
    · exact (resolved_own _ _ _ _ _ rfl).trans c5
    · exact (resolved_own _ _ _ _ _ rfl).trans c6
    · exact (resolved_own _ _ _ _ _ rfl).trans c7
    · exact (resolved_own _ _ _ _ _ rfl).trans c8
    · exact (resolved_own _ _ _ _ _ rfl).trans c9
    · exact (resolved_own _ _ _ _ _ rfl).trans d5
    · exact (resolved_own _ _ _ _ _ rfl).trans d6
    · exact (resolved_own _ _ _ _ _ rfl).trans d7
    · exact (resolved_own _ _ _ _ _ rfl).trans d8
    · exact (resolved_own _ _ _ _ _ rfl).trans d9
  have hfig : ∃ fig calls, (do plot lib cfg [] (← finalDict [c, d] s) .all (some ["a", "b"])) = .ok fig ∧
      ((0, 0), calls) ∈ fig.panels ∧ .cloud "x" "a" "b" [1] [5] none ∈ calls ∧ .cloud "y" "a" "b" [1] [5] none ∈ calls := by
    rw [hfd]
    have hb : sanitise cfg [("x", c.withCfg v), ("y", d.withCfg w)] .all (some ["a", "b"]) true = .ok (demoBase [c.withCfg v, d.withCfg w]) := by
      simp [sanitise, plotChains, v1, w1, sanitiseColumns, customExtents, sanitiseBlinds, hcfg, demoBase, bind, Except.bind, pure, Except.pure]
    obtain ⟨st, h1⟩ := demo_setup cfg [c.withCfg v, d.withCfg w] 1 0 0 "b" "a" (.inr rfl) (.inl rfl)
    have hg : gridPanels 1 1 = [(0, 0)] := rfl
    have h3 : ∀ su fl nx, drawPanel lib cfg (demoBase [c.withCfg v, d.withCfg w]) [] su fl nx 0 0 "b" "a" = .ok
        ([.cloud "x" "a" "b" [1] [5] none, .cloud "y" "a" "b" [1] [5] none], []) := by
      intro su fl nx
      have hph : cfg.plotHists = false := rfl
      have hch : (demoBase [c.withCfg v, d.withCfg w]).chains = [c.withCfg v, d.withCfg w] := rfl
      simp [drawPanel, hch, hph, plotSurface, v2, w2, plotTruths, bind, Except.bind, pure, Except.pure]
    have hcols : (demoBase [c.withCfg v, d.withCfg w]).columns = ["a", "b"] := rfl
    have hph : cfg.plotHists = false := rfl
    refine ⟨_, _, by
      simp only [plot, hb, plotBase, hcols, hph, Bool.false_eq_true, if_false, List.tail_cons, List.length_cons, List.length_nil, Nat.zero_add,
        List.dropLast_cons_cons, List.dropLast_singleton, hg, List.mapM_cons, List.mapM_nil, List.getD_cons_zero, h3, h1, Nat.add_sub_cancel,
        bind, Except.bind, pure, Except.pure, ensure, Nat.zero_lt_one, decide_true, if_true, List.zipWith_cons_cons, List.zipWith_nil_left,
        List.zip_cons_cons, List.zip_nil_left]
      rfl, List.mem_singleton.2 rfl, ?_, ?_⟩ <;> simp
  obtain ⟨fig, calls, hf, hm, hcall⟩ := hfig
  obtain ⟨fig', hf', hsame⟩ := C133_shades_partial lib cfg [] ho hov (fun e he => (hcs e he).1) ["a", "b"] hf
  exact ⟨[c, d], s, s', cfg, fig, fig', by simp [hs, hs'], ho, hov, hcs, hf, hf', hsame, calls, hm, hcall⟩

end CC
