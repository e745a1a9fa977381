import Verif.Props.ChainNames
import Verif.Props.LatexTable
import Verif.Model.Legend

/-! # C140: figures show the same whatever the chains are called -/

set_option linter.unusedSectionVars false

namespace CC
open Spec

/-- A call on behalf of the renamed chain. The only texts set by `text` are names of chains. -/
def Spec.namedCall (f : String → String) : Call → Call
  | .marginal n column flip xs ys => .marginal (f n) column flip xs ys
  | .shade n column flip lo hi => .shade (f n) column flip lo hi
  | .cloud n px py xs ys colours => .cloud (f n) px py xs ys colours
  | .contour n px py xs ys vals levels => .contour (f n) px py xs ys vals levels
  | .point n px py x y => .point (f n) px py x y
  | .errorbar n column m l r => .errorbar (f n) column m l r
  | .walk n values => .walk (f n) values
  | .text n => .text (f n)
  | c => c

/-- A figure with other names: the panels, their order and everything drawn in them stay. -/
def Spec.namedFig (f : String → String) (g : Fig) : Fig := { g with panels := g.panels.map (Prod.map id (List.map (namedCall f))) }

/-- A label of the legend with another name: two blanks and the name. -/
def Spec.namedLabel (f : String → String) (l : String) : String := "  " ++ f (String.ofList (l.toList.drop 2))

/-- A handle of the legend with another name. -/
def Spec.namedArtist (f : String → String) (a : Artist) : Artist := { a with label := namedLabel f a.label }

/-- A legend with other names. -/
def Spec.namedLegend (f : String → String) (l : Legend) : Legend :=
  { l with entries := l.entries.map fun e => ⟨namedArtist f e.handle, namedLabel f e.text, e.textColor⟩ }

/-- A request that asks for the same chains by their new names. -/
def Spec.namedReq {K : Type} (f : String → String) : ChainReq K → ChainReq K
  | .all => .all
  | .list l => .list (l.map (Sum.map f (named f)))
  | .dict d => .dict (d.map (Prod.map f (named f)))

/-- The same plan of a plot with other names. -/
def Spec.namedBase (f : String → String) (b : PlottingBase) : PlottingBase := { b with chains := b.chains.map (named f) }

section tools

theorem Res.map_bind {α β γ : Type} (x : Res α) (g : α → Res β) (r : β → γ) : (x >>= g).map r = x >>= fun a => (g a).map r := by
  cases x <;> rfl

theorem Res.bind_map {α β γ : Type} (x : Res α) (r : α → β) (g : β → Res γ) : x.map r >>= g = x >>= fun a => g (r a) := by
  cases x <;> rfl

theorem mapM_after {α β γ : Type} {g : α → Res γ} {h : α → Res β} {r : β → γ} {l : List α} (e : ∀ x ∈ l, g x = (h x).map r) :
    l.mapM g = (l.mapM h).map (List.map r) := by
  induction l with
  | nil => rfl
  | cons x l ih =>
    rw [List.mapM_cons, List.mapM_cons, e x List.mem_cons_self, ih fun y hy => e y (List.mem_cons_of_mem _ hy)]
    cases h x with
    | error _ => rfl
    | ok _ => cases List.mapM h l <;> rfl

theorem mapM_before {α β γ : Type} (r : α → β) (g : β → Res γ) (l : List α) : (l.map r).mapM g = l.mapM fun a => g (r a) := by
  rw [List.mapM_map]
  rfl

end tools

section calls
variable (f : String → String)

theorem plotBars_named (lib : Lib) (cfg : PlotConfig) (p : String) (c : Chain ℝ) (flip summary : Bool) :
    plotBars lib cfg p (named f c) flip summary = (plotBars lib cfg p c flip summary).map (Prod.map (List.map (namedCall f)) id) := by
  have hs : ∀ xs, barShadeIf lib cfg (named f c) p xs flip summary = (barShadeIf lib cfg c p xs flip summary).map (List.map (namedCall f)) := by
    intro xs
    have h0 : (named f c).cfg .barShade = c.cfg .barShade := rfl
    unfold barShadeIf
    rw [h0]
    split
    · have h1 : parameterSummary lib.kde (named f c) p = parameterSummary lib.kde c p := rfl
      unfold barShade
      rw [h1]
      cases parameterSummary lib.kde c p with
      | error _ => rfl
      | ok b =>
        simp only [bind, Except.bind]
        cases hlo : b.lower with
        | none => rfl
        | some lo =>
          cases hhi : b.upper with
          | none => rfl
          | some hi =>
            dsimp only
            have h2 : shadeBounds lib (named f c) p xs b lo hi = shadeBounds lib c p xs b lo hi := rfl
            rw [h2]
            cases shadeBounds lib c p xs b lo hi with
            | error _ => rfl
            | ok r =>
              dsimp only
              cases arrMin xs with
              | error _ => rfl
              | ok a =>
                dsimp only
                cases arrMax xs with
                | error _ => rfl
                | ok z =>
                  dsimp only
                  cases (ensure .value (r.1.all fun iv => decide (a ≤ min iv.1 iv.2) && decide (max iv.1 iv.2 ≤ z)) : Res Unit) with
                  | error _ => rfl
                  | ok _ =>
                    dsimp only
                    cases barTitle cfg p r.2 summary with
                    | error _ => rfl
                    | ok t =>
                      simp only [pure, Except.pure, Except.map, List.map_append, List.map_map]
                      split <;> rfl
    · rfl
  have hd : barData lib (named f c) p = barData lib c p := rfl
  have hh : (named f c).finHeight = c.finHeight := rfl
  unfold plotBars
  rw [hd, hh]
  cases barData lib c p with
  | error _ => rfl
  | ok d =>
    simp only [bind, Except.bind]
    cases c.finHeight with
    | error _ => rfl
    | ok h =>
      dsimp only
      cases arrMax (d.2.map (· * h)) with
      | error _ => rfl
      | ok top =>
        dsimp only
        rw [hs]
        cases barShadeIf lib cfg c p d.1 flip summary <;> rfl

theorem surfaceChain_named (lib : Lib) (cfg : PlotConfig) (px py : String) (c : Chain ℝ) :
    surfaceChain lib cfg px py (named f c) = (surfaceChain lib cfg px py c).map (Prod.map (List.map (namedCall f)) id) := by
  have h1 : cloudCalls (named f c) px py = (cloudCalls c px py).map (Prod.map (List.map (namedCall f)) id) := by
    have e : plotCloud (named f c) px py = (plotCloud c px py).map (Prod.map (namedCall f) id) := by
      have e1 : (named f c).samples = c.samples := rfl
      have e2 : (named f c).colorData = c.colorData := rfl
      have e3 : (named f c).cfg .numCloud = c.cfg .numCloud := rfl
      unfold plotCloud
      rw [e1, e2, e3]
      simp only [Res.map_bind]
      rfl
    have e0 : (named f c).cfg .plotCloud = c.cfg .plotCloud := rfl
    unfold cloudCalls
    rw [e0, e]
    split
    · cases plotCloud c px py <;> rfl
    · rfl
  have h2 : contourCalls lib cfg (named f c) px py = (contourCalls lib cfg c px py).map (List.map (namedCall f)) := by
    have e : plotContour lib cfg (named f c) px py = (plotContour lib cfg c px py).map (namedCall f) := by
      have e1 : smoothedHistogram2d lib.near (named f c) px py = smoothedHistogram2d lib.near c px py := rfl
      have e2 : ∀ n, contourColours (named f c) n = contourColours c n := fun _ => rfl
      have e3 : (named f c).cfg .sigmas = c.cfg .sigmas := rfl
      have e4 : ∀ n, (named f c).fillable n = c.fillable n := fun _ => rfl
      unfold plotContour
      simp only [e1, e2, e3, e4, Res.map_bind]
      rfl
    have e0 : (named f c).cfg .plotContour = c.cfg .plotContour := rfl
    unfold contourCalls
    rw [e0, e]
    split
    · cases plotContour lib cfg c px py <;> rfl
    · rfl
  have h3 : pointCalls (named f c) px py = (pointCalls c px py).map (List.map (namedCall f)) := by
    have e : plotPoint (named f c) px py = (plotPoint c px py).map (List.map (namedCall f)) := by
      have e1 : (named f c).maxPosteriorPoint = c.maxPosteriorPoint.map (Option.map fun p => p) := by
        have : (named f c).maxPosteriorPoint = c.maxPosteriorPoint := rfl
        rw [this]
        cases c.maxPosteriorPoint with
        | error _ => rfl
        | ok o => cases o <;> rfl
      unfold plotPoint
      rw [e1]
      cases c.maxPosteriorPoint with
      | error _ => rfl
      | ok o =>
        cases o with
        | none => rfl
        | some p =>
          simp only [Except.map, Option.map, bind, Except.bind]
          cases p.coordinate.lookup px <;> cases p.coordinate.lookup py <;> rfl
    have e0 : (named f c).cfg .plotPoint = c.cfg .plotPoint := rfl
    unfold pointCalls
    rw [e0, e]
    split <;> rfl
  have h0 : (named f c).plottingColumns = c.plottingColumns := rfl
  unfold surfaceChain
  rw [h0, h1, h2, h3]
  split
  · rfl
  · cases cloudCalls c px py with
    | error _ => rfl
    | ok a =>
      cases contourCalls lib cfg c px py with
      | error _ => rfl
      | ok b =>
        cases pointCalls c px py with
        | error _ => rfl
        | ok d => simp [bind, Except.bind, Except.map, pure, Except.pure]

theorem plotSurface_named (lib : Lib) (cfg : PlotConfig) (chains : List (Chain ℝ)) (px py : String) :
    plotSurface lib cfg (chains.map (named f)) px py = (plotSurface lib cfg chains px py).map (Prod.map (List.map (namedCall f)) id) := by
  unfold plotSurface
  rw [mapM_before, mapM_after fun c _ => surfaceChain_named f lib cfg px py c]
  cases (chains.mapM (surfaceChain lib cfg px py) : Res _) with
  | error _ => rfl
  | ok rs =>
    simp only [Except.map, bind, Except.bind, pure, Except.pure, List.flatMap_map, Prod.map, List.map_flatMap, id]

theorem histChains_named (lib : Lib) (cfg : PlotConfig) (p : String) (flip summary : Bool) (cs : List (Chain ℝ)) (m : Option ℝ) :
    histChains lib cfg p flip summary (cs.map (named f)) m =
      (histChains lib cfg p flip summary cs m).map (Prod.map (List.map (namedCall f)) id) := by
  induction cs generalizing m with
  | nil => rfl
  | cons c cs ih =>
    have e1 : (named f c).cfg .plotContour = c.cfg .plotContour := rfl
    have e2 : (named f c).samples = c.samples := rfl
    simp only [List.map_cons, histChains, e1, e2, plotBars_named, ih]
    split
    · rfl
    · cases plotBars lib cfg p c flip summary with
      | error _ => rfl
      | ok b =>
        simp only [Except.map, bind, Except.bind, Prod.map, id]
        cases histChains lib cfg p flip summary cs (topStep m b.2) with
        | error _ => rfl
        | ok r => simp [pure, Except.pure]

theorem distChains_named (lib : Lib) (cfg : PlotConfig) (p : String) (summary : Bool) (cs : List (Chain ℝ)) (m : Option ℝ) :
    distChains lib cfg p summary (cs.map (named f)) m =
      (distChains lib cfg p summary cs m).map (Prod.map (List.map (namedCall f)) id) := by
  induction cs generalizing m with
  | nil => rfl
  | cons c cs ih =>
    have e1 : (named f c).cfg .plotContour = c.cfg .plotContour := rfl
    have e2 : (named f c).plottingColumns = c.plottingColumns := rfl
    simp only [List.map_cons, distChains, e1, e2, plotBars_named, ih]
    split
    · rfl
    · cases plotBars lib cfg p c false summary with
      | error _ => rfl
      | ok b =>
        simp only [Except.map, bind, Except.bind, Prod.map, id]
        cases distChains lib cfg p summary cs (topStep m b.2) with
        | error _ => rfl
        | ok r => simp [pure, Except.pure]

theorem truths_named (filled : List String) (truths : List (Truth ℝ)) (px py : Option String) :
    (plotTruths filled truths px py).map (namedCall f) = plotTruths filled truths px py := by
  unfold plotTruths
  rw [List.map_flatMap]
  congr 1
  funext t
  unfold truthCalls
  dsimp only
  cases px.bind (t.location.lookup ·) <;> cases py.bind (t.location.lookup ·) <;> cases t.marker <;> rfl

theorem setLim_named (d : Dir) (e : Option (Option (ℝ × ℝ))) : (setLim d e).map (namedCall f) = setLim d e := by
  cases e with
  | none => rfl
  | some e => cases e <;> rfl

theorem axisCalls_named (cfg : PlotConfig) (blind : List String) (d : Dir) (p : String) (log shown : Bool) :
    (axisCalls cfg blind d p log shown).map (namedCall f) = axisCalls cfg blind d p log shown := by
  unfold axisCalls
  simp only [List.map_append]
  congr 1
  · congr 1
    · split <;> rfl
    · split
      · rfl
      · rw [List.map_append]
        split <;> rfl
  · split
    · cases log <;> rfl
    · rfl

theorem trianglePanel_named (cfg : PlotConfig) (b : PlottingBase) (n i j : Nat) (p1 p2 : String) :
    trianglePanel cfg (namedBase f b) n i j p1 p2 = (trianglePanel cfg b n i j p1 p2).map (List.map (namedCall f)) := by
  have h1 : triangleYlim cfg (namedBase f b) i j p1 = (triangleYlim cfg b i j p1).map (List.map (namedCall f)) := by
    have e : (namedBase f b).extents = b.extents := rfl
    unfold triangleYlim
    rw [e]
    split
    · cases hb : b.extents.lookup p1 with
      | none => rfl
      | some e => cases e <;> rfl
    · rfl
  have h2 : setLim .x ((namedBase f b).extents.lookup p2) = (setLim .x (b.extents.lookup p2)).map (namedCall f) :=
    (setLim_named f _ _).symm
  have e1 : (namedBase f b).logScales = b.logScales := rfl
  have e2 : (namedBase f b).blind = b.blind := rfl
  unfold trianglePanel
  rw [h1, h2, e1, e2]
  split
  · rfl
  · cases triangleYlim cfg b i j p1 with
    | error _ => rfl
    | ok ylim =>
      cases setLim .x (b.extents.lookup p2) with
      | error _ => rfl
      | ok xlim =>
        simp only [Except.map, bind, Except.bind, pure, Except.pure, List.map_append, axisCalls_named, List.map_cons, List.map_nil]

theorem drawPanel_named (lib : Lib) (cfg : PlotConfig) (b : PlottingBase) (truths : List (Truth ℝ)) (summarise flip : Bool)
    (nx i j : Nat) (p1 p2 : String) : drawPanel lib cfg (namedBase f b) truths summarise flip nx i j p1 p2 =
      (drawPanel lib cfg b truths summarise flip nx i j p1 p2).map (Prod.map (List.map (namedCall f)) id) := by
  have hc : (namedBase f b).chains = b.chains.map (named f) := rfl
  have hb : (namedBase f b).blind = b.blind := rfl
  have hh : ∀ fl p, histPanel lib cfg (namedBase f b) truths summarise fl p =
      (histPanel lib cfg b truths summarise fl p).map (List.map (namedCall f)) := by
    intro fl p
    have ht : (histTruths lib truths fl p).map (namedCall f) = histTruths lib truths fl p := by
      unfold histTruths
      split <;> exact truths_named f _ _ _ _
    have hl : ∀ m, (topLim fl m).map (namedCall f) = topLim fl m := fun m => by cases m <;> rfl
    unfold histPanel
    rw [hc, hb, histChains_named]
    cases histChains lib cfg p fl (summarise && !decide (p ∈ b.blind)) b.chains none with
    | error _ => rfl
    | ok r => simp [Except.map, bind, Except.bind, pure, Except.pure, ht, hl]
  unfold drawPanel
  rw [hc, hh, plotSurface_named]
  split
  · rfl
  · split
    · cases histPanel lib cfg b truths summarise (flip && decide (i = nx - 1)) p1 <;> rfl
    · cases plotSurface lib cfg b.chains p2 p1 with
      | error _ => rfl
      | ok r => simp [Except.map, bind, Except.bind, pure, Except.pure, truths_named]

theorem plotBase_named (lib : Lib) (cfg : PlotConfig) (truths : List (Truth ℝ)) (b : PlottingBase) :
    plotBase lib cfg truths (namedBase f b) = (plotBase lib cfg truths b).map (namedFig f) := by
  have hcol : (namedBase f b).columns = b.columns := rfl
  have hlen : ((namedBase f b).chains.filter fun c => c.cfg .plotContour).length = (b.chains.filter fun c => c.cfg .plotContour).length := by
    show ((b.chains.map (named f)).filter _).length = _
    rw [List.filter_map, List.length_map]
    rfl
  unfold plotBase
  simp only [hcol, hlen, Res.map_bind]
  refine congrArg (bind _) (funext fun _ => ?_)
  rw [mapM_after fun ij _ => trianglePanel_named f cfg b _ _ _ _ _, mapM_after fun ij _ => drawPanel_named f lib cfg b truths _ _ _ _ _ _ _]
  simp only [Res.bind_map]
  refine congrArg (bind _) (funext fun setup => congrArg (bind _) (funext fun draws => ?_))
  simp only [pure, Except.pure, Except.map, namedFig, List.flatMap_map, Prod.map, id]
  congr 1
  congr 1
  rw [← List.zip_map_right, List.map_zipWith, List.zipWith_map]
  simp [List.map_append]

theorem walk_named (n label : String) (values : List ℝ) (e : Option (Option (ℝ × ℝ))) (log : Bool) :
    plotWalk (f n) label values e log = (plotWalk n label values e log).map (List.map (namedCall f)) := by
  have h1 : walkLim e = (walkLim e).map (List.map (namedCall f)) := by
    cases e with
    | none => rfl
    | some e => cases e <;> rfl
  unfold plotWalk
  rw [Res.map_bind, h1, Res.bind_map, ← h1]
  cases walkLim e with
  | error _ => rfl
  | ok lim =>
    cases (ensure .index (!values.isEmpty) : Res Unit) with
    | error _ => rfl
    | ok _ =>
      simp only [bind, Except.bind, pure, Except.pure, Except.map, List.map_append]
      cases log <;> rfl

theorem walks_named {g : Chain ℝ → Res (List Call)} (hg : ∀ c, g (named f c) = (g c).map (List.map (namedCall f))) (cs : List (Chain ℝ)) :
    (cs.map (named f)).mapM g = (cs.mapM g).map (List.map (List.map (namedCall f))) := by
  rw [mapM_before, mapM_after fun c _ => hg c]

theorem plotWalksBase_named (cfg : PlotConfig) (truths : List (Truth ℝ)) (pw pp lw : Bool) (b : PlottingBase) :
    plotWalksBase cfg truths pw pp lw (namedBase f b) = (plotWalksBase cfg truths pw pp lw b).map (namedFig f) := by
  have hc : (namedBase f b).chains = b.chains.map (named f) := rfl
  have hcol : (namedBase f b).columns = b.columns := rfl
  have h1 : ∀ p, walkPanel cfg (namedBase f b) truths p = (walkPanel cfg b truths p).map (List.map (namedCall f)) := by
    intro p
    have hb : (namedBase f b).blind = b.blind := rfl
    have hx : (namedBase f b).extents = b.extents := rfl
    have hl : (namedBase f b).logScales = b.logScales := rfl
    have ht : (truths.flatMap (walkTruth p)).map (namedCall f) = truths.flatMap (walkTruth p) := by
      rw [List.map_flatMap]
      congr 1
      funext t
      unfold walkTruth
      cases t.location.lookup p <;> rfl
    unfold walkPanel
    rw [hc, hb, hx, hl, walks_named f (g := fun c => if p ∈ c.dataColumns then do
      plotWalk c.name (getLabel cfg.labels p) (thin (← c.samples.get p)) (b.extents.lookup p) (decide (p ∈ b.logScales)) else .ok [])]
    · simp only [Res.bind_map, Res.map_bind]
      refine congrArg (bind _) (funext fun w => ?_)
      simp only [pure, Except.pure, Except.map, List.map_append, ht, List.map_flatten]
      split <;> rfl
    · intro c
      have e1 : (named f c).dataColumns = c.dataColumns := rfl
      have e2 : (named f c).samples = c.samples := rfl
      have e3 : (named f c).name = f c.name := rfl
      simp only [e1, e2, e3]
      split
      · rw [Res.map_bind]
        exact congrArg (bind _) (funext fun v => walk_named f _ _ _ _ _)
      · rfl
  have h2 : posteriorPanel cfg (namedBase f b) = (posteriorPanel cfg b).map (List.map (namedCall f)) := by
    unfold posteriorPanel
    rw [hc, walks_named f]
    · simp only [Res.bind_map, Res.map_bind]
      refine congrArg (bind _) (funext fun w => ?_)
      simp only [pure, Except.pure, Except.map, List.map_flatten]
    · intro c
      have e1 : (named f c).logPosterior = c.logPosterior := rfl
      have e3 : (named f c).name = f c.name := rfl
      simp only [e1, e3]
      cases c.logPosterior with
      | none => rfl
      | some l =>
        dsimp only
        rw [Res.map_bind]
        exact congrArg (bind _) (funext fun v => walk_named f _ _ _ _ _)
  have h3 : weightPanel cfg (namedBase f b) lw = (weightPanel cfg b lw).map (List.map (namedCall f)) := by
    unfold weightPanel
    rw [hc, walks_named f]
    · simp only [Res.bind_map, Res.map_bind]
      refine congrArg (bind _) (funext fun w => ?_)
      simp only [pure, Except.pure, Except.map, List.map_flatten]
    · intro c
      have e1 : (named f c).weights = c.weights := rfl
      have e3 : (named f c).name = f c.name := rfl
      simp only [e1, e3, Res.map_bind]
      exact congrArg (bind _) (funext fun v => walk_named f _ _ _ _ _)
  have hany : ((namedBase f b).chains.any fun c => c.logPosterior.isSome) = b.chains.any fun c => c.logPosterior.isSome := by
    rw [hc, List.any_map]
    rfl
  unfold plotWalksBase
  simp only [hany, hcol, Res.map_bind]
  refine congrArg (bind _) (funext fun _ => ?_)
  rw [mapM_after (r := List.map (namedCall f)) (h := fun i => if _ ≤ i then walkPanel cfg b truths (b.columns.getD (i - _) "")
    else if i = 0 && _ then posteriorPanel cfg b else weightPanel cfg b lw)]
  · simp only [Res.bind_map]
    refine congrArg (bind _) (funext fun ps => ?_)
    simp only [pure, Except.pure, Except.map, namedFig, List.zip_map_right]
  · intro i _
    simp only [h1, h2, h3, apply_ite (Except.map (List.map (namedCall f)))]

theorem plotDistributionsBase_named (lib : Lib) (cfg : PlotConfig) (truths : List (Truth ℝ)) (colWrap : Nat) (b : PlottingBase) :
    plotDistributionsBase lib cfg truths colWrap (namedBase f b) = (plotDistributionsBase lib cfg truths colWrap b).map (namedFig f) := by
  have hcol : (namedBase f b).columns = b.columns := rfl
  have h1 : ∀ p, distPanel lib cfg (namedBase f b) truths p = (distPanel lib cfg b truths p).map (List.map (namedCall f)) := by
    intro p
    have hc : (namedBase f b).chains = b.chains.map (named f) := rfl
    have hb : (namedBase f b).blind = b.blind := rfl
    have hl : (namedBase f b).logScales = b.logScales := rfl
    have hx : setLim .x ((namedBase f b).extents.lookup p) = (setLim .x (b.extents.lookup p)).map (namedCall f) :=
      (setLim_named f _ _).symm
    unfold distPanel
    simp only [hx, hb, hl, hc, List.length_map, distChains_named, Res.bind_map, Res.map_bind, Prod.map, id]
    cases setLim .x (b.extents.lookup p) with
    | error _ => rfl
    | ok xlim =>
      cases distChains lib cfg p (cfg.summarise && decide (b.chains.length = 1) && !decide (p ∈ b.blind)) b.chains none with
      | error _ => rfl
      | ok r =>
        obtain ⟨calls, m⟩ := r
        cases m with
        | none => rfl
        | some m =>
          simp only [bind, Except.bind, distYlim, pure, Except.pure, Except.map, List.map_append, List.map_cons, List.map_nil, truths_named]
          split <;> split <;> simp [namedCall]
  unfold plotDistributionsBase
  simp only [hcol, Res.map_bind]
  refine congrArg (bind _) (funext fun _ => congrArg (bind _) (funext fun _ => ?_))
  rw [mapM_after (r := List.map (namedCall f)) (h := fun ij => if b.columns.length ≤ ij.1 * min b.columns.length colWrap + ij.2 then
    .ok [.axisOff] else distPanel lib cfg b truths (b.columns.getD (ij.1 * min b.columns.length colWrap + ij.2) ""))]
  · simp only [Res.bind_map]
    refine congrArg (bind _) (funext fun ps => ?_)
    simp only [pure, Except.pure, Except.map, namedFig, List.zip_map_right]
  · intro i _
    simp only [h1]
    split <;> rfl

theorem plotSummaryBase_named (lib : Lib) (cfg : PlotConfig) (truths : List (Truth ℝ)) (errorbar : Bool) (b : PlottingBase) :
    plotSummaryBase lib cfg truths errorbar (namedBase f b) = (plotSummaryBase lib cfg truths errorbar b).map (namedFig f) := by
  have hc : (namedBase f b).chains = b.chains.map (named f) := rfl
  have hcol : (namedBase f b).columns = b.columns := rfl
  have h1 : ∀ i c p, summaryCell lib cfg (namedBase f b) truths errorbar i (named f c) p =
      (summaryCell lib cfg b truths errorbar i c p).map (Prod.map (List.map (namedCall f)) id) := by
    intro i c p
    have hb : (namedBase f b).blind = b.blind := rfl
    have hl : (namedBase f b).logScales = b.logScales := rfl
    have hx : setLim .x ((namedBase f b).extents.lookup p) = (setLim .x (b.extents.lookup p)).map (namedCall f) :=
      (setLim_named f _ _).symm
    have hs : summaryContent lib cfg errorbar (named f c) p =
        (summaryContent lib cfg errorbar c p).map (Prod.map (List.map (namedCall f)) id) := by
      have e1 : (named f c).dataColumns = c.dataColumns := rfl
      have e2 : parameterSummary lib.kde (named f c) p = parameterSummary lib.kde c p := rfl
      unfold summaryContent
      rw [e1, e2, plotBars_named]
      split
      · rfl
      · split
        · cases parameterSummary lib.kde c p with
          | error _ => rfl
          | ok bd =>
            simp only [bind, Except.bind]
            split
            · rfl
            · cases bd.lower <;> cases bd.center <;> cases bd.upper <;> rfl
        · cases plotBars lib cfg p c false false <;> rfl
    have ht : (truths.flatMap (summaryTruth p)).map (namedCall f) = truths.flatMap (summaryTruth p) := by
      rw [List.map_flatMap]
      congr 1
      funext t
      unfold summaryTruth
      cases t.location.lookup p <;> rfl
    unfold summaryCell
    simp only [hx, hs, hb, hl, hc, List.length_map, Res.bind_map, Res.map_bind, Prod.map, id]
    refine congrArg (bind _) (funext fun xlim => congrArg (bind _) (funext fun r => ?_))
    simp only [pure, Except.pure, Except.map]
    split <;> split <;> split <;> simp [namedCall, ht]
  unfold plotSummaryBase
  simp only [hcol, hc, List.length_map, List.isEmpty_map, Res.map_bind, List.zipIdx_map, mapM_before, Prod.map, id]
  refine congrArg (bind _) (funext fun _ => ?_)
  rw [mapM_after (r := List.map (Prod.map (List.map (namedCall f)) id))
    (h := fun ci => b.columns.mapM fun p => summaryCell lib cfg b truths errorbar ci.2 ci.1 p)
    (fun ci _ => mapM_after fun p _ => h1 ci.2 ci.1 p)]
  simp only [Res.bind_map]
  refine congrArg (bind _) (funext fun rows => ?_)
  have htop : (rows.map (List.map (Prod.map (List.map (namedCall f)) id))).flatMap
      (fun r => List.zipWith (fun p cell => (p, cell.2)) b.columns r) =
      rows.flatMap fun r => List.zipWith (fun p (cell : List Call × Option ℝ) => (p, cell.2)) b.columns r := by
    rw [List.flatMap_map]
    congr 1
    funext r
    rw [List.zipWith_map_right]
    rfl
  have hlim : ∀ tops, summaryLimits errorbar b.columns tops = (summaryLimits errorbar b.columns tops).map (List.map (List.map (namedCall f))) := by
    intro tops
    unfold summaryLimits
    refine mapM_after fun p _ => ?_
    split
    · rfl
    · cases tops.lookup p <;> rfl
  rw [htop, hlim, Res.bind_map, ← hlim]
  refine congrArg (bind _) (funext fun lims => ?_)
  simp only [pure, Except.pure, Except.map, namedFig]
  congr 1
  congr 1
  rw [← List.zip_map_right, List.map_flatMap, List.zip_map, List.flatMap_map]
  congr 2
  funext cr
  have e1 : lims.map (List.map (namedCall f)) ++ [[]] = (lims ++ [[]]).map (List.map (namedCall f)) := by simp
  have e2 : ([.axisOff, .text (named f cr.1).name] :: (cr.2.map (Prod.map (List.map (namedCall f)) id)).map Prod.fst : List (List Call)) =
      ([.axisOff, .text cr.1.name] :: cr.2.map Prod.fst).map (List.map (namedCall f)) := by
    simp only [List.map_cons, List.map_map]
    rfl
  simp only [Prod.map]
  rw [e1, e2, List.zipWith_map, List.map_zipWith]
  simp only [List.map_append]

theorem label_named (n : String) : namedLabel f ("  " ++ n) = "  " ++ f n := by
  have : ("  " ++ n).toList.drop 2 = n.toList := by
    rw [String.toList_append]
    rfl
  rw [namedLabel, this, String.ofList_toList]

theorem plotLegend_named (lc : LegendConfig) (cfg : PlotConfig) (b : PlottingBase) :
    plotLegend lc cfg (namedBase f b) = (plotLegend lc cfg b).map (Option.map (namedLegend f)) := by
  have hc : (namedBase f b).chains = b.chains.map (named f) := rfl
  have hcol : (namedBase f b).columns = b.columns := rfl
  have ha : ∀ c, artistOf (named f c) = (artistOf c).map (namedArtist f) := by
    intro c
    have e : ∀ k, (named f c).cfg k = c.cfg k := fun _ => rfl
    have en : (named f c).name = f c.name := rfl
    unfold artistOf
    simp only [e, en]
    cases Colors.format (c.cfg .color) with
    | error _ => rfl
    | ok col =>
      simp only [bind, Except.bind, pure, Except.pure]
      split
      · simp only [Except.map, namedArtist, label_named]
      · split <;> simp only [Except.map, namedArtist, label_named]
  have hf : ∀ cs : List (Chain ℝ), (cs.map (named f)).filter (fun c => c.showLabelInLegend) =
      (cs.filter fun c => c.showLabelInLegend).map (named f) := by
    intro cs
    rw [List.filter_map]
    rfl
  have hg : ∀ cs : List (Chain ℝ), getArtists (cs.map (named f)) = (getArtists cs).map (List.map (namedArtist f)) := by
    intro cs
    unfold getArtists
    rw [hf, mapM_before, mapM_after fun c _ => ha c]
  have ht : ∀ cs : List (Chain ℝ), textColors lc (cs.map (named f)) = textColors lc cs := by
    intro cs
    unfold textColors
    rw [mapM_before]
    rfl
  unfold plotLegend legendShown
  simp only [hc, hcol, List.length_map, hf, hg, ht, Res.bind_map]
  split
  · rfl
  · simp only [Res.map_bind]
    refine congrArg (bind _) (funext fun i => congrArg (bind _) (funext fun j => congrArg (bind _) (funext fun as =>
      congrArg (bind _) (funext fun cols => ?_))))
    simp only [pure, Except.pure, Except.map, Option.map, namedLegend]
    congr 3
    have : (if lc.reverse then (as.map (namedArtist f)).reverse else as.map (namedArtist f)) =
        (if lc.reverse then as.reverse else as).map (namedArtist f) := by
      split <;> simp
    rw [this, List.zipWith_map_left, List.map_zipWith]
    rfl

end calls

section requests
variable {f : String → String} (hf : Function.Injective f)
include hf

theorem plotChains_named {K : Type} (final : List (String × Chain K)) (req : ChainReq K) (includeSkip : Bool) :
    plotChains (namedDict f final) (namedReq f req) includeSkip = (plotChains final req includeSkip).map (List.map (named f)) := by
  have hget : ∀ n, dictGet (namedDict f final) (f n) = (dictGet final n).map (named f) := by
    intro n
    unfold dictGet
    rw [namedDict, lookup_named hf]
    cases final.lookup n <;> rfl
  have hfil : ∀ cs : List (Chain K), (cs.map (named f)).filter (fun c => includeSkip || !c.skip) =
      (cs.filter fun c => includeSkip || !c.skip).map (named f) := by
    intro cs
    rw [List.filter_map]
    rfl
  cases req with
  | all =>
    have : (namedDict f final).map Prod.snd = (final.map Prod.snd).map (named f) := by simp [namedDict, Function.comp]
    simp only [plotChains, namedReq, this, pure_bind, hfil]
    rfl
  | list l =>
    have : (l.map (Sum.map f (named f))).mapM (fun r => dictGet (namedDict f final) (reqName r)) =
        (l.mapM fun r => dictGet final (reqName r)).map (List.map (named f)) := by
      rw [mapM_before, mapM_after]
      intro r _
      cases r <;> exact hget _
    simp only [plotChains, namedReq, this, Res.bind_map, hfil, Res.map_bind]
    rfl
  | dict d =>
    have : (d.map (Prod.map f (named f))).mapM (fun e => dictGet (namedDict f final) e.2.name) =
        (d.mapM fun e => dictGet final e.2.name).map (List.map (named f)) := by
      rw [mapM_before, mapM_after]
      intro e _
      exact hget _
    simp only [plotChains, namedReq, this, Res.bind_map, hfil, Res.map_bind]
    rfl

omit hf in
theorem extents_named (columns : List String) (chains : List (Chain ℝ)) (initial : List (String × ℝ × ℝ)) (wide : Bool) :
    customExtents columns (chains.map (named f)) initial wide = customExtents columns chains initial wide := by
  have : ∀ p, parameterExtents p wide (chains.map (named f)) = parameterExtents p wide chains := by
    intro p
    unfold parameterExtents
    rw [List.foldlM_map]
    rfl
  unfold customExtents
  simp only [this]

theorem sanitise_named (cfg : PlotConfig) (final : List (String × Chain ℝ)) (req : ChainReq ℝ) (columns : Option (List String)) (wide : Bool) :
    sanitise cfg (namedDict f final) (namedReq f req) columns wide = (sanitise cfg final req columns wide).map (namedBase f) := by
  have hcols : ∀ cs : List (Chain ℝ), sanitiseColumns columns (cs.map (named f)) = sanitiseColumns columns cs := by
    intro cs
    unfold sanitiseColumns
    cases columns with
    | some l => rfl
    | none =>
      dsimp only
      rw [List.foldl_map]
      rfl
  unfold sanitise
  simp only [plotChains_named hf, Res.bind_map, hcols, extents_named, Res.map_bind]
  rfl

/-- **C140** (figures). A consumer whose chains have other names, asked for the same chains by their new names, in whatever way chains
can be asked for, draws the same figures with the new names in place of the old ones, or fails in the same way: corner plots, walks,
distributions and summaries, -/
theorem C140_figures (lib : Lib) (cfg : PlotConfig) (truths : List (Truth ℝ)) (h : Heap ℝ) (s : Consumer ℝ) (req : ChainReq ℝ)
    (columns : Option (List String)) (plotWeights plotPosterior logWeight errorbar : Bool) (colWrap : Nat)
    (draw : List (String × Chain ℝ) → ChainReq ℝ → Res Fig)
    (hd : draw ∈ [fun d r => plot lib cfg truths d r columns,
      fun d r => plotWalks cfg truths plotWeights plotPosterior logWeight d r columns,
      fun d r => plotDistributions lib cfg truths colWrap d r columns,
      fun d r => plotSummary lib cfg truths errorbar d r columns]) :
    (do draw (← finalDict (namedHeap f h) (namedConsumer f s)) (namedReq f req)) =
      (do draw (← finalDict h s) req : Res Fig).map (namedFig f) := by
  rw [C135_settings, Res.bind_map, Res.map_bind]
  refine congrArg (bind _) (funext fun d => ?_)
  simp only [List.mem_cons, List.not_mem_nil, or_false] at hd
  rcases hd with rfl | rfl | rfl | rfl
  · simp only [plot, sanitise_named hf, Res.bind_map, Res.map_bind, plotBase_named]
  · simp only [plotWalks, sanitise_named hf, Res.bind_map, Res.map_bind, plotWalksBase_named]
  · simp only [plotDistributions, sanitise_named hf, Res.bind_map, Res.map_bind, plotDistributionsBase_named]
  · simp only [plotSummary, sanitise_named hf, Res.bind_map, Res.map_bind, plotSummaryBase_named]

/-- **C140** (legend). The legend of the corner plot likewise: the same panel, handles, colours and order, with the new names as texts. -/
theorem C140_legend (lc : LegendConfig) (cfg : PlotConfig) (h : Heap ℝ) (s : Consumer ℝ) (req : ChainReq ℝ) (columns : Option (List String)) :
    (do plotLegend lc cfg (← sanitise cfg (← finalDict (namedHeap f h) (namedConsumer f s)) (namedReq f req) columns true)) =
      (do plotLegend lc cfg (← sanitise cfg (← finalDict h s) req columns true) : Res (Option Legend)).map (Option.map (namedLegend f)) := by
  rw [C135_settings, Res.bind_map, Res.map_bind]
  refine congrArg (bind _) (funext fun d => ?_)
  simp only [sanitise_named hf, Res.bind_map, Res.map_bind, plotLegend_named]

end requests

/-- The hypotheses are met: a registered chain `c` of two samples, asked for by name for its walk, with a letter appended to every name. The
figure of the walk is drawn, and the walk is called `cx` after the change. -/
example : ∃ (f : String → String) (h : Heap ℝ) (s : Consumer ℝ) (fig : Fig), Function.Injective f ∧
    (do plotWalks {} [] true false false (← finalDict h s) (.list [.inl "c"]) (some [])) = .ok fig ∧
    (do plotWalks {} [] true false false (← finalDict (namedHeap f h) (namedConsumer f s)) (.list [.inl "cx"]) (some [])) = .ok (namedFig f fig) ∧
    (∃ calls, ((0, 0), calls) ∈ fig.panels ∧ .walk "c" [1, 1] ∈ calls) ∧
    ∃ calls, ((0, 0), calls) ∈ (namedFig f fig).panels ∧ .walk "cx" [1, 1] ∈ calls := by
  let fr : Frame ℝ := { index := [.int 0, .int 1], cols := [("a", [1, 2]), ("weight", [1, 1])] }
  have hfr : fr.WF := ⟨by simp [fr], by simp [fr]⟩
  obtain ⟨c, -, hsam, hw, -, -, -, -, hname, hcfg⟩ :=
    plain_chain_cfg false [] rfl
      (by change (0 : ℝ) ≤ 6827 / 10000 ∧ (6827 / 10000 : ℝ) ≤ 1; constructor <;> norm_num)
      (by change (1 : ℝ) ≤ 10; norm_num) rfl rfl (by intro h; cases h) fr hfr
      (by simp [fr]) (w := [1, 1]) rfl (by simp) "c" 1 le_rfl (one_dvd _)
  have hinj : Function.Injective (fun n : String => n ++ "x") := by
    intro m n h
    have := congrArg String.toList h
    simp only [String.toList_append, List.append_cancel_right_eq] at this
    exact String.toList_inj.1 this
  set s : Consumer ℝ := { chains := [("c", 0)] } with hs
  have hco : chainsOf [c] s = [c] := by simp [chainsOf, copyChains, hs]
  set n := numContourChains [c] s
  set g := Spec.resolved none c.userSet n c.cfg (Spec.autoColours.getD 0 "") with hg
  have hfd : finalDict [c] s = .ok [("c", c.withCfg g)] := by
    rw [finalDict_eq _ _ (by rw [hco]; exact le_trans (List.length_filter_le _ _) (by simp)), hco]
    simp [resolvedChains, copyChains, hs, n, hg]
  have hskip : (c.withCfg g).skip = false := by
    have h1 : (c.withCfg g).cfg .plotContour = true := by
      have : c.cfg .plotContour = true := by rw [hcfg]; rfl
      rw [← this]
      exact resolved_own _ _ _ _ _ rfl
    unfold Chain.skip
    rw [h1]
    have : (c.withCfg g).samples.empty = false := by
      change c.samples.empty = false
      rw [hsam]
      rfl
    rw [this]
    rfl
  have hwe : (c.withCfg g).weights = .ok [1, 1] := by
    change c.samples.get c.weightColumn = _
    rw [hsam, hw]
    rfl
  have ht : thin [(1 : ℝ), 1] = [1, 1] := by
    rw [thin, if_neg]
    unfold maxPoints
    simp
  have hn : (c.withCfg g).name = "c" := hname
  have hfig : ∃ fig calls, (do plotWalks {} [] true false false (← finalDict [c] s) (.list [.inl "c"]) (some [])) = .ok fig ∧
      ((0, 0), calls) ∈ fig.panels ∧ .walk "c" [1, 1] ∈ calls := by
    rw [hfd]
    simp [plotWalks, sanitise, plotChains, dictGet, reqName, hskip, sanitiseColumns, customExtents, sanitiseBlinds, plotWalksBase, weightPanel,
      hwe, ht, hn, plotWalk, walkLim, ensure, bind, Except.bind, pure, Except.pure, show List.range 1 = [0] from rfl]
  obtain ⟨fig, calls, hf, hm, hcall⟩ := hfig
  refine ⟨_, [c], s, fig, hinj, hf, ?_, ⟨calls, hm, hcall⟩, calls.map (namedCall fun n => n ++ "x"), ?_, ?_⟩
  · have key := C140_figures (f := fun n => n ++ "x") hinj ⟨fun _ _ _ => ∅, fun _ => [], []⟩ {} [] [c] s (.list [.inl "c"]) (some [])
      true false false false 4 (fun d r => plotWalks {} [] true false false d r (some [])) (by simp)
    rw [hf] at key
    exact key
  · exact List.mem_map.2 ⟨_, hm, rfl⟩
  · exact List.mem_map.2 ⟨_, hcall, rfl⟩

end CC
