import Verif.Props.ChainOrder
import Verif.Props.NamedFigures
import Verif.Lemmas.Figure

/-! # C133: the order in which chains are added carries no meaning for figures -/

set_option linter.unusedSectionVars false

namespace CC
open Spec

/-- Figures with the same panels, where each panel shows the same in another order, and the same colour bars. -/
structure Spec.SameShown (g g' : Fig) : Prop where
  panels : List.Forall₂ (fun e e' => e'.1 = e.1 ∧ e'.2.Perm e.2) g.panels g'.panels
  colorbars : g'.colorbars.Perm g.colorbars

section tools

theorem mapM_reorder {α β : Type} {f : α → Res β} {l l' : List α} (h : l'.Perm l) {r : List β} (hr : l.mapM f = .ok r) :
    ∃ r', l'.mapM f = .ok r' ∧ r'.Perm r := by
  obtain ⟨r', h1, h2⟩ := List.perm_comp_forall₂ h (mapM_ok_iff.1 hr)
  exact ⟨r', mapM_ok_iff.2 h1, h2⟩

theorem mapM_each {α β γ : Type} {R : β → γ → Prop} {f : α → Res β} {f' : α → Res γ} {l : List α}
    (h : ∀ a ∈ l, ∀ x, f a = .ok x → ∃ y, f' a = .ok y ∧ R x y) {r : List β} (hr : l.mapM f = .ok r) :
    ∃ r', l.mapM f' = .ok r' ∧ List.Forall₂ R r r' := by
  have hF := mapM_ok_iff.1 hr
  clear hr
  induction hF with
  | nil => exact ⟨[], rfl, .nil⟩
  | @cons a x l r hx _ ih =>
    obtain ⟨y, hy, hR⟩ := h a List.mem_cons_self x hx
    obtain ⟨r', h1, h2⟩ := ih fun b hb => h b (List.mem_cons_of_mem _ hb)
    exact ⟨y :: r', by rw [List.mapM_cons, hy, h1]; rfl, .cons hR h2⟩

theorem zip_each {α β γ : Type} {R : β → γ → Prop} (l : List α) {r : List β} {r' : List γ} (h : List.Forall₂ R r r') :
    List.Forall₂ (fun e e' => e'.1 = e.1 ∧ R e.2 e'.2) (l.zip r) (l.zip r') := by
  induction h generalizing l with
  | nil => cases l <;> exact .nil
  | cons hR _ ih =>
    cases l with
    | nil => exact .nil
    | cons a l => exact .cons ⟨rfl, hR⟩ (ih l)

theorem topStep_comm (m : Option ℝ) (v w : ℝ) : topStep (topStep m v) w = topStep (topStep m w) v := by
  have h : ∀ (m : Option ℝ) v, topStep m v = some (m.elim v fun m => max m v) := by
    intro m v
    cases m with
    | none => rfl
    | some m =>
      simp only [topStep, Option.elim]
      split
      · rw [max_eq_right (le_of_lt ‹_›)]
      · rw [max_eq_left (not_lt.1 ‹_›)]
  simp only [h, Option.elim]
  cases m with
  | none => simp only [max_comm]
  | some m => simp only [max_right_comm]

end tools

section panels

/-- The chains of a panel and what comes of them. -/
theorem hist_eq (lib : Lib) (cfg : PlotConfig) (p : String) (flip summary : Bool) (cs : List (Chain ℝ)) (m : Option ℝ) :
    histChains lib cfg p flip summary cs m =
      ((cs.filter fun c => !(!(c.cfg .plotContour) || decide (p ∉ c.samples.columns))).mapM fun c => plotBars lib cfg p c flip summary).map
        fun rs => (rs.flatMap Prod.fst, (rs.map Prod.snd).foldl topStep m) := by
  induction cs generalizing m with
  | nil => rfl
  | cons c cs ih =>
    rw [histChains, List.filter_cons]
    by_cases h : (!(c.cfg .plotContour) || decide (p ∉ c.samples.columns)) = true
    · rw [if_pos h, ih, if_neg (by rw [h]; simp)]
    · rw [if_neg h, if_pos (by rw [Bool.not_eq_true] at h; rw [h]; rfl), List.mapM_cons]
      cases plotBars lib cfg p c flip summary with
      | error _ => rfl
      | ok b =>
        simp only [bind, Except.bind, ih]
        cases (cs.filter fun c => !(!(c.cfg .plotContour) || decide (p ∉ c.samples.columns))).mapM fun c => plotBars lib cfg p c flip summary <;> rfl

theorem dist_eq (lib : Lib) (cfg : PlotConfig) (p : String) (summary : Bool) (cs : List (Chain ℝ)) (m : Option ℝ) :
    distChains lib cfg p summary cs m =
      ((cs.filter fun c => !(!(c.cfg .plotContour) || decide (p ∉ c.plottingColumns))).mapM fun c => plotBars lib cfg p c false summary).map
        fun rs => (rs.flatMap Prod.fst, (rs.map Prod.snd).foldl topStep m) := by
  induction cs generalizing m with
  | nil => rfl
  | cons c cs ih =>
    rw [distChains, List.filter_cons]
    by_cases h : (!(c.cfg .plotContour) || decide (p ∉ c.plottingColumns)) = true
    · rw [if_pos h, ih, if_neg (by rw [h]; simp)]
    · rw [if_neg h, if_pos (by rw [Bool.not_eq_true] at h; rw [h]; rfl), List.mapM_cons]
      cases plotBars lib cfg p c false summary with
      | error _ => rfl
      | ok b =>
        simp only [bind, Except.bind, ih]
        cases (cs.filter fun c => !(!(c.cfg .plotContour) || decide (p ∉ c.plottingColumns))).mapM fun c => plotBars lib cfg p c false summary <;> rfl

theorem bars_reorder {f : Chain ℝ → Res (List Call × ℝ)} {cs cs' : List (Chain ℝ)} (h : cs'.Perm cs) (m : Option ℝ) {r : List Call × Option ℝ}
    (hr : (cs.mapM f).map (fun rs => (rs.flatMap Prod.fst, (rs.map Prod.snd).foldl topStep m)) = .ok r) :
    ∃ r', (cs'.mapM f).map (fun rs => (rs.flatMap Prod.fst, (rs.map Prod.snd).foldl topStep m)) = .ok r' ∧ r'.1.Perm r.1 ∧ r'.2 = r.2 := by
  cases hm : cs.mapM f with
  | error _ => rw [hm] at hr; cases hr
  | ok rs =>
    rw [hm] at hr
    cases hr
    obtain ⟨rs', h1, h2⟩ := mapM_reorder h hm
    have : RightCommutative topStep := ⟨topStep_comm⟩
    exact ⟨_, by rw [h1]; rfl, h2.flatMap_right _, (h2.map _).foldl_eq _⟩

variable {b b' : PlottingBase} (hb : b' = { b with chains := b'.chains }) (hc : b'.chains.Perm b.chains)
include hb hc

theorem drawPanel_reorder (lib : Lib) (cfg : PlotConfig) (truths : List (Truth ℝ)) (summarise flip : Bool) (nx i j : Nat) (p1 p2 : String)
    {r : List Call × List String} (hr : drawPanel lib cfg b truths summarise flip nx i j p1 p2 = .ok r) :
    ∃ r', drawPanel lib cfg b' truths summarise flip nx i j p1 p2 = .ok r' ∧ r'.1.Perm r.1 ∧ r'.2.Perm r.2 := by
  have hbl : b'.blind = b.blind := by rw [hb]
  unfold drawPanel at hr ⊢
  by_cases h1 : i < j
  · rw [if_pos h1] at hr ⊢
    exact ⟨r, hr, .refl _, .refl _⟩
  · rw [if_neg h1] at hr ⊢
    by_cases h2 : (cfg.plotHists && decide (i = j)) = true
    · rw [if_pos h2] at hr ⊢
      simp only [histPanel, hist_eq, bind_ok_iff, pure_ok_iff] at hr
      obtain ⟨calls, ⟨x, hx, rfl⟩, rfl⟩ := hr
      obtain ⟨x', h3, h4, h5⟩ := bars_reorder (hc.filter _) none hx
      simp only [histPanel, hist_eq, bind_ok_iff, pure_ok_iff, hbl]
      refine ⟨_, ⟨_, ⟨x', h3, rfl⟩, rfl⟩, ?_, .refl _⟩
      dsimp only
      rw [h5]
      exact (h4.append_left _).append_right _
    · rw [if_neg h2] at hr ⊢
      simp only [plotSurface, bind_ok_iff, pure_ok_iff] at hr
      obtain ⟨x, ⟨rs, hx, rfl⟩, rfl⟩ := hr
      obtain ⟨rs', h3, h4⟩ := mapM_reorder hc hx
      simp only [plotSurface, bind_ok_iff, pure_ok_iff]
      refine ⟨_, ⟨_, ⟨rs', h3, rfl⟩, rfl⟩, ?_, ?_⟩
      · exact (h4.flatMap_right _).append_right _
      · exact h4.flatMap_right _

theorem plotBase_reorder (lib : Lib) (cfg : PlotConfig) (truths : List (Truth ℝ)) {g : Fig} (hg : plotBase lib cfg truths b = .ok g) :
    ∃ g', plotBase lib cfg truths b' = .ok g' ∧ SameShown g g' := by
  have hcol : b'.columns = b.columns := by rw [hb]
  have hlen : (b'.chains.filter fun c => c.cfg .plotContour).length = (b.chains.filter fun c => c.cfg .plotContour).length := (hc.filter _).length_eq
  have htri : ∀ n i j p1 p2, trianglePanel cfg b' n i j p1 p2 = trianglePanel cfg b n i j p1 p2 := by
    intro n i j p1 p2
    rw [hb]
    rfl
  unfold plotBase at hg ⊢
  simp only [hcol, hlen, htri]
  simp only [bind_ok_iff, pure_ok_iff] at hg ⊢
  obtain ⟨u, hu, setup, hs, draws, hd, rfl⟩ := hg
  obtain ⟨draws', h1, h2⟩ := mapM_each (fun ij _ x hx => drawPanel_reorder hb hc lib cfg truths _ _ _ _ _ _ _ hx) hd
  refine ⟨_, ⟨u, hu, setup, hs, draws', h1, rfl⟩, ⟨?_, ?_⟩⟩
  · refine zip_each (R := fun x y : List Call => y.Perm x) _ ?_
    clear hs hd h1
    induction h2 generalizing setup with
    | nil => cases setup <;> exact .nil
    | cons hR _ ih =>
      cases setup with
      | nil => exact .nil
      | cons s setup => exact .cons (hR.1.append_left _) (ih setup)
  · have hp : (draws'.flatMap Prod.snd).Perm (draws.flatMap Prod.snd) := by
      clear hs hd h1
      induction h2 with
      | nil => exact .refl _
      | cons hR _ ih =>
        simp only [List.flatMap_cons]
        exact hR.2.append ih
    exact (List.reverse_perm _).trans ((((List.reverse_perm _).trans (hp.trans (List.reverse_perm _).symm)).dedup).trans (List.reverse_perm _).symm)

theorem plotWalksBase_reorder (cfg : PlotConfig) (truths : List (Truth ℝ)) (pw pp lw : Bool) {g : Fig}
    (hg : plotWalksBase cfg truths pw pp lw b = .ok g) : ∃ g', plotWalksBase cfg truths pw pp lw b' = .ok g' ∧ SameShown g g' := by
  have hcol : b'.columns = b.columns := by rw [hb]
  have hbl : b'.blind = b.blind := by rw [hb]
  have hx : b'.extents = b.extents := by rw [hb]
  have hls : b'.logScales = b.logScales := by rw [hb]
  have hany : (b'.chains.any fun c => c.logPosterior.isSome) = b.chains.any fun c => c.logPosterior.isSome := by
    rw [Bool.eq_iff_iff, List.any_eq_true, List.any_eq_true]
    exact exists_congr fun c => and_congr_left fun _ => hc.mem_iff
  have h1 : ∀ p x, walkPanel cfg b truths p = .ok x → ∃ y, walkPanel cfg b' truths p = .ok y ∧ y.Perm x := by
    intro p x h
    simp only [walkPanel, hbl, hx, hls, bind_ok_iff, pure_ok_iff] at h ⊢
    obtain ⟨ws, hw, rfl⟩ := h
    obtain ⟨ws', h3, h4⟩ := mapM_reorder hc hw
    exact ⟨_, ⟨ws', h3, rfl⟩, ((h4.flatten).append_right _).append_right _⟩
  have h2 : ∀ x, posteriorPanel cfg b = .ok x → ∃ y, posteriorPanel cfg b' = .ok y ∧ y.Perm x := by
    intro x h
    simp only [posteriorPanel, bind_ok_iff (f := fun w : List (List Call) => (pure w.flatten : Res (List Call))), pure_ok_iff] at h ⊢
    obtain ⟨ws, hw, rfl⟩ := h
    obtain ⟨ws', h3, h4⟩ := mapM_reorder hc hw
    exact ⟨_, ⟨ws', h3, rfl⟩, h4.flatten⟩
  have h3 : ∀ x, weightPanel cfg b lw = .ok x → ∃ y, weightPanel cfg b' lw = .ok y ∧ y.Perm x := by
    intro x h
    simp only [weightPanel, bind_ok_iff (f := fun w : List (List Call) => (pure w.flatten : Res (List Call))), pure_ok_iff] at h ⊢
    obtain ⟨ws, hw, rfl⟩ := h
    obtain ⟨ws', h3, h4⟩ := mapM_reorder hc hw
    exact ⟨_, ⟨ws', h3, rfl⟩, h4.flatten⟩
  unfold plotWalksBase at hg ⊢
  simp only [hcol, hany]
  simp only [bind_ok_iff, pure_ok_iff] at hg ⊢
  obtain ⟨u, hu, ps, hp, rfl⟩ := hg
  generalize ((if pw = true then 1 else 0) + if (pp && b.chains.any fun c => c.logPosterior.isSome) = true then 1 else 0) = extra at hu hp ⊢
  generalize (pp && b.chains.any fun c => c.logPosterior.isSome) = post at hp ⊢
  obtain ⟨ps', h4, h5⟩ := mapM_each (R := fun x y : List Call => y.Perm x)
    (f' := fun i => if extra ≤ i then walkPanel cfg b' truths (b.columns.getD (i - extra) "")
      else if (decide (i = 0) && post) = true then posteriorPanel cfg b' else weightPanel cfg b' lw) (fun i _ x h => by
    by_cases c1 : extra ≤ i
    · rw [if_pos c1] at h ⊢
      exact h1 _ x h
    · rw [if_neg c1] at h ⊢
      by_cases c2 : (decide (i = 0) && post) = true
      · rw [if_pos c2] at h ⊢
        exact h2 x h
      · rw [if_neg c2] at h ⊢
        exact h3 x h) hp
  exact ⟨_, ⟨u, hu, ps', h4, rfl⟩, zip_each _ h5, .refl _⟩

theorem plotDistributionsBase_reorder (lib : Lib) (cfg : PlotConfig) (truths : List (Truth ℝ)) (colWrap : Nat) {g : Fig}
    (hg : plotDistributionsBase lib cfg truths colWrap b = .ok g) :
    ∃ g', plotDistributionsBase lib cfg truths colWrap b' = .ok g' ∧ SameShown g g' := by
  have hcol : b'.columns = b.columns := by rw [hb]
  have hbl : b'.blind = b.blind := by rw [hb]
  have hx : b'.extents = b.extents := by rw [hb]
  have hls : b'.logScales = b.logScales := by rw [hb]
  have h1 : ∀ p x, distPanel lib cfg b truths p = .ok x → ∃ y, distPanel lib cfg b' truths p = .ok y ∧ y.Perm x := by
    intro p x h
    simp only [distPanel, dist_eq, hbl, hx, hls, hc.length_eq, bind_ok_iff, pure_ok_iff] at h ⊢
    obtain ⟨xl, hxl, r, hr, yl, hyl, rfl⟩ := h
    obtain ⟨r', h3, h4, h5⟩ := bars_reorder (hc.filter _) none hr
    exact ⟨_, ⟨xl, hxl, r', h3, yl, by rw [h5]; exact hyl, rfl⟩, ((h4.append_left _).append_right _).append_right _⟩
  unfold plotDistributionsBase at hg ⊢
  simp only [hcol]
  simp only [bind_ok_iff, pure_ok_iff] at hg ⊢
  obtain ⟨u, hu, v, hv, ps, hp, rfl⟩ := hg
  obtain ⟨ps', h4, h5⟩ := mapM_each (R := fun x y : List Call => y.Perm x)
    (f' := fun ij => if b.columns.length ≤ ij.1 * min b.columns.length colWrap + ij.2 then Except.ok [Call.axisOff]
      else distPanel lib cfg b' truths (b.columns.getD (ij.1 * min b.columns.length colWrap + ij.2) "")) (fun i _ x h => by
    by_cases c1 : b.columns.length ≤ i.1 * min b.columns.length colWrap + i.2
    · rw [if_pos c1] at h ⊢
      exact ⟨x, h, .refl _⟩
    · rw [if_neg c1] at h ⊢
      exact h1 _ x h) hp
  exact ⟨_, ⟨u, hu, v, hv, ps', h4, rfl⟩, zip_each _ h5, .refl _⟩

end panels

section requests

theorem extents_reorder {cs cs' : List (Chain ℝ)} (h : cs'.Perm cs) (columns : List String) (initial : List (String × ℝ × ℝ)) (wide : Bool)
    {d : List (String × Option (ℝ × ℝ))} (hd : customExtents columns cs initial wide = .ok d) :
    customExtents columns cs' initial wide = .ok d := by
  unfold customExtents at hd ⊢
  generalize (initial.map fun e => (e.1, some e.2)) = start at hd ⊢
  induction columns generalizing start with
  | nil => exact hd
  | cons p ps ih =>
    rw [List.foldlM_cons, bind_ok_iff] at hd ⊢
    obtain ⟨e, he, hd⟩ := hd
    refine ⟨e, ?_, ih _ hd⟩
    by_cases hp : p ∈ initial.map Prod.fst
    · rw [if_pos hp] at he ⊢
      exact he
    · rw [if_neg hp, bind_ok_iff] at he ⊢
      obtain ⟨r, hr, he⟩ := he
      exact ⟨r, C133_ranges h hr, he⟩

theorem sanitise_reorder {final final' : List (String × Chain ℝ)} (h : final'.Perm final) (cfg : PlotConfig) (l : List String) (wide : Bool)
    {b : PlottingBase} (hs : sanitise cfg final .all (some l) wide = .ok b) :
    ∃ b', sanitise cfg final' .all (some l) wide = .ok b' ∧ b' = { b with chains := b'.chains } ∧ b'.chains.Perm b.chains := by
  simp only [sanitise, bind_ok_iff, pure_ok_iff] at hs ⊢
  obtain ⟨cs, hcs, d, hd, rfl⟩ := hs
  simp only [plotChains, pure_bind, pure_ok_iff] at hcs ⊢
  subst hcs
  have hp : ((final'.map Prod.snd).filter fun c => false || !c.skip).Perm ((final.map Prod.snd).filter fun c => false || !c.skip) := (h.map _).filter _
  exact ⟨_, ⟨_, rfl, d, extents_reorder hp _ _ _ hd, rfl⟩, rfl, hp⟩

theorem plotChains_reorder {final final' : List (String × Chain ℝ)} (h : final'.Perm final) (hn : (final.map Prod.fst).Nodup) {req : ChainReq ℝ}
    (hreq : req ≠ .all) (sk : Bool) : plotChains final' req sk = plotChains final req sk := by
  have hg : ∀ n, dictGet final' n = dictGet final n := fun n => by rw [dictGet, dictGet, lookup_of_perm hn h]
  cases req with
  | all => exact absurd rfl hreq
  | list l => simp only [plotChains, hg]
  | dict d => simp only [plotChains, hg]

theorem finalDict_names {h : Heap ℝ} {s : Consumer ℝ} (hn : (s.chains.map Prod.fst).Nodup) {d : List (String × Chain ℝ)}
    (hd : finalDict h s = .ok d) : (d.map Prod.fst).Nodup := by
  have key : ∀ {β : Type} (l : List (String × β)) (f : β → Option (Chain ℝ)),
      ((l.filterMap fun e => (f e.2).map fun c => (e.1, c)).map Prod.fst).Sublist (l.map Prod.fst) := by
    intro β l f
    induction l with
    | nil => exact .slnil
    | cons e l ih =>
      rw [List.filterMap_cons]
      cases f e.2 with
      | none => exact ih.cons _
      | some c => exact ih.cons_cons _
  have hcopy : ((copyChains h s).map Prod.fst).Nodup := hn.sublist (key s.chains fun r => h[r]?)
  unfold finalDict at hd
  cases hf : (finalChains h s).1 with
  | error e => rw [hf] at hd; cases hd
  | ok l =>
    rw [hf] at hd
    have hl : (l.map Prod.fst).Nodup := by
      unfold finalChains at hf
      dsimp only at hf
      cases hr : (finaliseLoop (numContourChains h s) s.override ((List.range (copyChains h s).length).map (h.length + ·)) 0
          (h ++ (copyChains h s).map Prod.snd)).1 with
      | error e => rw [hr] at hf; cases hf
      | ok u =>
        rw [hr] at hf
        cases hf
        rw [List.map_fst_zip (by simp)]
        exact hcopy
    simp only [bind, Except.bind, pure, Except.pure, Except.ok.injEq] at hd
    subst hd
    exact hl.sublist (key l fun r => (finalChains h s).2[r]?)

end requests

section pale

/-- A chain without its colour. -/
def Spec.pale (c : Chain ℝ) : Chain ℝ := c.withCfg (c.cfg.set ⟨.color, none⟩)

/-- All chains without their colours. -/
def Spec.paled (d : List (String × Chain ℝ)) : List (String × Chain ℝ) := d.map fun e => (e.1, pale e.2)

theorem pale_same {e e' : Chain ℝ} (h : SameButColour e e') : pale e' = pale e := by
  have : e'.cfg.set ⟨.color, none⟩ = e.cfg.set ⟨.color, none⟩ := by
    funext k
    by_cases hk : k = .color
    · subst hk
      simp [Cfg.set]
    · simp only [Cfg.set, Function.update_of_ne hk]
      exact h.2 k hk
  unfold pale
  rw [this, h.1]
  rfl

theorem plotChains_pale (final : List (String × Chain ℝ)) (req : ChainReq ℝ) (sk : Bool) :
    plotChains (paled final) req sk = (plotChains final req sk).map (List.map pale) := by
  have hg : ∀ n, dictGet (paled final) n = (dictGet final n).map pale := by
    intro n
    unfold dictGet paled
    induction final with
    | nil => rfl
    | cons e l ih =>
      rw [List.map_cons, List.lookup_cons, List.lookup_cons]
      cases n == e.1 with
      | true => rfl
      | false => exact ih
  have hf : ∀ cs : List (Chain ℝ), (cs.map pale).filter (fun c => sk || !c.skip) = (cs.filter fun c => sk || !c.skip).map pale := by
    intro cs
    rw [List.filter_map]
    rfl
  cases req with
  | all =>
    simp only [plotChains, pure_bind]
    change Except.ok _ = Except.ok _
    rw [← hf]
    simp only [paled, List.map_map]
    rfl
  | list l =>
    have := mapM_after (l := l) (r := pale) (fun r _ => hg (reqName r))
    simp only [plotChains, this, Res.bind_map, Res.map_bind, hf]
    rfl
  | dict d =>
    have := mapM_after (l := d) (r := pale) (fun r _ => hg r.2.name)
    simp only [plotChains, this, Res.bind_map, Res.map_bind, hf]
    rfl

theorem extents_pale (columns : List String) (cs : List (Chain ℝ)) (initial : List (String × ℝ × ℝ)) (wide : Bool) :
    customExtents columns (cs.map pale) initial wide = customExtents columns cs initial wide := by
  have : ∀ p, parameterExtents p wide (cs.map pale) = parameterExtents p wide cs := by
    intro p
    unfold parameterExtents
    rw [List.foldlM_map]
    rfl
  unfold customExtents
  simp only [this]

theorem columns_pale (columns : Option (List String)) (cs : List (Chain ℝ)) : sanitiseColumns columns (cs.map pale) = sanitiseColumns columns cs := by
  cases columns with
  | some l => rfl
  | none =>
    simp only [sanitiseColumns, List.foldl_map]
    rfl

theorem sanitise_pale (cfg : PlotConfig) (final : List (String × Chain ℝ)) (req : ChainReq ℝ) (columns : Option (List String)) (wide : Bool) :
    sanitise cfg (paled final) req columns wide =
      (sanitise cfg final req columns wide).map fun b => { b with chains := b.chains.map pale } := by
  simp only [sanitise, plotChains_pale, Res.bind_map, Res.map_bind, extents_pale, columns_pale]
  rfl

variable (lib : Lib) (cfg : PlotConfig) (truths : List (Truth ℝ)) (b : PlottingBase)

theorem filter_pale (q : Chain ℝ → Bool) (hq : ∀ c, q (pale c) = q c) (cs : List (Chain ℝ)) : (cs.map pale).filter q = (cs.filter q).map pale := by
  rw [List.filter_map]
  congr 2
  exact funext hq

theorem plotWalksBase_pale (pw pp lw : Bool) : plotWalksBase cfg truths pw pp lw { b with chains := b.chains.map pale } = plotWalksBase cfg truths pw pp lw b := by
  unfold plotWalksBase
  simp only [walkPanel, posteriorPanel, weightPanel, mapM_before, List.any_map]
  rfl

theorem plotDistributionsBase_pale (colWrap : Nat) :
    plotDistributionsBase lib cfg truths colWrap { b with chains := b.chains.map pale } = plotDistributionsBase lib cfg truths colWrap b := by
  have h1 : ∀ p, distPanel lib cfg { b with chains := b.chains.map pale } truths p = distPanel lib cfg b truths p := by
    intro p
    simp only [distPanel, dist_eq, mapM_before, filter_pale (fun c => !(!(c.cfg .plotContour) || decide (p ∉ c.plottingColumns))) fun _ => rfl, List.length_map]
    rfl
  unfold plotDistributionsBase
  simp only [h1]

theorem plotSummaryBase_pale (errorbar : Bool) :
    plotSummaryBase lib cfg truths errorbar { b with chains := b.chains.map pale } = plotSummaryBase lib cfg truths errorbar b := by
  have h1 : ∀ i c p, summaryCell lib cfg { b with chains := b.chains.map pale } truths errorbar i (pale c) p =
      summaryCell lib cfg b truths errorbar i c p := by
    intro i c p
    simp only [summaryCell, List.length_map]
    rfl
  unfold plotSummaryBase
  simp only [List.zipIdx_map, mapM_before, Prod.map, id, h1, List.zip_map_left, List.flatMap_map, List.length_map, List.isEmpty_map]
  rfl

end pale

section figures

/-- Final dictionaries for chains added in another order: permutations of each other, besides the colours. -/
theorem final_order {h : Heap ℝ} {s s' : Consumer ℝ} (ho : OtherOrder s s') {d : List (String × Chain ℝ)} (hd : finalDict h s = .ok d) :
    ∃ d', finalDict h s' = .ok d' ∧ (paled d').Perm (paled d) := by
  obtain ⟨h1, h2⟩ := C133_settings_partial (h := h) ho
  obtain ⟨d', hd'⟩ := h1.2 ⟨d, hd⟩
  obtain ⟨⟨d₀, hp, hF⟩, -⟩ := h2 d d' hd hd'
  have : paled d' = paled d₀ := by
    clear hp hd'
    induction hF with
    | nil => rfl
    | cons h1 _ ih =>
      simp only [paled, List.map_cons] at ih ⊢
      rw [ih, h1.1, pale_same h1.2]
  exact ⟨d', hd', by rw [this]; exact hp.map _⟩

/-- **C133, partial** (figures). A consumer to which the chains were added in another order draws the same walks and distributions of all chains
and given parameters, up to the order in which the chains of a panel are drawn and up to automatic colours, which are no part of a call. Missing:
default parameters, which are listed in the order of the chains; corner plots see `C133_corner_partial`. -/
theorem C133_figures_partial (lib : Lib) (cfg : PlotConfig) (truths : List (Truth ℝ)) {h : Heap ℝ} {s s' : Consumer ℝ} (ho : OtherOrder s s')
    (columns : List String) (plotWeights plotPosterior logWeight : Bool) (colWrap : Nat)
    (draw : List (String × Chain ℝ) → ChainReq ℝ → Res Fig)
    (hd : draw ∈ [fun d r => plotWalks cfg truths plotWeights plotPosterior logWeight d r (some columns),
      fun d r => plotDistributions lib cfg truths colWrap d r (some columns)])
    {g : Fig} (hg : (do draw (← finalDict h s) .all) = .ok g) :
    ∃ g', (do draw (← finalDict h s') .all) = .ok g' ∧ SameShown g g' := by
  obtain ⟨d, hfd, hg⟩ := bind_ok_iff.1 hg
  obtain ⟨d', hfd', hp⟩ := final_order ho hfd
  rw [hfd']
  change ∃ g', draw d' .all = .ok g' ∧ _
  simp only [List.mem_cons, List.not_mem_nil, or_false] at hd
  have key : ∀ F : PlottingBase → Res Fig, (∀ b, F { b with chains := b.chains.map pale } = F b) →
      (∀ {b b' : PlottingBase}, b' = { b with chains := b'.chains } → b'.chains.Perm b.chains → ∀ {g}, F b = .ok g → ∃ g', F b' = .ok g' ∧ SameShown g g') →
      (do F (← sanitise cfg d .all (some columns) true)) = .ok g →
      ∃ g', (do F (← sanitise cfg d' .all (some columns) true)) = .ok g' ∧ SameShown g g' := by
    intro F h1 h2 h3
    have h4 : ∀ d, (do F (← sanitise cfg d .all (some columns) true)) = (do F (← sanitise cfg (paled d) .all (some columns) true)) := by
      intro d
      simp only [sanitise_pale, Res.bind_map, h1]
    rw [h4] at h3 ⊢
    obtain ⟨b, hb, h3⟩ := bind_ok_iff.1 h3
    obtain ⟨b', h5, h6, h7⟩ := sanitise_reorder hp cfg columns true hb
    obtain ⟨g', h8, h9⟩ := h2 h6 h7 h3
    exact ⟨g', bind_ok_iff.2 ⟨b', h5, h8⟩, h9⟩
  rcases hd with rfl | rfl
  · exact key (plotWalksBase cfg truths _ _ _) (fun b => plotWalksBase_pale cfg truths b _ _ _)
      (fun h1 h2 _ h3 => plotWalksBase_reorder h1 h2 cfg truths _ _ _ h3) hg
  · exact key (plotDistributionsBase lib cfg truths colWrap) (fun b => plotDistributionsBase_pale lib cfg truths b colWrap)
      (fun h1 h2 _ h3 => plotDistributionsBase_reorder h1 h2 lib cfg truths colWrap h3) hg

/-- **C133, partial** (corner plots). If every chain is given a colour, a consumer to which the chains were added in another order draws the same
corner plot of all chains and given parameters, up to the order in which the chains of a panel are drawn. Missing: automatic colours, whose
shades are computed for contours, and default parameters. -/
theorem C133_corner_partial (lib : Lib) (cfg : PlotConfig) (truths : List (Truth ℝ)) {h : Heap ℝ} {s s' : Consumer ℝ} (ho : OtherOrder s s')
    (hcol : ∀ e ∈ copyChains h s, e.2.cfg .color ≠ none ∨ ∃ o, s.override = some o ∧ .color ∈ o.userSet) (columns : List String)
    {g : Fig} (hg : (do plot lib cfg truths (← finalDict h s) .all (some columns)) = .ok g) :
    ∃ g', (do plot lib cfg truths (← finalDict h s') .all (some columns)) = .ok g' ∧ SameShown g g' := by
  obtain ⟨d, hfd, hg⟩ := bind_ok_iff.1 hg
  obtain ⟨h1, h2⟩ := C133_settings_partial (h := h) ho
  obtain ⟨d', hfd'⟩ := h1.2 ⟨d, hfd⟩
  have hp : d'.Perm d := (h2 d d' hfd hfd').2 hcol
  rw [hfd']
  change ∃ g', plot lib cfg truths d' .all (some columns) = .ok g' ∧ _
  obtain ⟨b, hb, hg⟩ := bind_ok_iff.1 hg
  obtain ⟨b', hs, h3, h4⟩ := sanitise_reorder hp cfg columns true hb
  obtain ⟨g', h5, h6⟩ := plotBase_reorder h3 h4 lib cfg truths hg
  exact ⟨g', bind_ok_iff.2 ⟨b', hs, h5⟩, h6⟩

/-- **C133** (figures of chains asked for). If the chains to draw are asked for by name or object, walks, distributions and the summary plot do not depend on the order of
adding at all, up to automatic colours, which are no part of a call; error for error. -/
theorem C133_asked (lib : Lib) (cfg : PlotConfig) (truths : List (Truth ℝ)) {h : Heap ℝ} {s s' : Consumer ℝ}
    (ho : OtherOrder s s') (hn : (s.chains.map Prod.fst).Nodup) {req : ChainReq ℝ} (hreq : req ≠ .all)
    (columns : Option (List String)) (plotWeights plotPosterior logWeight errorbar : Bool) (colWrap : Nat)
    (draw : List (String × Chain ℝ) → Res Fig)
    (hd : draw ∈ [fun d => plotWalks cfg truths plotWeights plotPosterior logWeight d req columns,
      fun d => plotDistributions lib cfg truths colWrap d req columns,
      fun d => plotSummary lib cfg truths errorbar d req columns])
    {d : List (String × Chain ℝ)} (hfd : finalDict h s = .ok d) : (do draw (← finalDict h s')) = draw d := by
  obtain ⟨d', hfd', hp⟩ := final_order ho hfd
  have hnd : ((paled d).map Prod.fst).Nodup := by
    have := finalDict_names hn hfd
    simp only [paled, List.map_map]
    exact this
  rw [hfd']
  change draw d' = _
  have key : ∀ (F : PlottingBase → Res Fig), (∀ b, F { b with chains := b.chains.map pale } = F b) → ∀ wide,
      (do F (← sanitise cfg d' req columns wide)) = (do F (← sanitise cfg d req columns wide)) := by
    intro F h1 wide
    have h4 : ∀ d, (do F (← sanitise cfg d req columns wide)) = (do F (← sanitise cfg (paled d) req columns wide)) := by
      intro d
      simp only [sanitise_pale, Res.bind_map, h1]
    rw [h4, h4 d]
    simp only [sanitise, plotChains_reorder hp hnd hreq]
  simp only [List.mem_cons, List.not_mem_nil, or_false] at hd
  rcases hd with rfl | rfl | rfl
  · exact key (plotWalksBase cfg truths _ _ _) (fun b => plotWalksBase_pale cfg truths b _ _ _) _
  · exact key (plotDistributionsBase lib cfg truths colWrap) (fun b => plotDistributionsBase_pale lib cfg truths b colWrap) _
  · exact key (plotSummaryBase lib cfg truths errorbar) (fun b => plotSummaryBase_pale lib cfg truths b errorbar) _

/-- **C133, partial** (corner plots and legends of chains asked for). If every chain is given a colour, neither depends on the order of adding when
the chains are asked for by name or object; error for error. Missing: automatic colours. -/
theorem C133_asked_partial (lib : Lib) (lc : LegendConfig) (cfg : PlotConfig) (truths : List (Truth ℝ)) {h : Heap ℝ} {s s' : Consumer ℝ}
    (ho : OtherOrder s s') (hn : (s.chains.map Prod.fst).Nodup)
    (hcol : ∀ e ∈ copyChains h s, e.2.cfg .color ≠ none ∨ ∃ o, s.override = some o ∧ .color ∈ o.userSet) {req : ChainReq ℝ} (hreq : req ≠ .all)
    (columns : Option (List String)) {d : List (String × Chain ℝ)} (hfd : finalDict h s = .ok d) :
    (do plot lib cfg truths (← finalDict h s') req columns) = plot lib cfg truths d req columns ∧
    (do plotLegend lc cfg (← sanitise cfg (← finalDict h s') req columns true)) =
      (do plotLegend lc cfg (← sanitise cfg d req columns true)) := by
  obtain ⟨h1, h2⟩ := C133_settings_partial (h := h) ho
  obtain ⟨d', hfd'⟩ := h1.2 ⟨d, hfd⟩
  have hp : d'.Perm d := (h2 d d' hfd hfd').2 hcol
  rw [hfd']
  change plot lib cfg truths d' req columns = _ ∧ (do plotLegend lc cfg (← sanitise cfg d' req columns true)) = _
  simp only [plot, sanitise, plotChains_reorder hp (finalDict_names hn hfd) hreq, and_self]

/-- Two chains with given colours, added in both orders: the panel of weights shows the walks of both. -/
example : ∃ (h : Heap ℝ) (s s' : Consumer ℝ) (g g' : Fig), s'.chains ≠ s.chains ∧ OtherOrder s s' ∧ (s.chains.map Prod.fst).Nodup ∧
    (∀ e ∈ copyChains h s, e.2.cfg .color ≠ none ∨ ∃ o, s.override = some o ∧ .color ∈ o.userSet) ∧
    (do plotWalks {} [] true false false (← finalDict h s) .all (some [])) = .ok g ∧
    (do plotWalks {} [] true false false (← finalDict h s') .all (some [])) = .ok g' ∧ SameShown g g' ∧
    ∃ calls, ((0, 0), calls) ∈ g.panels ∧ .walk "c" [1, 1] ∈ calls ∧ .walk "d" [1, 2] ∈ calls := by
  have mk : ∀ (w : ℝ) (name : String), 0 < w → ∃ c : Chain ℝ, c.name = name ∧ c.weights = .ok [1, w] ∧ c.samples.empty = false ∧
      c.cfg .plotContour = true ∧ c.cfg .color ≠ none := by
    intro w name hpos
    let fr : Frame ℝ := { index := [.int 0, .int 1], cols := [("a", [1, 2]), ("weight", [1, w])] }
    obtain ⟨c, -, hsam, hw, -, -, -, -, hname, hcfg⟩ :=
      plain_chain_cfg false [] rfl
        (by change (0 : ℝ) ≤ 6827 / 10000 ∧ (6827 / 10000 : ℝ) ≤ 1; constructor <;> norm_num)
        (by change (1 : ℝ) ≤ 10; norm_num) rfl rfl (by intro h; cases h) fr ⟨by simp [fr], by simp [fr]⟩
        (by simp [fr]) (w := [1, w]) rfl (by simp [hpos]) name 1 le_rfl (one_dvd _)
    refine ⟨c.withCfg (c.cfg.set ⟨.color, some "#ff0000"⟩), hname, ?_, ?_, ?_, ?_⟩
    · change c.samples.get c.weightColumn = _
      rw [hsam, hw]
      rfl
    · change c.samples.empty = false
      rw [hsam]
      rfl
    · change (c.cfg.set ⟨.color, some "#ff0000"⟩) .plotContour = true
      rw [hcfg]
      rfl
    · change (c.cfg.set ⟨.color, some "#ff0000"⟩) .color ≠ none
      simp [Cfg.set]
  obtain ⟨c, hcn, hcw, hce, hcc, hcl⟩ := mk 1 "c" one_pos
  obtain ⟨d, hdn, hdw, hde, hdc, hdl⟩ := mk 2 "d" two_pos
  set s : Consumer ℝ := { chains := [("c", 0), ("d", 1)] } with hs
  set s' : Consumer ℝ := { chains := [("d", 1), ("c", 0)] } with hs'
  have ho : OtherOrder s s' := ⟨.swap _ _ _, rfl⟩
  have hcol : ∀ e ∈ copyChains [c, d] s, e.2.cfg .color ≠ none ∨ ∃ o, s.override = some o ∧ .color ∈ o.userSet := by
    simp [copyChains, hs, hcl, hdl]
  have hco : chainsOf [c, d] s = [c, d] := by simp [chainsOf, copyChains, hs]
  have hfd : ∃ g g', finalDict [c, d] s = .ok [("c", c.withCfg g), ("d", d.withCfg g')] ∧ g .plotContour = true ∧ g' .plotContour = true := by
    rw [finalDict_eq _ _ (by rw [hco]; exact le_trans (List.length_filter_le _ _) (by simp)), hco]
    simp only [resolvedChains, copyChains, hs]
    refine ⟨_, _, rfl, ?_, ?_⟩
    · rw [← hcc]; exact resolved_own _ _ _ _ _ rfl
    · rw [← hdc]; exact resolved_own _ _ _ _ _ rfl
  obtain ⟨g, g', hfd, hg, hg'⟩ := hfd
  have hsk : (c.withCfg g).skip = false := by
    unfold Chain.skip
    rw [show (c.withCfg g).cfg .plotContour = true from hg, show (c.withCfg g).samples.empty = false from hce]
    rfl
  have hsk' : (d.withCfg g').skip = false := by
    unfold Chain.skip
    rw [show (d.withCfg g').cfg .plotContour = true from hg', show (d.withCfg g').samples.empty = false from hde]
    rfl
  have ht : ∀ w : ℝ, thin [1, w] = [1, w] := by
    intro w
    rw [thin, if_neg]
    unfold maxPoints
    simp
  have hfig : ∃ fig calls, (do plotWalks {} [] true false false (← finalDict [c, d] s) .all (some [])) = .ok fig ∧
      ((0, 0), calls) ∈ fig.panels ∧ .walk "c" [1, 1] ∈ calls ∧ .walk "d" [1, 2] ∈ calls := by
    rw [hfd]
    have h1 : (c.withCfg g).weights = .ok [1, 1] := hcw
    have h2 : (d.withCfg g').weights = .ok [1, 2] := hdw
    have h3 : (c.withCfg g).name = "c" := hcn
    have h4 : (d.withCfg g').name = "d" := hdn
    simp [plotWalks, sanitise, plotChains, hsk, hsk', sanitiseColumns, customExtents, sanitiseBlinds, plotWalksBase, weightPanel,
      h1, h2, h3, h4, ht, plotWalk, walkLim, ensure, bind, Except.bind, pure, Except.pure, show List.range 1 = [0] from rfl]
  obtain ⟨fig, calls, hf, hm, hcall⟩ := hfig
  obtain ⟨fig', hf', hsame⟩ := C133_figures_partial ⟨fun _ _ _ => ∅, fun _ => [], []⟩ {} [] ho [] true false false 4
    (fun d r => plotWalks {} [] true false false d r (some [])) (by simp) hf
  exact ⟨[c, d], s, s', fig, fig', by simp [hs, hs'], ho, by simp [hs], hcol, hf, hf', hsame, calls, hm, hcall⟩

end figures

end CC
