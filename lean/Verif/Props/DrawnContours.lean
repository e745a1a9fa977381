import Verif.Model.Figure
import Verif.Props.Contours
import Verif.Props.Histogram2d
import Verif.Props.Levels
import Verif.Props.Axes
import Verif.Props.Shades

/-! # C79: the contours that are drawn -/

namespace CC
open Spec

/-- Density and contour value of all cells of a surface with `m` cells along the horizontal and `n` cells along the vertical
axis, the densities listed by columns of the panel and the contour values by its rows. Empty cells count as nearly empty. -/
noncomputable def Spec.surfaceCells (m n : Nat) (density vals : List (List ℝ)) : List (ℝ × ℝ) :=
  (List.range m).flatMap fun i => (List.range n).map fun j =>
    (if cell density i j = 0 then 1 / 10 ^ 16 else cell density i j, cell vals j i)

theorem rect_eq {m n : Nat} {h : List (List ℝ)} (hr : Rect m n h) :
    h = (List.range m).map fun i => (List.range n).map fun j => cell h i j := by
  refine rect_ext hr ⟨by simp, fun r hm => ?_⟩ fun i hi j hj => ?_
  · obtain ⟨i, -, rfl⟩ := List.mem_map.1 hm
    simp
  · conv_rhs => rw [cell, getD_map_range _ _ hi, getD_map_range _ _ hj]

theorem rect_flatten {m n : Nat} {h : List (List ℝ)} (hr : Rect m n h) :
    h.flatten = ((List.range m).flatMap fun i => (List.range n).map fun j => (i, j)).map fun ij => cell h ij.1 ij.2 := by
  conv_lhs => rw [rect_eq hr]
  rw [List.map_flatMap, ← List.flatMap_def]
  simp [Function.comp_def]

/-- The surface is a rectangle of nonnegative densities. -/
theorem smoothedHistogram2d_valid {near : NearFn} (hn : NearOk near) {c : Chain ℝ} (hwf : c.samples.WF) {w : List ℝ}
    (hw : c.weights = .ok w) (hpos : ∀ x ∈ w, 0 < x) {px py : String} {r : Hist2d}
    (hr : smoothedHistogram2d near c px py = .ok r) :
    Rect r.xs.length r.ys.length r.hist ∧ ∀ i < r.xs.length, ∀ j < r.ys.length, 0 ≤ cell r.hist i j := by
  by_cases hk : c.cfg .kde = (0 : ℝ)
  · obtain ⟨x, y, w', ex, ey, raw, -, -, hw', -, -, -, -, rraw, rhist, hraw, h0, h1⟩ := C75_cells near c hwf hk px py r hr
    rw [hw] at hw'
    cases hw'
    have hcell : ∀ i < r.xs.length, ∀ j < r.ys.length, 0 ≤ cell raw i j := by
      intro i hi j hj
      rw [hraw i hi j hj]
      refine Real.rpow_nonneg (Finset.sum_nonneg fun k _ => ?_) _
      split
      · rw [List.getD_eq_getElem?_getD]
        cases e : w[k]? with
        | none => exact le_rfl
        | some v => exact (hpos v (List.mem_of_getElem? e)).le
      · exact le_rfl
    refine ⟨rhist, fun i hi j hj => ?_⟩
    by_cases hs : c.smoothValue = 0
    · rw [h0 hs]
      exact hcell i hi j hj
    · rw [h1 hs reflectIndex (fun n i hn => reflectIndex_isMirror hn i) i hi j hj]
      have hg : ∀ d, 0 ≤ gaussWeight c.smoothValue d := fun d =>
        div_nonneg (Real.exp_pos _).le (Finset.sum_nonneg fun e _ => (Real.exp_pos _).le)
      refine Finset.sum_nonneg fun a _ => Finset.sum_nonneg fun b _ => mul_nonneg (mul_nonneg (hg a) (hg b)) ?_
      exact hcell _ (reflectIndex_isMirror (by omega) _).1 _ (reflectIndex_isMirror (by omega) _).1
  · obtain ⟨x, y, w', b, h0, h1, -, -, -, -, -, -, hK⟩ := (smoothedHistogram2d_kde_ok_iff hk).1 hr
    obtain ⟨x0, x1, y0, y1, v, -, -, -, -, hv, v', hv', rfl⟩ := kde2d_ok_iff.1 hK
    obtain ⟨ly, lw, hF⟩ := megKde2d_ok hv
    obtain ⟨rv, hc⟩ := cell_of_forall₂ hF
    obtain ⟨-, rfl⟩ := powRows_ok_iff.1 hv'
    refine ⟨powRows_rect rv c.power, fun i hi j hj => ?_⟩
    have h0 : 0 ≤ cell v i j := by
      obtain ⟨-, htr, -, s, -, e⟩ := kdeAt_spec hn (hc i hi j hj)
      rw [e]
      exact Finset.sum_nonneg fun i _ => mul_nonneg (htr.nonneg i) (Real.exp_pos _).le
    have hvi : i < v.length := by rw [rv.rows]; exact hi
    have : cell (v.map (List.map (· ^ c.power))) i j = cell v i j ^ c.power := by
      unfold cell
      rw [getD_map_lt v _ hvi [] [], getD_map_lt _ _ (by rw [rv.row hi]; exact hj) 0 0]
    simp only at this ⊢
    rw [this]
    exact Real.rpow_nonneg h0 _

theorem increasing_iff_steps {l : List ℝ} :
    ((List.zipWith (fun a b => decide (a < b)) l l.tail).all id) = true ↔ l.Pairwise (· < ·) := by
  induction l with
  | nil => simp
  | cons a l ih =>
    cases l with
    | nil => simp
    | cons b l =>
      simp only [List.tail_cons, List.zipWith_cons_cons, List.all_cons, id, Bool.and_eq_true, decide_eq_true_eq] at ih ⊢
      rw [ih, List.pairwise_cons (a := a)]
      constructor
      · rintro ⟨h1, h2⟩
        refine ⟨fun x hx => ?_, h2⟩
        rcases List.mem_cons.1 hx with rfl | hx
        · exact h1
        · exact h1.trans ((List.pairwise_cons.1 h2).1 x hx)
      · rintro ⟨h1, h2⟩
        exact ⟨h1 b (by simp), h2⟩

theorem contour_nonempty {r : Hist2d} (rh : Rect r.xs.length r.ys.length r.hist) (hx2 : 2 ≤ r.xs.length) (hy2 : 2 ≤ r.ys.length) :
    r.hist.flatten ≠ [] := by
  intro e
  have := congrArg List.length e
  rw [rect_flatten rh] at this
  simp only [List.length_map, List.length_flatMap, List.length_range, List.map_const', List.sum_replicate,
    List.length_nil, smul_eq_mul, mul_eq_zero] at this
  omega

theorem rect_nonneg {m n : Nat} {h : List (List ℝ)} (rh : Rect m n h) (hnn : ∀ i < m, ∀ j < n, 0 ≤ cell h i j) :
    ∀ row ∈ h, ∀ v ∈ row, 0 ≤ v := by
  intro row hrow v hv
  obtain ⟨i, hi, rfl⟩ := List.getElem_of_mem hrow
  obtain ⟨j, hj, rfl⟩ := List.getElem_of_mem hv
  have hi' : i < m := by rw [← rh.rows]; exact hi
  have hj' : j < n := by rw [← rh.cols _ (List.getElem_mem hi)]; exact hj
  have := hnn i hi' j hj'
  rw [cell, List.getD_eq_getElem?_getD (l := h), List.getElem?_eq_getElem hi, Option.getD_some,
    List.getD_eq_getElem?_getD, List.getElem?_eq_getElem hj, Option.getD_some] at this
  exact this

/-- **C79**. The contours of a chain are drawn at the cells of its two-dimensional histogram: the horizontal coordinates
belong to the first, the vertical ones to the second parameter; the value in row `j` and column `i` of the surface belongs to
the cell with first coordinate `i` and second coordinate `j`; and the cells with values up to any level are the highest
density region of that mass, so that each contour encloses the mass of its level. -/
theorem C79_contour {lib : Lib} (hn : NearOk lib.near) (ha : ArgsortOk lib.argsort) {cfg : PlotConfig} {c : Chain ℝ}
    (hwf : c.samples.WF) {w : List ℝ} (hw : c.weights = .ok w) (hpos : ∀ x ∈ w, 0 < x) {px py : String} {call : Call}
    (h : plotContour lib cfg c px py = .ok call) :
    ∃ r vals levels, smoothedHistogram2d lib.near c px py = .ok r ∧
      call = .contour c.name px py r.xs r.ys vals levels ∧ Rect r.ys.length r.xs.length vals ∧
      HighestDensity (surfaceCells r.xs.length r.ys.length r.hist vals) ∧
      levels.Pairwise (· < ·) ∧
      ((∀ s ∈ (c.cfg .sigmas : List ℝ), 0 ≤ s) → levels = (c.cfg .sigmas : List ℝ).map (enclosed cfg.sigma2d)) := by
  simp only [plotContour, bind_ok_iff, pure_ok_iff, ensure_ok_iff, Bool.and_eq_true, decide_eq_true_eq] at h
  obtain ⟨_, -, r, hr, vals, hvals, -, ⟨hx2, hy2⟩, -, -, -, hlev, rfl⟩ := h
  obtain ⟨rh, hnn⟩ := smoothedHistogram2d_valid hn hwf hw hpos hr
  have hfl := rect_flatten rh
  obtain ⟨vals', hv, hlen, hd⟩ := C51_highest_density ha (contour_nonempty rh hx2 hy2) (rect_nonneg rh hnn)
  rw [hvals] at hv
  cases hv
  have rv : Rect r.xs.length r.ys.length vals := by
    have hl : vals.length = r.hist.length := by simpa using congrArg List.length hlen
    refine ⟨by rw [hl, rh.rows], fun row hrow => ?_⟩
    have : row.length ∈ vals.map List.length := List.mem_map_of_mem hrow
    rw [hlen] at this
    obtain ⟨row', hrow', e⟩ := List.mem_map.1 this
    rw [← e, rh.cols _ hrow']
  refine ⟨r, _, _, hr, rfl, transpose_rect rv.rows, ?_, ?_, ?_⟩
  · have : surfaceCells r.xs.length r.ys.length r.hist (transpose r.ys.length vals) =
        (r.hist.flatten.map fun v => if v = 0 then 1 / 10 ^ 16 else v).zip vals.flatten := by
      rw [hfl, rect_flatten rv, List.map_map, List.zip_map', List.map_flatMap]
      unfold surfaceCells
      refine List.flatMap_congr fun i hi => ?_
      rw [List.map_map]
      refine List.map_congr_left fun j hj => ?_
      simp only [Function.comp_apply]
      rw [cell_transpose rv.rows (List.mem_range.1 hi) (List.mem_range.1 hj)]
    rw [this]
    exact hd
  · exact increasing_iff_steps.1 hlev
  · exact fun hs => C52_level_is_mass _ hs

/-- **C88, partial**. Surfaces of at least two by two cells are drawn, for increasing nonnegative sigmas, two or more of them
or a single one that is not filled, opacities up to 1, colours of six hex digits and gradients between -2 and 10. -/
theorem C88_drawn_partial {lib : Lib} (hn : NearOk lib.near) (ha : ArgsortOk lib.argsort) {cfg : PlotConfig} {c : Chain ℝ}
    (hwf : c.samples.WF) {w : List ℝ} (hw : c.weights = .ok w) (hpos : ∀ x ∈ w, 0 < x) {px py : String} {r : Hist2d}
    (hr : smoothedHistogram2d lib.near c px py = .ok r) (hx2 : 2 ≤ r.xs.length) (hy2 : 2 ≤ r.ys.length)
    (hs : ∀ s ∈ (c.cfg .sigmas : List ℝ), 0 ≤ s) (hi : (c.cfg .sigmas : List ℝ).Pairwise (· < ·))
    (hne : (c.cfg .sigmas : List ℝ) ≠ [])
    (hfill : c.cfg .shade = false ∨ 2 ≤ (c.cfg .sigmas : List ℝ).length ∧ ∃ a ≤ 1, (c.cfg .shadeAlpha : Flt ℝ) = .fin a)
    (hcol : ∀ s, c.cfg .color = some s → ∃ p, rgb s = some p)
    (h1 : (-2 : ℝ) < c.cfg .shadeGradient) (h2 : (c.cfg .shadeGradient : ℝ) < 10) :
    ∃ call, plotContour lib cfg c px py = .ok call := by
  obtain ⟨rh, hnn⟩ := smoothedHistogram2d_valid hn hwf hw hpos hr
  obtain ⟨vals, hv, -, -⟩ := C51_highest_density ha (contour_nonempty rh hx2 hy2) (rect_nonneg rh hnn)
  have hl := (C52_levels cfg.sigma2d hs).2.1 hi
  have hlen : (getLevels cfg.sigma2d (c.cfg .sigmas : List ℝ)).length = (c.cfg .sigmas : List ℝ).length := by
    unfold getLevels; split <;> simp
  obtain ⟨cols, hcols⟩ := contourColours_exists hcol h1 h2 (num := (getLevels cfg.sigma2d (c.cfg .sigmas : List ℝ)).length)
    (by rw [hlen]; exact List.length_pos_iff.2 hne)
  have hfl : c.fillable (getLevels cfg.sigma2d (c.cfg .sigmas : List ℝ)).length := by
    intro hf
    rcases hfill with hfill | ⟨h2, a, ha, he⟩
    · rw [Chain.filled, hfill] at hf
      exact absurd hf.1 (by simp)
    · rw [he, hlen]
      exact ⟨ha, h2⟩
  refine ⟨.contour c.name px py r.xs r.ys (transpose r.ys.length vals) (getLevels cfg.sigma2d (c.cfg .sigmas)), ?_⟩
  simp only [plotContour, bind_ok_iff, pure_ok_iff, ensure_ok_iff, Bool.and_eq_true, decide_eq_true_eq]
  exact ⟨cols, hcols, r, hr, vals, hv, (), ⟨hx2, hy2⟩, (), hfl, (), increasing_iff_steps.2 hl, rfl⟩

/-- **C88, violated**: without sigmas there is an IndexError for the first colour. -/
theorem C88_violated_empty {lib : Lib} {cfg : PlotConfig} {c : Chain ℝ} (hs : (c.cfg .sigmas : List ℝ) = [])
    (hcol : ∀ s, c.cfg .color = some s → ∃ p, rgb s = some p) (px py : String) :
    plotContour lib cfg c px py = .error .index := by
  obtain ⟨base, hb⟩ : ∃ base, Colors.format (c.cfg .color) = .ok base := by
    cases h : (c.cfg .color : Option String) with
    | none => exact ⟨_, rfl⟩
    | some s =>
      obtain ⟨⟨r, g, b⟩, hp⟩ := hcol s h
      obtain ⟨r1, r0, g1, g0, b1, b0, x1, x0, y1, y0, z1, z0, hs, -⟩ := rgb_some hp
      exact ⟨s, format_hash (by rw [hs]; rfl)⟩
  have hl : (getLevels cfg.sigma2d (c.cfg .sigmas : List ℝ)).length = 0 := by
    rw [hs]; unfold getLevels; split <;> rfl
  have hz : shadeFactors (c.cfg .shadeGradient : ℝ) 0 = [] := by
    unfold shadeFactors
    dsimp only
    split_ifs <;> rfl
  have : contourColours c 0 = .error .index := by
    unfold contourColours scaleColours
    rw [hb, hz]
    rfl
  simp only [plotContour]
  rw [hl, this]
  rfl

/-- **C88, violated**: filled contours of a single sigma, and of sigmas that do not increase, are refused. -/
theorem C88_violated_sigmas {lib : Lib} {cfg : PlotConfig} {c : Chain ℝ} (px py : String)
    (h : (∃ s, (c.cfg .sigmas : List ℝ) = [s]) ∧ c.filled ∨
      (∀ s ∈ (c.cfg .sigmas : List ℝ), 0 ≤ s) ∧ ¬ (c.cfg .sigmas : List ℝ).Pairwise (· < ·)) :
    ¬ ∃ call, plotContour lib cfg c px py = .ok call := by
  rintro ⟨call, hc⟩
  simp only [plotContour, bind_ok_iff, pure_ok_iff, ensure_ok_iff, Bool.and_eq_true, decide_eq_true_eq] at hc
  obtain ⟨_, -, r, hr, vals, hvals, -, -, -, hf, -, hlev, -⟩ := hc
  rcases h with ⟨⟨s, hs⟩, hfl⟩ | ⟨hnn, hp⟩
  · have := (hf hfl).2
    rw [hs] at this
    unfold getLevels at this
    split at this <;> simp at this
  · exact hp ((C52_levels cfg.sigma2d hnn).2.2 (increasing_iff_steps.1 hlev))

/-- **C88, violated** on accepted chains: no sigmas, one sigma, decreasing sigmas. -/
theorem C88_violated_chains (sigmas : List ℝ) (hs : sigmas = [] ∨ sigmas = [1] ∨ sigmas = [2, 1]) :
    ∃ c : Chain ℝ, Chain.make { samples := stepFrame.toRaw, name := "step", grid := true, config := [⟨.sigmas, sigmas⟩] } = .ok c ∧
      ∀ (lib : Lib) (cfg : PlotConfig) (px py : String), ¬ ∃ call, plotContour lib cfg c px py = .ok call := by
  obtain ⟨c, hc, -, -, -, -, -, -, -, hcfg⟩ :=
    plain_chain_cfg (K := ℝ) true [⟨.sigmas, sigmas⟩] rfl
      (by change (0 : ℝ) ≤ 6827 / 10000 ∧ (6827 / 10000 : ℝ) ≤ 1; constructor <;> norm_num)
      (by change (1 : ℝ) ≤ 10; norm_num) rfl rfl (by intro h; cases h) stepFrame stepFrame_wf
      (by simp [stepFrame]) (w := [1, 1, 1, 1]) rfl (by simp) "step" 1 le_rfl (one_dvd _)
  have hsig : (c.cfg .sigmas : List ℝ) = sigmas := by rw [hcfg]; rfl
  have hfl : c.filled := by
    unfold Chain.filled
    rw [hcfg]
    exact ⟨rfl, (by norm_num : (0 : ℝ) < 1 / 2)⟩
  have hco : (c.cfg .color : Option String) = none := by rw [hcfg]; rfl
  refine ⟨c, hc, fun lib cfg px py => ?_⟩
  rcases hs with rfl | rfl | rfl
  · rw [C88_violated_empty hsig (by rw [hco]; simp)]
    rintro ⟨_, h⟩
    cases h
  · exact C88_violated_sigmas px py (.inl ⟨⟨1, hsig⟩, hfl⟩)
  · refine C88_violated_sigmas px py (.inr ⟨by rw [hsig]; simp, ?_⟩)
    rw [hsig]
    norm_num

/-- **C79** for `plot`: the contours in a panel are those of the chains shown, of the column along the horizontal axis against
the column along the vertical axis. -/
theorem C79_plot {lib : Lib} {cfg : PlotConfig} {truths : List (Truth ℝ)} {b : PlottingBase} {fig : Fig}
    (h : plotBase lib cfg truths b = .ok fig) {i j : Nat} {calls : List Call} (hc : ((i, j), calls) ∈ fig.panels)
    {name px py : String} {xs ys levels : List ℝ} {vals : List (List ℝ)}
    (hcall : .contour name px py xs ys vals levels ∈ calls) :
    j ≤ i ∧ b.columns[j]? = some px ∧ b.columns[i + if cfg.plotHists then 0 else 1]? = some py ∧
    ∃ c ∈ b.chains, c.cfg .plotContour = true ∧ plotContour lib cfg c px py = .ok (.contour name px py xs ys vals levels) := by
  have noTruth : ∀ (filled : List String) (px' py' : Option String),
      .contour name px py xs ys vals levels ∉ plotTruths filled truths px' py' := by
    intro filled px' py' hm
    have h1 : items (plotTruths filled truths px' py') ≠ [] := by
      intro e
      exact absurd (List.mem_filterMap.2 ⟨_, hm, rfl⟩ : Item.contour name px py ∈ items (plotTruths filled truths px' py'))
        (by change _ ∉ items _; rw [e]; simp)
    exact h1 (plotTruths_marks _ _ _ _).1
  have hcase := (plot_cases h hc).2.2
  have noSetup : ∀ s : List Call, (∀ c ∈ s, isSetup c) → .contour name px py xs ys vals levels ∉ s := by
    intro s hs hm
    have := (hs _ hm).1
    cases this
  rcases hcase with ⟨-, rfl⟩ | ⟨hlt, hij, px', py', s, d, bars, ex, ey, hs, hd, rfl⟩ | ⟨hh, rfl, p', s, r, ep, hs, hr, rfl⟩
  · simp at hcall
  · rcases List.mem_append.1 hcall with hm | hm
    · exact absurd hm (noSetup s (trianglePanel_setup hs))
    rcases List.mem_append.1 hm with hm | hm
    · simp only [plotSurface, bind_ok_iff, pure_ok_iff, Prod.mk.injEq] at hd
      obtain ⟨rs, hrs, rfl, -⟩ := hd
      obtain ⟨q, hq, hm'⟩ := List.mem_flatMap.1 hm
      obtain ⟨c, hcm, hch⟩ := mapM_ok_mem_right hrs hq
      unfold surfaceChain at hch
      split at hch
      · cases hch; cases hm'
      simp only [bind_ok_iff] at hch
      obtain ⟨⟨cloud, bars'⟩, h1, contour, h2, point, h3, hch⟩ := hch
      rw [pure_ok_iff] at hch
      subst hch
      rcases List.mem_append.1 hm' with hm' | hm'
      · rcases List.mem_append.1 hm' with hm' | hm'
        · unfold cloudCalls at h1
          split at h1
          · simp only [bind_ok_iff, pure_ok_iff] at h1
            obtain ⟨r, hr, e⟩ := h1
            cases e
            simp only [plotCloud, bind_ok_iff, pure_ok_iff] at hr
            obtain ⟨x, -, y, -, sk, -, cd, -, rfl⟩ := hr
            cases List.mem_singleton.1 hm'
          · cases h1; cases hm'
        · unfold contourCalls at h2
          split at h2
          · rename_i hpc
            simp only [bind_ok_iff, pure_ok_iff] at h2
            obtain ⟨call, hcl, rfl⟩ := h2
            rw [List.mem_singleton] at hm'
            subst hm'
            have hcl' := hcl
            simp only [plotContour, bind_ok_iff, pure_ok_iff] at hcl'
            obtain ⟨_, -, _, -, _, -, -, -, -, -, -, -, e⟩ := hcl'
            cases e
            exact ⟨hij, ex, ey, c, hcm, hpc, hcl⟩
          · cases h2; cases hm'
      · unfold pointCalls at h3
        split at h3
        · simp only [plotPoint, bind_ok_iff] at h3
          obtain ⟨m, -, h3⟩ := h3
          cases m with
          | none => cases h3; cases hm'
          | some m =>
            simp only at h3
            revert h3
            generalize m.coordinate.lookup px' = vx
            generalize m.coordinate.lookup py' = vy
            intro h3
            cases vx <;> cases vy <;> cases h3
            · cases hm'
            · cases hm'
            · cases hm'
            · cases List.mem_singleton.1 hm'
        · cases h3; cases hm'
    · exact absurd hm (noTruth _ _ _)
  · rcases List.mem_append.1 hcall with hm | hm
    · exact absurd hm (noSetup s (trianglePanel_setup hs))
    obtain ⟨-, -, -, -, h5⟩ := plot_hist_axes h hh hc ep
    obtain ⟨c, e⟩ := h5 (.contour name px py) (List.mem_filterMap.2 ⟨_, hcall, rfl⟩)
    cases e

/-- The contours of a smoothed grid of two by three cells. -/
example : ∃ (lib : Lib) (c : Chain ℝ) (call : Call), NearOk lib.near ∧ ArgsortOk lib.argsort ∧ c.samples.WF ∧
    c.weights = .ok [1, 1, 1, 1] ∧ plotContour lib {} c "x" "y" = .ok call := by
  obtain ⟨near, hn⟩ := nearOk_exists
  obtain ⟨argsort, ha⟩ := argsortOk_exists (K := ℝ)
  obtain ⟨c, r, hc, hwf, -, -, -, hr, hx, hy⟩ := step_plain near
  obtain ⟨c', hc', hcs, hw, -, -, -, -, -, hcfg⟩ :=
    plain_chain_cfg (K := ℝ) true [⟨.smooth, some 1⟩] rfl
      (by change (0 : ℝ) ≤ 6827 / 10000 ∧ (6827 / 10000 : ℝ) ≤ 1; constructor <;> norm_num)
      (by change (1 : ℝ) ≤ 10; norm_num) rfl rfl (by intro h; cases h) stepFrame stepFrame_wf
      (by simp [stepFrame]) (w := [1, 1, 1, 1]) rfl (by simp) "step" 1 le_rfl (one_dvd _)
  obtain rfl : c' = c := Except.ok.inj (hc'.symm.trans hc)
  have hwt : c'.weights = .ok [1, 1, 1, 1] := by unfold Chain.weights; rw [hcs, hw]; rfl
  have hsig : (c'.cfg .sigmas : List ℝ) = [0, 1, 2] := by rw [hcfg]; rfl
  have hal : (c'.cfg .shadeAlpha : Flt ℝ) = .fin (1 / 2) := by rw [hcfg]; rfl
  have hgr : (c'.cfg .shadeGradient : ℝ) = 1 := by rw [hcfg]; rfl
  have hco : (c'.cfg .color : Option String) = none := by rw [hcfg]; rfl
  obtain ⟨call, h⟩ := C88_drawn_partial (lib := { near := near, argsort := argsort, filled := [] }) (cfg := {}) hn ha hwf hwt
    (by simp) hr (by rw [hx]) (by rw [hy]; norm_num) (by rw [hsig]; simp) (by rw [hsig]; norm_num) (by rw [hsig]; simp)
    (.inr ⟨by rw [hsig]; simp, 1 / 2, by norm_num, hal⟩) (by rw [hco]; simp) (by rw [hgr]; norm_num) (by rw [hgr]; norm_num)
  exact ⟨_, c', call, hn, ha, hwf, hwt, h⟩

end CC
