import Verif.Model.Figure
import Verif.Lemmas.Demo
import Verif.Props.EqualTailed

/-! Chains to plot, for examples. -/

namespace CC
open Spec

theorem make_height {K : Type} [Field K] [LinearOrder K] {a : Args K} {c : Chain K} (h : Chain.make a = .ok c) :
    c.histogramRelativeHeight = a.histogramRelativeHeight := by
  obtain ⟨col, _, _, _, _, _, _, _, _, _, _, _, _, _, rfl⟩ := Chain.make_ok_iff.1 h
  rfl

/-- A frame of two rows with the columns `a` (0 and 1) and `b` (0 and 10). -/
noncomputable def pairFrame : Frame ℝ :=
  ⟨[.int 0, .int 1], [("a", [0, 1]), ("b", [0, 10]), ("weight", [1, 1])]⟩

/-- The same without `b`. -/
noncomputable def singleFrame : Frame ℝ := ⟨[.int 0, .int 1], [("a", [0, 1]), ("weight", [1, 1])]⟩

/-- Plots without summary shading. -/
def barKw : List (Kwarg ℝ) := [⟨.barShade, false⟩]

/-- Plots of clouds only. -/
def cloudKw : List (Kwarg ℝ) := [⟨.plotContour, false⟩, ⟨.plotCloud, true⟩]

/-- What the examples use of a chain. -/
structure DemoChain (c : Chain ℝ) (f : Frame ℝ) (name : String) (grid : Bool) (kw : List (Kwarg ℝ)) : Prop where
  samples : c.samples = f
  weight : c.weightColumn = "weight"
  posterior : c.posteriorColumn = "log_posterior"
  power : c.power = 1
  grid : c.grid = grid
  name : c.name = name
  height : c.histogramRelativeHeight = .fin 1
  cfg : c.cfg = resolveStatistics (((Cfg.default ℝ).apply kw).set ⟨.color, none⟩)
  valid : ∃ a, Chain.make a = .ok c

theorem demoChain_exists (f : Frame ℝ) (hf : f.WF) (hne : f.index ≠ []) {w : List ℝ} (hw : f.get "weight" = .ok w)
    (hpos : ∀ x ∈ w, 0 < x) (name : String) (grid : Bool) (kw : List (Kwarg ℝ)) (hkw : kw = barKw ∨ kw = cloudKw) :
    ∃ c, DemoChain c f name grid kw := by
  have key := plain_chain_cfg (K := ℝ) grid kw (by rcases hkw with rfl | rfl <;> rfl)
    (by rcases hkw with rfl | rfl <;>
      (change (0 : ℝ) ≤ 6827 / 10000 ∧ (6827 / 10000 : ℝ) ≤ 1; constructor <;> norm_num))
    (by rcases hkw with rfl | rfl <;> (change (1 : ℝ) ≤ 10; norm_num))
    (by rcases hkw with rfl | rfl <;> rfl) (by rcases hkw with rfl | rfl <;> rfl)
    (by rcases hkw with rfl | rfl <;> (intro h; cases h)) f hf hne hw hpos name 1 le_rfl (one_dvd _)
  obtain ⟨c, h1, h2, h3, h4, h5, h6, h7, h8, h9⟩ := key
  exact ⟨c, h2, h3, h4, h5, h6, h8, make_height h1, h9, _, h1⟩

theorem pairFrame_wf : pairFrame.WF := ⟨by decide, by simp [pairFrame]⟩

theorem singleFrame_wf : singleFrame.WF := ⟨by decide, by simp [singleFrame]⟩

/-- A grid with histograms of both columns. -/
theorem gridPair_exists : ∃ c, DemoChain c pairFrame "grid" true barKw :=
  demoChain_exists _ pairFrame_wf (by simp [pairFrame]) (w := [1, 1]) rfl (by simp) _ _ _ (.inl rfl)

/-- A grid with a histogram of one column. -/
theorem gridSingle_exists : ∃ c, DemoChain c singleFrame "one" true barKw :=
  demoChain_exists _ singleFrame_wf (by simp [singleFrame]) (w := [1, 1]) rfl (by simp) _ _ _ (.inl rfl)

/-- A cloud of both columns. -/
theorem cloudPair_exists : ∃ c, DemoChain c pairFrame "cloud" false cloudKw :=
  demoChain_exists _ pairFrame_wf (by simp [pairFrame]) (w := [1, 1]) rfl (by simp) _ _ _ (.inr rfl)

/-- The histogram of two equally weighted grid points 0 and `s`. -/
theorem demo_bars {c : Chain ℝ} {f : Frame ℝ} {name col : String} (hc : DemoChain c f name true barKw) (lib : Lib)
    (cfg : PlotConfig) {s : ℝ} (hs : 0 < s) (hcol : f.get col = .ok [0, s]) (hw : f.get "weight" = .ok [1, 1])
    (flip summary : Bool) :
    plotBars lib cfg col c flip summary =
      .ok ([.marginal name col flip [0, s] [1 / (2 * s), 1 / (2 * s)]], 1 / (2 * s)) := by
  have hd : c.samples.get col = .ok [0, s] := by rw [hc.samples]; exact hcol
  have hw' : c.weights = .ok [1, 1] := by rw [Chain.weights, hc.samples, hc.weight]; exact hw
  have hk : (c.cfg .kde : ℝ) = 0 := by rw [hc.cfg]; rfl
  have hsm : c.smoothValue = 0 := by
    have : c.cfg .smooth = none := by rw [hc.cfg]; rfl
    simp only [Chain.smoothValue, this, hc.grid, if_true]
  have hsh : c.cfg .barShade = false := by rw [hc.cfg]; rfl
  have hsort : sortUnique [0, s] = [0, s] := sortUnique_sorted (by simp [hs])
  have hb : getGridBins [0, s] = .ok [-(s / 2), s / 2, 3 * s / 2] := by
    simp only [getGridBins, hsort]
    simp only [List.map_cons, List.map_nil, List.getLastD_cons, List.getLastD_nil, List.cons_append, List.nil_append,
      Except.ok.injEq, List.cons.injEq, and_true]
    refine ⟨by ring, by ring, by ring⟩
  have hh : histDensity [-(s / 2), s / 2, 3 * s / 2] [0, s] [1, 1] = .ok [1 / (2 * s), 1 / (2 * s)] := by
    have h1 : -(s / 2) ≤ s / 2 := by linarith
    have h2 : s / 2 ≤ 3 * s / 2 := by linarith
    have h3 : -(s / 2) ≠ s / 2 := by intro h; linarith
    have h4 : s / 2 ≠ 3 * s / 2 := by intro h; linarith
    have h5 : -(s / 2) ≤ 0 := by linarith
    have h6 : (0 : ℝ) < s / 2 := by linarith
    have h8 : s / 2 ≤ s := by linarith
    have h9 : s < 3 * s / 2 := by linarith
    have h10 : -(s / 2) ≤ s := by linarith
    have h11 : ¬ s < s / 2 := by linarith
    have h12 : ¬ s / 2 ≤ 0 := by linarith
    have hm0 : binMass [-(s / 2), s / 2, 3 * s / 2] [0, s] [1, 1] 0 = 1 := by
      simp [binMass, inBin, h5, h6, h10, h11]
    have hm1 : binMass [-(s / 2), s / 2, 3 * s / 2] [0, s] [1, 1] 1 = 1 := by
      simp [binMass, inBin, h8, h9, h12]
    have hn : histogram [-(s / 2), s / 2, 3 * s / 2] [0, s] [1, 1] = .ok [1, 1] := by
      simp only [histogram, List.tail_cons, List.zipWith_cons_cons, List.zipWith_nil_right, h1, h2,
        decide_true, List.all_cons, List.all_nil, id, Bool.and_self, ensure, if_true, bind, Except.bind, pure, Except.pure,
        List.length_cons, List.length_nil, Except.ok.injEq]
      rw [show List.range (0 + 1 + 1 + 1 - 1) = [0, 1] from rfl, List.map_cons, List.map_cons, hm0, hm1]
      rfl
    simp only [histDensity, hn, bind, Except.bind, List.tail_cons, List.zipWith_cons_cons, List.zipWith_nil_right,
      ne_eq, h3, h4, not_false_eq_true,
      decide_true, List.all_cons, List.all_nil, id, Bool.and_self, ensure, if_true, List.sum_cons, List.sum_nil]
    have h13 : ¬ ((1 : ℝ) + (1 + 0) = 0) := by norm_num
    simp only [h13, not_false_eq_true, decide_true, if_true, pure, Except.pure, Except.ok.injEq, List.cons.injEq, and_true]
    have e1 : s / 2 - -(s / 2) = s := by ring
    have e2 : 3 * s / 2 - s / 2 = s := by ring
    rw [e1, e2, div_div]
    have e3 : s * (1 + (1 + 0)) = 2 * s := by ring
    rw [e3]
    exact ⟨rfl, rfl⟩
  have hp : powAll [1 / (2 * s), 1 / (2 * s)] 1 = .ok [1 / (2 * s), 1 / (2 * s)] := by
    simp [powAll, ensure, bind, Except.bind, pure, Except.pure]
  have hmid : midpoints [-(s / 2), s / 2, 3 * s / 2] = [0, s] := by
    simp only [midpoints, List.tail_cons, List.zipWith_cons_cons, List.zipWith_nil_right, List.cons.injEq, and_true]
    constructor <;> ring
  have hdata : barData lib c col = .ok ([0, s], [1 / (2 * s), 1 / (2 * s)]) := by
    simp only [barData, hsm, hk, ne_eq, not_true_eq_false, or_self, if_false, hd, hw', marginalBins, hc.grid, if_true, hb, hh,
      hc.power, hp, hmid, bind, Except.bind, pure, Except.pure]
  simp only [plotBars, Chain.finHeight, barShadeIf, hdata, hc.height, hsh, hc.name, bind, Except.bind, pure, Except.pure, Bool.false_eq_true, if_false,
    List.map_cons, List.map_nil, mul_one, arrMax, npMax]
  simp

end CC
