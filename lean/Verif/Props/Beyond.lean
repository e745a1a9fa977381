import Verif.Props.Inside
import Verif.Props.PlotDist

/-! # C103: an interval that ends before the curve begins -/

namespace CC
open Spec

/-- **C103**, the case that `C103_drawn_partial` leaves out for a single mode always fails: if no point of the curve lies before the upper
limit of the reported interval, or none after its lower limit, then a histogram that is to be shaded raises a ValueError. -/
theorem C103_missed {lib : Lib} {c : Chain ℝ} {p : String} {b : Bound ℝ} {lo hi : ℝ} (hmodal : c.cfg .multimodal = false)
    (hshade : c.cfg .barShade = true) (hr : Reported lib c p (.single b)) (hlo : b.lower = some lo) (hhi : b.upper = some hi)
    {xs ys : List ℝ} (hd : barData lib c p = .ok (xs, ys)) (hl : ys.length = xs.length) (hne : xs ≠ []) {height : ℝ}
    (hh : c.finHeight = .ok height)
    (hmiss : (∀ x ∈ xs, x < lo) ∨ ∀ x ∈ xs, hi < x) (cfg : PlotConfig) (flip summary : Bool) :
    plotBars lib cfg p c flip summary = .error .value := by
  have hent := (reported_iff.1 hr).2
  have hps : parameterSummary lib.kde c p = .ok b := by
    simp only [summaryEntry, hmodal, Bool.false_eq_true, if_false, bind_ok_iff, pure_ok_iff] at hent
    obtain ⟨b', h1, h2⟩ := hent
    cases h2
    exact h1
  have hyne : ys.map (· * height) ≠ [] := by
    intro e
    have := congrArg List.length e
    rw [List.length_map, hl, List.length_nil] at this
    exact hne (List.length_eq_zero_iff.1 this)
  obtain ⟨top, htop, -⟩ := npMax_spec hyne
  have htop' : arrMax (ys.map (· * height)) = .ok top := by unfold arrMax; rw [htop]
  obtain ⟨z, hz⟩ : ∃ z, arrMax xs = .ok z := by
    obtain ⟨z, hz, -⟩ := npMax_spec hne
    exact ⟨z, by unfold arrMax; rw [hz]⟩
  obtain ⟨a, ha⟩ : ∃ a, arrMin xs = .ok a := by
    cases xs with
    | nil => exact absurd rfl hne
    | cons x xs => exact ⟨_, rfl⟩
  have ham := (arrMin_ok_iff.1 ha).1
  have hzm := (arrMax_ok_iff.1 hz).1
  have hall : ([(max lo a, min hi z)].all fun iv => decide (a ≤ min iv.1 iv.2) && decide (max iv.1 iv.2 ≤ z)) = false := by
    simp only [List.all_cons, List.all_nil, Bool.and_true, Bool.and_eq_false_iff, decide_eq_false_iff_not, not_le]
    rcases hmiss with h | h
    · exact .inr (lt_max_of_lt_left (lt_max_of_lt_left (h z hzm)))
    · exact .inl (min_lt_of_right_lt (min_lt_of_left_lt (h a ham)))
  simp only [plotBars, hd, hh, htop', barShadeIf, hshade, if_true, barShade, hps, hlo, hhi, shadeBounds, hmodal, Bool.false_eq_true, if_false,
    ha, hz, hall, ensure, bind, Except.bind, pure, Except.pure]

/-- Four samples, nearly all weight on the lowest two. -/
noncomputable def earlyFrame : Frame ℝ :=
  ⟨[.int 0, .int 1, .int 2, .int 3], [("a", [0, 4, 1002, 2000]), ("weight", [500, 500, 1, 1])]⟩

/-- The statistic HDI, eight edges and no smoothing; everything else, like a single mode, is as by default. -/
noncomputable def earlyKw : List (Kwarg ℝ) := [⟨.statistics, some .hdi⟩, ⟨.smooth, some 0⟩, ⟨.bins, some 8⟩]

theorem early_extents (pad : Bool) : getExtents ([0, 4, 1002, 2000] : List ℝ) [500, 500, 1, 1] false true false pad =
    .ok (if pad then (-(789 / 2), 4797 / 2) else (9 / 2, 3999 / 2)) := by
  obtain ⟨i, j, t, R, l, u, h1, h2, h3, ht, h4, h5, -, h6, hR, -, h7, h9, h8, -⟩ :=
    C45_extents ([0, 4, 1002, 2000] : List ℝ) [500, 500, 1, 1] rfl (by simp) 0 2000 (by simp) (by simp)
      (by intro x hx; simp only [List.mem_cons, List.not_mem_nil, or_false] at hx; rcases hx with rfl | rfl | rfl | rfl <;> norm_num)
      (by norm_num) false true false pad
  have hsum : ∀ P : ℝ → Bool, weightWhere [0, 4, 1002, 2000] [500, 500, 1, (1 : ℝ)] P = (if P 0 then 500 else 0) +
      ((if P 4 then 500 else 0) + ((if P 1002 then 1 else 0) + (if P 2000 then 1 else 0))) := by
    intro P
    simp [weightWhere]
  have hR' : R = 502 := by
    rw [hR, hsum]
    norm_num [cellEdge]
  simp only [Bool.false_eq_true, if_false] at ht
  have htR : t * R < 1 := by rw [ht, hR']; norm_num
  have htR0 : 0 < t * R := by rw [ht, hR']; norm_num
  rw [hsum] at h7 h8 h9
  obtain rfl : j = 1999 := by
    by_contra hne
    have hj : j + 1 < 2000 := by omega
    have hj' : ((j + 1 : ℕ) : ℝ) ≤ 2000 := by exact_mod_cast hj.le
    have hP : cellEdge (0 : ℝ) 2000 (j + 1) ≤ 2000 := by unfold cellEdge; linarith
    simp only [hP, hj, and_self, decide_true, if_true] at h8
    revert h8
    split_ifs <;> intro h8 <;> linarith
  have hi1 : i ≤ 4 := by
    by_contra hne
    have hi' : (5 : ℝ) ≤ i := by exact_mod_cast (show 5 ≤ i by omega)
    have hP : cellEdge (0 : ℝ) 2000 1 ≤ 4 ∧ 4 < cellEdge (0 : ℝ) 2000 i := by
      unfold cellEdge; constructor <;> [norm_num; linarith]
    simp only [hP, and_self, decide_true, if_true] at h7
    revert h7
    split_ifs <;> intro h7 <;> linarith
  have hi2 : 4 ≤ i := by
    by_contra hne
    have hi' : (i : ℝ) + 1 ≤ 4 := by exact_mod_cast (show i + 1 ≤ 4 by omega)
    have hne' : ¬ i + 1 = 2000 := by omega
    have hE : cellEdge (0 : ℝ) 2000 (i + 1) ≤ 4 := by unfold cellEdge; push_cast; linarith
    have h0 : ¬ cellEdge (0 : ℝ) 2000 1 ≤ 0 := by unfold cellEdge; norm_num
    simp only [hne', or_false, h0, false_and, not_lt.2 hE, not_lt.2 (hE.trans (show (4 : ℝ) ≤ 1002 by norm_num)),
      not_lt.2 (hE.trans (show (4 : ℝ) ≤ 2000 by norm_num)), and_false, decide_false, Bool.false_eq_true, if_false] at h9
    linarith
  obtain rfl : i = 4 := by omega
  rw [h6, h4, h5]
  unfold cellEdge
  cases pad <;> simp only [if_true, Bool.false_eq_true, if_false, Except.ok.injEq, Prod.mk.injEq] <;> norm_num

/-- The edges of the bins of the curve; those of the summary are `lowEdges`. -/
noncomputable def earlyEdges : List ℝ := [9 / 2, 579 / 2, 1149 / 2, 1719 / 2, 2289 / 2, 2859 / 2, 3429 / 2, 3999 / 2]

theorem early_density : histDensity lowEdges [0, 4, 1002, 2000] [500, 500, 1, 1] =
    .ok [1000 / 399798, 0, 0, 1 / 399798, 0, 0, 1 / 399798] := by
  have h1 : histogram lowEdges [0, 4, 1002, 2000] [500, 500, 1, 1] = .ok [1000, 0, 0, 1, 0, 0, 1] := by
    rw [histogram_ok_iff]
    constructor
    · norm_num [lowEdges]
    · simp only [lowEdges, List.length_cons, List.length_nil, List.range_succ, List.range_zero]
      norm_num [binMass, inBin]
  have h2 : (lowEdges.zipWith (fun l r => r - l) lowEdges.tail) = [399, 399, 399, 399, 399, 399, 399] := by
    norm_num [lowEdges]
  have h3 : (lowEdges.zipWith (fun l r => decide (l ≠ r)) lowEdges.tail).all id = true := by
    norm_num [lowEdges]
  have h4 : ([1000, 0, 0, 1, 0, 0, 1] : List ℝ).sum = 1002 := by norm_num
  have h5 : decide ((1002 : ℝ) ≠ 0) = true := decide_eq_true (by norm_num)
  simp only [histDensity, h1, h2, h3, h4, h5, bind, Except.bind, ensure, if_true, pure, Except.pure, Except.ok.injEq,
    List.zipWith_cons_cons, List.zipWith_nil_right]
  norm_num

theorem early_plain_density : histDensity earlyEdges [0, 4, 1002, 2000] [500, 500, 1, 1] = .ok [0, 0, 0, 1 / 285, 0, 0, 0] := by
  have h1 : histogram earlyEdges [0, 4, 1002, 2000] [500, 500, 1, 1] = .ok [0, 0, 0, 1, 0, 0, 0] := by
    rw [histogram_ok_iff]
    constructor
    · norm_num [earlyEdges]
    · simp only [earlyEdges, List.length_cons, List.length_nil, List.range_succ, List.range_zero]
      norm_num [binMass, inBin]
  have h2 : (earlyEdges.zipWith (fun l r => r - l) earlyEdges.tail) = [285, 285, 285, 285, 285, 285, 285] := by
    norm_num [earlyEdges]
  have h3 : (earlyEdges.zipWith (fun l r => decide (l ≠ r)) earlyEdges.tail).all id = true := by
    norm_num [earlyEdges]
  have h4 : ([0, 0, 0, 1, 0, 0, 0] : List ℝ).sum = 1 := by norm_num
  have h5 : decide ((1 : ℝ) ≠ 0) = true := decide_eq_true (by norm_num)
  simp only [histDensity, h1, h2, h3, h4, h5, bind, Except.bind, ensure, if_true, pure, Except.pure, Except.ok.injEq,
    List.zipWith_cons_cons, List.zipWith_nil_right]
  norm_num

theorem early_mid : midpoints earlyEdges = [147, 432, 717, 1002, 1287, 1572, 1857] := by norm_num [midpoints, earlyEdges]

/-- The density between the centres of the padded bins. -/
noncomputable def earlyCurve (x : ℝ) : ℝ :=
  polyline [(-195, 1000 / 399798), (204, 0), (603, 0), (1002, 1 / 399798), (1401, 0), (1800, 0), (2199, 1 / 399798)] x

theorem earlyCurve_low {x : ℝ} (h : x < 204) : earlyCurve x = 1000 / 399798 * ((204 - x) / 399) := by
  rw [earlyCurve, polyline, if_pos h]
  norm_num
  ring

theorem earlyCurve_high {x : ℝ} (h1 : 204 ≤ x) (h2 : x ≤ 2199) : 0 ≤ earlyCurve x ∧ earlyCurve x ≤ 1 / 399798 := by
  simp only [earlyCurve, polyline]
  rw [if_neg (not_lt.2 h1)]
  split_ifs
  all_goals norm_num
  all_goals
    constructor <;> linarith

/-- What is used of the chain. -/
structure EarlyChain (c : Chain ℝ) : Prop where
  columns : c.samples.columns = ["a", "weight"]
  data : c.samples.get "a" = .ok [0, 4, 1002, 2000]
  weights : c.weights = .ok [500, 500, 1, 1]
  power : c.power = 1
  grid : c.grid = false
  height : c.histogramRelativeHeight = .fin 1
  smooth : c.smoothValue = 0
  bins : getBins c = 8
  kde : (c.cfg .kde : ℝ) = 0
  modal : c.cfg .multimodal = false
  hdi : c.cfg .statistics = some .hdi
  area : (c.cfg .summaryArea : ℝ) = 6827 / 10000
  shaded : c.cfg .barShade = true
  contour : c.cfg .plotContour = true
  plotted : c.plottingColumns = ["a"]
  filled : c.filled

theorem early_exists : ∃ c, Chain.make { samples := earlyFrame.toRaw, name := "early", config := earlyKw } = .ok c ∧ EarlyChain c := by
  obtain ⟨c, h1, h2, h3, h4, h5, h6, -, h8, h9⟩ := plain_chain_cfg (K := ℝ) false earlyKw rfl
    (by change (0 : ℝ) ≤ 6827 / 10000 ∧ (6827 / 10000 : ℝ) ≤ 1; constructor <;> norm_num)
    (by change (1 : ℝ) ≤ 10; norm_num) rfl rfl (by intro h; cases h) earlyFrame ⟨by simp [earlyFrame], by simp [earlyFrame]⟩
    (by simp [earlyFrame]) (w := [500, 500, 1, 1]) rfl (by simp) "early" 1 le_rfl (one_dvd _)
  refine ⟨c, h1, by rw [h2]; rfl, by rw [h2]; rfl, by rw [Chain.weights, h2, h3]; rfl, h5, h6, make_height h1, ?_, ?_, by rw [h9]; rfl,
    by rw [h9]; rfl, by rw [h9]; rfl, by rw [h9]; rfl, by rw [h9]; rfl, by rw [h9]; rfl, ?_, ?_⟩
  · have : c.cfg .smooth = some 0 := by rw [h9]; rfl
    simp only [Chain.smoothValue, this]
  · have : c.cfg .bins = some 8 := by rw [h9]; rfl
    simp only [getBins, this]
  · have h10 : c.cfg .colorParam = none := by rw [h9]; rfl
    have h11 : c.cfg .plotCloud = false := by rw [h9]; rfl
    rw [Chain.plottingColumns, Chain.dataColumns, h10, h11, h2, h3, h4]
    have hc : earlyFrame.columns = ["a", "weight"] := rfl
    rw [hc]
    decide
  · have h10 : c.cfg .shade = true := by rw [h9]; rfl
    have h11 : (c.cfg .shadeAlpha : Flt ℝ) = .fin (1 / 2) := by rw [h9]; rfl
    simp only [Chain.filled, h10, h11, true_and]
    norm_num

theorem EarlyChain.edges {c : Chain ℝ} (h : EarlyChain c) (pad : Bool) : marginalBins c [0, 4, 1002, 2000] [500, 500, 1, 1] pad =
    .ok (if pad then lowEdges else earlyEdges) := by
  simp only [marginalBins, h.grid, Bool.false_eq_true, if_false, getSmoothedBins, early_extents, h.smooth, if_true, h.bins, bind,
    Except.bind, pure, Except.pure, linspaceInt]
  rw [if_neg (by decide), show (8 : Int).toNat = 8 from rfl]
  unfold linspace
  rw [show List.range 8 = [0, 1, 2, 3, 4, 5, 6, 7] from rfl]
  cases pad <;> simp only [List.map_cons, List.map_nil, Except.ok.injEq, lowEdges, earlyEdges, if_true, Bool.false_eq_true, if_false,
    List.cons.injEq, and_true] <;> norm_num

theorem early_pow : powAll [0, 0, 0, 1 / 285, 0, 0, (0 : ℝ)] 1 = .ok [0, 0, 0, 1 / 285, 0, 0, 0] := by
  simp [powAll, ensure, bind, Except.bind, pure, Except.pure]

theorem EarlyChain.curve {c : Chain ℝ} (h : EarlyChain c) (lib : Lib) :
    barData lib c "a" = .ok ([147, 432, 717, 1002, 1287, 1572, 1857], [0, 0, 0, 1 / 285, 0, 0, 0]) := by
  simp only [barData, h.smooth, h.kde, ne_eq, not_true_eq_false, or_self, if_false, h.data, h.weights, h.edges, Bool.false_eq_true,
    early_plain_density, h.power, early_pow, early_mid, bind, Except.bind, pure, Except.pure]

theorem EarlyChain.marginal {c : Chain ℝ} (h : EarlyChain c) {kde : KdeFn} (hk : KdeOk kde) :
    ∃ m, smoothedHistogram kde c "a" true none = .ok m ∧ ValidMarginal m ∧ m.xs = linspace (-195) 2199 gridSize ∧
      m.ys = (linspace (-195) 2199 gridSize).map earlyCurve := by
  obtain ⟨ys, hys⟩ : ∃ ys, ys = (linspace (-195) 2199 gridSize).map earlyCurve := ⟨_, rfl⟩
  have hin : ∀ x ∈ linspace (-195 : ℝ) 2199 gridSize, -195 ≤ x ∧ x ≤ 2199 := fun x hx =>
    linspace_mem (by norm_num) two_le_gridSize hx
  have hnn : ∀ y ∈ ys, 0 ≤ y := by
    intro y hy
    rw [hys] at hy
    obtain ⟨x, hx, rfl⟩ := List.mem_map.1 hy
    obtain ⟨h0, h1⟩ := hin x hx
    by_cases h2 : x < 204
    · rw [earlyCurve_low h2]
      have : 0 < 204 - x := by linarith
      positivity
    · exact (earlyCurve_high (not_lt.1 h2) h1).1
  have h2 := two_le_gridSize
  have hne : ys ≠ [] := by
    intro h
    have := congrArg List.length h
    rw [hys] at this
    simp at this
    omega
  have hsum : ys.sum ≠ 0 := by
    have hh : (linspace (-195 : ℝ) 2199 gridSize).head? = some (-195) := linspace_head (by omega)
    refine (sum_pos_of_mem hnn (x := earlyCurve (-195)) ?_ ?_).ne'
    · rw [hys]; exact List.mem_map.2 ⟨_, List.mem_of_head? hh, rfl⟩
    · rw [earlyCurve_low (by norm_num)]; norm_num
  have hcs : normCumsum ys = .ok ((cumsum ys).map (· / ys.sum)) := by
    simp only [normCumsum, arrMax, npMax_cumsum hnn hne, bind, Except.bind, ensure,
      decide_eq_true hsum, if_true, pure, Except.pure]
  have hpow : powAll [1000 / 399798, 0, 0, 1 / 399798, 0, 0, (1 / 399798 : ℝ)] c.power =
      .ok [1000 / 399798, 0, 0, 1 / 399798, 0, 0, 1 / 399798] := by
    rw [h.power]
    simp [powAll, ensure, bind, Except.bind, pure, Except.pure]
  have hmy : marginalYs kde c none [0, 4, 1002, 2000] [500, 500, 1, 1] lowEdges [1000 / 399798, 0, 0, 1 / 399798, 0, 0, 1 / 399798]
      (-195) 2199 (linspace (-195) 2199 gridSize) = .ok ys := by
    simp only [marginalYs, h.smooth, smoothHist, if_true, bind, Except.bind, Option.getD_none, h.kde, ne_eq,
      not_true, decide_false, Bool.false_eq_true, if_false, low_mid]
    rw [hys, mapM_ok_iff, List.forall₂_map_right_iff, List.forall₂_same]
    intro x hx
    obtain ⟨h0, h1⟩ := hin x hx
    exact interp1d_ok_iff.2 ⟨-195, 2199, rfl, rfl, h0, h1, rfl⟩
  have hm : smoothedHistogram kde c "a" true none = .ok ⟨linspace (-195) 2199 gridSize, ys, (cumsum ys).map (· / ys.sum)⟩ := by
    simp only [smoothedHistogram, h.data, h.weights, h.edges, if_true, early_density, hpow, low_mid, bind, Except.bind, endpoints,
      List.head?_cons, List.getLast?_cons_cons, List.getLast?_singleton, ensure, List.length_cons,
      List.length_nil, Nat.reduceAdd, Nat.reduceLeDiff, decide_true, if_true, hmy, hcs, pure, Except.pure]
  exact ⟨_, hm, C25_marginal_valid kde hk c _ h.weights (by simp) "a" true none _ hm, rfl, hys⟩

/-- Any HDI of this marginal ends before the first centre of the curve. -/
theorem early_hdi {m : Marginal ℝ} (hv : ValidMarginal m) (hx : m.xs = linspace (-195) 2199 gridSize)
    (hy : m.ys = (linspace (-195) 2199 gridSize).map earlyCurve) :
    ∃ l x u, summaryHdi m (6827 / 10000) = .ok ⟨some l, some x, some u⟩ ∧ l ≤ u ∧ u < 147 := by
  obtain ⟨l, x, u, hs, hlx, hxu, i, j, p, q, hij, hl, hu, hp, hq, hpq, -⟩ := C31_hdi_mass hv (6827 / 10000) (by norm_num)
  refine ⟨l, x, u, hs, hlx.trans hxu, ?_⟩
  have hg : gridSize = 10000 := by unfold gridSize; rfl
  obtain ⟨x0, xl, hx0, hxl, hpl, -, -, -, -, h01, -⟩ := hv.hdi_setup
  have hx0' : x0 = -195 := by
    rw [hx, linspace_head (by have := two_le_gridSize; omega)] at hx0
    exact (Option.some.inj hx0).symm
  have hq1 := (h01 q (List.mem_of_getElem? hq)).2
  have hyl : m.ys.length = 10000 := by rw [hv.ys_length, hx, linspace_length, hg]
  have hxl' : m.xs.length = 10000 := by rw [hx, linspace_length, hg]
  have hcl : m.cs.length = 10000 := by rw [hv.cs_length, hxl']
  have hxat : ∀ (k : Nat) (hk : k < m.xs.length), m.xs[k] = -195 + k * (2394 / 9999) := by
    intro k hk
    simp only [hx]
    rw [linspace_getElem, hg]
    push_cast
    ring
  have hyat : ∀ (k : Nat) (hk : k < m.ys.length), m.ys[k] = earlyCurve (-195 + k * (2394 / 9999)) := by
    intro k hk
    have := hxat k (by rw [hxl']; omega)
    simp only [hx] at this
    simp only [hy, List.getElem_map, this]
  have hline : ∀ n : Nat, n ≤ 1667 → (m.ys.take n).sum =
      n * (1000 / 399798 : ℝ) + n * (n - 1) / 2 * (-(1000 / 399798) * (6 / 9999)) := by
    intro n hn
    rw [← sum_line]
    congr 1
    apply List.ext_getElem
    · rw [List.length_take, hyl, List.length_map, List.length_range]
      omega
    · intro k h1 h2
      rw [List.length_map, List.length_range] at h2
      rw [List.getElem_take, hyat, List.getElem_map, List.getElem_range]
      have hk : (k : ℝ) ≤ 1666 := by exact_mod_cast (show k ≤ 1666 by omega)
      rw [earlyCurve_low (by linarith)]
      ring
  have hL : (m.ys.drop 1667).sum ≤ (8333 : ℝ) * (1 / 399798) := by
    have := List.sum_le_card_nsmul (m.ys.drop 1667) (1 / 399798) ?_
    · rwa [List.length_drop, hyl, nsmul_eq_mul] at this
    · intro y hy'
      obtain ⟨k, hk, rfl⟩ := List.getElem_of_mem hy'
      rw [List.length_drop] at hk
      rw [List.getElem_drop, hyat]
      have hk1 : (0 : ℝ) ≤ k := Nat.cast_nonneg k
      have hk2 : (k : ℝ) ≤ 8332 := by exact_mod_cast (show k ≤ 8332 by omega)
      push_cast
      exact (earlyCurve_high (by linarith) (by linarith)).2
  have hL0 : 0 ≤ (m.ys.drop 1667).sum := List.sum_nonneg fun y hy' => hv.density_nonneg y (List.mem_of_mem_drop hy')
  have hsplit : m.ys.sum = (m.ys.take 1667).sum + (m.ys.drop 1667).sum := (List.sum_take_add_sum_drop _ _).symm
  have h1667 := hline 1667 le_rfl
  have h794 := hline 794 (by norm_num)
  have h397 := hline 397 (by norm_num)
  have h1' := hline 1 (by norm_num)
  norm_num at h1667 h794 h397 h1'
  have htot := hv.mass_pos
  have hcum : ∀ (k : Nat) (hk : k < m.cs.length), m.cs[k] = (m.ys.take (k + 1)).sum / m.ys.sum := hv.cumulative
  -- the interval begins early
  have hl100 : l < -100 := by
    rw [hpl] at hl
    cases i with
    | zero =>
      rw [List.getElem?_cons_zero, hx0'] at hl
      have := Option.some.inj hl
      linarith
    | succ i =>
    rw [List.getElem?_cons_succ] at hl
    by_contra h0
    rw [not_lt] at h0
    have hi : 396 ≤ i := by
      obtain ⟨hi', hli⟩ := List.getElem?_eq_some_iff.1 hl
      by_contra hlt
      have hlt' : (i : ℝ) ≤ 395 := by exact_mod_cast (show i ≤ 395 by omega)
      rw [hxat] at hli
      linarith
    simp only [masses, List.getElem?_cons_succ] at hp
    obtain ⟨hi3, rfl⟩ := List.getElem?_eq_some_iff.1 hp
    rw [hcum _ hi3] at hpq
    have hmono : (m.ys.take 397).sum ≤ (m.ys.take (i + 1)).sum :=
      List.Sublist.sum_le_sum (List.take_sublist_take_left (by omega)) fun y hy' => hv.density_nonneg y (List.mem_of_mem_take hy')
    have h3 : (m.ys.take (i + 1)).sum / m.ys.sum ≤ 3173 / 10000 := by linarith
    rw [div_le_iff₀ htot] at h3
    linarith
  -- and is not longer than the first 794 steps
  have hgrid : m.xs.Pairwise fun x y => 1 / 10 ^ 12 < y - x := by
    rw [List.pairwise_iff_getElem]
    intro a b ha hb hab
    rw [hxat, hxat]
    have : (a : ℝ) + 1 ≤ b := by exact_mod_cast hab
    have h12 : (1 : ℝ) / 10 ^ 12 < 2394 / 9999 := by norm_num
    nlinarith
  have hc0 : m.cs.head? = some (m.cs[0]'(by omega)) := by rw [List.head?_eq_getElem?, List.getElem?_eq_getElem]
  have hfirst : m.cs[0]'(by omega) < 6827 / 10000 := by
    rw [hcum, div_lt_iff₀ htot, zero_add]
    linarith
  have hnar := C32_hdi_narrowest hv (6827 / 10000) (by norm_num) hgrid _ hc0 hfirst l x u hs 0 794 (-195) (m.xs[793]'(by omega)) 0
    (m.cs[793]'(by omega)) (by norm_num) (by rw [hpl, hx0']; rfl)
    (by rw [hpl, List.getElem?_cons_succ, List.getElem?_eq_getElem]) rfl
    (by simp only [masses, List.getElem?_cons_succ]; rw [List.getElem?_eq_getElem]) (by
      rw [hcum, sub_zero, le_div_iff₀ htot]
      linarith)
  rw [hxat] at hnar
  norm_num at hnar
  linarith

/-- **C103** is also violated by chains with a single mode, summarised by the HDI without smoothing, otherwise with the settings by default:
the summary is taken from a wider range of bins than the curve. For an accepted chain of four samples `get_summary` reports the parameter and the
curve can be computed, but `plot`, `plot_distributions` and `plot_dist` raise a ValueError, since the interval ends before the curve
begins. -/
theorem C103_single_violated : ∃ c : Chain ℝ,
    Chain.make { samples := earlyFrame.toRaw, name := "early", config := earlyKw } = .ok c ∧
    ∀ lib : Lib, KdeOk lib.kde → (∃ fit, Reported lib c "a" fit) ∧
      barData lib c "a" = .ok ([147, 432, 717, 1002, 1287, 1572, 1857], [0, 0, 0, 1 / 285, 0, 0, 0]) ∧
      c.finHeight = .ok 1 ∧ (∀ (cfg : PlotConfig) (flip summary : Bool), plotBars lib cfg "a" c flip summary = .error .value) ∧
      plotDistributionsBase lib {} [] 1 (oneBase c) = .error .value ∧ plotBase lib {} [] (oneBase c) = .error .value ∧
      ∀ summary : Bool, plotDist lib c "a" summary = .error .value := by
  obtain ⟨c, hc, h⟩ := early_exists
  refine ⟨c, hc, fun lib hk => ?_⟩
  obtain ⟨m, hm, hv, hx, hy⟩ := h.marginal hk
  obtain ⟨l, x, u, hsum, hlu, hout⟩ := early_hdi hv hx hy
  have hp : "a" ∈ c.samples.columns := by rw [h.columns]; exact List.mem_cons_self
  have hps : parameterSummary lib.kde c "a" = .ok ⟨some l, some x, some u⟩ := by
    simp only [parameterSummary, h.hdi, hm, bind, Except.bind, h.area, hsum]
  have hent : summaryEntry lib.kde c "a" = .ok (.single ⟨some l, some x, some u⟩) := by
    simp only [summaryEntry, hps, h.modal, bind, Except.bind, pure, Except.pure, Bool.false_eq_true, if_false]
  have hh : c.finHeight = .ok 1 := by simp only [Chain.finHeight, h.height]
  have hmin : arrMin ([147, 432, 717, 1002, 1287, 1572, 1857] : List ℝ) = .ok 147 := by
    rw [arrMin_ok_iff]
    refine ⟨by simp, fun x hx => ?_⟩
    simp only [List.mem_cons, List.not_mem_nil, or_false] at hx
    rcases hx with rfl | rfl | rfl | rfl | rfl | rfl | rfl <;> norm_num
  have hmax : arrMax ([147, 432, 717, 1002, 1287, 1572, 1857] : List ℝ) = .ok 1857 := by
    rw [arrMax_ok_iff]
    refine ⟨by simp, fun x hx => ?_⟩
    simp only [List.mem_cons, List.not_mem_nil, or_false] at hx
    rcases hx with rfl | rfl | rfl | rfl | rfl | rfl | rfl <;> norm_num
  refine ⟨⟨.single ⟨some l, some x, some u⟩, reported_iff.2 ⟨hp, hent⟩⟩, h.curve lib, hh, ?_⟩
  suffices key : ∀ (cfg : PlotConfig) (flip summary : Bool), plotBars lib cfg "a" c flip summary = .error .value by
    refine ⟨key, ?_, ?_, ?_⟩
    · have hc : distPanel lib {} (oneBase c) [] "a" = .error .value := by
        simp only [distPanel, oneBase, distChains, h.contour, h.plotted, List.mem_singleton, not_true_eq_false, decide_false, Bool.not_true,
          Bool.or_self, Bool.false_eq_true, if_false, key, bind, Except.bind, List.lookup, beq_self_eq_true, setLim]
      have e : (oneBase c).columns = ["a"] := rfl
      have hg : gridPanels ((1 + 1 - 1) / 1) (min 1 1) = [(0, 0)] := rfl
      simp only [plotDistributionsBase, e, List.length_singleton, hg, List.mapM_cons, ensure, ne_eq, one_ne_zero,
        not_false_eq_true, decide_true, if_true, Nat.lt_one_iff, bind, Except.bind, zero_mul, zero_add,
        nonpos_iff_eq_zero, if_false, List.getD_cons_zero, hc]
    · have hd : ∀ s, histChains lib {} "a" false s [c] none = .error .value := by
        intro s
        simp only [histChains, h.contour, hp, not_true_eq_false, decide_false, Bool.not_true, Bool.or_self,
          Bool.false_eq_true, if_false, key, bind, Except.bind]
      obtain ⟨s, hs⟩ : ∃ s, trianglePanel {} (oneBase c) 1 0 0 "a" "a" = .ok s := ⟨_, rfl⟩
      have hdr : drawPanel lib {} (oneBase c) [] true false 1 0 0 "a" "a" = .error .value := by
        simp only [drawPanel, Nat.lt_irrefl, if_false, decide_true, Bool.and_self, if_true, histPanel, oneBase, List.not_mem_nil,
          decide_false, Bool.not_false, Bool.false_and, hd, bind, Except.bind]
      have hf : ([c].filter fun c => c.cfg .plotContour) = [c] := by
        rw [List.filter_cons_of_pos (by simpa using h.contour)]
        rfl
      have e : (oneBase c).columns = ["a"] := rfl
      have e' : (oneBase c).chains = [c] := rfl
      have hg : gridPanels 1 1 = [(0, 0)] := rfl
      have hn : decide (1 = 2) = false := rfl
      simp only [plotBase, e, e', hf, List.length_singleton, if_true, hg, List.mapM_cons, List.mapM_nil, ensure, Nat.zero_lt_one,
        decide_true, Bool.and_self, hn, Bool.false_and, bind, Except.bind, pure, Except.pure, List.getD_cons_zero, hs, hdr]
    · intro summary
      have hcv : distCurve lib c "a" = .ok ([147, 432, 717, 1002, 1287, 1572, 1857], [0, 0, 0, 1 / 285, 0, 0, 0]) := by
        simp only [distCurve, h.data, h.weights, h.kde, h.smooth, ne_eq, not_true_eq_false, if_false, distPlain, h.edges,
          Bool.false_eq_true, early_plain_density, h.power, early_pow, early_mid, bind, Except.bind, pure, Except.pure]
      have hiv : distInterval c ⟨some l, some x, some u⟩ [147, 432, 717, 1002, 1287, 1572, 1857] = .error .value := by
        simp only [distInterval, hmin, hmax, bind, Except.bind, ensure]
        rw [max_eq_right (show l ≤ 147 by linarith), min_eq_left (show u ≤ 1857 by linarith)]
        have : decide ((147 : ℝ) ≤ min 147 u) = false := decide_eq_false fun h => absurd (le_min_iff.1 h).2 (not_le.2 hout)
        simp only [this, Bool.false_and, Bool.false_eq_true, if_false]
      simp only [plotDist, hcv, hh, distDecorations, h.filled, true_or, if_true, hps, distShade, hiv, bind, Except.bind]
  intro cfg flip summary
  refine C103_missed h.modal h.shaded (reported_iff.2 ⟨hp, hent⟩) rfl rfl (h.curve lib) rfl (by simp) hh (.inr fun y hy => ?_) cfg flip summary
  exact hout.trans_le ((arrMin_ok_iff.1 hmin).2 y hy)

end CC
