import Verif.Lemmas.PlotDemo
import Verif.Props.Marginal
import Verif.Props.Bands

/-! Marginals of grids with the two points 0 and 1, for examples. -/

namespace CC
open Spec

/-- A grid of two points with weights `u` and `v`. -/
noncomputable def twoFrame (u v : ℝ) : Frame ℝ := ⟨[.int 0, .int 1], [("a", [0, 1]), ("weight", [u, v])]⟩

theorem twoFrame_wf (u v : ℝ) : (twoFrame u v).WF := ⟨by simp [twoFrame], by simp [twoFrame]⟩

/-- The configuration of a chain that is multimodal or not, summarised by the HDI. -/
def modalKw (multi : Bool) : List (Kwarg ℝ) := if multi then [⟨.multimodal, true⟩] else [⟨.statistics, some .hdi⟩]

/-- What is used of a grid chain of two points. -/
structure TwoPoint (c : Chain ℝ) (multi : Bool) (u v : ℝ) : Prop where
  samples : c.samples = twoFrame u v
  weight : c.weightColumn = "weight"
  posterior : c.posteriorColumn = "log_posterior"
  power : c.power = 1
  grid : c.grid = true
  name : c.name = "two"
  height : c.histogramRelativeHeight = .fin 1
  cfg : c.cfg = resolveStatistics (((Cfg.default ℝ).apply (modalKw multi)).set ⟨.color, none⟩)

theorem twoPoint_exists (multi : Bool) {u v : ℝ} (hu : 0 < u) (hv : 0 < v) :
    ∃ c, Chain.make { samples := (twoFrame u v).toRaw, name := "two", grid := true, config := modalKw multi } = .ok c ∧
      TwoPoint c multi u v := by
  obtain ⟨c, h1, h2, h3, h4, h5, h6, -, h8, h9⟩ := plain_chain_cfg (K := ℝ) true (modalKw multi) (by cases multi <;> rfl)
    (by cases multi <;> (change (0 : ℝ) ≤ 6827 / 10000 ∧ (6827 / 10000 : ℝ) ≤ 1; constructor <;> norm_num))
    (by cases multi <;> (change (1 : ℝ) ≤ 10; norm_num)) (by cases multi <;> rfl) (by cases multi <;> rfl) (by cases multi <;> first | exact fun _ => .inl rfl | exact fun _ => .inr rfl) (twoFrame u v) (twoFrame_wf u v)
    (by simp [twoFrame]) (w := [u, v]) rfl (by simp [hu, hv]) "two" 1 le_rfl (one_dvd _)
  exact ⟨c, h1, h2, h3, h4, h5, h6, h8, make_height h1, h9⟩

variable {c : Chain ℝ} {multi : Bool} {u v : ℝ}

theorem TwoPoint.data (h : TwoPoint c multi u v) : c.samples.get "a" = .ok [0, 1] := by rw [h.samples]; rfl

theorem TwoPoint.weights (h : TwoPoint c multi u v) : c.weights = .ok [u, v] := by rw [Chain.weights, h.samples, h.weight]; rfl

theorem TwoPoint.kde (h : TwoPoint c multi u v) : (c.cfg .kde : ℝ) = 0 := by rw [h.cfg]; cases multi <;> rfl

theorem TwoPoint.smooth (h : TwoPoint c multi u v) : c.smoothValue = 0 := by
  have : c.cfg .smooth = none := by rw [h.cfg]; cases multi <;> rfl
  simp only [Chain.smoothValue, this, h.grid, if_true]

theorem TwoPoint.modal (h : TwoPoint c multi u v) : c.cfg .multimodal = multi := by rw [h.cfg]; cases multi <;> rfl

theorem TwoPoint.hdi (h : TwoPoint c multi u v) : c.cfg .statistics = some .hdi := by rw [h.cfg]; cases multi <;> rfl

theorem TwoPoint.area (h : TwoPoint c multi u v) : (c.cfg .summaryArea : ℝ) = 6827 / 10000 := by rw [h.cfg]; cases multi <;> rfl

theorem TwoPoint.shaded (h : TwoPoint c multi u v) : c.cfg .barShade = true := by rw [h.cfg]; cases multi <;> rfl

theorem TwoPoint.contour (h : TwoPoint c multi u v) : c.cfg .plotContour = true := by rw [h.cfg]; cases multi <;> rfl

theorem two_bins : getGridBins ([0, 1] : List ℝ) = .ok [-(1 / 2), 1 / 2, 3 / 2] := by
  have hsort : sortUnique ([0, 1] : List ℝ) = [0, 1] := sortUnique_sorted (by simp)
  simp only [getGridBins, hsort]
  simp only [List.map_cons, List.map_nil, List.getLastD_cons, List.getLastD_nil, List.cons_append, List.nil_append,
    Except.ok.injEq, List.cons.injEq, and_true]
  norm_num

theorem two_density (hu : 0 < u) (hv : 0 < v) :
    histDensity [-(1 / 2), 1 / 2, 3 / 2] [0, 1] [u, v] = .ok [u / (u + v), v / (u + v)] := by
  have hm0 : binMass [-(1 / 2 : ℝ), 1 / 2, 3 / 2] [0, 1] [u, v] 0 = u := by
    simp [binMass, inBin]; norm_num
  have hm1 : binMass [-(1 / 2 : ℝ), 1 / 2, 3 / 2] [0, 1] [u, v] 1 = v := by
    simp [binMass, inBin]; norm_num
  have h1 : (-(1 / 2) : ℝ) ≤ 1 / 2 := by norm_num
  have h2 : (1 / 2 : ℝ) ≤ 3 / 2 := by norm_num
  have hn : histogram [-(1 / 2 : ℝ), 1 / 2, 3 / 2] [0, 1] [u, v] = .ok [u, v] := by
    simp only [histogram, List.tail_cons, List.zipWith_cons_cons, List.zipWith_nil_right, h1, h2,
      decide_true, List.all_cons, List.all_nil, id, Bool.and_self, ensure, if_true, bind, Except.bind, pure, Except.pure,
      List.length_cons, List.length_nil, Except.ok.injEq]
    rw [show List.range (0 + 1 + 1 + 1 - 1) = [0, 1] from rfl, List.map_cons, List.map_cons, hm0, hm1]
    rfl
  have h3 : (-(1 / 2) : ℝ) ≠ 1 / 2 := by norm_num
  have h4 : (1 / 2 : ℝ) ≠ 3 / 2 := by norm_num
  have h13 : ¬ (u + (v + 0) = 0) := by intro h; linarith
  simp only [histDensity, hn, bind, Except.bind, List.tail_cons, List.zipWith_cons_cons, List.zipWith_nil_right,
    ne_eq, h3, h4, not_false_eq_true,
    decide_true, List.all_cons, List.all_nil, id, Bool.and_self, ensure, if_true, List.sum_cons, List.sum_nil]
  simp only [h13, not_false_eq_true, decide_true, if_true, pure, Except.pure, Except.ok.injEq, List.cons.injEq, and_true]
  constructor <;> norm_num

theorem two_mid : midpoints [-(1 / 2 : ℝ), 1 / 2, 3 / 2] = [0, 1] := by
  simp only [midpoints, List.tail_cons, List.zipWith_cons_cons, List.zipWith_nil_right, List.cons.injEq, and_true]
  constructor <;> norm_num

theorem two_pow : powAll [u / (u + v), v / (u + v)] 1 = .ok [u / (u + v), v / (u + v)] := by
  simp [powAll, ensure, bind, Except.bind, pure, Except.pure]

/-- The marginal is a straight line. -/
theorem two_marginal {col : String} (hdata : c.samples.get col = .ok [0, 1]) (hweights : c.weights = .ok [u, v])
    (hgrid : c.grid = true) (hkde : (c.cfg .kde : ℝ) = 0) (hsmooth : c.smoothValue = 0) (hpower : c.power = 1)
    (hu : 0 < u) (hv : 0 < v) {kde : KdeFn} (hk : KdeOk kde) (pad : Bool) :
    ∃ m, smoothedHistogram kde c col pad none = .ok m ∧ ValidMarginal m ∧ m.xs = linspace 0 1 gridSize ∧
      m.ys = (linspace 0 1 gridSize).map fun x => (u + (v - u) * x) / (u + v) := by
  have hs : 0 < u + v := by linarith
  have hys : marginalYs kde c none [0, 1] [u, v] [-(1 / 2), 1 / 2, 3 / 2] [u / (u + v), v / (u + v)] 0 1
      (linspace 0 1 gridSize) = .ok ((linspace 0 1 gridSize).map fun x => (u + (v - u) * x) / (u + v)) := by
    simp only [marginalYs, smoothHist, hsmooth, if_true, hkde, ne_eq, not_true_eq_false, decide_false, Option.getD_none,
      bind, Except.bind, Bool.false_eq_true, if_false, two_mid]
    rw [mapM_ok_iff, List.forall₂_map_right_iff, List.forall₂_same]
    intro x hx
    obtain ⟨h0, h1⟩ := linspace_mem zero_le_one two_le_gridSize hx
    rw [interp1d_ok_iff]
    refine ⟨0, 1, rfl, rfl, h0, h1, ?_⟩
    simp only [List.zip_cons_cons, List.zip_nil_right, polyline]
    split
    · field_simp
      ring
    · have : x = 1 := by linarith
      rw [this]
      field_simp
      ring
  obtain ⟨cs, hcs⟩ : ∃ cs, normCumsum ((linspace 0 1 gridSize).map fun x => (u + (v - u) * x) / (u + v)) = .ok cs := by
    set ys := (linspace 0 1 gridSize).map fun x => (u + (v - u) * x) / (u + v) with hy
    have hpos : ∀ y ∈ ys, 0 < y := by
      intro y hy
      obtain ⟨x, hx, rfl⟩ := List.mem_map.1 hy
      obtain ⟨h0, h1⟩ := linspace_mem zero_le_one two_le_gridSize hx
      have e : u + (v - u) * x = u * (1 - x) + v * x := by ring
      refine div_pos ?_ hs
      rw [e]
      rcases h0.eq_or_lt with rfl | h0
      · linarith
      · exact add_pos_of_nonneg_of_pos (mul_nonneg hu.le (by linarith)) (mul_pos hv h0)
    have hne : ys ≠ [] := by
      intro e
      have := congrArg List.length e
      rw [hy, List.length_map, linspace_length, List.length_nil] at this
      have := two_le_gridSize
      omega
    refine ⟨(cumsum ys).map (· / ys.sum), ?_⟩
    have hsum : ys.sum ≠ 0 := (List.sum_pos ys hpos hne).ne'
    simp only [normCumsum, arrMax, npMax_cumsum (fun y hy => (hpos y hy).le) hne, bind, Except.bind, ensure, hsum, ne_eq,
      not_false_eq_true, decide_true, if_true]
    rfl
  have hm : smoothedHistogram kde c col pad none = .ok
      { xs := linspace 0 1 gridSize, ys := (linspace 0 1 gridSize).map fun x => (u + (v - u) * x) / (u + v), cs := cs } := by
    simp only [smoothedHistogram, hdata, hweights, marginalBins, hgrid, if_true, two_bins, two_density hu hv, hpower, two_pow,
      two_mid, endpoints, List.head?_cons, List.getLast?_cons_cons, List.getLast?_singleton, bind, Except.bind, hys, hcs]
    rfl
  exact ⟨_, hm, C25_marginal_valid kde hk c _ hweights (by simp [hu, hv]) col pad none _ hm, rfl, rfl⟩

theorem TwoPoint.marginal (h : TwoPoint c multi u v) (hu : 0 < u) (hv : 0 < v) {kde : KdeFn} (hk : KdeOk kde) (pad : Bool) :
    ∃ m, smoothedHistogram kde c "a" pad none = .ok m ∧ ValidMarginal m ∧ m.xs = linspace 0 1 gridSize ∧
      m.ys = (linspace 0 1 gridSize).map fun x => (u + (v - u) * x) / (u + v) :=
  two_marginal h.data h.weights h.grid h.kde h.smooth h.power hu hv hk pad

end CC
