import Verif.Lemmas.TwoPoint

/-! The marginal of a grid with the points 0, 1 and 2 of weights 1, 2 and 1, for examples. -/

namespace CC
open Spec

theorem triangle_bins : getGridBins ([0, 1, 2] : List ℝ) = .ok [-(1 / 2), 1 / 2, 3 / 2, 5 / 2] := by
  have hsort : sortUnique ([0, 1, 2] : List ℝ) = [0, 1, 2] := sortUnique_sorted (by simp)
  simp only [getGridBins, hsort]
  simp only [List.map_cons, List.map_nil, List.getLastD_cons, List.getLastD_nil, List.cons_append, List.nil_append,
    Except.ok.injEq, List.cons.injEq, and_true]
  norm_num

theorem triangle_density :
    histDensity [-(1 / 2 : ℝ), 1 / 2, 3 / 2, 5 / 2] [0, 1, 2] [1, 2, 1] = .ok [1 / 4, 1 / 2, 1 / 4] := by
  have hm0 : binMass [-(1 / 2 : ℝ), 1 / 2, 3 / 2, 5 / 2] [0, 1, 2] [1, 2, 1] 0 = 1 := by
    simp [binMass, inBin]; norm_num
  have hm1 : binMass [-(1 / 2 : ℝ), 1 / 2, 3 / 2, 5 / 2] [0, 1, 2] [1, 2, 1] 1 = 2 := by
    simp [binMass, inBin]; norm_num
  have hm2 : binMass [-(1 / 2 : ℝ), 1 / 2, 3 / 2, 5 / 2] [0, 1, 2] [1, 2, 1] 2 = 1 := by
    simp [binMass, inBin]; norm_num
  have h1 : (-(1 / 2) : ℝ) ≤ 1 / 2 := by norm_num
  have h2 : (1 / 2 : ℝ) ≤ 3 / 2 := by norm_num
  have h2' : (3 / 2 : ℝ) ≤ 5 / 2 := by norm_num
  have hn : histogram [-(1 / 2 : ℝ), 1 / 2, 3 / 2, 5 / 2] [0, 1, 2] [1, 2, 1] = .ok [1, 2, 1] := by
    simp only [histogram, List.tail_cons, List.zipWith_cons_cons, List.zipWith_nil_right, h1, h2, h2',
      decide_true, List.all_cons, List.all_nil, id, Bool.and_self, ensure, if_true, bind, Except.bind, pure, Except.pure,
      List.length_cons, List.length_nil, Except.ok.injEq]
    rw [show List.range (0 + 1 + 1 + 1 + 1 - 1) = [0, 1, 2] from rfl, List.map_cons, List.map_cons, List.map_cons, hm0, hm1, hm2]
    rfl
  have h3 : (-(1 / 2) : ℝ) ≠ 1 / 2 := by norm_num
  have h4 : (1 / 2 : ℝ) ≠ 3 / 2 := by norm_num
  have h5 : (3 / 2 : ℝ) ≠ 5 / 2 := by norm_num
  have h13 : ¬ ((1 : ℝ) + (2 + (1 + 0)) = 0) := by norm_num
  simp only [histDensity, hn, bind, Except.bind, List.tail_cons, List.zipWith_cons_cons, List.zipWith_nil_right,
    ne_eq, h3, h4, h5, not_false_eq_true,
    decide_true, List.all_cons, List.all_nil, id, Bool.and_self, ensure, if_true, List.sum_cons, List.sum_nil]
  simp only [h13, not_false_eq_true, decide_true, if_true, pure, Except.pure, Except.ok.injEq, List.cons.injEq, and_true]
  refine ⟨?_, ?_, ?_⟩ <;> norm_num

theorem triangle_mid : midpoints [-(1 / 2 : ℝ), 1 / 2, 3 / 2, 5 / 2] = [0, 1, 2] := by
  simp only [midpoints, List.tail_cons, List.zipWith_cons_cons, List.zipWith_nil_right, List.cons.injEq, and_true]
  refine ⟨?_, ?_, ?_⟩ <;> norm_num

theorem triangle_pow : powAll [1 / 4, 1 / 2, 1 / 4] 1 = .ok [1 / 4, 1 / 2, 1 / 4] := by
  simp [powAll, ensure, bind, Except.bind, pure, Except.pure]

/-- The marginal is a triangle on a rectangle. -/
theorem triangle_marginal {c : Chain ℝ} {col : String} (hdata : c.samples.get col = .ok [0, 1, 2]) (hweights : c.weights = .ok [1, 2, 1])
    (hgrid : c.grid = true) (hkde : (c.cfg .kde : ℝ) = 0) (hsmooth : c.smoothValue = 0) (hpower : c.power = 1)
    {kde : KdeFn} (hk : KdeOk kde) (pad : Bool) :
    ∃ m, smoothedHistogram kde c col pad none = .ok m ∧ ValidMarginal m ∧ m.xs = linspace 0 2 gridSize ∧
      m.ys = (linspace 0 2 gridSize).map fun x => (1 + min x (2 - x)) / 4 := by
  have hys : marginalYs kde c none [0, 1, 2] [1, 2, 1] [-(1 / 2), 1 / 2, 3 / 2, 5 / 2] [1 / 4, 1 / 2, 1 / 4] 0 2
      (linspace 0 2 gridSize) = .ok ((linspace 0 2 gridSize).map fun x => (1 + min x (2 - x)) / 4) := by
    simp only [marginalYs, smoothHist, hsmooth, if_true, hkde, ne_eq, not_true_eq_false, decide_false, Option.getD_none,
      bind, Except.bind, Bool.false_eq_true, if_false, triangle_mid]
    rw [mapM_ok_iff, List.forall₂_map_right_iff, List.forall₂_same]
    intro x hx
    obtain ⟨h0, h1⟩ := linspace_mem zero_le_two two_le_gridSize hx
    rw [interp1d_ok_iff]
    refine ⟨0, 2, rfl, rfl, h0, h1, ?_⟩
    simp only [List.zip_cons_cons, List.zip_nil_right, polyline]
    split
    · rename_i hlt
      rw [min_eq_left (by linarith)]
      ring
    · rename_i hge
      rw [min_eq_right (by linarith)]
      split
      · ring
      · have : x = 2 := by linarith
        rw [this]
        norm_num
  obtain ⟨cs, hcs⟩ : ∃ cs, normCumsum ((linspace 0 2 gridSize).map fun x => ((1 : ℝ) + min x (2 - x)) / 4) = .ok cs := by
    set ys := (linspace 0 2 gridSize).map fun x => ((1 : ℝ) + min x (2 - x)) / 4 with hy
    have hpos : ∀ y ∈ ys, 0 < y := by
      intro y hy
      obtain ⟨x, hx, rfl⟩ := List.mem_map.1 hy
      obtain ⟨h0, h1⟩ := linspace_mem zero_le_two two_le_gridSize hx
      have : 0 ≤ min x (2 - x) := le_min h0 (by linarith)
      linarith
    have hne : ys ≠ [] := by
      intro e
      have := congrArg List.length e
      rw [hy, List.length_map, linspace_length, List.length_nil] at this
      have := two_le_gridSize
      omega
    refine ⟨(cumsum ys).map (· / ys.sum), ?_⟩
    have hsum : ys.sum ≠ 0 := (List.sum_pos ys hpos hne).ne'
    simp only [normCumsum, arrMax, npMax_cumsum (fun y hy => (hpos y hy).le) hne, bind, Except.bind, ensure, hsum, ne_eq,
      not_false_eq_true, decide_true, if_true]
    rfl
  have hm : smoothedHistogram kde c col pad none = .ok
      { xs := linspace 0 2 gridSize, ys := (linspace 0 2 gridSize).map fun x => (1 + min x (2 - x)) / 4, cs := cs } := by
    simp only [smoothedHistogram, hdata, hweights, marginalBins, hgrid, if_true, triangle_bins, triangle_density, hpower, triangle_pow,
      triangle_mid, endpoints, List.head?_cons, List.getLast?_cons_cons, List.getLast?_singleton, bind, Except.bind, hys, hcs]
    rfl
  exact ⟨_, hm, C25_marginal_valid kde hk c _ hweights (by simp) col pad none _ hm, rfl, rfl⟩

end CC
