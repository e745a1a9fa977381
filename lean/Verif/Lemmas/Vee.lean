import Verif.Lemmas.TwoPoint
import Verif.Props.Modes
import Verif.Props.Drawn

/-! A grid chain of three points with weights 2, 1, 2, which has two modes, for examples. -/

namespace CC
open Spec

/-- A grid of three points with weights 2, 1 and 2. -/
noncomputable def veeFrame : Frame ℝ := ⟨[.int 0, .int 1, .int 2], [("a", [0, 1, 2]), ("weight", [2, 1, 2])]⟩

theorem veeFrame_wf : veeFrame.WF := ⟨by simp [veeFrame], by simp [veeFrame]⟩

/-- What is used of the chain. -/
structure Vee (c : Chain ℝ) : Prop where
  samples : c.samples = veeFrame
  weight : c.weightColumn = "weight"
  posterior : c.posteriorColumn = "log_posterior"
  power : c.power = 1
  grid : c.grid = true
  name : c.name = "vee"
  height : c.histogramRelativeHeight = .fin 1
  cfg : c.cfg = resolveStatistics (((Cfg.default ℝ).apply (modalKw true)).set ⟨.color, none⟩)

theorem vee_exists : ∃ c, Chain.make { samples := veeFrame.toRaw, name := "vee", grid := true, config := modalKw true } = .ok c ∧ Vee c := by
  obtain ⟨c, h1, h2, h3, h4, h5, h6, -, h8, h9⟩ := plain_chain_cfg (K := ℝ) true (modalKw true) rfl
    (by change (0 : ℝ) ≤ 6827 / 10000 ∧ (6827 / 10000 : ℝ) ≤ 1; constructor <;> norm_num)
    (by change (1 : ℝ) ≤ 10; norm_num) rfl rfl (fun _ => .inl rfl) veeFrame veeFrame_wf
    (by simp [veeFrame]) (w := [2, 1, 2]) rfl (by simp) "vee" 1 le_rfl (one_dvd _)
  exact ⟨c, h1, h2, h3, h4, h5, h6, h8, make_height h1, h9⟩

variable {c : Chain ℝ}

theorem Vee.data (h : Vee c) : c.samples.get "a" = .ok [0, 1, 2] := by rw [h.samples]; rfl

theorem Vee.weights (h : Vee c) : c.weights = .ok [2, 1, 2] := by rw [Chain.weights, h.samples, h.weight]; rfl

theorem Vee.kde (h : Vee c) : (c.cfg .kde : ℝ) = 0 := by rw [h.cfg]; rfl

theorem Vee.smooth (h : Vee c) : c.smoothValue = 0 := by
  have : c.cfg .smooth = none := by rw [h.cfg]; rfl
  simp only [Chain.smoothValue, this, h.grid, if_true]

theorem Vee.modal (h : Vee c) : c.cfg .multimodal = true := by rw [h.cfg]; rfl

theorem Vee.hdi (h : Vee c) : c.cfg .statistics = some .hdi := by rw [h.cfg]; rfl

theorem Vee.area (h : Vee c) : (c.cfg .summaryArea : ℝ) = 6827 / 10000 := by rw [h.cfg]; rfl

theorem Vee.dataColumns (h : Vee c) : c.dataColumns = ["a"] := by
  have h4 : c.cfg .colorParam = none := by rw [h.cfg]; rfl
  rw [Chain.dataColumns, h.samples, h.weight, h.posterior]
  have hc : veeFrame.columns = ["a", "weight"] := rfl
  rw [hc]
  decide

theorem vee_bins : getGridBins ([0, 1, 2] : List ℝ) = .ok [-(1 / 2), 1 / 2, 3 / 2, 5 / 2] := by
  have hsort : sortUnique ([0, 1, 2] : List ℝ) = [0, 1, 2] := sortUnique_sorted (by simp)
  simp only [getGridBins, hsort]
  simp only [List.map_cons, List.map_nil, List.getLastD_cons, List.getLastD_nil, List.cons_append, List.nil_append,
    Except.ok.injEq, List.cons.injEq, and_true]
  norm_num

theorem vee_density :
    histDensity [-(1 / 2), 1 / 2, 3 / 2, 5 / 2] [0, 1, 2] [2, 1, 2] = .ok [(2 / 5 : ℝ), 1 / 5, 2 / 5] := by
  have hm0 : binMass [-(1 / 2 : ℝ), 1 / 2, 3 / 2, 5 / 2] [0, 1, 2] [2, 1, 2] 0 = 2 := by
    simp [binMass, inBin]; norm_num
  have hm1 : binMass [-(1 / 2 : ℝ), 1 / 2, 3 / 2, 5 / 2] [0, 1, 2] [2, 1, 2] 1 = 1 := by
    simp [binMass, inBin]; norm_num
  have hm2 : binMass [-(1 / 2 : ℝ), 1 / 2, 3 / 2, 5 / 2] [0, 1, 2] [2, 1, 2] 2 = 2 := by
    simp [binMass, inBin]; norm_num
  have h1 : (-(1 / 2) : ℝ) ≤ 1 / 2 := by norm_num
  have h2 : (1 / 2 : ℝ) ≤ 3 / 2 := by norm_num
  have h3 : (3 / 2 : ℝ) ≤ 5 / 2 := by norm_num
  have hn : histogram [-(1 / 2 : ℝ), 1 / 2, 3 / 2, 5 / 2] [0, 1, 2] [2, 1, 2] = .ok [2, 1, 2] := by
    simp only [histogram, List.tail_cons, List.zipWith_cons_cons, List.zipWith_nil_right, h1, h2, h3,
      decide_true, List.all_cons, List.all_nil, id, Bool.and_self, ensure, if_true, bind, Except.bind, pure, Except.pure,
      List.length_cons, List.length_nil, Except.ok.injEq]
    rw [show List.range (0 + 1 + 1 + 1 + 1 - 1) = [0, 1, 2] from rfl, List.map_cons, List.map_cons, List.map_cons, hm0, hm1, hm2]
    rfl
  have h4 : (-(1 / 2) : ℝ) ≠ 1 / 2 := by norm_num
  have h5 : (1 / 2 : ℝ) ≠ 3 / 2 := by norm_num
  have h6 : (3 / 2 : ℝ) ≠ 5 / 2 := by norm_num
  have h13 : ¬ ((2 : ℝ) + (1 + (2 + 0)) = 0) := by norm_num
  simp only [histDensity, hn, bind, Except.bind, List.tail_cons, List.zipWith_cons_cons, List.zipWith_nil_right,
    ne_eq, h4, h5, h6, not_false_eq_true,
    decide_true, List.all_cons, List.all_nil, id, Bool.and_self, ensure, if_true, List.sum_cons, List.sum_nil]
  simp only [h13, not_false_eq_true, decide_true, if_true, pure, Except.pure, Except.ok.injEq, List.cons.injEq, and_true]
  refine ⟨?_, ?_, ?_⟩ <;> norm_num

theorem vee_mid : midpoints [-(1 / 2 : ℝ), 1 / 2, 3 / 2, 5 / 2] = [0, 1, 2] := by
  simp only [midpoints, List.tail_cons, List.zipWith_cons_cons, List.zipWith_nil_right, List.cons.injEq, and_true]
  refine ⟨?_, ?_, ?_⟩ <;> norm_num

theorem vee_pow : powAll [(2 / 5 : ℝ), 1 / 5, 2 / 5] 1 = .ok [2 / 5, 1 / 5, 2 / 5] := by
  simp [powAll, ensure, bind, Except.bind, pure, Except.pure]

/-- The marginal falls to the middle and rises again. -/
theorem Vee.marginal (h : Vee c) {kde : KdeFn} (hk : KdeOk kde) (pad : Bool) :
    ∃ m, smoothedHistogram kde c "a" pad none = .ok m ∧ ValidMarginal m ∧ m.xs = linspace 0 2 gridSize ∧
      m.ys = (linspace 0 2 gridSize).map fun x => (1 + |x - 1|) / 5 := by
  have hys : marginalYs kde c none [0, 1, 2] [2, 1, 2] [-(1 / 2), 1 / 2, 3 / 2, 5 / 2] [2 / 5, 1 / 5, 2 / 5] 0 2
      (linspace 0 2 gridSize) = .ok ((linspace 0 2 gridSize).map fun x => (1 + |x - 1|) / 5) := by
    simp only [marginalYs, smoothHist, h.smooth, if_true, h.kde, ne_eq, not_true_eq_false, decide_false, Option.getD_none,
      bind, Except.bind, Bool.false_eq_true, if_false, vee_mid]
    rw [mapM_ok_iff, List.forall₂_map_right_iff, List.forall₂_same]
    intro x hx
    obtain ⟨h0, h1⟩ := linspace_mem zero_le_two two_le_gridSize hx
    rw [interp1d_ok_iff]
    refine ⟨0, 2, rfl, rfl, h0, h1, ?_⟩
    simp only [List.zip_cons_cons, List.zip_nil_right, polyline]
    split
    · rw [abs_of_nonpos (by linarith)]
      ring
    · split
      · rw [abs_of_nonneg (by linarith)]
        ring
      · have : x = 2 := by linarith
        rw [this]
        norm_num
  obtain ⟨cs, hcs⟩ : ∃ cs, normCumsum ((linspace (0 : ℝ) 2 gridSize).map fun x => (1 + |x - 1|) / 5) = .ok cs := by
    set ys := (linspace (0 : ℝ) 2 gridSize).map fun x => (1 + |x - 1|) / 5 with hy
    have hpos : ∀ y ∈ ys, 0 < y := by
      intro y hy
      obtain ⟨x, hx, rfl⟩ := List.mem_map.1 hy
      positivity
    have hne : ys ≠ [] := by
      intro e
      have := congrArg List.length e
      rw [hy, List.length_map, linspace_length, List.length_nil] at this
      have := two_le_gridSize
      omega
    refine ⟨(cumsum ys).map (· / ys.sum), ?_⟩
    have hsum : ys.sum ≠ 0 := (List.sum_pos ys hpos hne).ne'
    simp only [normCumsum, arrMax, npMax_cumsum (fun y hy => (hpos y hy).le) hne, bind, Except.bind, ensure, hsum, ne_eq,
      not_false_eq_true, decide_true, if_true]
    rfl
  have hm : smoothedHistogram kde c "a" pad none = .ok
      { xs := linspace 0 2 gridSize, ys := (linspace 0 2 gridSize).map fun x => (1 + |x - 1|) / 5, cs := cs } := by
    simp only [smoothedHistogram, h.data, h.weights, marginalBins, h.grid, if_true, vee_bins, vee_density, h.power, vee_pow,
      vee_mid, endpoints, List.head?_cons, List.getLast?_cons_cons, List.getLast?_singleton, bind, Except.bind, hys, hcs]
    rfl
  exact ⟨_, hm, C25_marginal_valid kde hk c _ h.weights (by simp) "a" pad none _ hm, rfl, rfl⟩

/-! ### The integrals -/

theorem simpsonOdd_le {h : ℝ} (hh : 0 ≤ h) : ∀ (ys : List ℝ), (∀ y ∈ ys, 0 ≤ y) →
    simpsonOdd h ys ≤ 4 / 3 * h * ys.sum - h * ys.headD 0
  | [], _ => by simp [simpsonOdd]
  | [a], hy => by
    have ha := hy a (by simp)
    simp only [simpsonOdd, List.sum_cons, List.sum_nil, List.headD_cons]
    nlinarith [mul_nonneg hh ha]
  | [a, b], hy => by
    have ha := hy a (by simp)
    have hb := hy b (by simp)
    simp only [simpsonOdd, List.sum_cons, List.sum_nil, List.headD_cons]
    nlinarith [mul_nonneg hh ha, mul_nonneg hh hb]
  | a :: b :: c :: rest, hy => by
    rw [simpsonOdd]
    have hc := hy c (by simp)
    have := simpsonOdd_le hh (c :: rest) fun y h => hy y (by simp at h ⊢; tauto)
    simp only [List.sum_cons, List.headD_cons] at this ⊢
    nlinarith [mul_nonneg hh hc]

theorem simpsonOdd_ge_sum {h : ℝ} (hh : 0 ≤ h) : ∀ (ys : List ℝ), (∀ y ∈ ys, 0 ≤ y) → ys.length % 2 = 1 → 3 ≤ ys.length →
    h / 3 * ys.sum ≤ simpsonOdd h ys
  | [], _, h, _ => by simp at h
  | [_], _, _, h => by simp at h
  | [_, _], _, h, _ => by simp at h
  | [a, b, c], hy, _, _ => by
    have hb := hy b (by simp)
    simp only [simpsonOdd, List.sum_cons, List.sum_nil]
    nlinarith [mul_nonneg hh hb]
  | [a, b, c, d], _, h, _ => by simp at h
  | a :: b :: c :: d :: e :: rest, hy, hodd, _ => by
    rw [simpsonOdd]
    have hb := hy b (by simp)
    have hc := hy c (by simp)
    have := simpsonOdd_ge_sum hh (c :: d :: e :: rest) (fun y h => hy y (by simp at h ⊢; tauto)) (by simp at hodd ⊢; omega) (by simp)
    simp only [List.sum_cons] at this ⊢
    nlinarith [mul_nonneg hh hb, mul_nonneg hh hc]

theorem simpsonOdd_add {α : Type} (h : ℝ) (f g : α → ℝ) : ∀ l : List α,
    simpsonOdd h (l.map fun x => f x + g x) = simpsonOdd h (l.map f) + simpsonOdd h (l.map g)
  | [] => by simp [simpsonOdd]
  | [_] => by simp [simpsonOdd]
  | [_, _] => by simp [simpsonOdd]
  | a :: b :: c :: rest => by
    have := simpsonOdd_add h f g (c :: rest)
    simp only [List.map_cons] at this ⊢
    rw [simpsonOdd, simpsonOdd, simpsonOdd, this]
    ring

theorem getD_map_of_lt {α : Type} (l : List α) (f : α → ℝ) {i : Nat} (hi : i < l.length) : (l.map f).getD i 0 = f l[i] := by
  rw [List.getD_eq_getElem?_getD, List.getElem?_map, List.getElem?_eq_getElem hi]
  rfl

theorem simpson_add {α : Type} (l : List α) (hl : l.length % 2 = 0) (h4 : 4 ≤ l.length) (f g : α → ℝ) (xs : List ℝ) :
    simpson (l.map fun x => f x + g x) xs = simpson (l.map f) xs + simpson (l.map g) xs := by
  unfold simpson
  simp only [List.length_map, hl, zero_ne_one, if_false, show ¬ l.length = 2 by omega, ← List.map_take, simpsonOdd_add]
  have e : ∀ (F : α → ℝ) (k : Nat), 1 ≤ k → (l.map F).getD (l.length - k) 0 = if hk : l.length - k < l.length then F l[l.length - k] else 0 := by
    intro F k hk
    rw [dif_pos (by omega), getD_map_of_lt _ _ (by omega)]
  rw [e _ 1 le_rfl, e _ 2 (by omega), e _ 3 (by omega), e f 1 le_rfl, e f 2 (by omega), e f 3 (by omega), e g 1 le_rfl, e g 2 (by omega),
    e g 3 (by omega), dif_pos (by omega), dif_pos (by omega), dif_pos (by omega), dif_pos (by omega), dif_pos (by omega), dif_pos (by omega),
    dif_pos (by omega), dif_pos (by omega), dif_pos (by omega)]
  ring

theorem simpson_bounds {ys xs : List ℝ} (hl : ys.length % 2 = 0) (h4 : 4 ≤ ys.length) (hx : 0 ≤ xs.getD 1 0 - xs.getD 0 0)
    (hy : ∀ y ∈ ys, 0 ≤ y) : (xs.getD 1 0 - xs.getD 0 0) / 4 * ys.sum ≤ simpson ys xs ∧
      simpson ys xs ≤ 2 * (xs.getD 1 0 - xs.getD 0 0) * ys.sum := by
  have hyt : ∀ y ∈ ys.take (ys.length - 1), 0 ≤ y := fun y hy' => hy y (List.mem_of_mem_take hy')
  have hget : ∀ (l : List ℝ), (∀ y ∈ l, 0 ≤ y) → ∀ i, i < l.length → 0 ≤ l.getD i 0 ∧ l.getD i 0 ≤ l.sum := by
    intro l hl i hi
    rw [List.getD_eq_getElem?_getD, List.getElem?_eq_getElem hi, Option.getD_some]
    exact ⟨hl _ (List.getElem_mem _), List.single_le_sum hl _ (List.getElem_mem _)⟩
  have hlen : (ys.take (ys.length - 1)).length = ys.length - 1 := by simp
  have htake : ∀ i, i < ys.length - 1 → (ys.take (ys.length - 1)).getD i 0 = ys.getD i 0 := by
    intro i hi
    rw [List.getD_eq_getElem?_getD, List.getD_eq_getElem?_getD, List.getElem?_take_of_lt hi]
  have hsum : ys.sum = (ys.take (ys.length - 1)).sum + ys.getD (ys.length - 1) 0 := by
    conv_lhs => rw [← List.take_append_drop (ys.length - 1) ys]
    rw [List.sum_append, List.drop_eq_getElem_cons (by omega), List.drop_eq_nil_of_le (by omega)]
    rw [List.getD_eq_getElem?_getD, List.getElem?_eq_getElem (by omega)]
    simp
  have h1 := simpsonOdd_le hx _ hyt
  have h2 := simpsonOdd_ge_sum hx _ hyt (by omega) (by omega)
  have h3 := (hget _ hy (ys.length - 1) (by omega)).1
  have h5 := hget _ hyt (ys.length - 2) (by omega)
  have h6 := hget _ hyt (ys.length - 3) (by omega)
  rw [htake _ (by omega)] at h5 h6
  have h7 : 0 ≤ (ys.take (ys.length - 1)).headD 0 := by
    cases e : ys.take (ys.length - 1) with
    | nil => simp
    | cons a l => exact hyt a (by rw [e]; simp)
  unfold simpson
  simp only [hl, zero_ne_one, if_false, show ¬ ys.length = 2 by omega]
  rw [hsum]
  generalize xs.getD 1 0 - xs.getD 0 0 = h at *
  constructor
  · nlinarith [mul_nonneg hx h3, mul_nonneg hx h5.1, mul_le_mul_of_nonneg_left h6.2 hx]
  · nlinarith [mul_nonneg hx h3, mul_le_mul_of_nonneg_left h5.2 hx, mul_nonneg hx h6.1, mul_nonneg hx h7]

/-! ### The two modes -/

/-- The values of the marginal by index. -/
noncomputable def veeAt (i : Nat) : ℝ := (1 + |2 * (i : ℝ) / 9999 - 1|) / 5

theorem veeAt_left {i : Nat} (hi : i < 5000) : veeAt i = (2 - 2 * (i : ℝ) / 9999) / 5 := by
  have : (i : ℝ) ≤ 4999 := by exact_mod_cast Nat.lt_succ_iff.1 hi
  rw [veeAt, abs_of_nonpos (by linarith)]
  ring

theorem veeAt_right {i : Nat} (hi : 5000 ≤ i) : veeAt i = 2 * (i : ℝ) / 9999 / 5 := by
  have : (5000 : ℝ) ≤ i := by exact_mod_cast hi
  rw [veeAt, abs_of_nonneg (by linarith)]
  ring

/-- Few values, small sum. -/
theorem sum_few (g : Nat → ℝ) (n : Nat) (S : Finset Nat) {b : ℝ} (hb : 0 ≤ b) (hin : ∀ i, i < n → g i ≤ b) (hout : ∀ i, i < n → i ∉ S → g i ≤ 0) :
    ((List.range n).map g).sum ≤ S.card * b := by
  rw [list_sum_range]
  calc ∑ i ∈ Finset.range n, g i ≤ ∑ i ∈ Finset.range n, if i ∈ S then b else 0 := by
        refine Finset.sum_le_sum fun i hi => ?_
        split
        · exact hin i (Finset.mem_range.1 hi)
        · exact hout i (Finset.mem_range.1 hi) ‹_›
    _ = ((Finset.range n ∩ S).card : ℝ) * b := by rw [Finset.sum_ite_mem, Finset.sum_const, nsmul_eq_mul]
    _ ≤ S.card * b := mul_le_mul_of_nonneg_right (by exact_mod_cast Finset.card_le_card Finset.inter_subset_right) hb

theorem vee_sums : ((List.range 5000).map veeAt).sum = 14999000 / 9999 ∧ ((List.range 10000).map veeAt).sum = 29998000 / 9999 := by
  have h1 : ((List.range 5000).map veeAt).sum = 14999000 / 9999 := by
    have e : (List.range 5000).map veeAt = (List.range 5000).map fun (i : Nat) => (2 / 5 : ℝ) + i * (-2 / 49995) := by
      refine List.map_congr_left fun i hi => ?_
      rw [veeAt_left (List.mem_range.1 hi)]
      ring
    rw [e, sum_line]
    norm_num
  refine ⟨h1, ?_⟩
  have h2 : ((List.range 5000).map fun i => veeAt (5000 + i)).sum = 14999000 / 9999 := by
    have e : ((List.range 5000).map fun i => veeAt (5000 + i)) =
        (List.range 5000).map fun (i : Nat) => (10000 / 49995 : ℝ) + i * (2 / 49995) := by
      refine List.map_congr_left fun i hi => ?_
      rw [veeAt_right (Nat.le_add_right _ _)]
      push_cast
      ring
    rw [e, sum_line]
    norm_num
  rw [show 10000 = 5000 + 5000 from rfl, List.range_add, List.map_append, List.sum_append, h1, List.map_map]
  have : (veeAt ∘ fun x => 5000 + x) = fun i => veeAt (5000 + i) := rfl
  rw [this, h2]
  norm_num

theorem veeAt_le {i : Nat} (hi : i < 10000) : 1 / 5 ≤ veeAt i ∧ veeAt i ≤ 2 / 5 := by
  have h : (i : ℝ) ≤ 9999 := by exact_mod_cast Nat.lt_succ_iff.1 hi
  have h0 : (0 : ℝ) ≤ i := by positivity
  have : |2 * (i : ℝ) / 9999 - 1| ≤ 1 := by
    rw [abs_le]
    constructor <;> linarith
  have := abs_nonneg (2 * (i : ℝ) / 9999 - 1)
  unfold veeAt
  constructor <;> linarith

theorem vee_high : ((List.range 10000).map fun i => if 395 / 1000 ≤ veeAt i then veeAt i else 0).sum ≤ 101 := by
  refine (sum_few _ 10000 (Finset.range 125 ∪ Finset.Ico 9874 10000) (b := 2 / 5) (by norm_num) ?_ ?_).trans ?_
  · intro i hi
    split
    · exact (veeAt_le hi).2
    · norm_num
  · intro i hi hS
    simp only [Finset.mem_union, Finset.mem_range, Finset.mem_Ico, not_or, not_and] at hS
    rw [if_neg]
    rw [not_le]
    have h1 : (125 : ℝ) ≤ i := by exact_mod_cast not_lt.1 hS.1
    have h2 : (i : ℝ) ≤ 9873 := by
      have : i ≤ 9873 := by
        by_contra h
        exact hS.2 (by omega) hi
      exact_mod_cast this
    have : |2 * (i : ℝ) / 9999 - 1| < 975 / 1000 := by
      rw [abs_lt]
      constructor <;> linarith
    unfold veeAt
    linarith
  · have : (Finset.range 125 ∪ Finset.Ico 9874 10000).card ≤ 251 := by
      refine (Finset.card_union_le _ _).trans ?_
      rw [Finset.card_range, Nat.card_Ico]
    have : ((Finset.range 125 ∪ Finset.Ico 9874 10000).card : ℝ) ≤ 251 := by exact_mod_cast this
    linarith

theorem vee_low : ((List.range 10000).map fun i => if 205 / 1000 ≤ veeAt i then 0 else veeAt i).sum ≤ 101 := by
  refine (sum_few _ 10000 (Finset.Ico 4874 5125) (b := 2 / 5) (by norm_num) ?_ ?_).trans ?_
  · intro i hi
    split
    · norm_num
    · exact (veeAt_le hi).2
  · intro i hi hS
    simp only [Finset.mem_Ico, not_and, not_lt] at hS
    rw [if_pos]
    have : 25 / 1000 ≤ |2 * (i : ℝ) / 9999 - 1| := by
      by_cases h : 4874 ≤ i
      · have : (5125 : ℝ) ≤ i := by exact_mod_cast hS h
        rw [abs_of_nonneg (by linarith)]
        linarith
      · have : (i : ℝ) ≤ 4873 := by exact_mod_cast (show i ≤ 4873 by omega)
        rw [abs_of_nonpos (by linarith)]
        linarith
    unfold veeAt
    linarith
  · rw [Nat.card_Ico]
    norm_num

theorem vee_index {m : Marginal ℝ} (hx : m.xs = linspace 0 2 gridSize) (hy : m.ys = (linspace 0 2 gridSize).map fun x => (1 + |x - 1|) / 5) :
    m.ys = (List.range 10000).map veeAt ∧ (m.xs = (List.range 10000).map fun (i : Nat) => 2 * (i : ℝ) / 9999) ∧
      m.xs.getD 1 0 - m.xs.getD 0 0 = 2 / 9999 := by
  have hg : gridSize = 10000 := by unfold gridSize; rfl
  have hxs : m.xs = (List.range 10000).map fun (i : Nat) => 2 * (i : ℝ) / 9999 := by
    rw [hx, hg, linspace]
    refine List.map_congr_left fun i _ => ?_
    push_cast
    ring
  refine ⟨?_, hxs, ?_⟩
  · rw [hy, ← hx, hxs, List.map_map]
    rfl
  · rw [hxs, getD_map_of_lt _ _ (by simp), getD_map_of_lt _ _ (by simp), List.getElem_range, List.getElem_range]
    norm_num

/-- The mass above a level, in the units of the values. -/
theorem vee_mass {m : Marginal ℝ} (hx : m.xs = linspace 0 2 gridSize) (hy : m.ys = (linspace 0 2 gridSize).map fun x => (1 + |x - 1|) / 5) :
    let T := simpson m.ys m.xs
    0 < T ∧ T ≤ 13 / 10 ∧ (∀ t, 395 / 1000 ≤ t * T → massAbove m (m.ys.map (· / T)) t < 6827 / 10000) ∧
      ∀ t, t * T ≤ 205 / 1000 → 6827 / 10000 < massAbove m (m.ys.map (· / T)) t := by
  intro T
  obtain ⟨hys, -, hh⟩ := vee_index hx hy
  have hlen : (List.range 10000).length = 10000 := List.length_range
  have hval : ∀ y ∈ m.ys, 0 ≤ y := by
    intro y hy'
    rw [hys] at hy'
    obtain ⟨i, hi, rfl⟩ := List.mem_map.1 hy'
    have := (veeAt_le (List.mem_range.1 hi)).1
    linarith
  have hb := simpson_bounds (ys := m.ys) (xs := m.xs) (by rw [hys, List.length_map, hlen]) (by rw [hys, List.length_map, hlen]; norm_num)
    (by rw [hh]; norm_num) hval
  rw [hh, show m.ys.sum = 29998000 / 9999 by rw [hys]; exact vee_sums.2] at hb
  have hT0 : (15 / 100 : ℝ) ≤ T := le_trans (by norm_num) hb.1
  have hTp : 0 < T := by linarith
  have hTu : T ≤ 13 / 10 := hb.2.trans (by norm_num)
  have hmass : ∀ t, massAbove m (m.ys.map (· / T)) t = 1 / T * simpson ((List.range 10000).map fun i => if t * T ≤ veeAt i then veeAt i else 0) m.xs := by
    intro t
    have e : ((m.ys.map (· / T)).map fun v => if t ≤ v then v else 0) =
        ((List.range 10000).map fun i => if t * T ≤ veeAt i then veeAt i else 0).map (· * (1 / T)) := by
      rw [hys, List.map_map, List.map_map, List.map_map]
      refine List.map_congr_left fun i _ => ?_
      simp only [Function.comp, le_div_iff₀ hTp]
      split <;> ring
    rw [massAbove, e, simpson_smul]
  have hpart : ∀ g : Nat → ℝ, (∀ i, i < 10000 → 0 ≤ g i) → ((List.range 10000).map g).sum ≤ 101 →
      simpson ((List.range 10000).map g) m.xs ≤ 41 / 1000 := by
    intro g hg hs
    have := (simpson_bounds (ys := (List.range 10000).map g) (xs := m.xs) (by rw [List.length_map, hlen]) (by rw [List.length_map, hlen]; norm_num)
      (by rw [hh]; norm_num) (by
        intro y hy'
        obtain ⟨i, hi, rfl⟩ := List.mem_map.1 hy'
        exact hg i (List.mem_range.1 hi))).2
    rw [hh] at this
    linarith
  refine ⟨hTp, hTu, fun t ht => ?_, fun t ht => ?_⟩
  · rw [hmass, one_div, inv_mul_lt_iff₀ hTp]
    have : simpson ((List.range 10000).map fun i => if t * T ≤ veeAt i then veeAt i else 0) m.xs ≤ 41 / 1000 := by
      refine hpart _ (fun i hi => ?_) (le_trans ?_ vee_high)
      · have := (veeAt_le hi).1
        split <;> linarith
      · refine List.sum_le_sum fun i hi => ?_
        have := (veeAt_le (List.mem_range.1 hi)).1
        split <;> split <;> linarith
    linarith
  · rw [hmass, one_div, lt_inv_mul_iff₀ hTp]
    have h1 : simpson ((List.range 10000).map fun i => if t * T ≤ veeAt i then 0 else veeAt i) m.xs ≤ 41 / 1000 := by
      refine hpart _ (fun i hi => ?_) (le_trans ?_ vee_low)
      · have := (veeAt_le hi).1
        split <;> linarith
      · refine List.sum_le_sum fun i hi => ?_
        have := (veeAt_le (List.mem_range.1 hi)).1
        split <;> split <;> linarith
    have h2 : T = simpson ((List.range 10000).map fun i => if t * T ≤ veeAt i then veeAt i else 0) m.xs +
        simpson ((List.range 10000).map fun i => if t * T ≤ veeAt i then 0 else veeAt i) m.xs := by
      have e : m.ys = (List.range 10000).map fun i => (if t * T ≤ veeAt i then veeAt i else 0) + (if t * T ≤ veeAt i then 0 else veeAt i) := by
        rw [hys]
        refine List.map_congr_left fun i _ => ?_
        split <;> ring
      rw [← simpson_add _ (by rw [hlen]) (by rw [hlen]; norm_num), ← e]
    linarith

theorem vee_two {m : Marginal ℝ} (hv : ValidMarginal m) (hx : m.xs = linspace 0 2 gridSize)
    (hy : m.ys = (linspace 0 2 gridSize).map fun x => (1 + |x - 1|) / 5) : ∃ ivs bs, hdiIntervals m (6827 / 10000) = .ok ivs ∧
      2 ≤ ivs.length ∧ multimodalBounds m ivs = .ok bs ∧ bs.length = ivs.length ∧ ∀ iv ∈ ivs, iv.2 < 1 ∨ 1 < iv.1 := by
  obtain ⟨hT, hTu, hhi, hlo⟩ := vee_mass hx hy
  obtain ⟨hys, hxs, -⟩ := vee_index hx hy
  have hlen : m.ys.length = 10000 := by rw [hys, List.length_map, List.length_range]
  have hget : ∀ i, i < 10000 → m.ys[i]? = some (veeAt i) := by
    intro i hi
    rw [hys, List.getElem?_map, List.getElem?_range hi]
    rfl
  have hgetx : ∀ i : Nat, i < 10000 → m.xs[i]? = some (2 * (i : ℝ) / 9999) := by
    intro i hi
    rw [hxs, List.getElem?_map, List.getElem?_range hi]
    rfl
  have hle : ∀ z ∈ m.ys, z ≤ 2 / 5 := by
    intro z hz
    rw [hys] at hz
    obtain ⟨i, hi, rfl⟩ := List.mem_map.1 hz
    exact (veeAt_le (List.mem_range.1 hi)).2
  have h0 : veeAt 0 = 2 / 5 := by rw [veeAt_left (by norm_num)]; norm_num
  obtain ⟨t, d, hcut⟩ := (C35_cut_exists_iff m hv hT.ne' (2 / 5 / simpson m.ys m.xs)
    (List.mem_map_of_mem (by rw [← h0]; exact List.mem_of_getElem? (hget 0 (by norm_num)))) (by
      intro v hv'
      obtain ⟨z, hz, rfl⟩ := List.mem_map.1 hv'
      exact div_le_div_of_nonneg_right (hle z hz) hT.le) (6827 / 10000) (by norm_num)).2 (.inl (hhi _ (by
        rw [div_mul_cancel₀ _ hT.ne']
        norm_num)).le)
  obtain ⟨ivs, bs, hiv, hbs, hl, -⟩ := C36_bounds_of_bands m hv _ (by norm_num) t d hcut
  obtain ⟨ht0, ⟨v, hvd, htv⟩, hcase⟩ := C35_cut_partial m hv _ (by norm_num) t d hcut
  obtain ⟨-, hd, -⟩ := hdiCut_spec hv hcut
  set T := simpson m.ys m.xs with hTd
  have htop : ∀ v ∈ d, v * T ≤ 2 / 5 := by
    intro v hv'
    rw [hd] at hv'
    obtain ⟨z, hz, rfl⟩ := List.mem_map.1 hv'
    rw [div_mul_cancel₀ _ hT.ne']
    exact hle z hz
  have htT : t * T ≤ 2 / 5 := (mul_le_mul_of_nonneg_right htv hT.le).trans (htop v hvd)
  rw [← hd] at hhi hlo
  have hlev : 204 / 1000 < t * T ∧ t * T < 396 / 1000 := by
    rcases hcase with h | ⟨lo, hi, h1, h2, h3, h4, h5, h6⟩
    · constructor
      · by_contra hc
        have := hlo t (by linarith)
        linarith
      · by_contra hc
        have := hhi t (by linarith)
        linarith
    · have h7 : lo * T < 395 / 1000 := by
        by_contra hc
        have := hhi lo (by linarith)
        linarith
      have h8 : 205 / 1000 < hi * T := by
        by_contra hc
        have := hlo hi (by linarith)
        linarith
      rcases h6 with ⟨h9, h10⟩ | ⟨rfl, v', hv', h10⟩
      · have e9 := mul_lt_mul_of_pos_right h9 hT
        have e10 := mul_lt_mul_of_pos_right h10 hT
        have e : (5 / 10 ^ 4 + 4 / 2 ^ 52 * t) * T ≤ 9 / 10000 := by
          have : (5 / 10 ^ 4 + 4 / 2 ^ 52 * t) * T = 5 / 10 ^ 4 * T + 4 / 2 ^ 52 * (t * T) := by ring
          rw [this]
          norm_num
          linarith
        constructor <;> nlinarith
      · have e10 := mul_le_mul_of_nonneg_right h10 hT.le
        have e11 := htop v' hv'
        have : v' / 2 ^ 100 * T = v' * T / 2 ^ 100 := by ring
        rw [this] at e10
        have : v' * T / 2 ^ 100 ≤ 1 / 10000 := by
          rw [div_le_iff₀ (by positivity)]
          norm_num
          linarith
        constructor
        · nlinarith
        · linarith
  -- the mask
  have hdl : d.length = 10000 := by rw [hd, List.length_map, hlen]
  have hxl : m.xs.length = 10000 := by rw [← hv.ys_length, hlen]
  obtain ⟨rs, hrs, hmem, -⟩ := C24_mask_intervals m.xs hv.increasing (d.map fun v => decide (t ≤ v)) (by rw [List.length_map, hdl, hxl])
  set mask := d.map fun v => decide (t ≤ v) with hmask
  have hml : mask.length = 10000 := by rw [hmask, List.length_map, hdl]
  have hholds : ∀ i, i < 10000 → (Holds mask i ↔ t * T ≤ veeAt i) := by
    intro i hi
    unfold Holds
    rw [hmask, hd, List.getElem?_map, List.getElem?_map, hget i hi]
    simp [le_div_iff₀ hT]
  have hmid : ¬ Holds mask 4999 := by
    rw [hholds _ (by norm_num), veeAt_left (by norm_num)]
    push Not
    refine lt_trans ?_ hlev.1
    norm_num
  have hmid' : ¬ Holds mask 5000 := by
    rw [hholds _ (by norm_num), veeAt_right (by norm_num)]
    push Not
    refine lt_trans ?_ hlev.1
    norm_num
  have a0 : Holds mask 0 := (hholds _ (by norm_num)).2 (by rw [h0]; exact htT)
  have a1 : Holds mask 1 := (hholds _ (by norm_num)).2 (by
    rw [veeAt_left (by norm_num)]
    refine hlev.2.le.trans ?_
    norm_num)
  have b0 : Holds mask 9998 := (hholds _ (by norm_num)).2 (by
    rw [veeAt_right (by norm_num)]
    refine hlev.2.le.trans ?_
    norm_num)
  have b1 : Holds mask 9999 := (hholds _ (by norm_num)).2 (by
    rw [veeAt_right (by norm_num)]
    refine hlev.2.le.trans ?_
    norm_num)
  have side : ∀ s e, IsRun mask s e → e < 4999 ∨ 5000 < s := by
    intro s e hr
    by_contra hc
    push Not at hc
    by_cases hs : s ≤ 4999
    · exact hmid (hr.inside 4999 hs hc.1)
    · exact hmid' (hr.inside 5000 hc.2 (by have := hr.le; omega))
  obtain ⟨s1, e1, h1, h2, r1⟩ := exists_run a0
  obtain ⟨s2, e2, h3, h4, r2⟩ := exists_run b1
  have g1 : 0 < e1 := by
    by_contra hc
    obtain rfl : e1 = 0 := by omega
    exact r1.right a1
  have g2 : s2 < 9999 := by
    by_contra hc
    obtain rfl : s2 = 9999 := by omega
    exact r2.left 9998 rfl b0
  have k1 := run_lt r1
  have k2 := run_lt r2
  have q1 : e1 < 4999 := by
    rcases side _ _ r1 with h | h
    · exact h
    · omega
  have q2 : 5000 < s2 := by
    rcases side _ _ r2 with h | h
    · omega
    · exact h
  have m1 := (hmem (2 * (s1 : ℝ) / 9999, 2 * (e1 : ℝ) / 9999)).2 ⟨s1, e1, r1, by omega, hgetx _ (by omega), hgetx _ (by omega)⟩
  have m2 := (hmem (2 * (s2 : ℝ) / 9999, 2 * (e2 : ℝ) / 9999)).2 ⟨s2, e2, r2, by omega, hgetx _ (by omega), hgetx _ (by omega)⟩
  obtain ⟨l, x, u, hsum, -⟩ := C31_hdi_mass hv (6827 / 10000) (by norm_num)
  have hrun : hdiIntervals m (6827 / 10000) = .ok rs := by
    have hne : rs.isEmpty = false := by
      rw [List.isEmpty_eq_false_iff]
      exact List.ne_nil_of_mem m1
    have hrs' := hrs
    rw [hmask] at hrs'
    simp only [hdiIntervals, hsum, hcut, bind, Except.bind, hrs', hne, Bool.false_eq_true, if_false, pure, Except.pure]
  cases hiv.symm.trans hrun
  refine ⟨ivs, bs, hiv, ?_, hbs, hl.symm, ?_⟩
  · by_contra hc
    have : ivs.length = 1 := by
      have := List.length_pos_of_mem m1
      omega
    obtain ⟨z, rfl⟩ := List.length_eq_one_iff.1 this
    have e := (List.mem_singleton.1 m1).trans (List.mem_singleton.1 m2).symm
    have e := congrArg Prod.fst e
    have f1 : (s1 : ℝ) ≤ 0 := by exact_mod_cast h1
    have f2 : (5000 : ℝ) < s2 := by exact_mod_cast q2
    simp only at e
    linarith
  · intro iv hiv'
    obtain ⟨s, e, hr, hse, hs, he⟩ := (hmem iv).1 hiv'
    have hel := run_lt hr
    rw [hgetx _ (by omega)] at hs he
    rw [← Option.some.inj hs, ← Option.some.inj he]
    rcases side _ _ hr with h | h
    · left
      have : (e : ℝ) < 4999 := by exact_mod_cast h
      linarith
    · right
      have : (5000 : ℝ) < s := by exact_mod_cast h
      linarith

/-- The shortest interval reaches across the middle. -/
theorem vee_hdi {m : Marginal ℝ} (hv : ValidMarginal m) (hx : m.xs = linspace 0 2 gridSize)
    (hy : m.ys = (linspace 0 2 gridSize).map fun x => (1 + |x - 1|) / 5) :
    ∃ l x u, summaryHdi m (6827 / 10000) = .ok ⟨some l, some x, some u⟩ ∧ l ≤ x ∧ x ≤ u ∧ l < 1 ∧ 1 < u := by
  obtain ⟨hys, hxs, -⟩ := vee_index hx hy
  obtain ⟨l, x, u, hsum, hlx, hxu, i, j, p, q, hij, hl, hu, hp, hq, hpq, -⟩ := C31_hdi_mass hv (6827 / 10000) (by norm_num)
  refine ⟨l, x, u, hsum, hlx, hxu, ?_⟩
  have hgetx : ∀ (i : Nat) (x : ℝ), m.xs[i]? = some x → i < 10000 ∧ x = 2 * (i : ℝ) / 9999 := by
    intro i x h
    rw [hxs, List.getElem?_map] at h
    have hi : i < 10000 := by
      by_contra hc
      rw [List.getElem?_eq_none (by rw [List.length_range]; omega)] at h
      cases h
    rw [List.getElem?_range hi] at h
    exact ⟨hi, (Option.some.inj h).symm⟩
  have htot : m.ys.sum = 29998000 / 9999 := by rw [hys]; exact vee_sums.2
  have hval : ∀ y ∈ m.ys, 0 ≤ y := hv.density_nonneg
  have hmono : ∀ a b, a ≤ b → (m.ys.take a).sum ≤ (m.ys.take b).sum := by
    intro a b hab
    rw [show m.ys.take a = (m.ys.take b).take a by rw [List.take_take, min_eq_left hab]]
    conv_rhs => rw [← List.take_append_drop a (m.ys.take b)]
    rw [List.sum_append]
    have := List.sum_nonneg (l := (m.ys.take b).drop a) fun y hy => hval y (List.mem_of_mem_take (List.mem_of_mem_drop hy))
    linarith
  have hhalf : (m.ys.take 5000).sum = 14999000 / 9999 := by
    rw [hys, ← List.map_take, List.take_range, min_eq_left (by norm_num)]
    exact vee_sums.1
  have hcs : ∀ (k : Nat) (c : ℝ), m.cs[k]? = some c → c = (m.ys.take (k + 1)).sum / m.ys.sum := by
    intro k c h
    obtain ⟨hk, rfl⟩ := List.getElem?_eq_some_iff.1 h
    exact hv.cumulative k hk
  have hp0 : 0 ≤ p := by
    cases i with
    | zero => simp only [masses, List.getElem?_cons_zero, Option.some.injEq] at hp; exact hp.le
    | succ i =>
      simp only [masses, List.getElem?_cons_succ] at hp
      rw [hcs i p hp]
      refine div_nonneg (List.sum_nonneg fun y hy => hval y (List.mem_of_mem_take hy)) (List.sum_nonneg hval)
  have hq1 : q ≤ 1 := by
    cases j with
    | zero => omega
    | succ j =>
      simp only [masses, List.getElem?_cons_succ] at hq
      rw [hcs j q hq, div_le_one (by rw [htot]; norm_num)]
      refine (hmono (j + 1) (max (j + 1) m.ys.length) (le_max_left _ _)).trans ?_
      rw [List.take_of_length_le (le_max_right _ _)]
  obtain ⟨x0, xl, hx0, -, hpl, -⟩ := hv.hdi_setup
  rw [hpl] at hl hu
  constructor
  · cases i with
    | zero =>
      rw [List.getElem?_cons_zero, Option.some.injEq] at hl
      rw [List.head?_eq_getElem?] at hx0
      have := (hgetx _ _ hx0).2
      rw [← hl, this]
      norm_num
    | succ i =>
      rw [List.getElem?_cons_succ] at hl
      obtain ⟨hi, rfl⟩ := hgetx _ _ hl
      by_contra hc
      have hi5 : 4999 ≤ i := by
        by_contra hlt
        have : (i : ℝ) ≤ 4998 := by exact_mod_cast (show i ≤ 4998 by omega)
        refine hc ?_
        linarith
      simp only [masses, List.getElem?_cons_succ] at hp
      have e := hcs i p hp
      have := hmono 5000 (i + 1) (by omega)
      have : 1 / 2 ≤ p := by
        rw [e, htot, le_div_iff₀ (by norm_num)]
        rw [hhalf] at this
        linarith
      linarith
  · cases j with
    | zero => omega
    | succ j =>
      rw [List.getElem?_cons_succ] at hu
      obtain ⟨hj, rfl⟩ := hgetx _ _ hu
      by_contra hc
      have hj5 : j + 1 ≤ 5000 := by
        by_contra hlt
        have : (5000 : ℝ) ≤ j := by exact_mod_cast (show 5000 ≤ j by omega)
        refine hc ?_
        linarith
      simp only [masses, List.getElem?_cons_succ] at hq
      have e := hcs j q hq
      have := hmono (j + 1) 5000 hj5
      have : q ≤ 1 / 2 := by
        rw [e, htot, div_le_iff₀ (by norm_num)]
        rw [hhalf] at this
        linarith
      linarith

/-- Two modes are reported, and the shortest interval, from which `get_parameter_summary` makes a single bound, reaches
across the middle, which is in neither. -/
theorem Vee.modes (h : Vee c) {lib : Lib} (hk : KdeOk lib.kde) : ∃ ivs bs l x u, Reported lib c "a" (.multi bs) ∧ 2 ≤ bs.length ∧
    bs.length = ivs.length ∧ (∃ m, smoothedHistogram lib.kde c "a" true none = .ok m ∧ hdiIntervals m (6827 / 10000) = .ok ivs ∧
      multimodalBounds m ivs = .ok bs) ∧ (∀ iv ∈ ivs, iv.2 < 1 ∨ 1 < iv.1) ∧
    parameterSummary lib.kde c "a" = .ok ⟨some l, some x, some u⟩ ∧ l ≤ x ∧ x ≤ u ∧ l < 1 ∧ 1 < u := by
  obtain ⟨m, hm, hv, hx, hy⟩ := h.marginal hk true
  obtain ⟨ivs, bs, h1, h2, h3, h4, h5⟩ := vee_two hv hx hy
  obtain ⟨l, x, u, h6, h7⟩ := vee_hdi hv hx hy
  have ha := h.area
  have hps : parameterSummary lib.kde c "a" = .ok ⟨some l, some x, some u⟩ := by
    simp only [parameterSummary, h.hdi, hm, ha, bind, Except.bind, h6]
  refine ⟨ivs, bs, l, x, u, reported_iff.2 ⟨by rw [h.samples]; decide, ?_⟩, by omega, h4, ⟨m, hm, h1, h3⟩, h5, hps, h7⟩
  simp only [summaryEntry, hps, h.modal, if_true, hm, ha, h1, h2, h3, bind, Except.bind]
  rfl

end CC
