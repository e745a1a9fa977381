import Verif.Model.Summary
import Verif.Lemmas.Numpy
import Verif.Props.Marginal
import Verif.Props.MaxPosterior
import Verif.Lemmas.Demo

/-! # C26, C27, C28: equal-tailed summaries -/

set_option linter.unusedSectionVars false

namespace CC
open Spec
variable {K : Type} [Field K] [LinearOrder K] [IsStrictOrderedRing K]

theorem zip_head? {α β : Type} {l : List α} {r : List β} {a : α} {b : β} (h1 : l.head? = some a)
    (h2 : r.head? = some b) : (l.zip r).head? = some (a, b) := by
  cases l with
  | nil => cases h1
  | cons x l => cases r with
    | nil => cases h2
    | cons y r =>
      simp only [List.head?_cons, Option.some.injEq] at h1 h2
      simp [h1, h2]

theorem zip_getLast? {α β : Type} {l : List α} {r : List β} (hl : l.length = r.length) {a : α} {b : β}
    (h1 : l.getLast? = some a) (h2 : r.getLast? = some b) : (l.zip r).getLast? = some (a, b) := by
  rw [List.getLast?_eq_getElem?] at h1 h2 ⊢
  rw [List.getElem?_zip_eq_some]
  simp only [List.length_zip, hl, min_self] at *
  exact ⟨h1, h2⟩

/-- The cumulative curve as points (mass, abscissa). -/
theorem Spec.ValidMarginal.ends {m : Marginal K} (hm : ValidMarginal m) : ∃ c0 x0 xl,
    m.cs.head? = some c0 ∧ m.xs.head? = some x0 ∧ m.xs.getLast? = some xl ∧
    (m.cs.zip m.xs).head? = some (c0, x0) ∧ (m.cs.zip m.xs).getLast? = some (1, xl) := by
  have hx : m.xs ≠ [] := by intro h; have := hm.two; simp [h] at this
  have hc : m.cs ≠ [] := by intro h; have := hm.two; have := hm.cs_length; simp [h] at this; omega
  obtain ⟨c0, hc0⟩ := Option.isSome_iff_exists.1 (List.isSome_head?.2 hc)
  obtain ⟨x0, hx0⟩ := Option.isSome_iff_exists.1 (List.isSome_head?.2 hx)
  obtain ⟨xl, hxl⟩ := Option.isSome_iff_exists.1 (List.getLast?_isSome.2 hx)
  exact ⟨c0, x0, xl, hc0, hx0, hxl, zip_head? hc0 hx0,
    zip_getLast? hm.cs_length hm.ends_at_one hxl⟩

/-- The inverse of the cumulative curve at `v`. -/
theorem Spec.ValidMarginal.inverse {m : Marginal K} (hm : ValidMarginal m) {v x : K}
    (h : interp1d m.cs m.xs v = .ok x) : OnCurve (m.xs.zip m.cs) x v := by
  obtain ⟨c0, x0, xl, hc0, hx0, hxl, hh, hl⟩ := hm.ends
  obtain ⟨a, b, ha, hb, h1, h2, rfl⟩ := interp1d_ok_iff.1 h
  rw [hc0] at ha
  rw [hm.ends_at_one] at hb
  cases ha
  cases hb
  exact onCurve_swap (polyline_onCurve hh hl h1 h2)

theorem pairwise_zip_snd {α β : Type} {R : β → β → Prop} {l : List α} {r : List β} (h : r.Pairwise R) :
    (l.zip r).Pairwise fun p q => R p.2 q.2 := by
  induction l generalizing r with
  | nil => exact .nil
  | cons a l ih => cases r with
    | nil => exact .nil
    | cons b r =>
      rw [List.pairwise_cons] at h
      exact List.pairwise_cons.2 ⟨fun q hq => h.1 _ (List.of_mem_zip hq).2, ih h.2⟩

/-- The inverse of the cumulative curve is monotone. -/
theorem Spec.ValidMarginal.inverse_mono {m : Marginal K} (hm : ValidMarginal m) {v v' x x' : K}
    (h : interp1d m.cs m.xs v = .ok x) (h' : interp1d m.cs m.xs v' = .ok x') (hv : v ≤ v') :
    x ≤ x' := by
  obtain ⟨c0, x0, xl, hc0, hx0, hxl, hh, hl⟩ := hm.ends
  obtain ⟨a, b, ha, hb, h1, h2, rfl⟩ := interp1d_ok_iff.1 h
  obtain ⟨a', b', ha', hb', h1', h2', rfl⟩ := interp1d_ok_iff.1 h'
  rw [hc0] at ha
  cases ha
  exact polyline_mono (sorted1_zip hm.nondecreasing)
    (pairwise_zip_snd (hm.increasing.imp fun h => h.le)) hh h1 hv

theorem Spec.ValidMarginal.inverse_exists {m : Marginal K} (hm : ValidMarginal m) {v c0 : K}
    (hc0 : m.cs.head? = some c0) (h0 : c0 ≤ v) (h1 : v ≤ 1) : ∃ x, interp1d m.cs m.xs v = .ok x :=
  ⟨_, interp1d_ok_iff.2 ⟨c0, 1, hc0, hm.ends_at_one, h0, h1, rfl⟩⟩

theorem Spec.ValidMarginal.inverse_fails {m : Marginal K} {v c0 : K}
    (hc0 : m.cs.head? = some c0) (h0 : v < c0) : interp1d m.cs m.xs v = .error .value := by
  unfold interp1d
  rw [hc0]
  cases m.cs.getLast? with
  | none => rfl
  | some b => simp [h0]

/-- The three inverse values at once. -/
theorem equalTailed_spec {m : Marginal K} (hm : ValidMarginal m) {a c0 : K} (h0 : 0 ≤ a) (h1 : a ≤ 1)
    (hc0 : m.cs.head? = some c0) :
    (c0 ≤ (1 - a) / 2 → ∃ l c u, equalTailed m a = .ok (l, c, u) ∧ l ≤ c ∧ c ≤ u ∧
      OnCurve (m.xs.zip m.cs) l ((1 - a) / 2) ∧ OnCurve (m.xs.zip m.cs) c (1 / 2) ∧
      OnCurve (m.xs.zip m.cs) u ((1 + a) / 2)) ∧
    ((1 - a) / 2 < c0 → equalTailed m a = .error .value) := by
  have e1 : (1 / 2 - a / 2 : K) = (1 - a) / 2 := by ring
  have e2 : (1 / 2 + a / 2 : K) = (1 + a) / 2 := by ring
  constructor
  · intro hle
    obtain ⟨l, hl⟩ := hm.inverse_exists (v := (1 - a) / 2) hc0 hle (by linarith)
    obtain ⟨c, hc⟩ := hm.inverse_exists (v := 1 / 2) hc0 (by linarith) (by linarith)
    obtain ⟨u, hu⟩ := hm.inverse_exists (v := (1 + a) / 2) hc0 (by linarith) (by linarith)
    refine ⟨l, c, u, ?_, hm.inverse_mono hl hc (by linarith), hm.inverse_mono hc hu (by linarith),
      hm.inverse hl, hm.inverse hc, hm.inverse hu⟩
    simp only [equalTailed, e1, e2, hl, hc, hu, bind, Except.bind, pure, Except.pure]
  · intro hlt
    simp only [equalTailed, e1, ValidMarginal.inverse_fails hc0 hlt, bind, Except.bind]

/-- **C26**. The cumulative summary succeeds exactly when the first grid point carries at most
`(1-a)/2` of the mass, and otherwise raises ValueError. Its three values are ordered and the
cumulative curve takes the values `(1-a)/2`, `1/2`, `(1+a)/2` there. -/
theorem C26_cumulative (m : Marginal K) (hm : ValidMarginal m) (a c0 : K) (h0 : 0 ≤ a) (h1 : a ≤ 1)
    (hc0 : m.cs.head? = some c0) :
    (c0 ≤ (1 - a) / 2 → ∃ l c u, summaryCumulative m a = .ok ⟨some l, some c, some u⟩ ∧
      l ≤ c ∧ c ≤ u ∧ OnCurve (m.xs.zip m.cs) l ((1 - a) / 2) ∧
      OnCurve (m.xs.zip m.cs) c (1 / 2) ∧ OnCurve (m.xs.zip m.cs) u ((1 + a) / 2)) ∧
    ((1 - a) / 2 < c0 → summaryCumulative m a = .error .value) := by
  obtain ⟨hs, hf⟩ := equalTailed_spec hm h0 h1 hc0
  constructor
  · intro hle
    obtain ⟨l, c, u, he, hrest⟩ := hs hle
    exact ⟨l, c, u, by simp only [summaryCumulative, he, bind, Except.bind, pure, Except.pure], hrest⟩
  · intro hlt
    simp only [summaryCumulative, hf hlt, bind, Except.bind]

/-- **C27**. The mean summary has the limits of the cumulative summary and the midpoint as centre; it
raises exactly when the cumulative summary does. -/
theorem C27_mean (m : Marginal K) (hm : ValidMarginal m) (a c0 : K) (h0 : 0 ≤ a) (h1 : a ≤ 1)
    (hc0 : m.cs.head? = some c0) :
    (c0 ≤ (1 - a) / 2 → ∃ l c u, summaryCumulative m a = .ok ⟨some l, some c, some u⟩ ∧
      summaryMean m a = .ok ⟨some l, some ((l + u) / 2), some u⟩ ∧
      OnCurve (m.xs.zip m.cs) l ((1 - a) / 2) ∧ OnCurve (m.xs.zip m.cs) u ((1 + a) / 2)) ∧
    ((1 - a) / 2 < c0 → summaryMean m a = .error .value) := by
  obtain ⟨hs, hf⟩ := equalTailed_spec hm h0 h1 hc0
  constructor
  · intro hle
    obtain ⟨l, c, u, he, -, -, hl, -, hu⟩ := hs hle
    refine ⟨l, c, u, ?_, ?_, hl, hu⟩
    · simp only [summaryCumulative, he, bind, Except.bind, pure, Except.pure]
    · simp only [summaryMean, he, bind, Except.bind, pure, Except.pure]
      rw [show 1 / 2 * (l + u) = (l + u) / 2 by ring]
  · intro hlt
    simp only [summaryMean, hf hlt, bind, Except.bind]

/-- **C28** (partial: the bracketing `lower ≤ centre ≤ upper` is missing, see `C28_violated`). The
max_central summary reports the equal-tailed limits and, as centre, the first grid point of highest
density. -/
theorem C28_max_central_partial (m : Marginal K) (hm : ValidMarginal m) (a c0 : K) (h0 : 0 ≤ a)
    (h1 : a ≤ 1) (hc0 : m.cs.head? = some c0) :
    (c0 ≤ (1 - a) / 2 → ∃ l c u, ∃ i : Nat, ∃ y, summaryMaxCentral m a = .ok ⟨some l, some c, some u⟩ ∧
      l ≤ u ∧ OnCurve (m.xs.zip m.cs) l ((1 - a) / 2) ∧ OnCurve (m.xs.zip m.cs) u ((1 + a) / 2) ∧
      m.xs[i]? = some c ∧ m.ys[i]? = some y ∧ (∀ z ∈ m.ys, z ≤ y) ∧
      ∀ j z, j < i → m.ys[j]? = some z → z < y) ∧
    ((1 - a) / 2 < c0 → summaryMaxCentral m a = .error .value) := by
  have e1 : (1 / 2 - 1 / 2 * a : K) = (1 - a) / 2 := by ring
  have e2 : (1 / 2 + 1 / 2 * a : K) = (1 + a) / 2 := by ring
  have hyne : m.ys ≠ [] := by
    intro h; have := hm.two; have := hm.ys_length; simp [h] at this; omega
  obtain ⟨i, hi⟩ := argmax_isSome hyne
  obtain ⟨hilt, hmax, hfirst⟩ := argmax_spec _ _ hi
  have hix : i < m.xs.length := by rw [← hm.ys_length]; exact hilt
  have hxi : atIndex m.xs i = .ok m.xs[i] := by
    simp only [atIndex, List.getElem?_eq_getElem hix]
  have hai : arrArgmax m.ys = .ok i := by simp only [arrArgmax, hi]
  constructor
  · intro hle
    obtain ⟨l, hl⟩ := hm.inverse_exists (v := (1 - a) / 2) hc0 hle (by linarith)
    obtain ⟨u, hu⟩ := hm.inverse_exists (v := (1 + a) / 2) hc0 (by linarith) (by linarith)
    refine ⟨l, m.xs[i], u, i, m.ys[i], ?_, hm.inverse_mono hl hu (by linarith), hm.inverse hl,
      hm.inverse hu, List.getElem?_eq_getElem _, List.getElem?_eq_getElem _, hmax, ?_⟩
    · simp only [summaryMaxCentral, hai, hxi, e1, e2, hl, hu, bind, Except.bind, pure, Except.pure]
    · intro j z hj hz
      rw [List.getElem?_eq_getElem (hj.trans hilt)] at hz
      cases hz
      exact hfirst j hj
  · intro hlt
    simp only [summaryMaxCentral, hai, hxi, e1, ValidMarginal.inverse_fails hc0 hlt, bind, Except.bind]

/-- The hypotheses are met by a small skewed distribution. -/
def skewed : Marginal ℚ := ⟨[0, 1, 2, 3], [4, 3, 2, 1], [4/10, 7/10, 9/10, 1]⟩

theorem skewed_valid : ValidMarginal skewed := by
  refine ⟨rfl, rfl, by decide, by decide +kernel, by decide +kernel, by decide +kernel, ?_,
    by decide +kernel, by decide +kernel⟩
  intro i hi
  change i < 4 at hi
  obtain rfl | rfl | rfl | rfl : i = 0 ∨ i = 1 ∨ i = 2 ∨ i = 3 := by omega
  all_goals (revert hi; decide +kernel)

example : summaryCumulative skewed (1/5) = .ok ⟨some 0, some (1/3), some (2/3)⟩ := by decide +kernel
example : summaryMean skewed (1/5) = .ok ⟨some 0, some (1/3), some (2/3)⟩ := by decide +kernel
example : summaryMaxCentral skewed (1/5) = .ok ⟨some 0, some 0, some (2/3)⟩ := by decide +kernel
example : summaryCumulative skewed (1/2) = .error .value := by decide +kernel

/-- **C28** fails for every marginal that peaks at its first point and whose second point is reached
by less than half of the excluded mass: the centre lies below the lower limit. -/
theorem C28_bracketing_violated (m : Marginal K) (hm : ValidMarginal m) (a : K) (h0 : 0 ≤ a)
    (h1 : a ≤ 1) (y0 c1 : K) (hpeak : m.ys[0]? = some y0) (hmax : ∀ z ∈ m.ys, z ≤ y0)
    (hc1 : m.cs[1]? = some c1) (hlt : c1 ≤ (1 - a) / 2) :
    ∃ l c u, summaryMaxCentral m a = .ok ⟨some l, some c, some u⟩ ∧ c < l := by
  obtain ⟨c0, x0, xl, hc0, hx0, hxl, hh, hl⟩ := hm.ends
  have hcl := hm.cs_length
  have htwo := hm.two
  have hc01 : c0 ≤ c1 := by
    obtain ⟨h1', rfl⟩ := List.getElem?_eq_some_iff.1 hc1
    have := List.pairwise_iff_getElem.1 hm.nondecreasing 0 1 (by omega) h1' (by omega)
    rw [List.head?_eq_getElem?, List.getElem?_eq_getElem (by omega)] at hc0
    cases hc0
    exact this
  obtain ⟨l, c, u, i, y, hok, -, -, -, hi, hy, hymax, hfirst⟩ :=
    (C28_max_central_partial m hm a c0 h0 h1 hc0).1 (hc01.trans hlt)
  refine ⟨l, c, u, hok, ?_⟩
  have hi0 : i = 0 := by
    by_contra hne
    have := hfirst 0 y0 (Nat.pos_of_ne_zero hne) hpeak
    exact absurd (hmax y (List.mem_of_getElem? hy)) (not_le.2 this)
  subst hi0
  have hx1 : m.xs[1]? = some (m.xs[1]'(by omega)) := List.getElem?_eq_getElem _
  have hlt01 : c < m.xs[1]'(by omega) := by
    obtain ⟨_, rfl⟩ := List.getElem?_eq_some_iff.1 hi
    exact List.pairwise_iff_getElem.1 hm.increasing 0 1 (by omega) (by omega) (by omega)
  refine lt_of_lt_of_le hlt01 ?_
  -- the lower limit is at or beyond the second grid point
  have e1 : (1 / 2 - 1 / 2 * a : K) = (1 - a) / 2 := by ring
  have hlow : interp1d m.cs m.xs ((1 - a) / 2) = .ok l := by
    simp only [summaryMaxCentral, bind_ok_iff, pure_ok_iff, e1] at hok
    obtain ⟨_, _, _, _, l', hl', _, _, he⟩ := hok
    cases he
    exact hl'
  obtain ⟨p, q, rest, hcs⟩ : ∃ p q rest, m.cs = p :: q :: rest := by
    match hcs : m.cs with
    | [] => simp [hcs] at hcl; omega
    | [_] => simp [hcs] at hcl; omega
    | p :: q :: rest => exact ⟨p, q, rest, rfl⟩
  obtain ⟨p', q', rest', hxs⟩ : ∃ p q rest, m.xs = p :: q :: rest := by
    match hxs : m.xs with
    | [] => simp [hxs] at htwo
    | [_] => simp [hxs] at htwo
    | p :: q :: rest => exact ⟨p, q, rest, rfl⟩
  obtain ⟨a', b', ha', hb', h1', h2', rfl⟩ := interp1d_ok_iff.1 hlow
  have hq : q = c1 := by rw [hcs] at hc1; simpa using hc1
  have hq' : m.xs[1]'(by omega) = q' := by simp [hxs]
  rw [hq', hcs, hxs, List.zip_cons_cons, List.zip_cons_cons, polyline,
    if_neg (by simpa [hq] using hlt)]
  have hs := sorted1_zip (fp := m.xs) hm.nondecreasing
  rw [hcs, hxs] at hs
  refine polyline_ge (List.pairwise_cons.1 hs).2 ?_ rfl (by simpa [hq] using hlt)
  intro r hr
  have hinc := hm.increasing
  rw [hxs] at hinc
  have hinc2 := (List.pairwise_cons.1 hinc).2
  rcases List.mem_cons.1 hr with rfl | hr
  · exact le_rfl
  · exact ((List.pairwise_cons.1 hinc2).1 _ (List.of_mem_zip hr).2).le

/-! ## A concrete chain -/

theorem sortUnique_sorted {l : List K} (h : l.Pairwise (· < ·)) : sortUnique l = l := by
  unfold sortUnique
  rw [List.mergeSort_of_pairwise (h.imp fun h => decide_eq_true h.le)]
  exact List.dedup_eq_self.2 (h.imp fun h => h.ne)

/-- Two values with weights 3 and 1. -/
def skewFrame : Frame ℝ := ⟨[.int 0, .int 1], [("x", [0, 1]), ("weight", [3, 1])]⟩

/-- The arguments of a grid chain of them with a chosen statistic. -/
noncomputable def skewArgs (s : Stat) : Args ℝ where
  samples := skewFrame.toRaw
  name := "skew"
  grid := true
  config := [⟨.statistics, some s⟩]

theorem gridSize_eq : (gridSize : ℝ) = 10000 := by unfold gridSize; norm_num

/-- The marginal of that grid chain falls linearly from 3/4 to 1/4. -/
theorem skew_marginal (kde : KdeFn) (pad : Bool) (c : Chain ℝ) (hc : c.samples = skewFrame)
    (hw : c.weightColumn = "weight") (hp : c.power = 1) (hg : c.grid = true)
    (hs : c.cfg .smooth = none) (hk : c.cfg .kde = (0 : ℝ)) :
    let ys := (linspace (0 : ℝ) 1 gridSize).map fun x => 3 / 4 - x / 2
    smoothedHistogram kde c "x" pad none =
      .ok ⟨linspace 0 1 gridSize, ys, (cumsum ys).map (· / ys.sum)⟩ := by
  intro ys
  have hdata : c.samples.get "x" = .ok [0, 1] := by rw [hc]; rfl
  have hwt : c.weights = .ok [3, 1] := by unfold Chain.weights; rw [hc, hw]; rfl
  have hbins : marginalBins c [0, 1] [3, 1] pad = .ok [-1 / 2, 1 / 2, 3 / 2] := by
    have : sortUnique ([0, 1] : List ℝ) = [0, 1] := sortUnique_sorted (by simp)
    simp only [marginalBins, hg, if_true, getGridBins, this]
    norm_num
  have hhist : histDensity ([-1 / 2, 1 / 2, 3 / 2] : List ℝ) [0, 1] [3, 1] = .ok [3 / 4, 1 / 4] := by
    have h1 : histogram ([-1 / 2, 1 / 2, 3 / 2] : List ℝ) [0, 1] [3, 1] = .ok [3, 1] := by
      rw [histogram_ok_iff]
      constructor
      · norm_num
      · simp only [List.length_cons, List.length_nil, List.range_succ, List.range_zero]
        norm_num [binMass, inBin]
    simp only [histDensity, h1, bind, Except.bind, ensure]
    norm_num
    rfl
  have hpow : powAll ([3 / 4, 1 / 4] : List ℝ) c.power = .ok [3 / 4, 1 / 4] := by
    rw [hp]
    simp [powAll, ensure, bind, Except.bind, pure, Except.pure]
  have hmid : midpoints ([-1 / 2, 1 / 2, 3 / 2] : List ℝ) = [0, 1] := by
    norm_num [midpoints]
  have hsm : c.smoothValue = 0 := by simp only [Chain.smoothValue, hs, hg, if_true]
  have hys : marginalYs kde c none [0, 1] [3, 1] [-1 / 2, 1 / 2, 3 / 2] [3 / 4, 1 / 4] 0 1
      (linspace 0 1 gridSize) = .ok ((linspace 0 1 gridSize).map fun x => 3 / 4 - x / 2) := by
    simp only [marginalYs, hsm, smoothHist, if_true, bind, Except.bind, Option.getD_none, hk, ne_eq,
      not_true, decide_false, Bool.false_eq_true, if_false, hmid]
    rw [mapM_ok_iff, List.forall₂_map_right_iff, List.forall₂_same]
    intro x hx
    obtain ⟨h0, h1⟩ := linspace_mem (zero_le_one (α := ℝ)) two_le_gridSize hx
    refine interp1d_ok_iff.2 ⟨0, 1, rfl, rfl, h0, h1, ?_⟩
    simp only [List.zip_cons_cons, List.zip_nil_right, polyline]
    split
    · norm_num
      ring
    · rename_i hnl
      obtain rfl : x = 1 := le_antisymm h1 (not_lt.1 hnl)
      norm_num
  have hnn : ∀ y ∈ (linspace (0 : ℝ) 1 gridSize).map (fun x => 3 / 4 - x / 2), 0 ≤ y := by
    intro y hy
    obtain ⟨x, hx, rfl⟩ := List.mem_map.1 hy
    obtain ⟨h0, h1⟩ := linspace_mem (zero_le_one (α := ℝ)) two_le_gridSize hx
    linarith
  change marginalYs kde c none [0, 1] [3, 1] [-1 / 2, 1 / 2, 3 / 2] [3 / 4, 1 / 4] 0 1
    (linspace 0 1 gridSize) = .ok ys at hys
  change ∀ y ∈ ys, 0 ≤ y at hnn
  have hne : ys ≠ [] := by
    intro h
    have := congrArg List.length h
    have h2 := two_le_gridSize
    simp [ys] at this
    omega
  have hsum : ys.sum ≠ 0 := by
    have h2 := two_le_gridSize
    have hh : (linspace (0 : ℝ) 1 gridSize).head? = some 0 := linspace_head (by omega)
    refine (sum_pos_of_mem hnn (x := 3 / 4 - 0 / 2)
      (List.mem_map.2 ⟨0, List.mem_of_head? hh, rfl⟩) (by norm_num)).ne'
  have hcs : normCumsum ys = .ok ((cumsum ys).map (· / ys.sum)) := by
    simp only [normCumsum, arrMax, npMax_cumsum hnn hne, bind, Except.bind, ensure,
      decide_eq_true hsum, if_true, pure, Except.pure]
  simp only [smoothedHistogram, hdata, hwt, hbins, hhist, hpow, hmid, bind, Except.bind, endpoints,
    List.head?_cons, List.getLast?_cons_cons, List.getLast?_singleton, ensure, List.length_cons,
    List.length_nil, Nat.reduceAdd, le_refl, decide_true, if_true, hys, hcs, pure, Except.pure]

/-- The chain, its settings and its marginal. -/
theorem skew_chain (kde : KdeFn) (hkde : KdeOk kde) (s : Stat) : ∃ c m,
    Chain.make (skewArgs s) = .ok c ∧ c.cfg .statistics = some s ∧
    c.cfg .summaryArea = (6827 / 10000 : ℝ) ∧ c.cfg .multimodal = false ∧
    c.samples = skewFrame ∧ c.weights = .ok [3, 1] ∧ c.name = "skew" ∧
    (∀ pad, smoothedHistogram kde c "x" pad none = .ok m) ∧ ValidMarginal m ∧
    m.xs = linspace 0 1 gridSize ∧ m.ys = (linspace (0 : ℝ) 1 gridSize).map fun x => 3 / 4 - x / 2 := by
  have hf : skewFrame.WF := by
    refine ⟨by simp [skewFrame], by simp [skewFrame]⟩
  obtain ⟨c, hc, hcs, hw, -, hp, hg, -, hn, hcfg⟩ :=
    plain_chain_cfg true [⟨.statistics, some s⟩] rfl
      (by change (0 : ℝ) ≤ 6827 / 10000 ∧ (6827 / 10000 : ℝ) ≤ 1; constructor <;> norm_num)
      (by change (1 : ℝ) ≤ 10; norm_num) rfl rfl (by intro h; cases h) skewFrame hf
      (by simp [skewFrame]) (w := [3, 1]) rfl (by simp) "skew" 1 le_rfl (one_dvd _)
  have hs : c.cfg .smooth = none := by rw [hcfg]; rfl
  have hk : c.cfg .kde = (0 : ℝ) := by rw [hcfg]; rfl
  have hst : c.cfg .statistics = some s := by rw [hcfg]; rfl
  have har : c.cfg .summaryArea = (6827 / 10000 : ℝ) := by rw [hcfg]; rfl
  have hmm : c.cfg .multimodal = false := by rw [hcfg]; rfl
  have hm := fun pad => skew_marginal kde pad c hcs hw hp hg hs hk
  have hwt : c.weights = .ok [3, 1] := by unfold Chain.weights; rw [hcs, hw]; rfl
  exact ⟨c, _, hc, hst, har, hmm, hcs, hwt, hn, hm,
    C25_marginal_valid kde hkde c _ hwt (by simp) "x" false none _ (hm false), rfl, rfl⟩

/-- **C28** (negation). A chain accepted by the constructor whose max_central summary does not
bracket its centre, for every KDE. -/
theorem C28_violated (kde : KdeFn) (hkde : KdeOk kde) : ∃ c,
    Chain.make (skewArgs .maxCentral) = .ok c ∧
    ∃ l x u, parameterSummary kde c "x" = .ok ⟨some l, some x, some u⟩ ∧ x < l := by
  obtain ⟨c, m, hc, hst, har, -, -, -, -, hm, hv, hxs, hys⟩ := skew_chain kde hkde .maxCentral
  refine ⟨c, hc, ?_⟩
  have h2 := two_le_gridSize
  have hl : m.ys.length = gridSize := by rw [hys]; simp
  have hval : ∀ (i : Nat) (h : i < m.ys.length), m.ys[i] = 3 / 4 - i / 9999 / 2 := by
    intro i h
    simp only [hys, List.getElem_map, linspace_getElem, gridSize_eq]
    ring
  have hbound : ∀ z ∈ m.ys, 1 / 4 ≤ z ∧ z ≤ 3 / 4 := by
    intro z hz
    rw [hys] at hz
    obtain ⟨x, hx, rfl⟩ := List.mem_map.1 hz
    obtain ⟨h0, h1⟩ := linspace_mem (zero_le_one (α := ℝ)) two_le_gridSize hx
    constructor <;> linarith
  have hsum : (2500 : ℝ) ≤ m.ys.sum := by
    have := List.card_nsmul_le_sum m.ys (1 / 4) fun z hz => (hbound z hz).1
    rw [hl, nsmul_eq_mul, gridSize_eq] at this
    linarith
  have hc1 : m.cs[1]? = some (m.cs[1]'(by rw [hv.cs_length]; have := hv.two; omega)) :=
    List.getElem?_eq_getElem _
  obtain ⟨l, x, u, hok, hlt⟩ := C28_bracketing_violated m hv (6827 / 10000) (by norm_num)
    (by norm_num) (3 / 4) _ (by
      rw [List.getElem?_eq_getElem (by omega), hval]; norm_num) (fun z hz => (hbound z hz).2) hc1 (by
      rw [hv.cumulative]
      have e : (m.ys.take (1 + 1)).sum ≤ 3 / 2 := by
        have := List.sum_le_card_nsmul (m.ys.take 2) (3 / 4) fun z hz =>
          (hbound z (List.mem_of_mem_take hz)).2
        rw [List.length_take, hl, min_eq_left h2] at this
        norm_num at this ⊢
        linarith
      rw [div_le_iff₀ (by linarith)]
      nlinarith)
  refine ⟨l, x, u, ?_, hlt⟩
  simp only [parameterSummary, hst, har, hm, bind, Except.bind, hok]

end CC
