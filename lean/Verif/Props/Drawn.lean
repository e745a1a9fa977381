import Verif.Props.Shading

/-! # C103: every histogram whose parameter is summarised can be drawn -/

namespace CC
open Spec

/-- What lies on a curve lies within the range of its abscissae. -/
theorem onCurve_range {xs ys : List ℝ} {a z x y : ℝ} (h : ∀ v ∈ xs, a ≤ v ∧ v ≤ z) (hc : OnCurve (xs.zip ys) x y) : a ≤ x ∧ x ≤ z := by
  rcases hc with hc | ⟨pre, p, q, post, t, e, h0, h1, rfl, -⟩
  · exact h x (List.of_mem_zip hc).1
  · obtain ⟨hp1, hp2⟩ := h p.1 (List.of_mem_zip (show (p.1, p.2) ∈ xs.zip ys by rw [e]; simp)).1
    obtain ⟨hq1, hq2⟩ := h q.1 (List.of_mem_zip (show (q.1, q.2) ∈ xs.zip ys by rw [e]; simp)).1
    constructor <;> nlinarith

/-- The first and the last centre of the bins of a marginal that can be computed. -/
def binEnds (c : Chain ℝ) (p : String) (pad : Bool) (e : ℝ × ℝ) : Prop :=
  ∃ data w bins h, c.samples.get p = .ok data ∧ c.weights = .ok w ∧ marginalBins c data w pad = .ok bins ∧
    histDensity bins data w = .ok h ∧ endpoints (midpoints bins) = .ok e

theorem endpoints_mem {l : List ℝ} {e : ℝ × ℝ} (h : endpoints l = .ok e) : e.1 ∈ l ∧ e.2 ∈ l := by
  unfold endpoints at h
  cases h1 : l.head? <;> cases h2 : l.getLast? <;> rw [h1, h2] at h <;> cases h
  exact ⟨List.mem_of_mem_head? h1, List.mem_of_mem_getLast? h2⟩

theorem endpoints_exists {l : List ℝ} (h : l ≠ []) : endpoints l = .ok (l.head h, l.getLast h) := by
  unfold endpoints
  rw [List.head?_eq_some_head h, List.getLast?_eq_some_getLast h]

theorem marginal_ends {kde : KdeFn} {c : Chain ℝ} {p : String} {pad : Bool} {m : Marginal ℝ}
    (h : smoothedHistogram kde c p pad none = .ok m) : ∃ e, binEnds c p pad e ∧ m.xs = linspace e.1 e.2 gridSize := by
  simp only [smoothedHistogram, bind_ok_iff, ensure_ok_iff, pure_ok_iff] at h
  obtain ⟨data, hd, w, hw, bins, hb, h0, hh, _, -, e, he, -, -, _, -, _, -, rfl⟩ := h
  exact ⟨e, ⟨data, w, bins, h0, hd, hw, hb, hh, he⟩, rfl⟩

/-- A histogram has bins, in order. -/
theorem histDensity_bins {bins data w h : List ℝ} (hh : histDensity bins data w = .ok h) :
    2 ≤ bins.length ∧ bins.Pairwise (· < ·) := by
  simp only [histDensity, bind_ok_iff, ensure_ok_iff, pure_ok_iff] at hh
  obtain ⟨hist, hhist, -, h1, -, h2, -⟩ := hh
  obtain ⟨h3, rfl⟩ := histogram_ok_iff.1 hhist
  constructor
  · by_contra hlt
    have e : bins.length - 1 = 0 := by omega
    rw [e] at h2
    simp at h2
  · refine List.isChain_iff_pairwise.1 ?_
    have h4 := (all_tail_iff _ _).1 h3
    have h5 := (all_tail_iff _ _).1 h1
    rw [List.isChain_iff_getElem] at h4 h5 ⊢
    intro i hi
    exact lt_of_le_of_ne (of_decide_eq_true (h4 i hi)) (of_decide_eq_true (h5 i hi))

/-- The ends of the drawn curve. -/
theorem barData_ends {lib : Lib} {c : Chain ℝ} {p : String} {xs ys : List ℝ} (h : barData lib c p = .ok (xs, ys)) :
    ∃ e, binEnds c p (decide (c.smoothValue ≠ 0 ∨ c.cfg .kde ≠ (0 : ℝ))) e ∧ e.1 ∈ xs ∧ e.2 ∈ xs := by
  unfold barData at h
  split at h
  · rename_i hc
    simp only [bind_ok_iff, pure_ok_iff] at h
    obtain ⟨m, hm, h⟩ := h
    cases h
    obtain ⟨e, he, hx⟩ := marginal_ends hm
    refine ⟨e, by rwa [decide_eq_true hc], ?_, ?_⟩
    · rw [hx]; exact List.mem_of_mem_head? (linspace_head (by have := two_le_gridSize; omega))
    · rw [hx]; exact List.mem_of_mem_getLast? (linspace_last two_le_gridSize)
  · rename_i hc
    simp only [bind_ok_iff, pure_ok_iff] at h
    obtain ⟨data, hd, w, hw, bins, hb, h0, hh, h1, hp, h⟩ := h
    cases h
    have hne : midpoints bins ≠ [] := by
      intro e
      have := congrArg List.length e
      rw [midpoints_length, List.length_nil] at this
      have := (histDensity_bins hh).1
      omega
    have he := endpoints_exists hne
    obtain ⟨h1, h2⟩ := endpoints_mem he
    exact ⟨_, by rw [decide_eq_false hc]; exact ⟨data, w, bins, h0, hd, hw, hb, hh, he⟩, h1, h2⟩

theorem binEnds_unique {c : Chain ℝ} {p : String} {pad : Bool} {e e' : ℝ × ℝ} (h : binEnds c p pad e) (h' : binEnds c p pad e') :
    e = e' := by
  obtain ⟨data, w, bins, h0, hd, hw, hb, -, he⟩ := h
  obtain ⟨data', w', bins', h0', hd', hw', hb', -, he'⟩ := h'
  cases hd.symm.trans hd'
  cases hw.symm.trans hw'
  cases hb.symm.trans hb'
  cases he.symm.trans he'
  rfl

/-- The bins of a grid are not padded. -/
theorem binEnds_grid {c : Chain ℝ} (hg : c.grid = true) {p : String} {pad : Bool} {e : ℝ × ℝ} (h : binEnds c p pad e) (pad' : Bool) :
    binEnds c p pad' e := by
  obtain ⟨data, w, bins, h0, hd, hw, hb, hh, he⟩ := h
  refine ⟨data, w, bins, h0, hd, hw, ?_, hh, he⟩
  unfold marginalBins at hb ⊢
  rw [hg, if_pos rfl] at hb ⊢
  exact hb

/-- The ends of the centres of equal bins. -/
theorem linspace_ends {l u : ℝ} {n : Nat} {e : ℝ × ℝ} (hn : 2 ≤ n) (h : endpoints (midpoints (linspace l u n)) = .ok e) :
    e.1 = l + 1 / 2 * ((u - l) / ((n : ℝ) - 1)) ∧ e.2 = u - 1 / 2 * ((u - l) / ((n : ℝ) - 1)) := by
  have hlen : (midpoints (linspace l u n)).length = n - 1 := by rw [midpoints_length, linspace_length]
  have hne : midpoints (linspace l u n) ≠ [] := by
    intro e
    rw [e] at hlen
    simp only [List.length_nil] at hlen
    omega
  rw [endpoints_exists hne] at h
  cases h
  have hn' : (0 : ℝ) < (n : ℝ) - 1 := by
    have : (2 : ℝ) ≤ n := by exact_mod_cast hn
    linarith
  constructor
  · simp only [List.head_eq_getElem, midpoints_linspace_getElem]
    norm_num
  · simp only [List.getLast_eq_getElem, midpoints_linspace_getElem]
    have e : (((midpoints (linspace l u n)).length - 1 : ℕ) : ℝ) = n - 2 := by
      rw [hlen, show n - 1 - 1 = n - 2 by omega, Nat.cast_sub hn]
      norm_num
    rw [e]
    field_simp
    ring

/-- Padding moves the ends outwards. -/
theorem binEnds_pad {c : Chain ℝ} {p : String} {e e' : ℝ × ℝ} (h : binEnds c p false e) (h' : binEnds c p true e') :
    e'.1 ≤ e.1 ∧ e.2 ≤ e'.2 := by
  cases hg : c.grid with
  | true =>
    cases binEnds_unique (binEnds_grid hg h true) h'
    exact ⟨le_rfl, le_rfl⟩
  | false =>
    obtain ⟨data, w, bins, h0, hd, hw, hb, hh, he⟩ := h
    obtain ⟨data', w', bins', h0', hd', hw', hb', hh', he'⟩ := h'
    cases hd.symm.trans hd'
    cases hw.symm.trans hw'
    have key : ∃ l u n, bins = linspace l u n ∧ bins' = linspace (l - 1 / 5 * (u - l)) (u + 1 / 5 * (u - l)) n := by
      simp only [marginalBins, hg, Bool.false_eq_true, if_false, bind_ok_iff, pure_ok_iff, getSmoothedBins, getExtents] at hb hb'
      obtain ⟨⟨b, s⟩, ⟨⟨l, u⟩, ⟨be, hbe, hist, hhist, ⟨cdf, icdf⟩, hcu, hpick⟩, hb⟩, rfl⟩ := hb
      obtain ⟨⟨b', s'⟩, ⟨⟨l', u'⟩, ⟨be', hbe', hist', hhist', ⟨cdf', icdf'⟩, hcu', hpick'⟩, hb'⟩, rfl⟩ := hb'
      cases hbe.symm.trans hbe'
      cases hhist.symm.trans hhist'
      cases hcu.symm.trans hcu'
      simp only [extentPick, bind_ok_iff, pure_ok_iff] at hpick hpick'
      obtain ⟨i1, hi1, i2, hi2, lo, hlo, up, hup, hpick⟩ := hpick
      obtain ⟨i1', hi1', i2', hi2', lo', hlo', up', hup', hpick'⟩ := hpick'
      cases hi1.symm.trans hi1'
      cases hi2.symm.trans hi2'
      cases hlo.symm.trans hlo'
      cases hup.symm.trans hup'
      cases hpick
      cases hpick'
      have lin : ∀ {a z : ℝ} {k : Int} {bs : List ℝ}, linspaceInt a z k = .ok bs → bs = linspace a z k.toNat := by
        intro a z k bs h
        unfold linspaceInt at h
        split at h <;> cases h
        rfl
      by_cases h0 : c.smoothValue = 0
      · simp only [h0, if_true, bind_ok_iff, pure_ok_iff] at hb hb'
        obtain ⟨bs, hbs, hb⟩ := hb
        obtain ⟨bs', hbs', hb'⟩ := hb'
        cases hb
        cases hb'
        exact ⟨_, _, _, lin hbs, lin hbs'⟩
      · simp only [h0, if_false, bind_ok_iff, pure_ok_iff] at hb hb'
        obtain ⟨bs, hbs, hb⟩ := hb
        obtain ⟨bs', hbs', hb'⟩ := hb'
        cases hb
        cases hb'
        exact ⟨_, _, _, lin hbs, lin hbs'⟩
    obtain ⟨l, u, n, rfl, rfl⟩ := key
    obtain ⟨hn, hinc⟩ := histDensity_bins hh
    rw [linspace_length] at hn
    obtain ⟨h1, h2⟩ := linspace_ends hn he
    obtain ⟨h3, h4⟩ := linspace_ends hn he'
    have hn' : (1 : ℝ) ≤ (n : ℝ) - 1 := by
      have : (2 : ℝ) ≤ n := by exact_mod_cast hn
      linarith
    have hd0 : 0 ≤ (u - l) / ((n : ℝ) - 1) := by
      have := List.pairwise_iff_getElem.1 hinc 0 1 (by rw [linspace_length]; omega) (by rw [linspace_length]; omega) (by omega)
      simp only [linspace_getElem] at this
      push_cast at this
      linarith
    have hw0 : (u - l) / ((n : ℝ) - 1) ≤ u - l := by
      have e : u - l = (u - l) / ((n : ℝ) - 1) * ((n : ℝ) - 1) := by field_simp
      nlinarith
    have e : (u + 1 / 5 * (u - l) - (l - 1 / 5 * (u - l))) / ((n : ℝ) - 1) = 7 / 5 * ((u - l) / ((n : ℝ) - 1)) := by ring
    rw [e] at h3 h4
    constructor <;> linarith

/-- Interpolated values lie within the range of the ordinates. -/
theorem interp1d_range {xp fp : List ℝ} {x y a z : ℝ} (hl : xp.length = fp.length) (h : interp1d xp fp x = .ok y)
    (hr : ∀ v ∈ fp, a ≤ v ∧ v ≤ z) : a ≤ y ∧ y ≤ z := by
  obtain ⟨x0, x1, h0, h1, h2, h3, rfl⟩ := interp1d_ok_iff.1 h
  have hc : OnCurve (xp.zip fp) x (polyline (xp.zip fp) x) := by
    have hne : xp.zip fp ≠ [] := by
      intro e
      have := congrArg List.length e
      rw [List.length_zip, ← hl, Nat.min_self, List.length_nil] at this
      rw [List.length_eq_zero_iff.1 this] at h0
      cases h0
    refine polyline_onCurve (List.head?_eq_some_head hne) (List.getLast?_eq_some_getLast hne) ?_ ?_
    · have e : (xp.zip fp).map Prod.fst = xp := List.map_fst_zip hl.le
      have : xp.head? = some ((xp.zip fp).head hne).1 := by
        conv_lhs => rw [← e]
        rw [List.head?_map, List.head?_eq_some_head hne]
        rfl
      rw [h0] at this
      rw [← Option.some.inj this]
      exact h2
    · have e : (xp.zip fp).map Prod.fst = xp := List.map_fst_zip hl.le
      have : xp.getLast? = some ((xp.zip fp).getLast hne).1 := by
        conv_lhs => rw [← e]
        rw [List.getLast?_map, List.getLast?_eq_some_getLast hne]
        rfl
      rw [h1] at this
      rw [← Option.some.inj this]
      exact h3
  exact onCurve_range hr (onCurve_swap hc)

theorem atIndex_mem {α : Type} {l : List α} {i : Nat} {x : α} (h : atIndex l i = .ok x) : x ∈ l := by
  unfold atIndex at h
  cases hi : l[i]? <;> rw [hi] at h <;> cases h
  exact List.mem_of_getElem? hi

theorem summaryMax_range {m : Marginal ℝ} {a lo hi : ℝ} {b : Bound ℝ} (h : summaryMax m a = .ok b) (hl : b.lower = some lo)
    (hu : b.upper = some hi) : lo ∈ m.xs ∧ hi ∈ m.xs := by
  simp only [summaryMax, bind_ok_iff, ensure_ok_iff] at h
  obtain ⟨p, hp, _, -, -, -, s, -, top, -, xc, -, r, hr, h⟩ := h
  have hmem : ∀ {i : Nat} {x : ℝ}, atIndex p.1 i = .ok x → x ∈ m.xs := by
    intro i x hx
    have := atIndex_mem hx
    simp only [padded, bind_ok_iff, pure_ok_iff] at hp
    obtain ⟨e, he, _, -, rfl⟩ := hp
    obtain ⟨h1, h2⟩ := endpoints_mem he
    simp only [List.mem_append, List.mem_replicate] at this
    rcases this with (⟨-, rfl⟩ | h) | ⟨-, rfl⟩ <;> assumption
  cases r with
  | none =>
    cases h
    cases hl
  | some i =>
    simp only [bind_ok_iff, pure_ok_iff] at h
    obtain ⟨x1, h1, x2, h2, rfl⟩ := h
    cases hl
    cases hu
    exact ⟨hmem h1, hmem h2⟩

/-- The limits lie within the range of the marginal they are taken from. -/
theorem summary_range {lib : Lib} (hk : KdeOk lib.kde) {c : Chain ℝ} (hs : Summarised c) {p : String} {b : Bound ℝ}
    (h : parameterSummary lib.kde c p = .ok b) {lo hi : ℝ} (hl : b.lower = some lo) (hu : b.upper = some hi) :
    ∃ e, binEnds c p (decide (c.cfg .statistics = some .hdi)) e ∧ (e.1 ≤ lo ∧ lo ≤ e.2) ∧ e.1 ≤ hi ∧ hi ≤ e.2 := by
  obtain ⟨w, hw, hpos⟩ := hs.weights
  have range : ∀ {pad : Bool} {m : Marginal ℝ}, smoothedHistogram lib.kde c p pad none = .ok m →
      ValidMarginal m ∧ ∃ e, binEnds c p pad e ∧ ∀ x ∈ m.xs, e.1 ≤ x ∧ x ≤ e.2 := by
    intro pad m hm
    have hv := C25_marginal_valid lib.kde hk c w hw hpos p pad none m hm
    obtain ⟨e, he, hx⟩ := marginal_ends hm
    refine ⟨hv, e, he, fun x hx' => ?_⟩
    rw [hx] at hx'
    refine linspace_mem ?_ two_le_gridSize hx'
    have hinc := hv.increasing
    rw [hx] at hinc
    have h2 := two_le_gridSize
    have := List.pairwise_iff_getElem.1 hinc 0 (gridSize - 1) (by rw [linspace_length]; omega) (by rw [linspace_length]; omega) (by omega)
    simp only [linspace_getElem] at this
    have hg : (0 : ℝ) < (gridSize : ℝ) - 1 := grid_pos
    rw [Nat.cast_sub (by omega)] at this
    push_cast at this
    have e2 : ((gridSize : ℝ) - 1) * ((e.2 - e.1) / ((gridSize : ℝ) - 1)) = e.2 - e.1 := by field_simp
    rw [e2] at this
    linarith
  unfold parameterSummary at h
  dsimp only at h
  split at h <;> rename_i hst <;> rw [hst]
  · cases h
  all_goals
    rw [bind_ok_iff] at h
    obtain ⟨m, hm, h⟩ := h
    obtain ⟨hv, e, he, hr⟩ := range hm
  · simp only [summaryMean, equalTailed, bind_ok_iff, pure_ok_iff] at h
    obtain ⟨_, ⟨l, h1, x, h2, u, h3, rfl⟩, rfl⟩ := h
    cases hl
    cases hu
    exact ⟨e, he, interp1d_range hv.cs_length h1 hr, interp1d_range hv.cs_length h3 hr⟩
  · simp only [summaryCumulative, equalTailed, bind_ok_iff, pure_ok_iff] at h
    obtain ⟨_, ⟨l, h1, x, h2, u, h3, rfl⟩, rfl⟩ := h
    cases hl
    cases hu
    exact ⟨e, he, interp1d_range hv.cs_length h1 hr, interp1d_range hv.cs_length h3 hr⟩
  · simp only [summaryMaxCentral, bind_ok_iff, pure_ok_iff] at h
    obtain ⟨i, -, x, -, l, h1, u, h3, rfl⟩ := h
    cases hl
    cases hu
    exact ⟨e, he, interp1d_range hv.cs_length h1 hr, interp1d_range hv.cs_length h3 hr⟩
  · obtain ⟨h1, h2⟩ := summaryMax_range h hl hu
    exact ⟨e, he, hr _ h1, hr _ h2⟩
  · obtain ⟨l, x, u, h1, -, -, i, j, _, _, -, h2, h3, -⟩ := C31_hdi_mass hv _ hs.area
    cases h.symm.trans h1
    cases hl
    cases hu
    have hmem : ∀ (k : Nat) (x : ℝ), (places m)[k]? = some x → x ∈ m.xs := by
      intro k x hk
      have := List.mem_of_getElem? hk
      unfold places at this
      rcases List.mem_append.1 this with h | h
      · exact List.mem_of_mem_head? (Option.mem_toList.1 h)
      · exact h
    exact ⟨e, he, hr _ (hmem _ _ h2), hr _ (hmem _ _ h3)⟩

theorem barData_length {lib : Lib} (hk : KdeOk lib.kde) {c : Chain ℝ} (hs : Summarised c) {p : String} {xs ys : List ℝ}
    (h : barData lib c p = .ok (xs, ys)) : ys.length = xs.length := by
  obtain ⟨w, hw, hpos⟩ := hs.weights
  unfold barData at h
  split at h
  · simp only [bind_ok_iff, pure_ok_iff] at h
    obtain ⟨m, hm, h⟩ := h
    cases h
    exact (C25_marginal_valid lib.kde hk c w hw hpos p true none m hm).ys_length
  · simp only [bind_ok_iff, pure_ok_iff] at h
    obtain ⟨data, hd, w, hw, bins, hb, h0, hh, h1, hp, h⟩ := h
    cases h
    simp only [powAll, bind_ok_iff, pure_ok_iff] at hp
    obtain ⟨-, -, rfl⟩ := hp
    simp only [histDensity, bind_ok_iff, ensure_ok_iff, pure_ok_iff] at hh
    obtain ⟨hist, hhist, -, h1, -, h2, rfl⟩ := hh
    obtain ⟨h3, rfl⟩ := histogram_ok_iff.1 hhist
    simp [midpoints_length]

/-- The texts of bands. -/
theorem bands_text {bs : List (Bound ℝ)} (hne : bs ≠ [])
    (h : ∀ b ∈ bs, ∃ l c u, b = ⟨some l, some c, some u⟩ ∧ ¬ (l = 0 ∧ c = 0 ∧ u = 0)) (label : Option String) :
    ∃ t, parameterText (some (.multi bs)) true label = .ok t := by
  match bs, hne, h with
  | [b], _, h =>
    obtain ⟨l, c, u, rfl, h0⟩ := h b (by simp)
    obtain ⟨t, ht, -⟩ := single_text h0 label
    exact ⟨t, ht⟩
  | b :: b' :: rest, _, h =>
    obtain ⟨lines, hl, -⟩ := C42_modes_partial (b :: b' :: rest) true label (by simp) h
    exact ⟨_, hl⟩

/-- **C103, partial**: a histogram is drawn, with the shaded interval and the title, whenever `get_summary` reports the parameter and
the curve itself can be computed, for chains that are smoothed, or use a KDE, or are grids, or are summarised by another statistic
than `HDI`; and for every other chain that is not multimodal if some of the reported interval is under the curve. (The summary in the
title needs limits that are not both zero, C42.) Missing: histograms without smoothing with intervals or parts of them beyond the
centres of the outermost bins (`C103_violated`). -/
theorem C103_drawn_partial {lib : Lib} (hk : KdeOk lib.kde) {c : Chain ℝ} (hs : Summarised c) {p : String} {fit : Summary ℝ}
    (hr : Reported lib c p fit) {xs ys : List ℝ} (hd : barData lib c p = .ok (xs, ys)) {height : ℝ} (hh : c.finHeight = .ok height)
    (hcase : c.smoothValue ≠ 0 ∨ c.cfg .kde ≠ (0 : ℝ) ∨ c.grid = true ∨ c.cfg .statistics ≠ some .hdi ∨
      (c.cfg .multimodal = false ∧ ∀ b lo hi, fit = .single b → b.lower = some lo → b.upper = some hi →
        (∃ x ∈ xs, lo ≤ x) ∧ ∃ x ∈ xs, x ≤ hi))
    (cfg : PlotConfig) (flip summary : Bool)
    (hz : summary = true → ∀ b, fit = .single b → ¬ (b.lower = some 0 ∧ b.upper = some 0)) :
    ∃ calls top, plotBars lib cfg p c flip summary = .ok (calls, top) := by
  obtain ⟨hcol, hent⟩ := reported_iff.1 hr
  obtain ⟨ee, hee, he1, he2⟩ := barData_ends hd
  have hlen := barData_length hk hs hd
  have hxne : xs ≠ [] := List.ne_nil_of_mem he1
  have hyne : ys.map (· * height) ≠ [] := by
    intro e
    have := congrArg List.length e
    rw [List.length_map, hlen, List.length_nil] at this
    exact hxne (List.length_eq_zero_iff.1 this)
  obtain ⟨top, htop, -⟩ := npMax_spec hyne
  have htop' : arrMax (ys.map (· * height)) = .ok top := by unfold arrMax; rw [htop]
  obtain ⟨z, hz'⟩ : ∃ z, arrMax xs = .ok z := by
    obtain ⟨z, hz, -⟩ := npMax_spec hxne
    exact ⟨z, by unfold arrMax; rw [hz]⟩
  obtain ⟨a, ha'⟩ : ∃ a, arrMin xs = .ok a := by
    cases xs with
    | nil => exact absurd rfl hxne
    | cons x xs => exact ⟨_, rfl⟩
  have hamin := (arrMin_ok_iff.1 ha').2
  have hzmax := (arrMax_ok_iff.1 hz').2
  suffices hsh : ∃ sh, barShadeIf lib cfg c p xs flip summary = .ok sh by
    obtain ⟨sh, hsh⟩ := hsh
    refine ⟨.marginal c.name p flip xs (ys.map (· * height)) :: sh, top, ?_⟩
    simp only [plotBars, hd, hh, htop', hsh, bind, Except.bind, pure, Except.pure]
  unfold barShadeIf
  cases hb : (c.cfg .barShade : Bool) with
  | false => exact ⟨[], rfl⟩
  | true =>
  rw [if_pos rfl]
  unfold summaryEntry at hent
  rw [bind_ok_iff] at hent
  obtain ⟨b, hpb, hent⟩ := hent
  cases hl : b.lower with
  | none => exact ⟨[], by simp only [barShade, hpb, hl, bind, Except.bind, pure, Except.pure]⟩
  | some lo =>
  cases hu : b.upper with
  | none => exact ⟨[], by simp only [barShade, hpb, hl, hu, bind, Except.bind, pure, Except.pure]⟩
  | some hi =>
  obtain ⟨e, he, ⟨hlo1, hlo2⟩, hhi1, hhi2⟩ := summary_range hk hs hpb hl hu
  -- it is enough to have the intervals under the curve and a text
  have final : ∀ ivs s, shadeBounds lib c p xs b lo hi = .ok (ivs, s) →
      (∀ iv ∈ ivs, (a ≤ iv.1 ∧ iv.1 ≤ z) ∧ a ≤ iv.2 ∧ iv.2 ≤ z) → (summary = true → ∃ t, parameterText (some s) true
        (some (stripDollars (getLabel cfg.labels p))) = .ok t) → ∃ sh, barShade lib cfg c p xs flip summary = .ok sh := by
    intro ivs s h1 h2 h3
    have hall : (ivs.all fun iv => decide (a ≤ min iv.1 iv.2) && decide (max iv.1 iv.2 ≤ z)) = true := by
      rw [List.all_eq_true]
      intro iv hiv
      obtain ⟨⟨g1, g2⟩, g3, g4⟩ := h2 iv hiv
      simp only [Bool.and_eq_true, decide_eq_true_eq]
      exact ⟨le_min g1 g3, max_le g2 g4⟩
    obtain ⟨t, ht⟩ : ∃ t, barTitle cfg p s summary = .ok t := by
      unfold barTitle
      cases summary with
      | false => exact ⟨"", rfl⟩
      | true => exact h3 rfl
    refine ⟨ivs.map (fun iv => Call.shade c.name p flip iv.1 iv.2) ++ (if t = "" then [] else [.title t]), ?_⟩
    simp only [barShade, hpb, hl, hu, h1, ha', hz', hall, ht, ensure, if_true, bind, Except.bind, pure, Except.pure]
  -- the ends of the curve and of the marginal of the summary
  have hsame : decide (c.smoothValue ≠ 0 ∨ c.cfg .kde ≠ (0 : ℝ)) = true ∨ c.grid = true →
      c.cfg .statistics = some .hdi → ee = e := by
    intro h hst
    rw [hst, decide_eq_true rfl] at he
    rcases h with h | h
    · rw [h] at hee
      exact binEnds_unique hee he
    · exact binEnds_unique (binEnds_grid h hee true) he
  cases hm : (c.cfg .multimodal : Bool) with
  | false =>
    rw [hm] at hent
    simp only [Bool.false_eq_true, if_false, pure_ok_iff] at hent
    subst hent
    have hmeet : lo ≤ z ∧ a ≤ hi := by
      by_cases hlast : c.cfg .multimodal = false ∧ ∀ b' lo hi, (.single b : Summary ℝ) = .single b' → b'.lower = some lo → b'.upper = some hi →
        (∃ x ∈ xs, lo ≤ x) ∧ ∃ x ∈ xs, x ≤ hi
      · obtain ⟨⟨x, hx, h1⟩, x', hx', h2⟩ := hlast.2 b lo hi rfl hl hu
        exact ⟨le_trans h1 (hzmax x hx), le_trans (hamin x' hx') h2⟩
      · have hgood : ee.1 ≤ e.1 ∧ e.2 ≤ ee.2 := by
          by_cases hst : c.cfg .statistics = some .hdi
          · have hc' : decide (c.smoothValue ≠ 0 ∨ c.cfg .kde ≠ (0 : ℝ)) = true ∨ c.grid = true := by
              rcases hcase with h | h | h | h | h
              · exact .inl (decide_eq_true (.inl h))
              · exact .inl (decide_eq_true (.inr h))
              · exact .inr h
              · exact absurd hst h
              · exact absurd h hlast
            rw [hsame hc' hst]
            exact ⟨le_rfl, le_rfl⟩
          · rw [decide_eq_false hst] at he
            cases hp : decide (c.smoothValue ≠ 0 ∨ c.cfg .kde ≠ (0 : ℝ)) with
            | true =>
              rw [hp] at hee
              exact binEnds_pad he hee
            | false =>
              rw [hp] at hee
              rw [binEnds_unique hee he]
              exact ⟨le_rfl, le_rfl⟩
        have h1 := hamin _ he1
        have h2 := hzmax _ he2
        constructor <;> linarith [hgood.1, hgood.2]
    have haz : a ≤ z := hzmax a (arrMin_ok_iff.1 ha').1
    refine final [(max lo a, min hi z)] (.single b) ?_ ?_ ?_
    · simp only [shadeBounds, hm, Bool.false_eq_true, if_false, ha', hz', bind, Except.bind, pure, Except.pure]
    · intro iv hiv
      rw [List.mem_singleton.1 hiv]
      exact ⟨⟨le_max_right _ _, max_le hmeet.1 haz⟩, le_min hmeet.2 haz, min_le_right _ _⟩
    · intro hsum
      have hne := hz hsum b rfl
      have hb0 : b ≠ ⟨some 0, some 0, some 0⟩ := by
        rintro rfl
        exact hne ⟨rfl, rfl⟩
      obtain ⟨h1, h2⟩ := C42_formats_partial b true (some (stripDollars (getLabel cfg.labels p))) hb0
      cases hc : b.center with
      | none => exact ⟨"", h1 (.inr (.inl hc))⟩
      | some x =>
        obtain ⟨t, -, ht⟩ := h2 lo x hi (by cases b; simp_all)
        exact ⟨_, ht⟩
  | true =>
    have hst := hs.modes hm
    have hee' : ee = e := hsame (by
      rcases hcase with h | h | h | h | h
      · exact .inl (decide_eq_true (.inl h))
      · exact .inl (decide_eq_true (.inr h))
      · exact .inr h
      · exact absurd hst h
      · rw [hm] at h
        cases h.1) hst
    subst hee'
    obtain ⟨w, hw, hpos⟩ := hs.weights
    rw [hm] at hent
    simp only [if_true, bind_ok_iff] at hent
    obtain ⟨m, hmm, ivs, hiv, hent⟩ := hent
    have hv := C25_marginal_valid lib.kde hk c w hw hpos p true none m hmm
    obtain ⟨⟨t, d⟩, hcut⟩ : ∃ td, hdiCut m (c.cfg .summaryArea : ℝ) = .ok td := by
      have := hiv
      simp only [hdiIntervals, bind_ok_iff] at this
      obtain ⟨_, -, td, h, -⟩ := this
      exact ⟨td, h⟩
    obtain ⟨ivs', lev, hiv', -, hbands⟩ := C34_bands m hv _ hs.area t d hcut
    cases hiv.symm.trans hiv'
    obtain ⟨ivs', bs, hiv', hbs, hlen2, hgrid⟩ := C36_bounds_of_bands m hv _ hs.area t d hcut
    cases hiv.symm.trans hiv'
    obtain ⟨e', he', hx'⟩ := marginal_ends hmm
    rw [hst, decide_eq_true rfl] at he
    cases binEnds_unique he he'
    have hpar : summaryHdi m (c.cfg .summaryArea : ℝ) = .ok b := by
      simp only [parameterSummary, hst, hmm, bind, Except.bind] at hpb
      exact hpb
    have hrange : ∀ x ∈ m.xs, a ≤ x ∧ x ≤ z := by
      intro x hx
      rw [hx'] at hx
      obtain ⟨h1, h2⟩ := linspace_mem (le_trans hlo1 hlo2) two_le_gridSize hx
      exact ⟨le_trans (hamin _ he1) h1, le_trans h2 (hzmax _ he2)⟩
    -- the bounds of the bands
    have hends : ∀ iv ∈ ivs, (∃ s e : Nat, s ≤ e ∧ m.xs[s]? = some iv.1 ∧ m.xs[e]? = some iv.2) ∧
        (summary = true → ¬ (iv.1 = 0 ∧ iv.2 = 0)) := by
      intro iv hivm
      rcases hbands with ⟨-, -, h5, -⟩ | ⟨⟨l, x, u, h5, h6⟩, -⟩
      · obtain ⟨s, e, hse, h7, h8, -⟩ := (h5 iv).1 hivm
        refine ⟨⟨s, e, hse.le, h7, h8⟩, fun _ h0 => ?_⟩
        obtain ⟨hs', h7⟩ := List.getElem?_eq_some_iff.1 h7
        obtain ⟨he', h8⟩ := List.getElem?_eq_some_iff.1 h8
        have := List.pairwise_iff_getElem.1 hv.increasing s e hs' he' hse
        rw [h7, h8, h0.1, h0.2] at this
        exact lt_irrefl _ this
      · obtain ⟨l', x', u', h7, -, -, i, j, _, _, hij, h8, h9, -⟩ := C31_hdi_mass hv _ hs.area
        cases h5.symm.trans h7
        cases h5.symm.trans hpar
        rw [h6, List.mem_singleton] at hivm
        subst hivm
        refine ⟨?_, fun hsum h0 => ?_⟩
        · obtain ⟨x0, xl, hx0, -, hpl, -⟩ := hv.hdi_setup
          have idx : ∀ (k : Nat) (x : ℝ), (places m)[k]? = some x → m.xs[k - 1]? = some x := by
            intro k x hk
            rw [hpl] at hk
            cases k with
            | zero =>
              rw [List.getElem?_cons_zero] at hk
              rw [← hk, ← hx0, List.head?_eq_getElem?]
            | succ k => simpa using hk
          exact ⟨i - 1, j - 1, by omega, idx _ _ h8, idx _ _ h9⟩
        · rw [if_neg (by rw [h6]; simp)] at hent
          refine hz hsum _ (pure_ok_iff.1 hent).symm ?_
          dsimp only at h0 ⊢
          rw [h0.1, h0.2]
          exact ⟨rfl, rfl⟩
    obtain ⟨bs', hbs', hform⟩ := C36_multimodal_bounds m hv ivs fun iv hiv => (hends iv hiv).1
    cases hbs.symm.trans hbs'
    have hne : ivs ≠ [] := by
      rcases hbands with ⟨h, -⟩ | ⟨⟨l, x, u, -, h6⟩, -⟩
      · exact h
      · rw [h6]; simp
    refine final (if ivs.length < 2 then [(lo, hi)] else ivs) (.multi bs) ?_ ?_ ?_
    · simp only [shadeBounds, hm, if_true, hmm, hiv, hbs, bind, Except.bind, pure, Except.pure]
    · intro iv hivm
      split at hivm
      · rw [List.mem_singleton.1 hivm]
        have h1 := hamin _ he1
        have h2 := hzmax _ he2
        refine ⟨⟨?_, ?_⟩, ?_, ?_⟩ <;> dsimp only <;> linarith
      · obtain ⟨⟨s, e, -, h7, h8⟩, -⟩ := hends iv hivm
        exact ⟨hrange _ (List.mem_of_getElem? h7), hrange _ (List.mem_of_getElem? h8)⟩
    · intro hsum
      refine bands_text ?_ ?_ _
      · intro e
        rw [e] at hlen2
        exact hne (List.length_eq_zero_iff.1 hlen2)
      · intro b hb
        obtain ⟨k, hk⟩ := List.mem_iff_getElem?.1 hb
        obtain ⟨iv, hivm, x, rfl, h1, h2⟩ : ∃ iv ∈ ivs, ∃ x, b = ⟨some iv.1, some x, some iv.2⟩ ∧ iv.1 ≤ x ∧ x ≤ iv.2 := by
          obtain ⟨hk', rfl⟩ := List.getElem?_eq_some_iff.1 hk
          have := List.forall₂_iff_get.1 hform
          obtain ⟨i, x, y, h1, -, -, h2, h3, -⟩ := this.2 k (by rw [this.1]; exact hk') hk'
          exact ⟨_, List.getElem_mem _, x, h1, h2, h3⟩
        exact ⟨_, _, _, rfl, fun h => (hends iv hivm).2 hsum ⟨h.1, h.2.2⟩⟩

/-- The hypotheses of `C103_drawn_partial` are met by a multimodal grid of two points, with a title. -/
example (lib : Lib) (hk : KdeOk lib.kde) : ∃ (c : Chain ℝ) (calls : List Call) (top : ℝ),
    Chain.make { samples := (twoFrame 1 2).toRaw, name := "two", grid := true, config := modalKw true } = .ok c ∧
    plotBars lib {} "a" c false true = .ok (calls, top) := by
  obtain ⟨c, h1, h2⟩ := twoPoint_exists true (u := 1) (v := 2) one_pos two_pos
  obtain ⟨m, hm, hv, hx, hy⟩ := h2.marginal one_pos two_pos hk true
  have hs := two_simpson one_pos two_pos hv hx hy
  obtain ⟨hpeak, hmass⟩ := two_peak hv hx hy
  have harea := h2.area
  obtain ⟨fit, hfit⟩ := (C89_summaries_partial hk h2.weights (by simp) h2.modal h2.hdi (by rw [harea]; norm_num) hm hs hpeak).1
    (.inl (by rw [harea]; exact hmass))
  have hd : barData lib c "a" = .ok ([0, 1], [1 / (1 + 2), 2 / (1 + 2)]) := by
    simp only [barData, h2.smooth, h2.kde, ne_eq, not_true_eq_false, or_self, if_false, h2.data, h2.weights, marginalBins, h2.grid, if_true,
      two_bins, two_density one_pos two_pos, h2.power, two_pow, two_mid, bind, Except.bind, pure, Except.pure]
  obtain ⟨calls, top, h⟩ := C103_drawn_partial hk
    (⟨⟨_, h2.weights, by simp⟩, by rw [harea]; norm_num, fun _ => h2.hdi⟩ : Summarised c) hfit hd
    (height := 1) (by simp only [Chain.finHeight, h2.height]) (.inr (.inr (.inl h2.grid))) {} false true (by
      rintro - b rfl ⟨hb1, hb2⟩
      obtain ⟨-, hent⟩ := reported_iff.1 hfit
      obtain ⟨l, x, u, hh, hl0, hlx, hu1, hxu⟩ := two_hdi hv hx hy
      simp only [summaryEntry, parameterSummary, h2.hdi, hm, harea, hh, bind_ok_iff, Except.ok.injEq, exists_eq_left', h2.modal, if_true] at hent
      obtain ⟨ivs, -, hent⟩ := hent
      split at hent
      · simp only [bind_ok_iff, pure_ok_iff] at hent
        obtain ⟨_, -, h⟩ := hent
        cases h
      · cases hent
        cases hb1
        cases hb2
        linarith)
  exact ⟨c, calls, top, h1, h⟩

/-! ### Violation -/

/-- Three samples: two next to each other, and one far away with twice their weight. -/
noncomputable def apartFrame : Frame ℝ :=
  ⟨[.int 0, .int 1, .int 2], [("a", [-502 / 2331, -3 / 14, 8494 / 6993]), ("weight", [1, 1, 4])]⟩

theorem apart_extents (pad : Bool) : getExtents ([-502 / 2331, -3 / 14, 8494 / 6993] : List ℝ) [1, 1, 4] false true false pad =
    .ok (if pad then (-(1 / 2), 3 / 2) else (-3 / 14, 17 / 14)) := by
  obtain ⟨i, j, t, R, l, u, h1, h2, h3, ht, h4, h5, -, h6, hR, -, h7, -, h8, -⟩ :=
    C45_extents ([-502 / 2331, -3 / 14, 8494 / 6993] : List ℝ) [1, 1, 4] rfl (by simp) (-502 / 2331) (8494 / 6993) (by simp) (by simp)
      (by intro x hx; simp only [List.mem_cons, List.not_mem_nil, or_false] at hx; rcases hx with rfl | rfl | rfl <;> norm_num)
      (by norm_num) false true false pad
  have hR' : R ≤ 6 := by
    rw [hR]
    simp only [weightWhere, List.zip_cons_cons, List.zip_nil_right, List.map_cons, List.map_nil, List.sum_cons, List.sum_nil]
    split_ifs <;> norm_num
  simp only [Bool.false_eq_true, if_false] at ht
  have htR : t * R < 1 := by rw [ht]; linarith
  obtain rfl : j = 1999 := by
    by_contra hne
    have hj : j + 1 < 2000 := by omega
    have hj' : ((j + 1 : ℕ) : ℝ) ≤ 2000 := by exact_mod_cast hj.le
    have hP : cellEdge (-502 / 2331 : ℝ) (8494 / 6993) (j + 1) ≤ 8494 / 6993 := by unfold cellEdge; linarith
    simp only [weightWhere, List.zip_cons_cons, List.zip_nil_right, List.map_cons, List.map_nil, List.sum_cons,
      List.sum_nil, hP, hj, decide_true, if_true, and_true] at h8
    revert h8
    split_ifs <;> intro h8 <;> linarith
  obtain rfl : i = 1 := by
    by_contra hne
    have hi' : (2 : ℝ) ≤ i := by exact_mod_cast (show 2 ≤ i by omega)
    have hP : cellEdge (-502 / 2331 : ℝ) (8494 / 6993) 1 ≤ -3 / 14 ∧ -3 / 14 < cellEdge (-502 / 2331 : ℝ) (8494 / 6993) i := by
      unfold cellEdge; constructor <;> [norm_num; linarith]
    simp only [weightWhere, List.zip_cons_cons, List.zip_nil_right, List.map_cons, List.map_nil, List.sum_cons,
      List.sum_nil, hP, and_self, decide_true, if_true] at h7
    revert h7
    split_ifs <;> intro h7 <;> linarith
  rw [h6, h4, h5]
  unfold cellEdge
  cases pad
  · simp only [Bool.false_eq_true, if_false, Except.ok.injEq, Prod.mk.injEq]
    norm_num
  · simp only [if_true, Except.ok.injEq, Prod.mk.injEq]
    norm_num

theorem apart_density (pad : Bool) : histDensity (if pad then [-(1 / 2), 1 / 2, 3 / 2] else [-3 / 14, 1 / 2, 17 / 14])
    [-502 / 2331, -3 / 14, 8494 / 6993] [1, 1, 4] = .ok (if pad then [1 / (1 + 2), 2 / (1 + 2)] else ([7 / 5, 0] : List ℝ)) := by
  cases pad
  · simp only [Bool.false_eq_true, if_false]
    have hm0 : binMass [-3 / 14, 1 / 2, 17 / 14] [-502 / 2331, -3 / 14, 8494 / 6993] [1, 1, (4 : ℝ)] 0 = 1 := by
      simp [binMass, inBin]; norm_num
    have hm1 : binMass [-3 / 14, 1 / 2, 17 / 14] [-502 / 2331, -3 / 14, 8494 / 6993] [1, 1, (4 : ℝ)] 1 = 0 := by
      simp [binMass, inBin]; norm_num
    have h1 : (-3 / 14 : ℝ) ≤ 1 / 2 := by norm_num
    have h2 : (1 / 2 : ℝ) ≤ 17 / 14 := by norm_num
    have hn : histogram [-3 / 14, 1 / 2, 17 / 14] [-502 / 2331, -3 / 14, 8494 / 6993] [1, 1, (4 : ℝ)] = .ok [1, 0] := by
      simp only [histogram, List.tail_cons, List.zipWith_cons_cons, List.zipWith_nil_right, h1, h2,
        decide_true, List.all_cons, List.all_nil, id, Bool.and_self, ensure, if_true, bind, Except.bind, pure, Except.pure,
        List.length_cons, List.length_nil, Except.ok.injEq]
      rw [show List.range (0 + 1 + 1 + 1 - 1) = [0, 1] from rfl, List.map_cons, List.map_cons, hm0, hm1]
      rfl
    have h3 : (-3 / 14 : ℝ) ≠ 1 / 2 := by norm_num
    have h4 : (1 / 2 : ℝ) ≠ 17 / 14 := by norm_num
    have h13 : ¬ ((1 : ℝ) + (0 + 0) = 0) := by norm_num
    simp only [histDensity, hn, bind, Except.bind, List.tail_cons, List.zipWith_cons_cons, List.zipWith_nil_right,
      ne_eq, h3, h4, not_false_eq_true,
      decide_true, List.all_cons, List.all_nil, id, Bool.and_self, ensure, if_true, List.sum_cons, List.sum_nil]
    simp only [h13, not_false_eq_true, decide_true, if_true, pure, Except.pure, Except.ok.injEq, List.cons.injEq, and_true]
    constructor <;> norm_num
  · simp only [if_true]
    have hm0 : binMass [-(1 / 2), 1 / 2, 3 / 2] [-502 / 2331, -3 / 14, 8494 / 6993] [1, 1, (4 : ℝ)] 0 = 2 := by
      simp [binMass, inBin]; norm_num
    have hm1 : binMass [-(1 / 2), 1 / 2, 3 / 2] [-502 / 2331, -3 / 14, 8494 / 6993] [1, 1, (4 : ℝ)] 1 = 4 := by
      simp [binMass, inBin]; norm_num
    have h1 : (-(1 / 2) : ℝ) ≤ 1 / 2 := by norm_num
    have h2 : (1 / 2 : ℝ) ≤ 3 / 2 := by norm_num
    have hn : histogram [-(1 / 2), 1 / 2, 3 / 2] [-502 / 2331, -3 / 14, 8494 / 6993] [1, 1, (4 : ℝ)] = .ok [2, 4] := by
      simp only [histogram, List.tail_cons, List.zipWith_cons_cons, List.zipWith_nil_right, h1, h2,
        decide_true, List.all_cons, List.all_nil, id, Bool.and_self, ensure, if_true, bind, Except.bind, pure, Except.pure,
        List.length_cons, List.length_nil, Except.ok.injEq]
      rw [show List.range (0 + 1 + 1 + 1 - 1) = [0, 1] from rfl, List.map_cons, List.map_cons, hm0, hm1]
      rfl
    have h3 : (-(1 / 2) : ℝ) ≠ 1 / 2 := by norm_num
    have h4 : (1 / 2 : ℝ) ≠ 3 / 2 := by norm_num
    have h13 : ¬ ((2 : ℝ) + (4 + 0) = 0) := by norm_num
    simp only [histDensity, hn, bind, Except.bind, List.tail_cons, List.zipWith_cons_cons, List.zipWith_nil_right,
      ne_eq, h3, h4, not_false_eq_true,
      decide_true, List.all_cons, List.all_nil, id, Bool.and_self, ensure, if_true, List.sum_cons, List.sum_nil]
    simp only [h13, not_false_eq_true, decide_true, if_true, pure, Except.pure, Except.ok.injEq, List.cons.injEq, and_true]
    constructor <;> norm_num

/-- What is used of the chain. -/
structure ApartChain (c : Chain ℝ) : Prop where
  samples : c.samples = apartFrame
  weight : c.weightColumn = "weight"
  power : c.power = 1
  grid : c.grid = false
  height : c.histogramRelativeHeight = .fin 1
  smooth : c.smoothValue = 0
  bins : getBins c = 3
  kde : (c.cfg .kde : ℝ) = 0
  modal : c.cfg .multimodal = true
  hdi : c.cfg .statistics = some .hdi
  area : (c.cfg .summaryArea : ℝ) = 9 / 10
  shaded : c.cfg .barShade = true
  contour : c.cfg .plotContour = true
  plotted : c.plottingColumns = ["a"]

/-- The configuration of the chain: multimodal and not smoothed, three edges, and the area 0.9. -/
noncomputable def apartKw : List (Kwarg ℝ) := [⟨.multimodal, true⟩, ⟨.smooth, some 0⟩, ⟨.bins, some 3⟩, ⟨.summaryArea, (9 / 10 : ℝ)⟩]

theorem apart_exists : ∃ c, Chain.make { samples := apartFrame.toRaw, name := "apart", config := apartKw } = .ok c ∧ ApartChain c := by
  obtain ⟨c, h1, h2, h3, h4, h5, h6, -, h8, h9⟩ := plain_chain_cfg (K := ℝ) false apartKw rfl
    (by change (0 : ℝ) ≤ 9 / 10 ∧ (9 / 10 : ℝ) ≤ 1; constructor <;> norm_num)
    (by change (1 : ℝ) ≤ 10; norm_num) rfl rfl (by intro _; exact .inl rfl) apartFrame ⟨by simp [apartFrame], by simp [apartFrame]⟩
    (by simp [apartFrame]) (w := [1, 1, 4]) rfl (by simp) "apart" 1 le_rfl (one_dvd _)
  refine ⟨c, h1, h2, h3, h5, h6, make_height h1, ?_, ?_, by rw [h9]; rfl, by rw [h9]; rfl, by rw [h9]; rfl, by rw [h9]; rfl,
    by rw [h9]; rfl, by rw [h9]; rfl, ?_⟩
  · have : c.cfg .smooth = some 0 := by rw [h9]; rfl
    simp only [Chain.smoothValue, this]
  · have : c.cfg .bins = some 3 := by rw [h9]; rfl
    simp only [getBins, this]
  · have h10 : c.cfg .colorParam = none := by rw [h9]; rfl
    have h11 : c.cfg .plotCloud = false := by rw [h9]; rfl
    rw [Chain.plottingColumns, Chain.dataColumns, h10, h11, h2, h3, h4]
    have hc : apartFrame.columns = ["a", "weight"] := rfl
    rw [hc]
    decide

theorem ApartChain.data {c : Chain ℝ} (h : ApartChain c) : c.samples.get "a" = .ok [-502 / 2331, -3 / 14, 8494 / 6993] := by rw [h.samples]; rfl

theorem ApartChain.weights {c : Chain ℝ} (h : ApartChain c) : c.weights = .ok [1, 1, 4] := by rw [Chain.weights, h.samples, h.weight]; rfl

theorem ApartChain.edges {c : Chain ℝ} (h : ApartChain c) (pad : Bool) : marginalBins c [-502 / 2331, -3 / 14, 8494 / 6993] [1, 1, 4] pad =
    .ok (if pad then [-(1 / 2), 1 / 2, 3 / 2] else [-3 / 14, 1 / 2, 17 / 14]) := by
  have e : ∀ l u : ℝ, linspaceInt l u 3 = .ok [l, (l + u) / 2, u] := by
    intro l u
    unfold linspaceInt
    rw [if_neg (by decide), show (3 : Int).toNat = 3 from rfl]
    unfold linspace
    rw [show List.range 3 = [0, 1, 2] from rfl]
    simp only [List.map_cons, List.map_nil, Except.ok.injEq, List.cons.injEq, and_true]
    refine ⟨?_, ?_, ?_⟩ <;> push_cast <;> ring
  simp only [marginalBins, h.grid, Bool.false_eq_true, if_false, getSmoothedBins, apart_extents, h.smooth, if_true, h.bins, bind,
    Except.bind, pure, Except.pure, e]
  cases pad
  · simp only [Bool.false_eq_true, if_false, Except.ok.injEq, List.cons.injEq, and_true, true_and]
    norm_num
  · simp only [if_true, Except.ok.injEq, List.cons.injEq, and_true, true_and]
    norm_num

theorem ApartChain.curve {c : Chain ℝ} (h : ApartChain c) (lib : Lib) : barData lib c "a" = .ok ([1 / 7, 6 / 7], [7 / 5, 0]) := by
  have hd := apart_density false
  simp only [Bool.false_eq_true, if_false] at hd
  have hp : powAll [7 / 5, (0 : ℝ)] 1 = .ok [7 / 5, 0] := by simp [powAll, ensure, bind, Except.bind, pure, Except.pure]
  have hmid : midpoints [-3 / 14, 1 / 2, (17 / 14 : ℝ)] = [1 / 7, 6 / 7] := by
    simp only [midpoints, List.tail_cons, List.zipWith_cons_cons, List.zipWith_nil_right, List.cons.injEq, and_true]
    constructor <;> norm_num
  simp only [barData, h.smooth, h.kde, ne_eq, not_true_eq_false, or_self, if_false, h.data, h.weights, h.edges, Bool.false_eq_true,
    hd, h.power, hp, hmid, bind, Except.bind, pure, Except.pure]

/-- The padded marginal is that of the two points. -/
theorem ApartChain.marginal {c : Chain ℝ} (h : ApartChain c) {kde : KdeFn} (hk : KdeOk kde) :
    ∃ m, smoothedHistogram kde c "a" true none = .ok m ∧ ValidMarginal m ∧ m.xs = linspace 0 1 gridSize ∧
      m.ys = (linspace 0 1 gridSize).map fun x => (1 + (2 - 1) * x) / (1 + 2) := by
  obtain ⟨c', -, h'⟩ := twoPoint_exists true (u := 1) (v := 2) one_pos two_pos
  obtain ⟨m, hm, hv, hx, hy⟩ := h'.marginal one_pos two_pos hk true
  refine ⟨m, ?_, hv, hx, hy⟩
  rw [← hm]
  have hd := apart_density true
  simp only [if_true] at hd
  have hb : marginalBins c' [0, 1] [1, 2] true = .ok [-(1 / 2), 1 / 2, 3 / 2] := by simp only [marginalBins, h'.grid, if_true, two_bins]
  simp only [smoothedHistogram, h.data, h.weights, h.edges, if_true, hd, h.power, h'.data, h'.weights, hb,
    two_density one_pos two_pos, h'.power, two_pow, two_mid, bind, Except.bind, marginalYs, h.smooth, h'.smooth, h.kde, h'.kde,
    smoothHist, Option.getD_none, ne_eq, not_true_eq_false, decide_false, Bool.false_eq_true, if_false]

theorem sum_line (a b : ℝ) (n : Nat) : ((List.range n).map fun (i : Nat) => a + i * b).sum = n * a + n * (n - 1) / 2 * b := by
  induction n with
  | zero => simp
  | succ n ih =>
    rw [List.range_succ, List.map_append, List.sum_append, ih]
    simp only [List.map_cons, List.map_nil, List.sum_cons, List.sum_nil]
    push_cast
    ring

/-- An interval with nine tenths of the mass does not fit between the centres of the bins. -/
theorem line_hdi_wide {m : Marginal ℝ} (hm : ValidMarginal m) (hx : m.xs = linspace 0 1 gridSize)
    (hy : m.ys = (linspace 0 1 gridSize).map fun x => (1 + (2 - 1) * x) / (1 + 2)) {l c u : ℝ}
    (h : summaryHdi m (9 / 10) = .ok ⟨some l, some c, some u⟩) : l ≤ u ∧ ¬ (1 / 7 ≤ l ∧ u ≤ 6 / 7) := by
  obtain ⟨l', c', u', h', hlc, hcu, i, j, p, q, hij, hl, hu, hp, hq, hpq, -⟩ := C31_hdi_mass hm (9 / 10) (by norm_num)
  cases h.symm.trans h'
  refine ⟨le_trans hlc hcu, ?_⟩
  rintro ⟨h1, h2⟩
  have hg : gridSize = 10000 := by unfold gridSize; rfl
  obtain ⟨x0, xl, hx0, hxl, hpl, -⟩ := hm.hdi_setup
  have hx0' : x0 = 0 := by
    rw [hx, linspace_head (by have := two_le_gridSize; omega)] at hx0
    exact (Option.some.inj hx0).symm
  rw [hpl] at hl hu
  have hxs : ∀ (k : Nat) (x : ℝ), m.xs[k]? = some x → k < 10000 ∧ x = k / 9999 := by
    intro k x hk
    obtain ⟨hk', rfl⟩ := List.getElem?_eq_some_iff.1 hk
    have hk'' : k < 10000 := by rwa [hx, linspace_length, hg] at hk'
    refine ⟨hk'', ?_⟩
    simp only [hx, linspace_getElem, hg]
    push_cast
    ring
  cases i with
  | zero =>
    rw [List.getElem?_cons_zero, hx0'] at hl
    have := Option.some.inj hl
    linarith
  | succ i =>
  cases j with
  | zero => omega
  | succ j =>
  rw [List.getElem?_cons_succ] at hl hu
  obtain ⟨hi', hli⟩ := hxs i l hl
  obtain ⟨hj', huj⟩ := hxs j u hu
  have hi2 : (9999 / 7 : ℝ) ≤ i := by
    rw [hli] at h1
    rw [le_div_iff₀ (by norm_num)] at h1
    linarith
  have hj2 : (j : ℝ) ≤ 9999 * 6 / 7 := by
    rw [huj] at h2
    rw [div_le_iff₀ (by norm_num)] at h2
    linarith
  simp only [masses, List.getElem?_cons_succ] at hp hq
  obtain ⟨hi3, rfl⟩ := List.getElem?_eq_some_iff.1 hp
  obtain ⟨hj3, rfl⟩ := List.getElem?_eq_some_iff.1 hq
  rw [hm.cumulative _ hi3, hm.cumulative _ hj3] at hpq
  have htot : m.ys.sum = 5000 := by
    have e : m.ys = (List.range 10000).map fun (i : Nat) => (1 / 3 : ℝ) + i * (1 / 29997) := by
      rw [hy, hg, linspace, List.map_map]
      refine List.map_congr_left fun k _ => ?_
      simp only [Function.comp]
      push_cast
      ring
    rw [e, sum_line]
    norm_num
  have hsplit : (m.ys.take (j + 1)).sum = (m.ys.take (i + 1)).sum + ((m.ys.take (j + 1)).drop (i + 1)).sum := by
    rw [← List.sum_append]
    congr 1
    conv_lhs => rw [← List.take_append_drop (i + 1) (m.ys.take (j + 1))]
    rw [List.take_take, min_eq_left (by omega)]
  have hle : ((m.ys.take (j + 1)).drop (i + 1)).sum ≤ ((j : ℝ) - i) * (13 / 21) := by
    have := List.sum_le_card_nsmul ((m.ys.take (j + 1)).drop (i + 1)) (13 / 21) ?_
    · have hlen : ((m.ys.take (j + 1)).drop (i + 1)).length = j - i := by
        rw [List.length_drop, List.length_take, hm.ys_length, hx, linspace_length, hg]
        omega
      rw [hlen, nsmul_eq_mul, Nat.cast_sub (by omega)] at this
      exact this
    · intro y hy'
      obtain ⟨k, hk, rfl⟩ := List.getElem_of_mem (List.mem_of_mem_drop hy')
      have hk' : k < j + 1 := by
        rw [List.length_take] at hk
        omega
      rw [List.getElem_take]
      have hk2 : (k : ℝ) ≤ j := by exact_mod_cast Nat.lt_succ_iff.1 hk'
      simp only [hy, List.getElem_map, linspace_getElem, hg]
      push_cast
      linarith
  rw [htot, hsplit] at hpq
  rw [← sub_div, add_sub_cancel_left, le_div_iff₀ (by norm_num)] at hpq
  nlinarith

/-- **C103** is violated by chains with several modes and without smoothing: the summary is taken from a wider range of bins than the
curve. For an accepted chain of three samples `get_summary` reports the parameter and the curve can be computed, but `plot` and
`plot_distributions` raise a ValueError, since the interval reaches beyond the curve. -/
theorem C103_violated : ∃ c : Chain ℝ,
    Chain.make { samples := apartFrame.toRaw, name := "apart", config := apartKw } = .ok c ∧
    ∀ lib : Lib, KdeOk lib.kde → (∃ fit, Reported lib c "a" fit) ∧ barData lib c "a" = .ok ([1 / 7, 6 / 7], [7 / 5, 0]) ∧
      c.finHeight = .ok 1 ∧ (∀ (cfg : PlotConfig) (flip summary : Bool), plotBars lib cfg "a" c flip summary = .error .value) ∧
      plotDistributionsBase lib {} [] 1 (oneBase c) = .error .value ∧ plotBase lib {} [] (oneBase c) = .error .value := by
  obtain ⟨c, hc, h⟩ := apart_exists
  refine ⟨c, hc, fun lib hk => ?_⟩
  obtain ⟨m, hm, hv, hx, hy⟩ := h.marginal hk
  have hs := two_simpson one_pos two_pos hv hx hy
  have hsp := simpson_pos_of_ne hv hs
  obtain ⟨hpeak, hmass⟩ := two_peak hv hx hy
  have harea := h.area
  have hmass' : massAbove m (m.ys.map (· / simpson m.ys m.xs)) (2 / 3 / simpson m.ys m.xs) ≤ (c.cfg .summaryArea : ℝ) := by
    rw [harea]; linarith
  have hh : c.finHeight = .ok 1 := by simp only [Chain.finHeight, h.height]
  refine ⟨(C89_summaries_partial hk h.weights (by simp) h.modal h.hdi (by rw [harea]; norm_num) hm hs hpeak).1 (.inl hmass'),
    h.curve lib, hh, ?_⟩
  suffices key : ∀ (cfg : PlotConfig) (flip summary : Bool), plotBars lib cfg "a" c flip summary = .error .value by
    refine ⟨key, ?_, ?_⟩
    · have hc : distPanel lib {} (oneBase c) [] "a" = .error .value := by
        simp only [distPanel, oneBase, distChains, h.contour, h.plotted, List.mem_singleton, not_true_eq_false, decide_false, Bool.not_true,
          Bool.or_self, Bool.false_eq_true, if_false, key, bind, Except.bind, List.lookup, beq_self_eq_true, setLim]
      have e : (oneBase c).columns = ["a"] := rfl
      have hg : gridPanels ((1 + 1 - 1) / 1) (min 1 1) = [(0, 0)] := rfl
      simp only [plotDistributionsBase, e, List.length_singleton, hg, List.mapM_cons, ensure, ne_eq, one_ne_zero,
        not_false_eq_true, decide_true, if_true, Nat.lt_one_iff, bind, Except.bind, zero_mul, zero_add,
        nonpos_iff_eq_zero, if_false, List.getD_cons_zero, hc]
    · have hp : "a" ∈ c.samples.columns := by rw [h.samples]; exact List.mem_cons_self
      have hd : ∀ s, histChains lib {} "a" false s [c] none = .error .value := by
        intro s
        simp only [histChains, h.contour, hp, not_true_eq_false, decide_false, Bool.not_true, Bool.or_self,
          Bool.false_eq_true, if_false, key, bind, Except.bind]
      obtain ⟨s, hs⟩ : ∃ s, trianglePanel {} (oneBase c) 1 0 0 "a" "a" = .ok s := ⟨_, rfl⟩
      have hdr : drawPanel lib {} (oneBase c) [] true false 1 0 0 "a" "a" = .error .value := by
        simp only [drawPanel, Nat.lt_irrefl, if_false, decide_true, Bool.and_self, if_true, histPanel, oneBase, List.not_mem_nil,
          decide_false, Bool.not_false, Bool.false_and, hd, bind, Except.bind]
      have hf : ([c].filter fun c => c.cfg .plotContour) = [c] := by
        rw [List.filter_cons_of_pos (by simpa using h.contour)]
        rfl
      have e : (oneBase c).columns = ["a"] := rfl
      have e' : (oneBase c).chains = [c] := rfl
      have hg : gridPanels 1 1 = [(0, 0)] := rfl
      have hn : decide (1 = 2) = false := rfl
      simp only [plotBase, e, e', hf, List.length_singleton, if_true, hg, List.mapM_cons, List.mapM_nil, ensure, Nat.zero_lt_one,
        decide_true, Bool.and_self, hn, Bool.false_and, bind, Except.bind, pure, Except.pure, List.getD_cons_zero, hs, hdr]
  intro cfg flip summary
  obtain ⟨l, x, u, hsum, -⟩ := C31_hdi_mass hv (9 / 10) (by norm_num)
  obtain ⟨hlu, hout⟩ := line_hdi_wide hv hx hy hsum
  have hps : parameterSummary lib.kde c "a" = .ok ⟨some l, some x, some u⟩ := by
    simp only [parameterSummary, h.hdi, hm, bind, Except.bind, harea, hsum]
  have hinc : m.ys.Pairwise (· < ·) := by
    rw [hy, List.pairwise_map]
    refine (linspace_increasing (by norm_num) two_le_gridSize).imp fun h => ?_
    linarith
  obtain ⟨t, d, hcut⟩ := (C35_cut_exists_iff m hv hs _ (List.mem_map_of_mem hpeak.1) (by
    intro v hv
    obtain ⟨z, hz, rfl⟩ := List.mem_map.1 hv
    exact div_le_div_of_nonneg_right (hpeak.2 z hz) hsp.le) (9 / 10) (by norm_num)).2 (.inl (by rwa [harea] at hmass'))
  obtain ⟨l', u', hiv, hbs, -⟩ := increasing_band hv hinc (by norm_num) hcut hsum
  have hsb : shadeBounds lib c "a" [1 / 7, 6 / 7] ⟨some l, some x, some u⟩ l u = .ok ([(l, u)], .multi [⟨some l', some u', some u'⟩]) := by
    simp only [shadeBounds, h.modal, if_true, hm, harea, hiv, hbs, bind, Except.bind, pure, Except.pure]
    rfl
  have hmin : arrMin ([1 / 7, 6 / 7] : List ℝ) = .ok (1 / 7) := by
    rw [arrMin_ok_iff]
    refine ⟨by simp, fun x hx => ?_⟩
    simp only [List.mem_cons, List.not_mem_nil, or_false] at hx
    rcases hx with rfl | rfl <;> norm_num
  have hmax : arrMax ([1 / 7, 6 / 7] : List ℝ) = .ok (6 / 7) := by
    rw [arrMax_ok_iff]
    refine ⟨by simp, fun x hx => ?_⟩
    simp only [List.mem_cons, List.not_mem_nil, or_false] at hx
    rcases hx with rfl | rfl <;> norm_num
  have hall : (([(l, u)] : List (ℝ × ℝ)).all fun iv => decide (1 / 7 ≤ min iv.1 iv.2) && decide (max iv.1 iv.2 ≤ 6 / 7)) = false := by
    simp only [List.all_cons, List.all_nil, Bool.and_true, min_eq_left hlu, max_eq_right hlu]
    rw [Bool.and_eq_false_iff]
    by_contra hc
    push Not at hc
    simp only [ne_eq, Bool.not_eq_false, decide_eq_true_eq] at hc
    exact hout hc
  obtain ⟨top, htop⟩ : ∃ top, arrMax (([7 / 5, 0] : List ℝ).map (· * 1)) = .ok top := ⟨_, rfl⟩
  simp only [plotBars, h.curve lib, hh, htop, barShadeIf, h.shaded, if_true, barShade, hps, hsb, hmin, hmax, hall, ensure, bind, Except.bind,
    Bool.false_eq_true, if_false]

end CC
