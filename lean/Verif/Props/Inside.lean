import Verif.Props.Coverage

/-! # C109: summaries stay among the samples -/

namespace CC
open Spec

/-- The numbers of a bound. -/
def Spec.numbersOf (b : Bound ℝ) : List ℝ := [b.lower, b.center, b.upper].filterMap id

/-- The numbers reported for a parameter. -/
def Spec.numbersIn : Summary ℝ → List ℝ
  | .single b => numbersOf b
  | .multi bs => bs.flatMap numbersOf

theorem mem_numbersOf {b : Bound ℝ} {v : ℝ} : v ∈ numbersOf b ↔ b.lower = some v ∨ b.center = some v ∨ b.upper = some v := by
  simp [numbersOf, eq_comm]

/-- Where the centres of the bins start and end: at the least and the greatest sample of a grid; otherwise between them, or with
padding at most a fifth of the range beyond. -/
theorem binEnds_inside {c : Chain ℝ} {p : String} {pad : Bool} {e : ℝ × ℝ} (h : binEnds c p pad e) {data w : List ℝ}
    (hd : c.samples.get p = .ok data) (hcw : c.weights = .ok w) (hl : w.length = data.length) (hw : ∀ v ∈ w, 0 < v) {lo hi : ℝ}
    (hlo : lo ∈ data) (hhi : hi ∈ data) (hb : ∀ x ∈ data, lo ≤ x ∧ x ≤ hi) :
    lo - (if pad && !c.grid then (hi - lo) / 5 else 0) ≤ e.1 ∧ e.2 ≤ hi + (if pad && !c.grid then (hi - lo) / 5 else 0) := by
  obtain ⟨data', w', bins, h0, hd', hw', hbins, hh, he⟩ := h
  cases hd.symm.trans hd'
  cases hcw.symm.trans hw'
  obtain ⟨hlen, hinc⟩ := histDensity_bins hh
  cases hg : c.grid with
  | true =>
    simp only [Bool.not_true, Bool.and_false, Bool.false_eq_true, if_false, sub_zero, add_zero]
    unfold marginalBins at hbins
    rw [hg, if_pos rfl] at hbins
    obtain ⟨vs, hvs⟩ : ∃ vs, vs = sortUnique data := ⟨_, rfl⟩
    have hmem : ∀ x, x ∈ vs ↔ x ∈ data := fun x => by rw [hvs]; exact mem_sortUnique
    have h2 : 2 ≤ vs.length := by
      unfold getGridBins at hbins
      split at hbins
      · rename_i a b rest hs
        rw [hvs, hs]; simp
      · cases hbins
    rw [getGridBins_eq (by rw [hvs]; exact sortUnique_increasing data) hmem h2] at hbins
    simp only [Except.ok.injEq] at hbins
    obtain ⟨δ, hδ⟩ : ∃ δ, δ = (vs.getD 1 0 - vs.getD 0 0) / 2 := ⟨_, rfl⟩
    rw [← hδ] at hbins
    have hbl : bins.length = vs.length + 1 := by rw [← hbins]; simp
    have hml : (midpoints bins).length = vs.length := by rw [midpoints_length, hbl]; rfl
    have hne : midpoints bins ≠ [] := by
      intro e
      rw [e] at hml
      simp only [List.length_nil] at hml
      omega
    rw [endpoints_exists hne] at he
    cases he
    have hat : ∀ (i : Nat) (hi : i < vs.length), bins[i]'(by omega) = vs[i] - δ := by
      intro i hi
      simp only [← hbins]
      rw [List.getElem_append_left (by simpa using hi), List.getElem_map]
    have hlast : bins[vs.length]'(by omega) = vs[vs.length - 1]'(by omega) + δ := by
      simp only [← hbins]
      rw [List.getElem_append_right (by simp)]
      simp only [List.length_map, Nat.sub_self, List.getElem_cons_zero]
      rw [getD_eq (by omega)]
    constructor
    · simp only [List.head_eq_getElem]
      simp only [midpoints, List.getElem_zipWith, List.getElem_tail]
      rw [hat 0 (by omega), hat 1 (by omega)]
      have h3 := (hb _ ((hmem _).1 (List.getElem_mem (show 0 < vs.length by omega)))).1
      rw [getD_eq (by omega), getD_eq (by omega)] at hδ
      linarith
    · simp only [List.getLast_eq_getElem]
      have e1 : (midpoints bins).length - 1 = vs.length - 1 := by rw [hml]
      simp only [e1]
      simp only [midpoints, List.getElem_zipWith, List.getElem_tail]
      have h3 := (hb _ ((hmem _).1 (List.getElem_mem (show vs.length - 1 < vs.length by omega)))).2
      rw [hat (vs.length - 1) (by omega)]
      have e2 : vs.length - 1 + 1 = vs.length := by omega
      simp only [e2, hlast]
      linarith
  | false =>
    obtain ⟨l, u, hx⟩ : ∃ l u, getExtents data w false true false pad = .ok (l, u) := by
      by_cases hlt : lo < hi
      · obtain ⟨i, j, t, R, l0, u0, -, -, -, -, -, -, -, hget, -⟩ :=
          C45_extents data w hl hw lo hi hlo hhi hb hlt false true false pad
        exact ⟨_, _, hget⟩
      · refine ⟨_, _, C45_constant data w hl hw lo (fun x hx => ?_) (List.ne_nil_of_mem hlo) false true false pad⟩
        have := hb x hx
        linarith
    have hlin : ∃ n, bins = linspace l u n := by
      simp only [marginalBins, hg, getSmoothedBins, hx, bind, Except.bind, pure, Except.pure, linspaceInt, Bool.false_eq_true, if_false] at hbins
      split_ifs at hbins
      all_goals
        simp only [Except.ok.injEq] at hbins
      all_goals exact ⟨_, hbins.symm⟩
    obtain ⟨n, rfl⟩ := hlin
    rw [linspace_length] at hlen
    have hstep : 0 < (u - l) / ((n : ℝ) - 1) := by
      have := List.pairwise_iff_getElem.1 hinc 0 1 (by rw [linspace_length]; omega) (by rw [linspace_length]; omega) (by omega)
      simp only [linspace_getElem] at this
      push_cast at this
      linarith
    obtain ⟨e1, e2⟩ := linspace_ends hlen he
    have hlt : lo < hi := by
      by_contra hlt
      have := C45_constant data w hl hw lo (fun x hx => by have := hb x hx; linarith) (List.ne_nil_of_mem hlo) false true false pad
      rw [hx] at this
      cases this
      simp at hstep
    obtain ⟨i, j, t, R, l0, u0, h1, h2, h3, -, el, eu, hlu, hget, -⟩ :=
      C45_extents data w hl hw lo hi hlo hhi hb hlt false true false pad
    have hi1 : (1 : ℝ) ≤ i := by exact_mod_cast h1
    have hj1 : (j : ℝ) ≤ 1999 := by exact_mod_cast (show j ≤ 1999 by omega)
    have hll : lo ≤ l0 := by rw [el]; unfold cellEdge; push_cast; nlinarith
    have huu : u0 ≤ hi := by rw [eu]; unfold cellEdge; push_cast; nlinarith
    rw [hx] at hget
    rw [e1, e2]
    cases pad
    · simp only [Bool.false_eq_true, if_false, Except.ok.injEq, Prod.mk.injEq] at hget
      simp only [Bool.false_and, Bool.false_eq_true, if_false]
      constructor <;> linarith
    · simp only [if_true, Except.ok.injEq, Prod.mk.injEq] at hget
      simp only [Bool.not_false, Bool.and_self, if_true]
      constructor <;> linarith

theorem marginal_range {kde : KdeFn} (hk : KdeOk kde) {c : Chain ℝ} {w : List ℝ} (hw : c.weights = .ok w) (hpos : ∀ v ∈ w, 0 < v)
    {p : String} {pad : Bool} {m : Marginal ℝ} (hm : smoothedHistogram kde c p pad none = .ok m) :
    ValidMarginal m ∧ ∃ e, binEnds c p pad e ∧ ∀ x ∈ m.xs, e.1 ≤ x ∧ x ≤ e.2 := by
  have hv := C25_marginal_valid kde hk c w hw hpos p pad none m hm
  obtain ⟨e, he, hx⟩ := marginal_ends hm
  refine ⟨hv, e, he, fun x hx' => ?_⟩
  rw [hx] at hx'
  refine linspace_mem ?_ two_le_gridSize hx'
  have hinc := hv.increasing
  rw [hx] at hinc
  have h2 := two_le_gridSize
  have := List.pairwise_iff_getElem.1 hinc 0 (gridSize - 1) (by rw [linspace_length]; omega) (by rw [linspace_length]; omega) (by omega)
  simp only [linspace_getElem] at this
  have hg : (0 : ℝ) < (gridSize : ℝ) - 1 := grid_pos
  rw [Nat.cast_sub (by omega)] at this
  push_cast at this
  have e2 : ((gridSize : ℝ) - 1) * ((e.2 - e.1) / ((gridSize : ℝ) - 1)) = e.2 - e.1 := by field_simp
  rw [e2] at this
  linarith

/-- Every number of a summary lies within the range of the marginal it is taken from. -/
theorem summary_numbers {kde : KdeFn} (hk : KdeOk kde) {c : Chain ℝ} (hs : Summarised c) {p : String} {b : Bound ℝ}
    (h : parameterSummary kde c p = .ok b) :
    ∃ e, binEnds c p (decide (c.cfg .statistics = some .hdi)) e ∧ ∀ v ∈ numbersOf b, e.1 ≤ v ∧ v ≤ e.2 := by
  obtain ⟨w, hw, hpos⟩ := hs.weights
  unfold parameterSummary at h
  dsimp only at h
  have three : ∀ {e : ℝ × ℝ} {l x u : ℝ}, (e.1 ≤ l ∧ l ≤ e.2) → (e.1 ≤ x ∧ x ≤ e.2) → (e.1 ≤ u ∧ u ≤ e.2) →
      ∀ v ∈ numbersOf ⟨some l, some x, some u⟩, e.1 ≤ v ∧ v ≤ e.2 := by
    intro e l x u h1 h2 h3 v hv
    rw [mem_numbersOf] at hv
    rcases hv with hv | hv | hv <;> cases hv <;> assumption
  split at h <;> rename_i hst <;> rw [hst]
  · cases h
  all_goals
    rw [bind_ok_iff] at h
    obtain ⟨m, hm, h⟩ := h
    obtain ⟨hv, e, he, hr⟩ := marginal_range hk hw hpos hm
    refine ⟨e, he, ?_⟩
  · simp only [summaryMean, equalTailed, bind_ok_iff, pure_ok_iff] at h
    obtain ⟨_, ⟨l, h1, x, h2, u, h3, rfl⟩, rfl⟩ := h
    have r1 := interp1d_range hv.cs_length h1 hr
    have r2 := interp1d_range hv.cs_length h3 hr
    refine three r1 ?_ r2
    dsimp only
    constructor <;> linarith
  · simp only [summaryCumulative, equalTailed, bind_ok_iff, pure_ok_iff] at h
    obtain ⟨_, ⟨l, h1, x, h2, u, h3, rfl⟩, rfl⟩ := h
    exact three (interp1d_range hv.cs_length h1 hr) (interp1d_range hv.cs_length h2 hr) (interp1d_range hv.cs_length h3 hr)
  · simp only [summaryMaxCentral, bind_ok_iff, pure_ok_iff] at h
    obtain ⟨i, -, x, hx, l, h1, u, h3, rfl⟩ := h
    exact three (interp1d_range hv.cs_length h1 hr) (hr _ (atIndex_mem hx)) (interp1d_range hv.cs_length h3 hr)
  · obtain ⟨k, x, y, hkx, -, -, hor⟩ := C29_max_summary m hv (c.cfg .summaryArea)
    have hx := hr _ (List.mem_of_getElem? hkx)
    rcases hor with h' | ⟨l, u, _, _, _, _, h', -⟩
    · rw [h] at h'
      cases h'
      intro v hv
      rw [mem_numbersOf] at hv
      rcases hv with hv | hv | hv <;> cases hv
      exact hx
    · rw [h] at h'
      cases h'
      obtain ⟨h1, h2⟩ := summaryMax_range h rfl rfl
      exact three (hr _ h1) hx (hr _ h2)
  · obtain ⟨l, x, u, h1, hlx, hxu, i, j, _, _, -, h2, h3, -⟩ := C31_hdi_mass hv _ hs.area
    cases h.symm.trans h1
    have hmem : ∀ (k : Nat) (x : ℝ), (places m)[k]? = some x → x ∈ m.xs := by
      intro k x hk
      have := List.mem_of_getElem? hk
      unfold places at this
      rcases List.mem_append.1 this with h | h
      · exact List.mem_of_mem_head? (Option.mem_toList.1 h)
      · exact h
    have r1 := hr _ (hmem _ _ h2)
    have r2 := hr _ (hmem _ _ h3)
    exact three r1 ⟨r1.1.trans hlx, hxu.trans r2.2⟩ r2

theorem entry_numbers {kde : KdeFn} (hk : KdeOk kde) {c : Chain ℝ} (hs : Summarised c) {p : String} {s : Summary ℝ}
    (h : summaryEntry kde c p = .ok s) :
    ∃ e, binEnds c p (decide (c.cfg .statistics = some .hdi)) e ∧ ∀ v ∈ numbersIn s, e.1 ≤ v ∧ v ≤ e.2 := by
  obtain ⟨w, hw, hpos⟩ := hs.weights
  simp only [summaryEntry, bind_ok_iff] at h
  obtain ⟨b, hb, h⟩ := h
  cases hmm : c.cfg .multimodal with
  | false =>
    simp only [hmm, Bool.false_eq_true, if_false, pure_ok_iff] at h
    subst h
    exact summary_numbers hk hs hb
  | true =>
    simp only [hmm, if_true, bind_ok_iff] at h
    obtain ⟨m, hm, ivs, hivs, h⟩ := h
    split at h
    · rename_i h2
      simp only [bind_ok_iff, pure_ok_iff] at h
      obtain ⟨bs, hbs, rfl⟩ := h
      obtain ⟨hv, e, he, hr⟩ := marginal_range hk hw hpos hm
      refine ⟨e, by rw [hs.modes hmm]; exact he, ?_⟩
      have hcut : ∃ t d, hdiCut m (c.cfg .summaryArea : ℝ) = .ok (t, d) := by
        simp only [hdiIntervals, bind_ok_iff] at hivs
        obtain ⟨_, -, cut, hc, -⟩ := hivs
        exact ⟨cut.1, cut.2, hc⟩
      obtain ⟨t, d, hcut⟩ := hcut
      obtain ⟨ivs', bs', h3, h4, -, h5⟩ := C36_bounds_of_bands m hv _ hs.area t d hcut
      cases hivs.symm.trans h3
      cases hbs.symm.trans h4
      have h6 := h5 h2
      obtain ⟨bs', h7, hF⟩ := C36_multimodal_bounds m hv ivs fun iv hiv => by
        obtain ⟨s, e, h8, h9⟩ := h6 iv hiv
        exact ⟨s, e, h8.le, h9⟩
      cases hbs.symm.trans h7
      intro v hv'
      simp only [numbersIn, List.mem_flatMap] at hv'
      obtain ⟨b', hb', hv'⟩ := hv'
      obtain ⟨k, hk', rfl⟩ := List.getElem_of_mem hb'
      obtain ⟨_, x, y, h8, h9, -⟩ := (List.forall₂_iff_get.1 hF).2 k (by rw [hF.length_eq]; exact hk') hk'
      simp only [List.get_eq_getElem] at h8
      rw [h8, mem_numbersOf] at hv'
      obtain ⟨s', e', -, h10, h11⟩ := h6 _ (List.getElem_mem (show k < ivs.length by rw [hF.length_eq]; exact hk'))
      rcases hv' with hv' | hv' | hv' <;> cases hv'
      · exact hr _ (List.mem_of_getElem? h10)
      · exact hr _ (List.mem_of_getElem? h9)
      · exact hr _ (List.mem_of_getElem? h11)
    · simp only [pure_ok_iff] at h
      subst h
      exact summary_numbers hk hs hb

/-- **C109** (partial: for HDI up to a fifth of the range). Every number that `get_summary` reports for a parameter, limits and centres,
modes included, lies between the least and the greatest sample of the parameter, unless the statistic is HDI and the chain is not a grid.
Then it may lie beyond by a fifth of their distance, but not by more. -/
theorem C109_inside_partial (kde : KdeFn) (hk : KdeOk kde) (c : Chain ℝ) (hs : Summarised c) (hwf : c.samples.WF) (p : String) (data : List ℝ)
    (hd : c.samples.get p = .ok data) (lo hi : ℝ) (hlo : lo ∈ data) (hhi : hi ∈ data) (hb : ∀ x ∈ data, lo ≤ x ∧ x ≤ hi) (s : Summary ℝ)
    (h : summaryEntry kde c p = .ok s) (v : ℝ) (hv : v ∈ numbersIn s) :
    (c.cfg .statistics ≠ some .hdi ∨ c.grid = true → lo ≤ v ∧ v ≤ hi) ∧ lo - (hi - lo) / 5 ≤ v ∧ v ≤ hi + (hi - lo) / 5 := by
  obtain ⟨w, hw, hpos⟩ := hs.weights
  obtain ⟨e, he, hr⟩ := entry_numbers hk hs h
  have hl : w.length = data.length := by
    rw [hwf.2 _ (get_mem hw), hwf.2 _ (get_mem hd)]
  obtain ⟨h1, h2⟩ := binEnds_inside he hd hw hl hpos hlo hhi hb
  have h3 := hr v hv
  have h4 : 0 ≤ hi - lo := by have := hb lo hlo; linarith
  constructor
  · intro h5
    have h6 : (decide (c.cfg .statistics = some .hdi) && !c.grid) = false := by
      rcases h5 with h5 | h5
      · rw [decide_eq_false h5]; rfl
      · rw [h5]; simp
    rw [h6] at h1 h2
    simp only [Bool.false_eq_true, if_false] at h1 h2
    constructor <;> linarith
  · split_ifs at h1 h2 <;> constructor <;> linarith

/-- The hypotheses are met by accepted chains: see `C109_violated` for one whose statistic is HDI. -/
example (kde : KdeFn) (hk : KdeOk kde) : ∃ c m, Chain.make (skewArgs .cumulative) = .ok c ∧ smoothedHistogram kde c "x" false none = .ok m ∧
    Summarised c ∧ c.samples.WF ∧ c.samples.get "x" = .ok [0, 1] := by
  obtain ⟨c, m, hc, hst, har, hmm, hsm, hw, -, hm, -⟩ := skew_chain kde hk .cumulative
  refine ⟨c, m, hc, hm false, ⟨⟨_, hw, by simp⟩, by rw [har]; norm_num, fun h => ?_⟩, ?_, ?_⟩
  · rw [hmm] at h; cases h
  · rw [hsm]; exact ⟨by simp [skewFrame], by simp [skewFrame]⟩
  · rw [hsm]; rfl

/-! ### Violation -/

/-- Three samples of a parameter that is not negative, nearly all weight on the lowest two. -/
noncomputable def lowFrame : Frame ℝ := ⟨[.int 0, .int 1, .int 2], [("a", [0, 4, 2000]), ("weight", [50, 50, 1])]⟩

/-- The statistic HDI, eight edges and no smoothing. -/
noncomputable def lowKw : List (Kwarg ℝ) := [⟨.statistics, some .hdi⟩, ⟨.smooth, some 0⟩, ⟨.bins, some 8⟩]

theorem low_extents : getExtents ([0, 4, 2000] : List ℝ) [50, 50, 1] false true false true = .ok (-(789 / 2), 4797 / 2) := by
  obtain ⟨i, j, t, R, l, u, h1, h2, h3, ht, h4, h5, -, h6, hR, -, h7, h9, h8, -⟩ :=
    C45_extents ([0, 4, 2000] : List ℝ) [50, 50, 1] rfl (by simp) 0 2000 (by simp) (by simp)
      (by intro x hx; simp only [List.mem_cons, List.not_mem_nil, or_false] at hx; rcases hx with rfl | rfl | rfl <;> norm_num)
      (by norm_num) false true false true
  have hsum : ∀ P : ℝ → Bool, weightWhere [0, 4, 2000] [50, 50, (1 : ℝ)] P = (if P 0 then 50 else 0) +
      ((if P 4 then 50 else 0) + (if P 2000 then 1 else 0)) := by
    intro P
    simp [weightWhere]
  have hR' : R = 51 := by
    rw [hR, hsum]
    norm_num [cellEdge]
  simp only [Bool.false_eq_true, if_false] at ht
  have htR : t * R < 1 := by rw [ht, hR']; norm_num
  have htR0 : 0 < t * R := by rw [ht, hR']; norm_num
  rw [hsum] at h7 h8 h9
  obtain rfl : j = 1999 := by
    by_contra hne
    have hj : j + 1 < 2000 := by omega
    have hj' : ((j + 1 : ℕ) : ℝ) ≤ 2000 := by exact_mod_cast hj.le
    have hP : cellEdge (0 : ℝ) 2000 (j + 1) ≤ 2000 := by unfold cellEdge; linarith
    simp only [hP, hj, and_self, decide_true, if_true] at h8
    revert h8
    split_ifs <;> intro h8 <;> linarith
  have hi1 : i ≤ 4 := by
    by_contra hne
    have hi' : (5 : ℝ) ≤ i := by exact_mod_cast (show 5 ≤ i by omega)
    have hP : cellEdge (0 : ℝ) 2000 1 ≤ 4 ∧ 4 < cellEdge (0 : ℝ) 2000 i := by
      unfold cellEdge; constructor <;> [norm_num; linarith]
    simp only [hP, and_self, decide_true, if_true] at h7
    revert h7
    split_ifs <;> intro h7 <;> linarith
  have hi2 : 4 ≤ i := by
    by_contra hne
    have hi' : (i : ℝ) + 1 ≤ 4 := by exact_mod_cast (show i + 1 ≤ 4 by omega)
    have hne' : ¬ i + 1 = 2000 := by omega
    have hE : cellEdge (0 : ℝ) 2000 (i + 1) ≤ 4 := by unfold cellEdge; push_cast; linarith
    have h0 : ¬ cellEdge (0 : ℝ) 2000 1 ≤ 0 := by unfold cellEdge; norm_num
    simp only [hne', or_false, h0, false_and, not_lt.2 hE, not_lt.2 (hE.trans (show (4 : ℝ) ≤ 2000 by norm_num)), and_false, decide_false,
      Bool.false_eq_true, if_false] at h9
    linarith
  obtain rfl : i = 4 := by omega
  rw [h6, h4, h5]
  unfold cellEdge
  simp only [if_true, Except.ok.injEq, Prod.mk.injEq]
  norm_num

/-- The edges and the centres of the bins. -/
noncomputable def lowEdges : List ℝ := [-(789 / 2), 9 / 2, 807 / 2, 1605 / 2, 2403 / 2, 3201 / 2, 3999 / 2, 4797 / 2]

theorem low_density : histDensity lowEdges [0, 4, 2000] [50, 50, 1] = .ok [100 / 40299, 0, 0, 0, 0, 0, 1 / 40299] := by
  have h1 : histogram lowEdges [0, 4, 2000] [50, 50, 1] = .ok [100, 0, 0, 0, 0, 0, 1] := by
    rw [histogram_ok_iff]
    constructor
    · norm_num [lowEdges]
    · simp only [lowEdges, List.length_cons, List.length_nil, List.range_succ, List.range_zero]
      norm_num [binMass, inBin]
  have h2 : (lowEdges.zipWith (fun l r => r - l) lowEdges.tail) = [399, 399, 399, 399, 399, 399, 399] := by
    norm_num [lowEdges]
  have h3 : (lowEdges.zipWith (fun l r => decide (l ≠ r)) lowEdges.tail).all id = true := by
    norm_num [lowEdges]
  have h4 : ([100, 0, 0, 0, 0, 0, 1] : List ℝ).sum = 101 := by norm_num
  have h5 : decide ((101 : ℝ) ≠ 0) = true := decide_eq_true (by norm_num)
  simp only [histDensity, h1, h2, h3, h4, h5, bind, Except.bind, ensure, if_true, pure, Except.pure, Except.ok.injEq,
    List.zipWith_cons_cons, List.zipWith_nil_right]
  norm_num

theorem low_mid : midpoints lowEdges = [-195, 204, 603, 1002, 1401, 1800, 2199] := by norm_num [midpoints, lowEdges]

/-- The density between the centres. -/
noncomputable def lowCurve (x : ℝ) : ℝ :=
  polyline [(-195, 100 / 40299), (204, 0), (603, 0), (1002, 0), (1401, 0), (1800, 0), (2199, 1 / 40299)] x

theorem lowCurve_low {x : ℝ} (h : x < 204) : lowCurve x = 100 / 40299 * ((204 - x) / 399) := by
  rw [lowCurve, polyline, if_pos h]
  norm_num
  ring

theorem lowCurve_high {x : ℝ} (h1 : 204 ≤ x) (h2 : x ≤ 2199) : 0 ≤ lowCurve x ∧ lowCurve x ≤ 1 / 40299 := by
  simp only [lowCurve, polyline]
  rw [if_neg (not_lt.2 h1)]
  split_ifs
  all_goals norm_num
  constructor
  · linarith
  · linarith

/-- What is used of the chain. -/
structure LowChain (c : Chain ℝ) : Prop where
  data : c.samples.get "a" = .ok [0, 4, 2000]
  weights : c.weights = .ok [50, 50, 1]
  power : c.power = 1
  grid : c.grid = false
  smooth : c.smoothValue = 0
  bins : getBins c = 8
  kde : (c.cfg .kde : ℝ) = 0
  modal : c.cfg .multimodal = false
  hdi : c.cfg .statistics = some .hdi
  area : (c.cfg .summaryArea : ℝ) = 6827 / 10000

theorem low_exists : ∃ c, Chain.make { samples := lowFrame.toRaw, name := "low", config := lowKw } = .ok c ∧ LowChain c := by
  obtain ⟨c, h1, h2, h3, -, h5, h6, -, -, h9⟩ := plain_chain_cfg (K := ℝ) false lowKw rfl
    (by change (0 : ℝ) ≤ 6827 / 10000 ∧ (6827 / 10000 : ℝ) ≤ 1; constructor <;> norm_num)
    (by change (1 : ℝ) ≤ 10; norm_num) rfl rfl (by intro h; cases h) lowFrame ⟨by simp [lowFrame], by simp [lowFrame]⟩
    (by simp [lowFrame]) (w := [50, 50, 1]) rfl (by simp) "low" 1 le_rfl (one_dvd _)
  refine ⟨c, h1, by rw [h2]; rfl, by rw [Chain.weights, h2, h3]; rfl, h5, h6, ?_, ?_, by rw [h9]; rfl, by rw [h9]; rfl, by rw [h9]; rfl,
    by rw [h9]; rfl⟩
  · have : c.cfg .smooth = some 0 := by rw [h9]; rfl
    simp only [Chain.smoothValue, this]
  · have : c.cfg .bins = some 8 := by rw [h9]; rfl
    simp only [getBins, this]

theorem LowChain.edges {c : Chain ℝ} (h : LowChain c) : marginalBins c [0, 4, 2000] [50, 50, 1] true = .ok lowEdges := by
  simp only [marginalBins, h.grid, Bool.false_eq_true, if_false, getSmoothedBins, low_extents, h.smooth, if_true, h.bins, bind,
    Except.bind, pure, Except.pure, linspaceInt]
  rw [if_neg (by decide), show (8 : Int).toNat = 8 from rfl]
  unfold linspace
  rw [show List.range 8 = [0, 1, 2, 3, 4, 5, 6, 7] from rfl]
  simp only [List.map_cons, List.map_nil, Except.ok.injEq, lowEdges, List.cons.injEq, and_true]
  norm_num

theorem LowChain.marginal {c : Chain ℝ} (h : LowChain c) (kde : KdeFn) (hk : KdeOk kde) :
    ∃ m, smoothedHistogram kde c "a" true none = .ok m ∧ ValidMarginal m ∧ m.xs = linspace (-195) 2199 gridSize ∧
      m.ys = (linspace (-195) 2199 gridSize).map lowCurve := by
  obtain ⟨ys, hys⟩ : ∃ ys, ys = (linspace (-195) 2199 gridSize).map lowCurve := ⟨_, rfl⟩
  have hin : ∀ x ∈ linspace (-195 : ℝ) 2199 gridSize, -195 ≤ x ∧ x ≤ 2199 := fun x hx =>
    linspace_mem (by norm_num) two_le_gridSize hx
  have hnn : ∀ y ∈ ys, 0 ≤ y := by
    intro y hy
    rw [hys] at hy
    obtain ⟨x, hx, rfl⟩ := List.mem_map.1 hy
    obtain ⟨h0, h1⟩ := hin x hx
    by_cases h2 : x < 204
    · rw [lowCurve_low h2]
      have : 0 < 204 - x := by linarith
      positivity
    · exact (lowCurve_high (not_lt.1 h2) h1).1
  have h2 := two_le_gridSize
  have hne : ys ≠ [] := by
    intro h
    have := congrArg List.length h
    rw [hys] at this
    simp at this
    omega
  have hsum : ys.sum ≠ 0 := by
    have hh : (linspace (-195 : ℝ) 2199 gridSize).head? = some (-195) := linspace_head (by omega)
    refine (sum_pos_of_mem hnn (x := lowCurve (-195)) ?_ ?_).ne'
    · rw [hys]; exact List.mem_map.2 ⟨_, List.mem_of_head? hh, rfl⟩
    · rw [lowCurve_low (by norm_num)]; norm_num
  have hcs : normCumsum ys = .ok ((cumsum ys).map (· / ys.sum)) := by
    simp only [normCumsum, arrMax, npMax_cumsum hnn hne, bind, Except.bind, ensure,
      decide_eq_true hsum, if_true, pure, Except.pure]
  have hpow : powAll [100 / 40299, 0, 0, 0, 0, 0, (1 / 40299 : ℝ)] c.power = .ok [100 / 40299, 0, 0, 0, 0, 0, 1 / 40299] := by
    rw [h.power]
    simp [powAll, ensure, bind, Except.bind, pure, Except.pure]
  have hmy : marginalYs kde c none [0, 4, 2000] [50, 50, 1] lowEdges [100 / 40299, 0, 0, 0, 0, 0, 1 / 40299] (-195) 2199
      (linspace (-195) 2199 gridSize) = .ok ys := by
    simp only [marginalYs, h.smooth, smoothHist, if_true, bind, Except.bind, Option.getD_none, h.kde, ne_eq,
      not_true, decide_false, Bool.false_eq_true, if_false, low_mid]
    rw [hys, mapM_ok_iff, List.forall₂_map_right_iff, List.forall₂_same]
    intro x hx
    obtain ⟨h0, h1⟩ := hin x hx
    exact interp1d_ok_iff.2 ⟨-195, 2199, rfl, rfl, h0, h1, rfl⟩
  have hm : smoothedHistogram kde c "a" true none = .ok ⟨linspace (-195) 2199 gridSize, ys, (cumsum ys).map (· / ys.sum)⟩ := by
    simp only [smoothedHistogram, h.data, h.weights, h.edges, low_density, hpow, low_mid, bind, Except.bind, endpoints,
      List.head?_cons, List.getLast?_cons_cons, List.getLast?_singleton, ensure, List.length_cons,
      List.length_nil, Nat.reduceAdd, Nat.reduceLeDiff, decide_true, if_true, hmy, hcs, pure, Except.pure]
  exact ⟨_, hm, C25_marginal_valid kde hk c _ h.weights (by simp) "a" true none _ hm, rfl, hys⟩

/-- **C109** (negation). An accepted chain with the samples 0, 4 and 2000 of a parameter: the lower limit of its HDI is negative. -/
theorem C109_violated (kde : KdeFn) (hk : KdeOk kde) : ∃ c, Chain.make { samples := lowFrame.toRaw, name := "low", config := lowKw } = .ok c ∧
    c.samples.get "a" = .ok [0, 4, 2000] ∧ Summarised c ∧
    ∃ l x u, summaryEntry kde c "a" = .ok (.single ⟨some l, some x, some u⟩) ∧ l < 0 := by
  obtain ⟨c, hc, h⟩ := low_exists
  obtain ⟨m, hm, hv, hx, hy⟩ := h.marginal kde hk
  have hsum : Summarised c := ⟨⟨_, h.weights, by simp⟩, by rw [h.area]; norm_num, fun e => by rw [h.modal] at e; cases e⟩
  obtain ⟨l, x, u, hs, -, -, i, j, p, q, hij, hl, hu, hp, hq, hpq, -⟩ := C31_hdi_mass hv (6827 / 10000) (by norm_num)
  refine ⟨c, hc, h.data, hsum, l, x, u, ?_, ?_⟩
  · simp only [summaryEntry, parameterSummary, h.hdi, hm, h.area, hs, h.modal, bind, Except.bind, pure, Except.pure, Bool.false_eq_true, if_false]
  by_contra h0
  rw [not_lt] at h0
  have hg : gridSize = 10000 := by unfold gridSize; rfl
  obtain ⟨x0, xl, hx0, hxl, hpl, -, -, -, -, h01, -⟩ := hv.hdi_setup
  have hx0' : x0 = -195 := by
    rw [hx, linspace_head (by have := two_le_gridSize; omega)] at hx0
    exact (Option.some.inj hx0).symm
  rw [hpl] at hl
  have hq1 := (h01 q (List.mem_of_getElem? hq)).2
  cases i with
  | zero =>
    rw [List.getElem?_cons_zero, hx0'] at hl
    have := Option.some.inj hl
    linarith
  | succ i =>
  rw [List.getElem?_cons_succ] at hl
  have hyl : m.ys.length = 10000 := by rw [hv.ys_length, hx, linspace_length, hg]
  have hxat : ∀ (k : Nat) (hk : k < (linspace (-195 : ℝ) 2199 gridSize).length),
      (linspace (-195 : ℝ) 2199 gridSize)[k] = -195 + k * (2394 / 9999) := by
    intro k hk
    rw [linspace_getElem, hg]
    push_cast
    ring
  have hi815 : 815 ≤ i := by
    obtain ⟨hi', hli⟩ := List.getElem?_eq_some_iff.1 hl
    by_contra hlt
    have hlt' : (i : ℝ) ≤ 814 := by exact_mod_cast (show i ≤ 814 by omega)
    simp only [hx] at hli
    rw [hxat] at hli
    linarith
  simp only [masses, List.getElem?_cons_succ] at hp
  obtain ⟨hi3, rfl⟩ := List.getElem?_eq_some_iff.1 hp
  rw [hv.cumulative _ hi3] at hpq
  have htot := hv.mass_pos
  have hyat : ∀ (k : Nat) (hk : k < m.ys.length), m.ys[k] = lowCurve (-195 + k * (2394 / 9999)) := by
    intro k hk
    simp only [hy, List.getElem_map, hxat]
  have hN : (815 : ℝ) * (51 / 40299) ≤ (m.ys.take 815).sum := by
    have := List.card_nsmul_le_sum (m.ys.take 815) (51 / 40299) ?_
    · rwa [List.length_take, hyl, nsmul_eq_mul] at this
    · intro y hy'
      obtain ⟨k, hk, rfl⟩ := List.getElem_of_mem hy'
      rw [List.length_take] at hk
      rw [List.getElem_take, hyat]
      have hk2 : (k : ℝ) ≤ 814 := by exact_mod_cast (show k ≤ 814 by omega)
      rw [lowCurve_low (by linarith)]
      linarith
  have hmono : (m.ys.take 815).sum ≤ (m.ys.take (i + 1)).sum := by
    refine List.Sublist.sum_le_sum (List.take_sublist_take_left (by omega)) fun y hy' => hv.density_nonneg y (List.mem_of_mem_take hy')
  have hP : ((m.ys.drop 815).take 852).sum ≤ (852 : ℝ) * (52 / 40299) := by
    have := List.sum_le_card_nsmul ((m.ys.drop 815).take 852) (52 / 40299) ?_
    · rwa [List.length_take, List.length_drop, hyl, nsmul_eq_mul] at this
    · intro y hy'
      obtain ⟨k, hk, rfl⟩ := List.getElem_of_mem hy'
      rw [List.length_take, List.length_drop] at hk
      rw [List.getElem_take, List.getElem_drop, hyat]
      have hk1 : (0 : ℝ) ≤ k := Nat.cast_nonneg k
      have hk2 : (k : ℝ) ≤ 851 := by exact_mod_cast (show k ≤ 851 by omega)
      push_cast
      rw [lowCurve_low (by linarith)]
      linarith
  have hL : (m.ys.drop 1667).sum ≤ (8333 : ℝ) * (1 / 40299) := by
    have := List.sum_le_card_nsmul (m.ys.drop 1667) (1 / 40299) ?_
    · rwa [List.length_drop, hyl, nsmul_eq_mul] at this
    · intro y hy'
      obtain ⟨k, hk, rfl⟩ := List.getElem_of_mem hy'
      rw [List.length_drop] at hk
      rw [List.getElem_drop, hyat]
      have hk1 : (0 : ℝ) ≤ k := Nat.cast_nonneg k
      have hk2 : (k : ℝ) ≤ 8332 := by exact_mod_cast (show k ≤ 8332 by omega)
      push_cast
      exact (lowCurve_high (by linarith) (by linarith)).2
  have hsplit : m.ys.sum = (m.ys.take 815).sum + (((m.ys.drop 815).take 852).sum + (m.ys.drop 1667).sum) := by
    have e : m.ys.drop 1667 = (m.ys.drop 815).drop 852 := by rw [List.drop_drop]
    rw [e, List.sum_take_add_sum_drop, List.sum_take_add_sum_drop]
  have h3 : (m.ys.take (i + 1)).sum / m.ys.sum ≤ 3173 / 10000 := by linarith
  rw [div_le_iff₀ htot] at h3
  linarith

end CC
