import Verif.Lemmas.Extents

/-! # C45: plot ranges -/

set_option linter.unusedSectionVars false

namespace CC
open Spec
variable {K : Type} [Field K] [LinearOrder K] [IsStrictOrderedRing K]

theorem foldl_min_map_spec (x : K) (xs : List K) :
    xs.foldl min x ∈ x :: xs ∧ ∀ y ∈ x :: xs, xs.foldl min x ≤ y := by
  induction xs generalizing x with
  | nil => simp
  | cons b xs ih =>
    obtain ⟨h1, h2⟩ := ih (min x b)
    rw [List.foldl_cons]
    constructor
    · rcases List.mem_cons.1 h1 with h | h
      · rw [h]
        rcases min_choice x b with e | e <;> rw [e] <;> simp
      · exact List.mem_cons_of_mem _ (List.mem_cons_of_mem _ h)
    · intro y hy
      have h3 := h2 (min x b) (by simp)
      rcases List.mem_cons.1 hy with rfl | hy
      · exact h3.trans (min_le_left _ _)
      · rcases List.mem_cons.1 hy with rfl | hy
        · exact h3.trans (min_le_right _ _)
        · exact h2 y (by simp [hy])

theorem foldl_max_map_spec (x : K) (xs : List K) :
    xs.foldl max x ∈ x :: xs ∧ ∀ y ∈ x :: xs, y ≤ xs.foldl max x := by
  induction xs generalizing x with
  | nil => simp
  | cons b xs ih =>
    obtain ⟨h1, h2⟩ := ih (max x b)
    rw [List.foldl_cons]
    constructor
    · rcases List.mem_cons.1 h1 with h | h
      · rw [h]
        rcases max_choice x b with e | e <;> rw [e] <;> simp
      · exact List.mem_cons_of_mem _ (List.mem_cons_of_mem _ h)
    · intro y hy
      have h3 := h2 (max x b) (by simp)
      rcases List.mem_cons.1 hy with rfl | hy
      · exact (le_max_left _ _).trans h3
      · rcases List.mem_cons.1 hy with rfl | hy
        · exact (le_max_right _ _).trans h3
        · exact h2 y (by simp [hy])

/-- The edges of the cells. -/
theorem autoEdges_spec {data : List K} {lo hi : K} (hlo : lo ∈ data) (hhi : hi ∈ data)
    (hb : ∀ x ∈ data, lo ≤ x ∧ x ≤ hi) (hlt : lo < hi) (n : Nat) :
    autoEdges n data = .ok (linspace lo hi (n + 1)) := by
  cases data with
  | nil => cases hlo
  | cons x xs =>
    obtain ⟨m1, m2⟩ := foldl_min_map_spec x xs
    obtain ⟨M1, M2⟩ := foldl_max_map_spec x xs
    have e1 : xs.foldl min x = lo := le_antisymm (m2 lo hlo) (hb _ m1).1
    have e2 : xs.foldl max x = hi := le_antisymm (hb _ M1).2 (M2 hi hhi)
    simp only [autoEdges, e1, e2, hlt.ne, if_false]

/-- What the two searches find on a nondecreasing curve from 0 to 1. -/
theorem extentPick_spec {cdf bc : List K} {t : K} (hbc : bc.length = cdf.length)
    (hmono : cdf.Pairwise (· ≤ ·)) (hne : cdf ≠ []) (hlast : cdf.getLast? = some 1)
    (hfirst : cdf.head? = some 0) (h0 : 0 ≤ t) (h1 : t < 1 / 2) (pad : Bool) :
    ∃ i j, 1 ≤ i ∧ i ≤ j ∧ j < cdf.length ∧
      extentPick bc cdf (cdf.map (1 - ·)).reverse t pad = .ok (if pad then
        (bc.getD i 0 - 1 / 5 * (bc.getD j 0 - bc.getD i 0), bc.getD j 0 + 1 / 5 * (bc.getD j 0 - bc.getD i 0))
        else (bc.getD i 0, bc.getD j 0)) ∧
      cdf.getD (i - 1) 0 ≤ t ∧ t < cdf.getD i 0 ∧ 1 - cdf.getD j 0 ≤ t ∧ t < 1 - cdf.getD (j - 1) 0 := by
  have hpos : 0 < cdf.length := List.length_pos_iff.2 hne
  rw [List.getLast?_eq_getElem?, List.getElem?_eq_getElem (by omega)] at hlast
  rw [List.head?_eq_getElem?, List.getElem?_eq_getElem hpos] at hfirst
  have hlast := Option.some.inj hlast
  have hfirst := Option.some.inj hfirst
  -- the first search
  obtain ⟨i1, hi1⟩ := firstWhere_exists (p := fun v => decide (t < v)) (l := cdf)
    (List.getElem_mem (show cdf.length - 1 < cdf.length by omega)) (by
      rw [hlast]; simp only [decide_eq_true_eq]; linarith)
  obtain ⟨hl1, hp1, hb1⟩ := firstWhere_ok_iff.1 hi1
  obtain ⟨i2, hi2⟩ := firstWhere_exists (p := fun v => decide (t < v)) (l := (cdf.map (1 - ·)).reverse)
    (List.mem_reverse.2 (List.mem_map.2 ⟨cdf[0], List.getElem_mem _, rfl⟩)) (by
      rw [hfirst]; simp only [decide_eq_true_eq]; linarith)
  obtain ⟨hl2, hp2, hb2⟩ := firstWhere_ok_iff.1 hi2
  simp only [List.length_reverse, List.length_map] at hl2
  simp only [List.getElem_reverse, List.length_map, List.getElem_map, decide_eq_true_eq,
    decide_eq_false_iff_not, not_lt] at hp1 hb1 hp2 hb2
  have hi1' : 1 ≤ i1 := by
    rcases Nat.eq_zero_or_pos i1 with h | h
    · subst h; rw [hfirst] at hp1; linarith
    · exact h
  have hi2' : 1 ≤ i2 := by
    rcases Nat.eq_zero_or_pos i2 with h | h
    · subst h
      simp only [Nat.sub_zero, hlast] at hp2
      linarith
    · exact h
  have hmon : ∀ p q (hp : p < cdf.length) (hq : q < cdf.length), p ≤ q → cdf[p] ≤ cdf[q] := by
    intro p q hp hq hpq
    rcases Nat.lt_or_ge p q with h | h
    · exact List.pairwise_iff_getElem.1 hmono p q hp hq h
    · obtain rfl : p = q := by omega
      exact le_rfl
  have hb2' := hb2 (i2 - 1) (by omega)
  have e1 : cdf.length - 1 - (i2 - 1) = cdf.length - i2 := by omega
  have e2 : cdf.length - 1 - i2 = cdf.length - i2 - 1 := by omega
  simp only [e1] at hb2'
  simp only [e2] at hp2
  have hle : i1 ≤ cdf.length - i2 := by
    by_contra hc
    have h3 := hb1 (cdf.length - i2) (by omega)
    linarith
  refine ⟨i1, cdf.length - i2, hi1', hle, by omega, ?_, ?_, ?_, ?_, ?_⟩
  · have ha : atIndex bc i1 = .ok (bc.getD i1 0) := by
      unfold atIndex
      rw [getD_eq (by omega), List.getElem?_eq_getElem]
    have hf : fromEnd bc i2 = .ok (bc.getD (cdf.length - i2) 0) := by
      unfold fromEnd
      rw [if_neg (by omega), if_pos (by omega), hbc, getD_eq (by omega), List.getElem?_eq_getElem]
    simp only [extentPick, hi1, hi2, ha, hf, bind, Except.bind, pure, Except.pure]
  · rw [getD_eq (by omega)]; exact hb1 (i1 - 1) (by omega)
  · rw [getD_eq (by omega)]; exact hp1
  · rw [getD_eq (by omega)]; exact hb2'
  · rw [getD_eq (by omega)]; exact hp2

/-- The lower edge of cell `i` when `[lo, hi]` is cut in 2000 cells. -/
def Spec.cellEdge (lo hi : K) (i : Nat) : K := lo + i * ((hi - lo) / 2000)

/-- `extentThreshold` is one of four numbers below a half. -/
theorem extentThreshold_cases (plot wide tiny : Bool) :
    (0 : K) ≤ extentThreshold plot wide tiny ∧ extentThreshold plot wide tiny < (1 / 2 : K) := by
  unfold extentThreshold
  cases tiny <;> cases plot <;> cases wide <;> norm_num

theorem frac_le {R A B t : K} (hR : 0 < R) (h : 1 - A / R ≤ t) (e : R = A + B) : B ≤ t * R := by
  have h1 : 1 - A / R = B / R := by rw [eq_div_iff hR.ne', sub_mul, div_mul_cancel₀ _ hR.ne']; linarith
  rwa [h1, div_le_iff₀ hR] at h

theorem lt_frac {R A B t : K} (hR : 0 < R) (h : t < 1 - A / R) (e : R = A + B) : t * R < B := by
  have h1 : 1 - A / R = B / R := by rw [eq_div_iff hR.ne', sub_mul, div_mul_cancel₀ _ hR.ne']; linarith
  rwa [h1, lt_div_iff₀ hR] at h

theorem padding_eq (l u : K) (pad : Bool) :
    (if pad then (l - 1 / 5 * (u - l), u + 1 / 5 * (u - l)) else (l, u)) =
      if pad then (l - (u - l) / 5, u + (u - l) / 5) else (l, u) := by
  cases pad
  · rfl
  · simp only [if_true, Prod.mk.injEq]
    constructor <;> ring

/-- The range in terms of the weight below and above its cells, for edges from `lo` to `hi`. -/
theorem getExtents_core (data w : List K) (hw' : ∀ v ∈ w, 0 ≤ v)
    (lo hi : K) (hb : ∀ x ∈ data, lo ≤ x ∧ x ≤ hi) (hlt : lo < hi)
    (hauto : autoEdges 2000 data = .ok (linspace lo hi (2000 + 1)))
    (hRpos : 0 < weightWhere data w (fun x => decide (cellEdge lo hi 1 ≤ x)))
    (plot wide tiny pad : Bool) :
    ∃ i j t R l u, 1 ≤ i ∧ i ≤ j ∧ j < 2000 ∧
      t = (if tiny then 3 / 10 else if plot then (if wide then 1 / 10 ^ 4 else 1 / 20) else 1 / 10 ^ 5) ∧
      l = (cellEdge lo hi i + cellEdge lo hi (i + 1)) / 2 ∧
      u = (cellEdge lo hi j + cellEdge lo hi (j + 1)) / 2 ∧ l ≤ u ∧
      getExtents data w plot wide tiny pad =
        .ok (if pad then (l - (u - l) / 5, u + (u - l) / 5) else (l, u)) ∧
      R = weightWhere data w (fun x => decide (cellEdge lo hi 1 ≤ x)) ∧ 0 < R ∧
      weightWhere data w (fun x => decide (cellEdge lo hi 1 ≤ x ∧ x < cellEdge lo hi i)) ≤ t * R ∧
      t * R < weightWhere data w (fun x => decide (cellEdge lo hi 1 ≤ x ∧
        (x < cellEdge lo hi (i + 1) ∨ i + 1 = 2000))) ∧
      weightWhere data w (fun x => decide (cellEdge lo hi (j + 1) ≤ x ∧ j + 1 < 2000)) ≤ t * R ∧
      t * R < weightWhere data w (fun x => decide (cellEdge lo hi j ≤ x)) := by
  set edges := linspace lo hi (2000 + 1) with hedges
  have hel : edges.length = 2001 := by simp [hedges]
  have hedge : ∀ k, k < 2001 → edges.getD k 0 = cellEdge lo hi k := by
    intro k hk
    rw [getD_eq (by omega), linspace_getElem, cellEdge]
    norm_num
  have hinc : edges.Pairwise (· < ·) := linspace_increasing hlt (by omega)
  have hlow : ∀ x ∈ data, edges.getD 0 0 ≤ x := by
    intro x hx; rw [hedge 0 (by omega), cellEdge]; simpa using (hb x hx).1
  have hhigh : ∀ x ∈ data, x ≤ edges.getD (edges.length - 1) 0 := by
    intro x hx; rw [hel, hedge 2000 (by omega), cellEdge]
    have := (hb x hx).2
    push_cast
    linarith
  set hist := (List.range (edges.length - 1)).map (binMass edges data w) with hhist
  have hhl : hist.length = 2000 := by simp [hhist, hel]
  have hhok : histogram edges data w = .ok hist := by
    refine histogram_ok_iff.2 ⟨?_, rfl⟩
    rw [all_tail_iff]
    refine (List.isChain_iff_pairwise.2 hinc).imp fun a b h => decide_eq_true h.le
  have hne : hist ≠ [] := by intro h; rw [h] at hhl; simp at hhl
  have hnn : ∀ v ∈ hist, 0 ≤ v := by
    intro v hv
    obtain ⟨i, -, rfl⟩ := List.mem_map.1 hv
    exact binMass_nonneg hw' i
  have htot := bins_total w hinc (by omega) hlow hhigh
  have hcum : ∀ k, k < 2000 → (hist.take k).sum = weightWhere data w fun x => decide (x < cellEdge lo hi k) := by
    intro k hk
    rw [bins_cum w hinc hlow k (by omega)]
    rw [hedge k (by omega)]
  have hsplit : ∀ v, weightWhere data w (fun _ => true) = weightWhere data w (fun x => decide (x < v)) +
      weightWhere data w (fun x => decide (v ≤ x)) := by
    intro v
    refine weightWhere_add data w fun x _ => ?_
    by_cases h : x < v
    · simp [h]
    · simp [h, not_lt.1 h]
  have hmonoE : ∀ {p q : Nat}, p ≤ q → cellEdge lo hi p ≤ cellEdge lo hi q := by
    intro p q hpq
    unfold cellEdge
    have : (p : K) ≤ q := by exact_mod_cast hpq
    have := mul_le_mul_of_nonneg_right this (show 0 ≤ (hi - lo) / 2000 by apply div_nonneg <;> linarith)
    linarith
  set R := weightWhere data w (fun x => decide (cellEdge lo hi 1 ≤ x)) with hR
  have hSC : hist.sum - (hist.take 1).sum = R := by
    rw [hcum 1 (by omega), htot, hsplit (cellEdge lo hi 1)]
    ring
  have hcurves := extentCurves_spec hne hnn (by linarith)
  rw [hSC] at hcurves
  set cdf := (cumsum hist).map (fun c => (c - (hist.take 1).sum) / R) with hcdf
  have hicdf : ((cumsum hist).map fun c => (hist.sum - c) / R) = cdf.map (1 - ·) := by
    rw [hcdf, List.map_map]
    refine List.map_congr_left fun c _ => ?_
    simp only [Function.comp]
    field_simp
    linarith
  rw [hicdf] at hcurves
  have hcl : cdf.length = 2000 := by simp [hcdf, hhl]
  have hcget : ∀ k, k < 2000 → cdf.getD k 0 = ((hist.take (k + 1)).sum - (hist.take 1).sum) / R := by
    intro k hk
    rw [getD_eq (by omega)]
    simp only [hcdf, List.getElem_map, cumsum_getElem]
  have hne' : cdf ≠ [] := by intro h; rw [h] at hcl; simp at hcl
  have hdiff : ∀ k, k < 2000 → (hist.take (k + 1)).sum - (hist.take 1).sum =
      weightWhere data w (fun x => decide (cellEdge lo hi 1 ≤ x ∧ (x < cellEdge lo hi (k + 1) ∨ k + 1 = 2000))) := by
    intro k hk
    rw [sub_eq_iff_eq_add, hcum 1 (by omega)]
    rcases Nat.lt_or_ge (k + 1) 2000 with h | h
    · rw [hcum (k + 1) h]
      rw [add_comm (weightWhere _ _ _)]
      refine weightWhere_add data w fun x _ => ?_
      have h1 : cellEdge lo hi 1 ≤ cellEdge lo hi (k + 1) := hmonoE (by omega)
      have h2 : ¬ k + 1 = 2000 := by omega
      simp only [h2, or_false, decide_eq_true_eq]
      by_cases h3 : x < cellEdge lo hi 1
      · rw [if_pos (h3.trans_le h1), if_pos h3, if_neg fun h => absurd h.1 (not_le.2 h3)]; simp
      · rw [if_neg h3]
        by_cases h4 : x < cellEdge lo hi (k + 1)
        · rw [if_pos h4, if_pos ⟨not_lt.1 h3, h4⟩]; simp
        · rw [if_neg h4, if_neg fun h => h4 h.2]; simp
    · obtain rfl : k = 1999 := by omega
      rw [List.take_of_length_le (by omega), htot, hsplit (cellEdge lo hi 1), add_comm (weightWhere _ _ _)]
      simp
  have hmono : cdf.Pairwise (· ≤ ·) := by
    rw [hcdf, List.pairwise_map]
    refine (cumsum_mono hnn).imp fun {a b} hab => ?_
    exact (div_le_div_iff_of_pos_right hRpos).2 (by linarith)
  have hlast : cdf.getLast? = some 1 := by
    rw [hcdf, List.getLast?_map, cumsum_last hne, Option.map_some, hSC, div_self hRpos.ne']
  have hfirst : cdf.head? = some 0 := by
    rw [List.head?_eq_getElem?, List.getElem?_eq_getElem (by omega)]
    have := hcget 0 (by omega)
    rw [getD_eq (by omega)] at this
    rw [this]; simp
  obtain ⟨ht0, ht1⟩ := extentThreshold_cases (K := K) plot wide tiny
  set t := (extentThreshold plot wide tiny : K) with ht
  have hml : (midpoints edges).length = cdf.length := by rw [midpoints_length, hel, hcl]
  obtain ⟨i, j, hi1, hij, hj, hpick, h1, h2, h3, h4⟩ :=
    extentPick_spec hml hmono hne' hlast hfirst ht0 ht1 pad
  rw [hcl] at hj
  have hmid : ∀ k, k < 2000 → (midpoints edges).getD k 0 =
      (cellEdge lo hi k + cellEdge lo hi (k + 1)) / 2 := by
    intro k hk
    rw [getD_eq (by omega)]
    simp only [midpoints, List.getElem_zipWith, List.getElem_tail]
    have a1 := hedge k (by omega)
    have a2 := hedge (k + 1) (by omega)
    rw [getD_eq (by omega)] at a1 a2
    rw [a1, a2]
    ring
  refine ⟨i, j, t, R, (midpoints edges).getD i 0, (midpoints edges).getD j 0, hi1, hij, hj, ?_, hmid i (by omega),
    hmid j hj, ?_, ?_, rfl, hRpos, ?_, ?_, ?_, ?_⟩
  · rw [ht]
    unfold extentThreshold
    cases tiny <;> cases plot <;> cases wide <;> norm_num
  · rw [hmid i (by omega), hmid j hj]
    have a1 := hmonoE hij
    have a2 := hmonoE (show i + 1 ≤ j + 1 by omega)
    linarith
  · simp only [getExtents, hauto, bind, Except.bind, hhok, hcurves]
    rw [hpick]
    exact congrArg Except.ok (padding_eq _ _ pad)
  · rw [hcget (i - 1) (by omega), show i - 1 + 1 = i by omega, div_le_iff₀ hRpos] at h1
    have := hdiff (i - 1) (by omega)
    rw [show i - 1 + 1 = i by omega] at this
    rw [this] at h1
    convert h1 using 4 with x
    have : ¬ i = 2000 := by omega
    simp [this]
  · rw [hcget i (by omega), lt_div_iff₀ hRpos, hdiff i (by omega)] at h2
    exact h2
  · rw [hcget j hj, hdiff j hj] at h3
    have : R = weightWhere data w (fun x => decide (cellEdge lo hi 1 ≤ x ∧
        (x < cellEdge lo hi (j + 1) ∨ j + 1 = 2000))) +
        weightWhere data w (fun x => decide (cellEdge lo hi (j + 1) ≤ x ∧ j + 1 < 2000)) := by
      refine weightWhere_add data w fun x _ => ?_
      have h1 : cellEdge lo hi 1 ≤ cellEdge lo hi (j + 1) := hmonoE (by omega)
      simp only [decide_eq_true_eq]
      by_cases h5 : j + 1 = 2000
      · simp [h5]
      · have h6 : j + 1 < 2000 := by omega
        simp only [h5, or_false, h6, and_true]
        by_cases h7 : x < cellEdge lo hi (j + 1)
        · simp [h7, not_le.2 h7]
        · simp [h7, not_lt.1 h7, h1.trans (not_lt.1 h7)]
    exact frac_le hRpos h3 this
  · have hj1 : j - 1 + 1 = j := by omega
    rw [hcget (j - 1) (by omega), hdiff (j - 1) (by omega), hj1] at h4
    have hlt' : ¬ j = 2000 := by omega
    have : R = weightWhere data w (fun x => decide (cellEdge lo hi 1 ≤ x ∧
        (x < cellEdge lo hi j ∨ j = 2000))) +
        weightWhere data w (fun x => decide (cellEdge lo hi j ≤ x)) := by
      refine weightWhere_add data w fun x _ => ?_
      have h1 : cellEdge lo hi 1 ≤ cellEdge lo hi j := hmonoE (by omega)
      simp only [decide_eq_true_eq, hlt', or_false]
      by_cases h7 : x < cellEdge lo hi j
      · simp [h7, not_le.2 h7]
      · simp [h7, not_lt.1 h7, h1.trans (not_lt.1 h7)]
    exact lt_frac hRpos h4 this

/-- **C45**. For data that is not constant, with positive weights: the range is from the centre of cell
`i` to the centre of cell `j ≥ i` of 2000 equal cells over the data (extended by a fifth of its width
on both sides if padded). Of the weight outside of the lowest cell, at most the threshold fraction lies
below cell `i`, and at most that fraction above cell `j`; including these cells exceeds it. -/
theorem C45_extents (data w : List K) (hl : w.length = data.length) (hw : ∀ v ∈ w, 0 < v)
    (lo hi : K) (hlo : lo ∈ data) (hhi : hi ∈ data) (hb : ∀ x ∈ data, lo ≤ x ∧ x ≤ hi) (hlt : lo < hi)
    (plot wide tiny pad : Bool) :
    ∃ i j t R l u, 1 ≤ i ∧ i ≤ j ∧ j < 2000 ∧
      t = (if tiny then 3 / 10 else if plot then (if wide then 1 / 10 ^ 4 else 1 / 20) else 1 / 10 ^ 5) ∧
      l = (cellEdge lo hi i + cellEdge lo hi (i + 1)) / 2 ∧
      u = (cellEdge lo hi j + cellEdge lo hi (j + 1)) / 2 ∧ l ≤ u ∧
      getExtents data w plot wide tiny pad =
        .ok (if pad then (l - (u - l) / 5, u + (u - l) / 5) else (l, u)) ∧
      R = weightWhere data w (fun x => decide (cellEdge lo hi 1 ≤ x)) ∧ 0 < R ∧
      weightWhere data w (fun x => decide (cellEdge lo hi 1 ≤ x ∧ x < cellEdge lo hi i)) ≤ t * R ∧
      t * R < weightWhere data w (fun x => decide (cellEdge lo hi 1 ≤ x ∧
        (x < cellEdge lo hi (i + 1) ∨ i + 1 = 2000))) ∧
      weightWhere data w (fun x => decide (cellEdge lo hi (j + 1) ≤ x ∧ j + 1 < 2000)) ≤ t * R ∧
      t * R < weightWhere data w (fun x => decide (cellEdge lo hi j ≤ x)) := by
  refine getExtents_core data w (fun v hv => (hw v hv).le) lo hi hb hlt
    (autoEdges_spec hlo hhi hb hlt 2000) ?_ plot wide tiny pad
  refine weightWhere_pos hw hl hhi (decide_eq_true ?_)
  simp only [cellEdge]
  push_cast
  linarith

/-- The hypotheses of `C45_extents` are met by three different weighted samples. -/
example := C45_extents (K := ℚ) [0, 3, 1] [1, 2, 1 / 2] rfl (by decide +kernel) 0 3 (by decide +kernel)
  (by decide +kernel) (by decide +kernel) (by decide +kernel) true false false true

/-- **C45**, the excluded case: the range of a constant parameter is a single point. -/
theorem C45_constant (data w : List K) (hl : w.length = data.length) (hw : ∀ v ∈ w, 0 < v) (c : K)
    (hc : ∀ x ∈ data, x = c) (hne : data ≠ []) (plot wide tiny pad : Bool) :
    getExtents data w plot wide tiny pad = .ok (c + 1 / 4000, c + 1 / 4000) := by
  have hmem : c ∈ data := by
    cases data with
    | nil => exact absurd rfl hne
    | cons x xs => rw [← hc x (by simp)]; simp
  have hauto : autoEdges 2000 data = .ok (linspace (c - 1 / 2) (c + 1 / 2) (2000 + 1)) := by
    cases data with
    | nil => exact absurd rfl hne
    | cons x xs =>
      have e1 : xs.foldl min x = c := hc _ (foldl_min_map_spec x xs).1
      have e2 : xs.foldl max x = c := hc _ (foldl_max_map_spec x xs).1
      simp only [autoEdges, e1, e2, if_true]
  have hedge : ∀ k : Nat, cellEdge (c - 1 / 2) (c + 1 / 2) k = c - 1 / 2 + k / 2000 := by
    intro k; unfold cellEdge; ring
  have hWpos : ∀ P : K → Bool, P c = true → 0 < weightWhere data w P :=
    fun P hP => weightWhere_pos hw hl hmem hP
  have hW : ∀ P : K → Bool, P c = true → weightWhere data w P = weightWhere data w fun _ => true :=
    fun P hP => weightWhere_congr data w fun x hx => by rw [hc x hx, hP]
  have hW0 : ∀ P : K → Bool, P c = false → weightWhere data w P = 0 := by
    intro P hP
    have := weightWhere_add data w (P := P) (Q := P) (R := P) fun x hx => by rw [hc x hx, hP]; simp
    linarith
  obtain ⟨i, j, t, R, l, u, h1, h2, h3, ht, el, eu, -, hget, hR, hRpos, a1, a2, a3, a4⟩ :=
    getExtents_core data w (fun v hv => (hw v hv).le) (c - 1 / 2) (c + 1 / 2)
      (fun x hx => by rw [hc x hx]; constructor <;> linarith) (by linarith) hauto
      (hWpos _ (decide_eq_true (by rw [hedge]; push_cast; linarith))) plot wide tiny pad
  rw [hW _ (decide_eq_true (by rw [hedge]; push_cast; linarith))] at hR
  have ht' := extentThreshold_cases (K := K) plot wide tiny
  have htR : 0 ≤ t * R ∧ t * R < R := by
    have : 0 ≤ t ∧ t < 1 / 2 := by
      rw [ht]
      cases tiny <;> cases plot <;> cases wide <;> norm_num
    exact ⟨mul_nonneg this.1 hRpos.le, by nlinarith⟩
  simp only [hedge] at a1 a2 a3 a4 el eu
  have c1 : i ≤ 1000 := by
    by_contra hcon
    have : (1001 : K) ≤ i := by exact_mod_cast not_le.1 hcon
    rw [hW _ (decide_eq_true ⟨by push_cast; linarith, by linarith⟩), ← hR] at a1
    linarith
  have c2 : 1000 ≤ i := by
    by_contra hcon
    have : (i : K) + 1 ≤ 1000 := by exact_mod_cast not_le.1 hcon
    rw [hW0 _ (decide_eq_false (by
      rintro ⟨-, h | h⟩
      · push_cast at h
        linarith
      · omega))] at a2
    linarith
  have c3 : 1000 ≤ j := le_trans c2 h2
  have c4 : j ≤ 1000 := by
    by_contra hcon
    have : (1001 : K) ≤ j := by exact_mod_cast not_le.1 hcon
    rw [hW0 _ (decide_eq_false (by intro h; linarith))] at a4
    linarith
  obtain rfl : i = 1000 := by omega
  obtain rfl : j = 1000 := by omega
  have hl' : l = c + 1 / 4000 := by rw [el]; push_cast; ring
  have hu' : u = c + 1 / 4000 := by rw [eu]; push_cast; ring
  rw [hget, hl', hu']
  cases pad <;> simp

end CC
