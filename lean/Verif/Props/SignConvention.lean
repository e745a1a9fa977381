import Verif.Lemmas.Mirror
import Verif.Props.CriterionUnits
import Verif.Props.EqualTailed
import Verif.Props.Marginal
import Verif.Props.PlotDist
import Verif.Props.Splitting
import Verif.Props.Format

/-! # C129: the sign convention of a parameter -/

set_option linter.unusedSectionVars false

namespace CC
open Spec

/-- The chain with parameter `col` given with the opposite sign. -/
noncomputable def Spec.flipped (c : Chain ℝ) (col : String) : Chain ℝ := rescaled c col (-1) 0

/-- The values of an even grid: `v, v + h, …`, `n` of them. -/
def Spec.EvenGrid (data : List ℝ) (v h : ℝ) (n : Nat) : Prop :=
  0 < h ∧ 2 ≤ n ∧ ∀ x, x ∈ data ↔ ∃ i : Nat, i < n ∧ x = v + i * h

/-! ## The bins -/

noncomputable def evenBins (v h : ℝ) (n : Nat) : List ℝ := (List.range (n + 1)).map fun (i : Nat) => v + i * h - h / 2

@[simp] theorem evenBins_length (v h : ℝ) (n : Nat) : (evenBins v h n).length = n + 1 := by simp [evenBins]

theorem evenBins_getElem (v h : ℝ) (n i : Nat) (hi : i < (evenBins v h n).length) :
    (evenBins v h n)[i] = v + i * h - h / 2 := by simp [evenBins]

theorem even_bins {data : List ℝ} {v h : ℝ} {n : Nat} (he : EvenGrid data v h n) :
    getGridBins data = .ok (evenBins v h n) := by
  obtain ⟨hh, hn, hmem⟩ := he
  set vs := (List.range n).map fun (i : Nat) => v + i * h with hvs
  have hinc : vs.Pairwise (· < ·) := by
    rw [hvs, List.pairwise_map]
    refine List.pairwise_lt_range.imp fun {i j} hij => ?_
    have : (i : ℝ) < j := by exact_mod_cast hij
    nlinarith
  have hlen : vs.length = n := by simp [hvs]
  have hget : ∀ i, i < n → vs.getD i 0 = v + i * h := by
    intro i hi
    rw [getD_eq (by omega)]
    simp [hvs]
  rw [getGridBins_eq hinc (fun x => by
    rw [hmem, hvs, List.mem_map]
    constructor
    · rintro ⟨i, hi, rfl⟩
      exact ⟨i, List.mem_range.1 hi, rfl⟩
    · rintro ⟨i, hi, rfl⟩
      exact ⟨i, List.mem_range.2 hi, rfl⟩) (by omega), hlen, hget 0 (by omega), hget 1 (by omega), hget (n - 1) (by omega)]
  congr 1
  rw [evenBins, List.range_succ, List.map_append, hvs, List.map_map]
  congr 1
  · refine List.map_congr_left fun i _ => ?_
    simp only [Function.comp_apply]
    push_cast
    ring
  · simp only [List.map_cons, List.map_nil]
    have : ((n - 1 : Nat) : ℝ) = n - 1 := by
      rw [Nat.cast_sub (by omega)]
      simp
    rw [this]
    push_cast
    congr 1
    ring

theorem even_mirror {data : List ℝ} {v h : ℝ} {n : Nat} (he : EvenGrid data v h n) :
    EvenGrid (data.map (- ·)) (-(v + (n - 1 : Nat) * h)) h n := by
  obtain ⟨hh, hn, hmem⟩ := he
  refine ⟨hh, hn, fun x => ?_⟩
  have hc : ∀ i, i < n → ((n - 1 - i : Nat) : ℝ) = (n - 1 : Nat) - i := by
    intro i hi
    rw [Nat.cast_sub (by omega)]
  rw [List.mem_map]
  constructor
  · rintro ⟨y, hy, rfl⟩
    obtain ⟨i, hi, rfl⟩ := (hmem y).1 hy
    refine ⟨n - 1 - i, by omega, ?_⟩
    rw [hc i hi]
    ring
  · rintro ⟨i, hi, rfl⟩
    refine ⟨v + (n - 1 - i : Nat) * h, (hmem _).2 ⟨_, by omega, rfl⟩, ?_⟩
    rw [hc i hi]
    ring

theorem evenBins_mirror (v h : ℝ) {n : Nat} (hn : 2 ≤ n) :
    evenBins (-(v + (n - 1 : Nat) * h)) h n = mirror (evenBins v h n) := by
  apply List.ext_getElem
  · simp
  · intro i h1 h2
    have hi : i ≤ n := by simp at h1; omega
    rw [mirror_getElem, evenBins_getElem, evenBins_getElem, evenBins_length]
    have e1 : ((n + 1 - 1 - i : Nat) : ℝ) = n - i := by
      rw [Nat.add_sub_cancel, Nat.cast_sub hi]
    have e2 : ((n - 1 : Nat) : ℝ) = n - 1 := by
      rw [Nat.cast_sub (by omega)]
      simp
    rw [e1, e2]
    ring

theorem evenBins_increasing {v h : ℝ} (hh : 0 < h) (n : Nat) : (evenBins v h n).Pairwise (· < ·) := by
  rw [evenBins, List.pairwise_map]
  refine List.pairwise_lt_range.imp fun {i j} hij => ?_
  have : (i : ℝ) < j := by exact_mod_cast hij
  nlinarith

/-- No value lies on an edge. -/
theorem even_off_edges {data : List ℝ} {v h : ℝ} {n : Nat} (he : EvenGrid data v h n) : ∀ x ∈ data, x ∉ evenBins v h n := by
  obtain ⟨hh, hn, hmem⟩ := he
  intro x hx hb
  obtain ⟨i, hi, rfl⟩ := (hmem x).1 hx
  obtain ⟨j, hj, hji⟩ := List.mem_map.1 hb
  have h1 : ((j : ℝ) - i - 1 / 2) * h = 0 := by linarith
  rcases mul_eq_zero.1 h1 with h1 | h1
  · have : (2 * j : ℝ) = 2 * i + 1 := by linarith
    have : 2 * j = 2 * i + 1 := by exact_mod_cast this
    omega
  · exact hh.ne' h1

theorem binMass_pos {e data w : List ℝ} {i : Nat} (hw : ∀ u ∈ w, 0 < u) (hlen : w.length = data.length) {x : ℝ} (hx : x ∈ data)
    (hin : inBin e i x = true) : 0 < binMass e data w i := by
  induction data generalizing w with
  | nil => cases hx
  | cons a data ih =>
    cases w with
    | nil => cases hlen
    | cons b w =>
      have hb : 0 < b := hw b List.mem_cons_self
      have hw' : ∀ u ∈ w, 0 < u := fun u hu => hw u (List.mem_cons_of_mem _ hu)
      have hrest : 0 ≤ binMass e data w i := binMass_nonneg (fun u hu => (hw' u hu).le) i
      have hcons : binMass e (a :: data) (b :: w) i = (if inBin e i a then b else 0) + binMass e data w i := by
        simp [binMass]
      rw [hcons]
      rcases List.mem_cons.1 hx with rfl | hx
      · rw [if_pos hin]
        linarith
      · have := ih hw' (by simpa using hlen) hx
        split <;> linarith

/-- Every bin holds a value, so its mass is positive. -/
theorem even_mass_pos {data w : List ℝ} {v h : ℝ} {n : Nat} (he : EvenGrid data v h n) (hw : ∀ u ∈ w, 0 < u)
    (hlen : w.length = data.length) {i : Nat} (hi : i < n) : 0 < binMass (evenBins v h n) data w i := by
  have hmem : v + i * h ∈ data := (he.2.2 _).2 ⟨i, hi, rfl⟩
  have hin : inBin (evenBins v h n) i (v + i * h) = true := by
    have e1 : (evenBins v h n).getD i 0 = v + i * h - h / 2 := by rw [getD_eq (by simp; omega), evenBins_getElem]
    have e2 : (evenBins v h n).getD (i + 1) 0 = v + i * h + h / 2 := by
      rw [getD_eq (by simp; omega), evenBins_getElem]
      push_cast
      ring
    have := he.1
    simp only [inBin, e1, e2]
    simp
    constructor
    · linarith
    · exact .inl this
  exact binMass_pos hw hlen hmem hin

/-! ## The marginal -/

theorem exists_pos_lower {l : List ℝ} (h : ∀ v ∈ l, 0 < v) : ∃ lo, 0 < lo ∧ ∀ v ∈ l, lo ≤ v := by
  induction l with
  | nil => exact ⟨1, one_pos, by simp⟩
  | cons a l ih =>
    obtain ⟨lo, h0, h1⟩ := ih fun v hv => h v (List.mem_cons_of_mem _ hv)
    refine ⟨min a lo, lt_min (h a List.mem_cons_self) h0, fun v hv => ?_⟩
    rcases List.mem_cons.1 hv with rfl | hv
    · exact min_le_left _ _
    · exact (min_le_right _ _).trans (h1 v hv)

theorem exists_upper (l : List ℝ) : ∃ hi, ∀ v ∈ l, v ≤ hi := by
  induction l with
  | nil => exact ⟨0, by simp⟩
  | cons a l ih =>
    obtain ⟨hi, h⟩ := ih
    refine ⟨max a hi, fun v hv => ?_⟩
    rcases List.mem_cons.1 hv with rfl | hv
    · exact le_max_left _ _
    · exact (h v hv).trans (le_max_right _ _)

theorem smoothHist_pos {s : Int} {h g : List ℝ} (hh : ∀ v ∈ h, 0 < v) (hok : smoothHist s h = .ok g) : ∀ v ∈ g, 0 < v := by
  unfold smoothHist at hok
  split at hok
  · cases hok
    exact hh
  · split at hok
    · cases hok
      obtain ⟨-, -, h3⟩ := C47_gaussian_filter s.toNat h
      obtain ⟨lo, h0, hlo⟩ := exists_pos_lower hh
      obtain ⟨hi, hhi⟩ := exists_upper h
      exact fun v hv => h0.trans_le (h3 lo hi (fun u hu => ⟨hlo u hu, hhi u hu⟩) v hv).1
    · cases hok

theorem powAll_pos {h g : List ℝ} {p : ℝ} (hh : ∀ v ∈ h, 0 < v) (hok : powAll h p = .ok g) : ∀ v ∈ g, 0 < v := by
  simp only [powAll, bind_ok_iff, ensure_ok_iff, pure_ok_iff] at hok
  obtain ⟨_, _, rfl⟩ := hok
  intro v hv
  obtain ⟨u, hu, rfl⟩ := List.mem_map.1 hv
  exact Real.rpow_pos_of_pos (hh u hu) p

theorem mapM_interp1d_pos {xp fp xs ys : List ℝ} (hs : xp.Pairwise (· < ·)) (hl : fp.length = xp.length)
    (hf : ∀ v ∈ fp, 0 < v) (h : xs.mapM (interp1d xp fp) = .ok ys) : ∀ y ∈ ys, 0 < y := by
  obtain ⟨lo, h0, hlo⟩ := exists_pos_lower hf
  rw [mapM_ok_iff] at h
  intro y hy
  obtain ⟨i, hi, rfl⟩ := List.mem_iff_getElem.1 hy
  have hx := (List.forall₂_iff_get.1 h).2 i (by rw [h.length_eq]; exact hi) hi
  have hc := (interp1d_curve hs hl).1 hx
  simp only [List.get_eq_getElem] at hc
  have hz : ∀ p ∈ xp.zip fp, lo ≤ p.2 := fun p hp => hlo _ (List.of_mem_zip hp).2
  rcases hc with hc | ⟨pre, p, q, post, t, hc, ht0, ht1, -, hy'⟩
  · exact h0.trans_le (hz _ hc)
  · have hp := hz p (by rw [hc]; simp)
    have hq := hz q (by rw [hc]; simp)
    rw [hy']
    nlinarith

/-- The marginal of the chain with the sign of the parameter changed is the mirror image, except for the cumulative sums. -/
theorem marginal_flipped {kde : KdeFn} {c : Chain ℝ} {col : String} {data w : List ℝ} {v h : ℝ} {n : Nat} (hg : c.grid = true)
    (hk : (c.cfg .kde : ℝ) = 0) (hcol : col ≠ c.weightColumn) (hd : c.samples.get col = .ok data) (hw : c.weights = .ok w)
    (hpos : ∀ u ∈ w, 0 < u) (hlen : w.length = data.length) (he : EvenGrid data v h n) {pad : Bool} {m : Marginal ℝ}
    (hm : smoothedHistogram kde c col pad none = .ok m) :
    (∀ y ∈ m.ys, 0 < y) ∧ m.xs = linspace v (v + (n - 1 : Nat) * h) gridSize ∧ m.ys.length = gridSize ∧
      m.cs = (cumsum m.ys).map (· / m.ys.sum) ∧
      smoothedHistogram kde (flipped c col) col pad none =
        .ok ⟨mirror m.xs, m.ys.reverse, (cumsum m.ys.reverse).map (· / m.ys.sum)⟩ := by
  have hbins := even_bins he
  have hbins' := even_bins (even_mirror he)
  rw [evenBins_mirror v h he.2.1] at hbins'
  have hd' : (flipped c col).samples.get col = .ok (data.map (- ·)) := by
    rw [flipped, rescaled_get, if_pos rfl, hd]
    simp [Except.map, affine]
  have hw' : (flipped c col).weights = .ok w := by
    rw [Chain.weights] at hw ⊢
    change (rescaled c col (-1) 0).samples.get c.weightColumn = _
    rw [rescaled_get, if_neg hcol.symm, hw]
  simp only [smoothedHistogram, hd, hw, marginalBins, hg, if_true, bind_ok_iff, ensure_ok_iff, pure_ok_iff] at hm
  obtain ⟨_, h1, _, h2, bins, h3, hist, hhist, hist', hpow, ab, hab, _, htwo, ys, hys, cs, hcs, rfl⟩ := hm
  cases h1
  cases h2
  rw [hbins] at h3
  cases h3
  have hinc := evenBins_increasing (v := v) he.1 n
  have hw0 : ∀ u ∈ w, 0 ≤ u := fun u hu => (hpos u hu).le
  obtain ⟨-, hlh, -⟩ := histDensity_ok hw0 hhist
  have hposh : ∀ u ∈ hist, 0 < u := by
    have hsim := hhist
    simp only [histDensity, bind_ok_iff, ensure_ok_iff, pure_ok_iff] at hsim
    obtain ⟨N, hN, _, -, _, -, hhe⟩ := hsim
    obtain ⟨-, rfl⟩ := histogram_ok_iff.1 hN
    have hms : ∀ u ∈ (List.range ((evenBins v h n).length - 1)).map (binMass (evenBins v h n) data w), 0 < u := by
      intro u hu
      obtain ⟨i, hi, rfl⟩ := List.mem_map.1 hu
      rw [List.mem_range, evenBins_length] at hi
      exact even_mass_pos he hpos hlen (by omega)
    have hsum : 0 < ((List.range ((evenBins v h n).length - 1)).map (binMass (evenBins v h n) data w)).sum := by
      refine List.sum_pos _ hms ?_
      have := he.2.1
      intro e
      have := congrArg List.length e
      simp at this
      omega
    intro u hu
    rw [← hhe] at hu
    obtain ⟨j, hj, rfl⟩ := List.mem_iff_getElem.1 hu
    simp only [List.length_zipWith, List.length_map, List.length_range, List.length_tail, evenBins_length] at hj
    simp only [List.getElem_zipWith, List.getElem_map, List.getElem_range, List.getElem_tail]
    refine div_pos (div_pos (even_mass_pos he hpos hlen (by omega)) ?_) hsum
    have := List.pairwise_iff_getElem.1 hinc j (j + 1) (by simp; omega) (by simp; omega) (by omega)
    linarith
  obtain ⟨hlp, -⟩ := powAll_ok (fun u hu => (hposh u hu).le) hpow
  have hposp := powAll_pos hposh hpow
  have hkf : (Option.getD none (decide ((c.cfg .kde : ℝ) ≠ 0))) = false := by simp [hk]
  simp only [marginalYs, hkf, bind_ok_iff, Bool.false_eq_true, if_false] at hys
  obtain ⟨g, hg1, hys⟩ := hys
  obtain ⟨hlg, -⟩ := smoothHist_ok (fun u hu => (hposp u hu).le) hg1
  have hposg := smoothHist_pos hposp hg1
  have hlm : g.length = (midpoints (evenBins v h n)).length := by
    rw [midpoints_length, hlg, hlp, hlh]
  have hminc := midpoints_increasing hinc
  have hposy := mapM_interp1d_pos hminc hlm hposg hys
  have hyl : ys.length = gridSize := by
    rw [mapM_ok_iff] at hys
    rw [← hys.length_eq, linspace_length]
  have hcs0 := normCumsum_ok (fun y hy => (hposy y hy).le) hcs
  obtain ⟨hne, hS, rfl⟩ := hcs0
  have hmid : midpoints (evenBins v h n) = (List.range n).map fun (i : Nat) => v + i * h := by
    apply List.ext_getElem
    · simp [midpoints_length]
    · intro i h1 h2
      rw [midpoints_getElem, evenBins_getElem, evenBins_getElem]
      simp only [List.getElem_map, List.getElem_range]
      push_cast
      ring
  have habe : ab = (v, v + (n - 1 : Nat) * h) := by
    have h2 := he.2.1
    rw [hmid, endpoints] at hab
    obtain ⟨k, rfl⟩ : ∃ k, n = k + 1 := ⟨n - 1, by omega⟩
    rw [List.getLast?_map, List.head?_map, List.getLast?_range, List.head?_range] at hab
    simp at hab
    rw [← hab]
    simp
  subst habe
  have hlin := linspace_mirror v (v + (n - 1 : Nat) * h) two_le_gridSize
  refine ⟨hposy, rfl, hyl, rfl, ?_⟩
  have hlt : 2 ≤ (midpoints (evenBins v h n)).length := of_decide_eq_true htwo
  simp only [smoothedHistogram, bind_ok_iff, ensure_ok_iff, pure_ok_iff]
  have hcs' : normCumsum ys.reverse = .ok ((cumsum ys.reverse).map (· / ys.sum)) := by
    have hne' : ys.reverse ≠ [] := by simpa using hne
    have hs : ys.reverse.sum = ys.sum := List.sum_reverse ys
    simp only [normCumsum, arrMax, npMax_cumsum (fun y hy => (hposy y (List.mem_reverse.1 hy)).le) hne', hs, bind, Except.bind, ensure,
      hS.ne', ne_eq, not_false_eq_true, decide_true, if_true]
    rfl
  refine ⟨_, hd', _, hw', mirror (evenBins v h n), ?_, _, histDensity_mirror (even_off_edges he) hhist, _, powAll_reverse hpow,
    (-(v + (n - 1 : Nat) * h), -v), ?_, (), ?_, ys.reverse, ?_, _, hcs', ?_⟩
  · rw [marginalBins, show (flipped c col).grid = true from hg, if_pos rfl, hbins']
  · simp only [endpoints] at hab ⊢
    rw [midpoints_mirror, mirror_head, mirror_last]
    revert hab
    cases (midpoints (evenBins v h n)).head? <;> cases (midpoints (evenBins v h n)).getLast? <;> simp
    rintro rfl rfl
    constructor <;> simp
  · rw [midpoints_mirror, mirror_length]
    exact htwo
  · have hkf' : (Option.getD none (decide (((flipped c col).cfg .kde : ℝ) ≠ 0))) = false := hkf
    simp only [marginalYs, hkf', bind_ok_iff, Bool.false_eq_true, if_false]
    refine ⟨g.reverse, smoothHist_reverse hg1, ?_⟩
    rw [midpoints_mirror, hlin]
    exact mapM_interp1d_mirror hminc hlm hys
  · rw [hlin]

/-! ## The summaries -/

/-- The three statistics whose limits are read off the cumulative curve. -/
def Spec.EqualTailedStat (s : Option Stat) : Prop := s = some .cumulative ∨ s = some .mean ∨ s = some .maxCentral

/-- The limits of such a summary, and the centre of two of them. -/
theorem equal_tailed_parts {kde : KdeFn} {c : Chain ℝ} {col : String} (hs : EqualTailedStat (c.cfg .statistics)) {l x u : Option ℝ}
    (h : parameterSummary kde c col = .ok ⟨l, x, u⟩) :
    ∃ m l' u', smoothedHistogram kde c col false none = .ok m ∧ l = some l' ∧ u = some u' ∧
      interp1d m.cs m.xs (1 / 2 - c.cfg .summaryArea / 2) = .ok l' ∧ interp1d m.cs m.xs (1 / 2 + c.cfg .summaryArea / 2) = .ok u' ∧
      (c.cfg .statistics = some .cumulative → ∃ x', x = some x' ∧ interp1d m.cs m.xs (1 / 2) = .ok x') ∧
      (c.cfg .statistics = some .mean → x = some ((l' + u') / 2)) := by
  have e : (1 / 2 * c.cfg .summaryArea : ℝ) = c.cfg .summaryArea / 2 := by ring
  rcases hs with hs | hs | hs
  · simp only [parameterSummary, hs, summaryCumulative, equalTailed, bind_ok_iff, pure_ok_iff] at h
    obtain ⟨m, hm, _, ⟨l', hl, x', hx, u', hu, rfl⟩, h⟩ := h
    cases h
    exact ⟨m, l', u', hm, rfl, rfl, hl, hu, fun _ => ⟨x', rfl, hx⟩, fun h => by rw [hs] at h; cases h⟩
  · simp only [parameterSummary, hs, summaryMean, equalTailed, bind_ok_iff, pure_ok_iff] at h
    obtain ⟨m, hm, _, ⟨l', hl, x', hx, u', hu, rfl⟩, h⟩ := h
    cases h
    exact ⟨m, l', u', hm, rfl, rfl, hl, hu, fun h => (by rw [hs] at h; cases h), fun _ => by congr 1; ring⟩
  · simp only [parameterSummary, hs, summaryMaxCentral, bind_ok_iff, pure_ok_iff, e] at h
    obtain ⟨m, hm, _, _, _, _, l', hl, u', hu, h⟩ := h
    cases h
    exact ⟨m, l', u', hm, rfl, rfl, hl, hu, fun h => (by rw [hs] at h; cases h), fun h => by rw [hs] at h; cases h⟩

/-- **C129** (partial). The full property: a parameter given with the opposite sign has the summary with the opposite sign, limits
exchanged. For a grid chain summarised by equal tails everything comes out one step of the fine grid (a 9999th of the range) too far
down, whatever the data: see `C129_violated_equal_tailed`. -/
theorem C129_equal_tailed_partial (kde : KdeFn) (c : Chain ℝ) (hc : AcceptedNoShift c) (hg : c.grid = true) (hk : (c.cfg .kde : ℝ) = 0)
    (col : String) (hcol : col ≠ c.weightColumn) (data : List ℝ) (hd : c.samples.get col = .ok data) (v h : ℝ) (n : Nat)
    (he : EvenGrid data v h n) (hs : EqualTailedStat (c.cfg .statistics)) (l x u l' x' u' : ℝ)
    (h1 : parameterSummary kde c col = .ok ⟨some l, some x, some u⟩)
    (h2 : parameterSummary kde (flipped c col) col = .ok ⟨some l', some x', some u'⟩) :
    l' = -(u + (n - 1 : Nat) * h / 9999) ∧ u' = -(l + (n - 1 : Nat) * h / 9999) ∧
      (c.cfg .statistics ≠ some .maxCentral → x' = -(x + (n - 1 : Nat) * h / 9999)) := by
  obtain ⟨a, hwf, hshift, hmk⟩ := hc
  obtain ⟨hWF, -, -, -, ⟨w, hw, hwl, hpos⟩, -⟩ := C07_accepted_chain_guarantees a c hwf hshift hmk
  have hlen : w.length = data.length := by
    rw [hwl]
    exact (hWF.2 _ (get_mem hd)).symm
  obtain ⟨m, l1, u1, hm, e1, e2, hl, hu, hx, hmean⟩ := equal_tailed_parts hs h1
  cases e1
  cases e2
  obtain ⟨m', l2, u2, hm', e1, e2, hl', hu', hx', hmean'⟩ := equal_tailed_parts (c := flipped c col) hs h2
  cases e1
  cases e2
  obtain ⟨hy, hxs, hyl, hcs, hfl⟩ := marginal_flipped hg hk hcol hd hw hpos hlen he hm
  rw [hfl] at hm'
  cases hm'
  dsimp only at hl' hu' hx'
  rw [hcs] at hl hu hx
  have hgs := two_le_gridSize
  have hxl : m.xs.length = m.ys.length := by rw [hxs, hyl, linspace_length]
  have hstep : ∀ i (hi : i + 1 < m.xs.length), m.xs[i + 1] = m.xs[i] + (n - 1 : Nat) * h / 9999 := by
    intro i hi
    simp only [hxs, linspace_getElem, gridSize_eq]
    push_cast
    ring
  have key := fun {q y y' : ℝ} => quantile_mirror (q := q) (y := y) (y' := y') hy hxl (by omega) hstep
  have harea : ((flipped c col).cfg .summaryArea : ℝ) = c.cfg .summaryArea := rfl
  rw [harea] at hl' hu'
  have k1 := key hu (by rw [show (1 - (1 / 2 + c.cfg .summaryArea / 2) : ℝ) = 1 / 2 - c.cfg .summaryArea / 2 by ring]; exact hl')
  have k2 := key hl (by rw [show (1 - (1 / 2 - c.cfg .summaryArea / 2) : ℝ) = 1 / 2 + c.cfg .summaryArea / 2 by ring]; exact hu')
  refine ⟨k1, k2, fun hne => ?_⟩
  rcases hs with hs | hs | hs
  · obtain ⟨x1, e1, hx1⟩ := hx hs
    obtain ⟨x2, e2, hx2⟩ := hx' hs
    cases e1
    cases e2
    exact key hx1 (by rw [show (1 - 1 / 2 : ℝ) = 1 / 2 by norm_num]; exact hx2)
  · have e1 := hmean hs
    have e2 := hmean' hs
    cases e1
    cases e2
    rw [k1, k2]
    ring
  · exact absurd hs hne

/-- **C129** (negation, for every such chain). Neither limit is that of the mirrored parameter with the opposite sign: the
cumulative sum at a point includes all of that point's density, so the curve is half a step early when read from below and half a
step late when read from above. -/
theorem C129_violated_equal_tailed (kde : KdeFn) (c : Chain ℝ) (hc : AcceptedNoShift c) (hg : c.grid = true)
    (hk : (c.cfg .kde : ℝ) = 0) (col : String) (hcol : col ≠ c.weightColumn) (data : List ℝ) (hd : c.samples.get col = .ok data)
    (v h : ℝ) (n : Nat) (he : EvenGrid data v h n) (hs : EqualTailedStat (c.cfg .statistics)) (l x u l' x' u' : ℝ)
    (h1 : parameterSummary kde c col = .ok ⟨some l, some x, some u⟩)
    (h2 : parameterSummary kde (flipped c col) col = .ok ⟨some l', some x', some u'⟩) :
    l' < -u ∧ u' < -l ∧ (c.cfg .statistics ≠ some .maxCentral → x' < -x) := by
  obtain ⟨r1, r2, r3⟩ := C129_equal_tailed_partial kde c hc hg hk col hcol data hd v h n he hs l x u l' x' u' h1 h2
  have hn : (0 : ℝ) < (n - 1 : Nat) := by
    have := he.2.1
    exact_mod_cast (by omega : 0 < n - 1)
  have hd0 : 0 < ((n - 1 : Nat) : ℝ) * h / 9999 := by
    have := mul_pos hn he.1
    linarith
  exact ⟨by linarith, by linarith, fun hne => by have := r3 hne; linarith⟩

/-- The summary of a flat enough marginal is reported. -/
theorem equal_tails_reported {m : Marginal ℝ} (hv : ValidMarginal m) (hb : ∀ y ∈ m.ys, 1 / 4 ≤ y ∧ y ≤ 3 / 4)
    (hl : m.ys.length = gridSize) :
    ∃ l x u, summaryCumulative m (6827 / 10000) = .ok ⟨some l, some x, some u⟩ := by
  have h2 := two_le_gridSize
  have hsum : (2500 : ℝ) ≤ m.ys.sum := by
    have := List.card_nsmul_le_sum m.ys (1 / 4) fun z hz => (hb z hz).1
    rw [hl, nsmul_eq_mul, gridSize_eq] at this
    linarith
  have hc0 : m.cs.head? = some (m.cs[0]'(by rw [hv.cs_length]; have := hv.two; omega)) := by
    rw [List.head?_eq_getElem?]
    exact List.getElem?_eq_getElem _
  obtain ⟨l, x, u, h, -⟩ := (C26_cumulative m hv (6827 / 10000) _ (by norm_num) (by norm_num) hc0).1 (by
    rw [hv.cumulative]
    have e : (m.ys.take (0 + 1)).sum ≤ 3 / 4 := by
      have := List.sum_le_card_nsmul (m.ys.take 1) (3 / 4) fun z hz => (hb z (List.mem_of_mem_take hz)).2
      rw [List.length_take, hl, min_eq_left (by omega)] at this
      simpa using this
    rw [div_le_iff₀ (by linarith)]
    nlinarith)
  exact ⟨l, x, u, h⟩

theorem max_central_reported {m : Marginal ℝ} (hv : ValidMarginal m) {l x u : ℝ}
    (h : summaryCumulative m (6827 / 10000) = .ok ⟨some l, some x, some u⟩) :
    ∃ x', summaryMaxCentral m (6827 / 10000) = .ok ⟨some l, some x', some u⟩ := by
  simp only [summaryCumulative, equalTailed, bind_ok_iff, pure_ok_iff] at h
  obtain ⟨_, ⟨l', hl, x', -, u', hu, rfl⟩, h⟩ := h
  cases h
  obtain ⟨i, hi⟩ := argmax_isSome (l := m.ys) (by
    have h1 := hv.two
    have h2 := hv.ys_length
    intro e
    rw [e] at h2
    simp at h2
    omega)
  obtain ⟨hil, -⟩ := argmax_spec _ _ hi
  refine ⟨m.xs[i]'(by rw [← hv.ys_length]; exact hil), ?_⟩
  simp only [summaryMaxCentral, arrArgmax, hi, atIndex, bind, Except.bind, pure, Except.pure,
    List.getElem?_eq_getElem (by rw [← hv.ys_length]; exact hil : i < m.xs.length)]
  rw [show (1 / 2 - 1 / 2 * (6827 / 10000) : ℝ) = 1 / 2 - 6827 / 10000 / 2 by norm_num, hl]
  dsimp only
  rw [show (1 / 2 + 1 / 2 * (6827 / 10000) : ℝ) = 1 / 2 + 6827 / 10000 / 2 by norm_num, hu]

/-- The hypotheses are met by a chain accepted by the constructor, with both summaries reported. -/
theorem skew_flipped (kde : KdeFn) (hkde : KdeOk kde) (s : Stat) (hss : s = .cumulative ∨ s = .maxCentral) :
    ∃ c, Chain.make (skewArgs s) = .ok c ∧ AcceptedNoShift c ∧ c.cfg .statistics = some s ∧
    c.grid = true ∧ (c.cfg .kde : ℝ) = 0 ∧ "x" ≠ c.weightColumn ∧ c.samples.get "x" = .ok [0, 1] ∧ EvenGrid [0, 1] 0 1 2 ∧
    EqualTailedStat (c.cfg .statistics) ∧
    (∀ m, smoothedHistogram kde c "x" false none = .ok m → m.ys = (linspace (0 : ℝ) 1 gridSize).map fun x => 3 / 4 - x / 2) ∧
    ∃ l x u l' x' u', parameterSummary kde c "x" = .ok ⟨some l, some x, some u⟩ ∧
      parameterSummary kde (flipped c "x") "x" = .ok ⟨some l', some x', some u'⟩ := by
  obtain ⟨c, m, hc, hst, har, -, hsam, hw, -, hm, hv, hxs, hys⟩ := skew_chain kde hkde s
  have hwf : (skewArgs s).samples.WF := toRaw_WF.2 ⟨by simp [skewFrame], by simp [skewFrame]⟩
  have hacc : AcceptedNoShift c := ⟨_, hwf, rfl, hc⟩
  have hg : c.grid = true := by
    obtain ⟨col, _, _, _, _, _, _, _, _, _, _, _, _, _, rfl⟩ := Chain.make_ok_iff.1 hc
    rfl
  have hk : (c.cfg .kde : ℝ) = 0 := by
    obtain ⟨-, -, -, -, -, -, -, -, hcfg⟩ := C07_accepted_chain_guarantees _ c hwf rfl hc
    exact hcfg .kde (by simp) (by simp)
  have hwc : c.weightColumn = "weight" := by
    obtain ⟨col, _, _, _, _, _, _, _, _, _, _, _, _, _, rfl⟩ := Chain.make_ok_iff.1 hc
    rfl
  have hd : c.samples.get "x" = .ok [0, 1] := by rw [hsam]; rfl
  have he : EvenGrid [0, 1] 0 1 2 := by
    refine ⟨one_pos, le_rfl, fun x => ?_⟩
    constructor
    · intro hx
      rcases List.mem_cons.1 hx with rfl | hx
      · exact ⟨0, by omega, by simp⟩
      · rw [List.mem_singleton] at hx
        exact ⟨1, by omega, by simp [hx]⟩
    · rintro ⟨i, hi, rfl⟩
      interval_cases i <;> simp
  have hpos : ∀ u ∈ ([3, 1] : List ℝ), 0 < u := by simp
  obtain ⟨-, -, hyl, -, hfl⟩ := marginal_flipped hg hk (by rw [hwc]; decide) hd hw hpos rfl he (hm false)
  have hb : ∀ z ∈ m.ys, 1 / 4 ≤ z ∧ z ≤ 3 / 4 := by
    intro z hz
    rw [hys] at hz
    obtain ⟨x, hx, rfl⟩ := List.mem_map.1 hz
    obtain ⟨h0, h1⟩ := linspace_mem (zero_le_one (α := ℝ)) two_le_gridSize hx
    constructor <;> linarith
  have hwf' : (flipped c "x").weights = .ok [3, 1] := by
    rw [← hw, Chain.weights, Chain.weights]
    change (rescaled c "x" (-1) 0).samples.get c.weightColumn = _
    rw [rescaled_get, if_neg (by rw [hwc]; decide)]
  have hv' := C25_marginal_valid kde hkde (flipped c "x") _ hwf' hpos "x" false none _ hfl
  obtain ⟨l, x, u, h1⟩ := equal_tails_reported hv hb hyl
  obtain ⟨l', x', u', h2⟩ := equal_tails_reported hv' (fun z hz => hb z (List.mem_reverse.1 hz)) (by simpa using hyl)
  have hst' : (flipped c "x").cfg .statistics = some s := hst
  have har' : ((flipped c "x").cfg .summaryArea : ℝ) = 6827 / 10000 := har
  have hys' : ∀ m, smoothedHistogram kde c "x" false none = .ok m →
      m.ys = (linspace (0 : ℝ) 1 gridSize).map fun x => 3 / 4 - x / 2 := by
    intro m1 h
    rw [hm false] at h
    cases h
    exact hys
  have hcol : "x" ≠ c.weightColumn := by rw [hwc]; decide
  rcases hss with rfl | rfl
  · refine ⟨c, hc, hacc, hst, hg, hk, hcol, hd, he, .inl hst, hys', l, x, u, l', x', u', ?_, ?_⟩
    · simp only [parameterSummary, hst, har, hm, bind, Except.bind, h1]
    · simp only [parameterSummary, hst', har', hfl, bind, Except.bind, h2]
  · obtain ⟨x1, h1⟩ := max_central_reported hv h1
    obtain ⟨x1', h2⟩ := max_central_reported hv' h2
    refine ⟨c, hc, hacc, hst, hg, hk, hcol, hd, he, .inr (.inr hst), hys', l, x1, u, l', x1', u', ?_, ?_⟩
    · simp only [parameterSummary, hst, har, hm, bind, Except.bind, h1]
    · simp only [parameterSummary, hst', har', hfl, bind, Except.bind, h2]

example (kde : KdeFn) (hkde : KdeOk kde) : ∃ c, Chain.make (skewArgs .cumulative) = .ok c ∧ ∃ l x u l' x' u',
    parameterSummary kde c "x" = .ok ⟨some l, some x, some u⟩ ∧
    parameterSummary kde (flipped c "x") "x" = .ok ⟨some l', some x', some u'⟩ ∧ l' = -(u + 1 / 9999) ∧ x' = -(x + 1 / 9999) := by
  obtain ⟨c, hc, ha, hst, hg, hk, hcol, hd, he, hs, -, l, x, u, l', x', u', h1, h2⟩ := skew_flipped kde hkde .cumulative (.inl rfl)
  obtain ⟨r1, -, r3⟩ := C129_equal_tailed_partial kde c ha hg hk "x" hcol _ hd 0 1 2 he hs l x u l' x' u' h1 h2
  have r3 := r3 (by rw [hst]; simp)
  norm_num at r1 r3
  exact ⟨c, hc, l, x, u, l', x', u', h1, h2, by rw [r1]; ring, by rw [r3]; ring⟩

/-- **C129** (negation, concrete). A chain whose median changes by more than its sign, for every KDE. -/
theorem C129_violated_chain (kde : KdeFn) (hkde : KdeOk kde) : ∃ c, Chain.make (skewArgs .cumulative) = .ok c ∧
    ∃ l x u l' x' u', parameterSummary kde c "x" = .ok ⟨some l, some x, some u⟩ ∧
      parameterSummary kde (flipped c "x") "x" = .ok ⟨some l', some x', some u'⟩ ∧ l' ≠ -u ∧ u' ≠ -l := by
  obtain ⟨c, hc, ha, hst, hg, hk, hcol, hd, he, hs, -, l, x, u, l', x', u', h1, h2⟩ := skew_flipped kde hkde .cumulative (.inl rfl)
  obtain ⟨r1, r2, -⟩ := C129_violated_equal_tailed kde c ha hg hk "x" hcol _ hd 0 1 2 he hs l x u l' x' u' h1 h2
  exact ⟨c, hc, l, x, u, l', x', u', h1, h2, r1.ne, r2.ne⟩

/-! ## The peak of the marginal -/

/-- **C129** for the centre of max_central: if one point of the marginal is the highest, its mirror image is reported exactly. -/
theorem C129_peak_partial (kde : KdeFn) (c : Chain ℝ) (hc : AcceptedNoShift c) (hg : c.grid = true) (hk : (c.cfg .kde : ℝ) = 0)
    (col : String) (hcol : col ≠ c.weightColumn) (data : List ℝ) (hd : c.samples.get col = .ok data) (v h : ℝ) (n : Nat)
    (he : EvenGrid data v h n) (hs : c.cfg .statistics = some .maxCentral) (l x u l' x' u' : ℝ)
    (h1 : parameterSummary kde c col = .ok ⟨some l, some x, some u⟩)
    (h2 : parameterSummary kde (flipped c col) col = .ok ⟨some l', some x', some u'⟩)
    (hpeak : ∀ m, smoothedHistogram kde c col false none = .ok m → ∀ i j (hi : i < m.ys.length) (hj : j < m.ys.length),
      (∀ y ∈ m.ys, y ≤ m.ys[i]) → (∀ y ∈ m.ys, y ≤ m.ys[j]) → i = j) : x' = -x := by
  obtain ⟨a, hwf, hshift, hmk⟩ := hc
  obtain ⟨hWF, -, -, -, ⟨w, hw, hwl, hpos⟩, -⟩ := C07_accepted_chain_guarantees a c hwf hshift hmk
  have hlen : w.length = data.length := by
    rw [hwl]
    exact (hWF.2 _ (get_mem hd)).symm
  have hs' : (flipped c col).cfg .statistics = some .maxCentral := hs
  simp only [parameterSummary, hs, summaryMaxCentral, bind_ok_iff, pure_ok_iff] at h1
  obtain ⟨m, hm, i, hi, xi, hxi, _, _, _, _, e⟩ := h1
  cases e
  obtain ⟨hy, hxs, hyl, hcs, hfl⟩ := marginal_flipped hg hk hcol hd hw hpos hlen he hm
  simp only [parameterSummary, hs', summaryMaxCentral, bind_ok_iff, pure_ok_iff, hfl] at h2
  obtain ⟨m', hm', i', hi', xi', hxi', _, _, _, _, e⟩ := h2
  cases e
  cases hm'
  dsimp only at hi' hxi'
  have get : ∀ {l : List ℝ} {i : Nat}, arrArgmax l = .ok i → argmax l = some i := by
    intro l i h
    unfold arrArgmax at h
    split at h
    · cases h
    · cases h
      assumption
  obtain ⟨hil, hmax, -⟩ := argmax_spec _ _ (get hi)
  obtain ⟨hil', hmax', -⟩ := argmax_spec _ _ (get hi')
  have hl' : i' < m.ys.length := by simpa using hil'
  have hsame := hpeak m hm i (m.ys.length - 1 - i') hil (by omega) hmax (by
    intro y hy
    have := hmax' y (List.mem_reverse.2 hy)
    rwa [List.getElem_reverse] at this)
  have hxl : m.xs.length = m.ys.length := by rw [hxs, hyl, linspace_length]
  unfold atIndex at hxi hxi'
  rw [List.getElem?_eq_getElem (by omega)] at hxi
  rw [List.getElem?_eq_getElem (by rw [mirror_length]; omega), mirror_getElem] at hxi'
  cases hxi
  cases hxi'
  simp only [hxl, ← hsame]

example (kde : KdeFn) (hkde : KdeOk kde) : ∃ c, Chain.make (skewArgs .maxCentral) = .ok c ∧ ∃ l x u l' x' u',
    parameterSummary kde c "x" = .ok ⟨some l, some x, some u⟩ ∧
    parameterSummary kde (flipped c "x") "x" = .ok ⟨some l', some x', some u'⟩ ∧ x' = -x := by
  obtain ⟨c, hc, ha, hst, hg, hk, hcol, hd, he, -, hys, l, x, u, l', x', u', h1, h2⟩ :=
    skew_flipped kde hkde .maxCentral (.inr rfl)
  refine ⟨c, hc, l, x, u, l', x', u', h1, h2, C129_peak_partial kde c ha hg hk "x" hcol _ hd 0 1 2 he hst l x u l' x' u' h1 h2 ?_⟩
  intro m hm i j hi hj h1 h2
  have e := le_antisymm (h2 _ (List.getElem_mem hi)) (h1 _ (List.getElem_mem hj))
  simp only [hys m hm, List.getElem_map, linspace_getElem, gridSize_eq] at e
  have : (i : ℝ) = j := by linarith
  exact_mod_cast this

/-! ## The range -/

/-- **C129** (negation for ranges). Of the points 0, 1, 2 the lowest falls outside the range; with the opposite sign it is the point
that was the highest. -/
theorem C129_violated_range : ∃ l u l' u', getExtents ([0, 1, 2] : List ℝ) [1, 1, 1] false true false true = .ok (l, u) ∧
    getExtents (([0, 1, 2] : List ℝ).map (- ·)) [1, 1, 1] false true false true = .ok (l', u') ∧
    ¬ l ≤ 0 ∧ 2 ≤ u ∧ ¬ l' ≤ -2 ∧ -0 ≤ u' ∧ l' ≠ -u ∧ u' ≠ -l := by
  have h2 : getExtents ([-2, -1, 0] : List ℝ) [1, 1, 1] false true false true = .ok (8007 / 10000 - 2, 21993 / 10000 - 2) := by
    have := getExtents_affine (a := (1 : ℝ)) (b := -2) one_pos (data := [0, 1, 2]) [1, 1, 1] ⟨0, by simp, 1, by simp, one_pos⟩
      false true false true
    rw [three_extents] at this
    simp only [List.map_cons, List.map_nil, affine, Except.map, Prod.map] at this
    norm_num at this ⊢
    exact this
  have h3 : getExtents (([0, 1, 2] : List ℝ).map (- ·)) [1, 1, 1] false true false true =
      .ok (8007 / 10000 - 2, 21993 / 10000 - 2) := by
    rw [← h2]
    have hsame : SameMass ([-2, -1, 0] : List ℝ) [1, 1, 1] (([0, 1, 2] : List ℝ).map (- ·)) ([1, 1, 1] : List ℝ) := by
      refine ⟨rfl, rfl, fun x => ?_, fun g => ?_⟩
      · simp
        tauto
      · simp
        ring
    exact getExtents_mass hsame _ _ _ _
  exact ⟨_, _, _, _, three_extents, h3, by norm_num, by norm_num, by norm_num, by norm_num, by norm_num, by norm_num⟩

/-! ## The text -/

section
variable {K : Type} [Field K] [LinearOrder K] [IsStrictOrderedRing K] [FloorRing K]

/-- A number with its two errors as it is written: signs apart. -/
def Spec.written (usePm neg : Bool) (number upper lower : String) : String :=
  (if neg then "-" else "") ++ number ++
    (if usePm && upper == lower then "\\pm " ++ lower else "^{+" ++ upper ++ "}_{-" ++ lower ++ "}")

theorem unitsText_chars (d n : Nat) : '-' ∉ unitsText d n := by
  intro h
  unfold unitsText at h
  rcases List.mem_append.1 h with h | h
  · exact absurd (decDigits_isDigit _ _ h) (by decide)
  · split at h
    · cases h
    · rcases List.mem_cons.1 h with h | h
      · exact absurd h (by decide)
      · exact absurd (lastDigits_isDigit _ _ _ h) (by decide)

theorem unitsText_zero (d : Nat) : ∀ ch ∈ unitsText d 0, ch = '0' ∨ ch = '.' := by
  intro ch h
  unfold unitsText at h
  rcases List.mem_append.1 h with h | h
  · left
    simpa [decDigits] using h
  · split at h
    · cases h
    · rcases List.mem_cons.1 h with h | h
      · exact .inr h
      · left
        simp only [lastDigits, List.mem_map] at h
        obtain ⟨i, -, rfl⟩ := h
        simp [digitChar]

theorem text_split (d : Nat) (s : Signed K) : s.text d = (if s.neg then "-" else "") ++ (Signed.text d ⟨false, s.abs⟩) := by
  unfold Signed.text
  rw [String.ofList_append]
  cases s.neg <;> simp

/-- **C129** for the text. The text of a number with the opposite sign is the same digits, the errors exchanged, and the minus sign on
the other one; where the centre is rounded to nothing (`shown = false`) neither has a minus sign. (The full property would have none
whenever the number written is zero: see `C129_violated_text`.) -/
theorem C129_text_partial (l c u : K) (usePm : Bool) (text : String) (h : formatLimits l c u usePm = .ok text) :
    ∃ (shown : Bool) (number upper lower before after : String),
      '-' ∉ number.toList ∧ (shown = false → ∀ ch ∈ number.toList, ch = '0' ∨ ch = '.') ∧
      text = before ++ written usePm (decide (c < 0) && shown) number upper lower ++ after ∧
      formatLimits (-u) (-c) (-l) usePm = .ok (before ++ written usePm (decide (0 < c) && shown) number lower upper ++ after) := by
  have hres : resolution (-l - -c) (-c - -u) (-c) = resolution (u - c) (c - l) c := by
    rw [show -l - -c = c - l by ring, show -c - -u = u - c by ring]
    simp only [resolution, abs_neg, neg_eq_zero, ne_eq]
    rw [min_comm]
    by_cases h1 : u - c = 0 <;> by_cases h2 : c - l = 0 <;> simp [h1, h2]
  unfold formatLimits at h ⊢
  rw [hres]
  cases hr : resolution (u - c) (c - l) c with
  | none => rw [hr] at h; cases h
  | some res =>
    rw [hr] at h
    dsimp only at h ⊢
    rw [show -l - -c = c - l by ring, show -c - -u = u - c by ring]
    cases h
    set U := scaleBack res (scaleRound res (u - c)) with hU
    set L := scaleBack res (scaleRound res (c - l)) with hL
    set d := formatDecimals res
    set M := scaleBack res (scaleRound res c).fixZero with hM
    set M' := scaleBack res (scaleRound res (-c)).fixZero with hM'
    have habs : (scaleRound res (-c)).abs = (scaleRound res c).abs := by
      simp [scaleRound, Signed.round, Signed.mul, Signed.of]
    have hneg : (scaleRound res c).neg = decide (c < 0) := rfl
    have hneg' : (scaleRound res (-c)).neg = decide (0 < c) := by
      change decide (-c < 0) = _
      simp
    have back : ∀ s : Signed K, (scaleBack res s).neg = s.neg := by
      intro s
      unfold scaleBack
      split <;> rfl
    have backAbs : ∀ s t : Signed K, s.abs = t.abs → (scaleBack res s).abs = (scaleBack res t).abs := by
      intro s t h
      unfold scaleBack
      split
      · simp [Signed.mul, h]
      · exact h
    have fixAbs : ∀ s : Signed K, s.fixZero.abs = s.abs := by
      intro s
      unfold Signed.fixZero
      split
      · rename_i h
        exact h.symm
      · rfl
    have fixNeg : ∀ s : Signed K, s.fixZero.neg = (s.neg && !decide (s.abs = 0)) := by
      intro s
      unfold Signed.fixZero
      split <;> simp_all
    have e1 : M'.abs = M.abs := backAbs _ _ (by rw [fixAbs, fixAbs, habs])
    have e2 : M.neg = (decide (c < 0) && !decide ((scaleRound res c).abs = 0)) := by rw [hM, back, fixNeg, hneg]
    have e3 : M'.neg = (decide (0 < c) && !decide ((scaleRound res c).abs = 0)) := by rw [hM', back, fixNeg, hneg', habs]
    have w1 : ∀ (m : Signed K) (a b : Signed K), numberText usePm d m a b =
        written usePm m.neg (Signed.text d ⟨false, m.abs⟩) (a.text d) (b.text d) := by
      intro m a b
      unfold numberText written
      rw [text_split d m]
      split <;> simp [String.append_assoc]
    refine ⟨!decide ((scaleRound res c).abs = 0), Signed.text d ⟨false, M.abs⟩, U.text d, L.text d,
      (if (if res = 2 then 0 else formatFactor res) ≠ 0 then "\\left( " else ""),
      (if (if res = 2 then 0 else formatFactor res) ≠ 0 then
        " \\right) \\times 10^{" ++ toString (-(if res = 2 then 0 else formatFactor res)) ++ "}" else ""), ?_, ?_, ?_, ?_⟩
    · simp only [Signed.text, Bool.false_eq_true, if_false, List.nil_append, String.toList_ofList]
      exact unitsText_chars _ _
    · intro h0
      have hz : (scaleRound res c).abs = 0 := by simpa using h0
      have hMz : M.abs = 0 := by
        rw [hM]
        unfold scaleBack Signed.fixZero
        rw [if_pos hz]
        split <;> simp [Signed.mul]
      simp only [Signed.text, Bool.false_eq_true, if_false, List.nil_append, String.toList_ofList, hMz, zero_mul, halfEven_zero]
      exact unitsText_zero _
    · rw [w1, e2]
      generalize (if res = 2 then 0 else formatFactor res) = f
      split <;> simp [String.append_assoc]
    · rw [w1, e3, e1]
      generalize (if res = 2 then 0 else formatFactor res) = f
      split <;> simp [String.append_assoc]

end

/-- **C129** (negation for the text). Errors of 20 around -0.4: the centre is rounded to one decimal, found not to be `-0.0`, and then
written without decimals, as "-0". -/
theorem C129_violated_text :
    formatLimits (-204 / 10 : ℚ) (-4 / 10) (196 / 10) true = .ok "-0\\pm 20" ∧
    formatLimits (-196 / 10 : ℚ) (4 / 10) (204 / 10) true = .ok "0\\pm 20" := by
  constructor <;> decide +kernel

example : formatLimits (1 : ℚ) (31415 / 10000) 6 true = .ok "3.1^{+2.9}_{-2.1}" ∧
    formatLimits (-6 : ℚ) (-31415 / 10000) (-1) true = .ok "-3.1^{+2.1}_{-2.9}" := by constructor <;> decide +kernel

end CC
