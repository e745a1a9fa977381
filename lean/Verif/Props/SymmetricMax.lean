import Verif.Props.Symmetric
import Verif.Props.MaxSummary
import Verif.Lemmas.ThreePoint

/-! # C130, continued: symmetric distributions and the statistic `max` -/

set_option linter.unusedSectionVars false

namespace CC
open Spec

/-- Values that rise up to the middle of the list. -/
def Spec.RisesToMiddle (ys : List ℝ) : Prop := ∀ i j, i ≤ j → 2 * j < ys.length → ys.getD i 0 ≤ ys.getD j 0

/-- A cut of a symmetric curve with one peak is symmetric, but for the last point, which is outside. -/
theorem cut_symmetric {y : Nat → ℝ} {N s i1 i2 : Nat} {t : ℝ} (hpal : ∀ i, i < N → y (N - 1 - i) = y i)
    (hrise : ∀ i j, i ≤ j → 2 * j < N → y i ≤ y j) (hc : Cut y s t i1 i2) (h2 : i2 < N) : i1 + i2 = N := by
  obtain ⟨k, hk, hyk⟩ := hc.below_left
  have hs1 := hc.left_le
  have hs2 := hc.lt_right
  have hys := hc.inside s hs1 hs2
  have he := hc.below_right
  -- the mirror image of the right end
  have hle : N - 1 - i2 ≤ k := by
    by_contra hcon
    have hy' : y (N - 1 - i2) < t := by rw [hpal i2 h2]; exact he
    by_cases hlt : N - 1 - i2 < i2
    · exact absurd (hc.inside _ (by omega) hlt) (not_le.2 hy')
    · exact absurd ((hys.trans (hrise s i2 (by omega) (by omega)))) (not_le.2 he)
  have hge : k ≤ N - 1 - i2 := by
    by_contra hcon
    have hy' : y (N - 1 - k) < t := by rw [hpal k (by omega)]; exact hyk
    by_cases hlt : i1 ≤ N - 1 - k
    · exact absurd (hc.inside _ hlt (by omega)) (not_le.2 hy')
    · have := hrise (N - 1 - s) (N - 1 - k) (by omega) (by omega)
      rw [hpal s (by omega)] at this
      exact absurd (hys.trans this) (not_le.2 hy')
  omega

section
variable {m : Marginal ℝ}

theorem getD_reverse {l : List ℝ} (h : l.reverse = l) {i : Nat} (hi : i < l.length) : l.getD (l.length - 1 - i) 0 = l.getD i 0 := by
  have h1 : l.length - 1 - i < l.length := by omega
  rw [getD_eq h1, getD_eq hi]
  have := List.getElem_reverse (l := l) (i := i) (by simpa using hi)
  rw [← this]
  congr 1

/-- The continued density is symmetric and rises up to its middle. -/
theorem padY_symmetric (hl : 2 ≤ m.ys.length) (hpal : m.ys.reverse = m.ys) :
    ∀ i, i < 2000 + m.ys.length → padY 1000 m (2000 + m.ys.length - 1 - i) = padY 1000 m i := by
  intro i hi
  have h0 : m.ys.getD (m.ys.length - 1) 0 = m.ys.getD 0 0 := by
    simpa using getD_reverse hpal (i := 0) (by omega)
  unfold padY
  rw [h0]
  by_cases h1 : i < 1000
  · rw [if_neg (by omega), if_neg (by omega), if_pos h1]
    have : 2000 + m.ys.length - 1 - i - 1000 - m.ys.length = 999 - i := by omega
    rw [this, Nat.cast_sub (by omega)]
    push_cast
    ring
  · by_cases h2 : i < 1000 + m.ys.length
    · rw [if_neg (by omega), if_pos (by omega), if_neg h1, if_pos h2]
      have : 2000 + m.ys.length - 1 - i - 1000 = m.ys.length - 1 - (i - 1000) := by omega
      rw [this]
      exact getD_reverse hpal (by omega)
    · rw [if_pos (by omega), if_neg h1, if_neg h2]
      have h3 : 2000 + m.ys.length - 1 - i = 999 - (i - 1000 - m.ys.length) := by omega
      rw [h3, Nat.cast_sub (by omega)]
      push_cast
      ring

theorem padY_rises (hpos : ∀ y ∈ m.ys, 0 ≤ y) (hl : 2 ≤ m.ys.length) (hrise : RisesToMiddle m.ys) :
    ∀ i j, i ≤ j → 2 * j < 2000 + m.ys.length → padY 1000 m i ≤ padY 1000 m j := by
  intro i j hij hj
  have h0 : 0 ≤ m.ys.getD 0 0 := by
    rw [getD_eq (by omega)]
    exact hpos _ (List.getElem_mem _)
  unfold padY
  by_cases h1 : i < 1000
  · rw [if_pos h1]
    by_cases h2 : j < 1000
    · rw [if_pos h2]
      refine mul_le_mul_of_nonneg_left ?_ h0
      have : (i : ℝ) ≤ j := by exact_mod_cast hij
      norm_num
      linarith
    · rw [if_neg h2, if_pos (by omega)]
      have h3 := hrise 0 (j - 1000) (by omega) (by omega)
      refine le_trans ?_ h3
      have : (i : ℝ) ≤ 999 := by exact_mod_cast (by omega : i ≤ 999)
      refine mul_le_of_le_one_right h0 ?_
      norm_num
      linarith
  · rw [if_neg h1, if_pos (by omega), if_neg (by omega), if_pos (by omega)]
    exact hrise _ _ (by omega) (by omega)

/-- Where a symmetric cut begins and ends. -/
theorem padX_symmetric {a d : ℝ} {n i1 i2 : Nat} (hn : 2 ≤ n) (hxs : m.xs = (List.range n).map fun i : Nat => a + i * d)
    (h : i1 + i2 = 2000 + n) (h12 : i1 < i2) :
    (padX 1000 m i1 = a ∧ padX 1000 m i2 = a + (n - 1 : Nat) * d) ∨
      padX 1000 m i1 + padX 1000 m i2 = a + (a + (n - 1 : Nat) * d) + d := by
  have hlen : m.xs.length = n := by rw [hxs]; simp
  have hget : ∀ i, i < n → m.xs.getD i 0 = a + i * d := by
    intro i hi
    rw [getD_eq (by omega)]
    simp [hxs]
  have hfirst : m.xs.getD 0 0 = a := by rw [hget 0 (by omega)]; simp
  have hlast := hget (n - 1) (by omega)
  unfold padX
  rw [hlen, hfirst, hlast]
  by_cases h1 : i1 < 1000
  · left
    rw [if_pos h1, if_neg (by omega), if_neg (by omega)]
    exact ⟨rfl, rfl⟩
  · by_cases h2 : i1 = 1000
    · left
      subst h2
      rw [if_neg h1, if_pos (by omega), if_neg (by omega), if_neg (by omega)]
      exact ⟨hfirst, rfl⟩
    · right
      rw [if_neg h1, if_pos (by omega), if_neg (by omega), if_pos (by omega), hget _ (by omega), hget _ (by omega)]
      have e1 : ((i2 - 1000 : Nat) : ℝ) = n - (i1 - 1000 : Nat) := by
        have : i2 - 1000 = n - (i1 - 1000) := by omega
        rw [this, Nat.cast_sub (by omega)]
      have e2 : ((n - 1 : Nat) : ℝ) = n - 1 := by
        rw [Nat.cast_sub (by omega)]
        simp
      rw [e1, e2]
      ring

end

/-- The centre of symmetry is the middle of the fine grid, which has no point there. -/
theorem middle_of_grid {m : Marginal ℝ} {v h s : ℝ} {n : Nat} (hxs : m.xs = linspace v (v + (n - 1 : Nat) * h) gridSize)
    (hmx : mirror m.xs = m.xs.map (affine 1 (-(2 * s)))) : v + (v + (n - 1 : Nat) * h) = 2 * s := by
  have hgs : gridSize = 10000 := by unfold gridSize; rfl
  have hlen : m.xs.length = gridSize := by rw [hxs, linspace_length]
  have h1 := congrArg (·.getD 0 0) hmx
  rw [mirror_getD _ (by omega), getD_eq (by omega), getD_eq (by simp; omega)] at h1
  simp only [hxs, linspace_getElem, linspace_length, List.getElem_map, affine] at h1
  rw [hgs] at h1
  norm_num at h1
  linarith

theorem grid_point_off {m : Marginal ℝ} {v h s x : ℝ} {n k : Nat} (hxs : m.xs = linspace v (v + (n - 1 : Nat) * h) gridSize)
    (hmid : v + (v + (n - 1 : Nat) * h) = 2 * s) (hh : 0 ≤ (n - 1 : Nat) * h) (hk : m.xs[k]? = some x) :
    (n - 1 : Nat) * h / 9999 / 2 ≤ |x - s| := by
  have hgs : gridSize = 10000 := by unfold gridSize; rfl
  obtain ⟨hkl, hx⟩ := List.getElem?_eq_some_iff.1 hk
  have hkl' : k < 10000 := by
    have : m.xs.length = gridSize := by rw [hxs, linspace_length]
    omega
  simp only [hxs, linspace_getElem] at hx
  rw [hgs] at hx
  have hs : s = v + (n - 1 : Nat) * h / 2 := by linarith
  have hx' : x - s = ((n - 1 : Nat) * h / 9999) * ((k : ℝ) - 9999 / 2) := by
    rw [← hx, hs]
    push_cast
    ring
  rw [hx', abs_mul, abs_of_nonneg (by linarith)]
  have : (1 / 2 : ℝ) ≤ |(k : ℝ) - 9999 / 2| := by
    rcases Nat.lt_or_ge k 5000 with h | h
    · have : (k : ℝ) ≤ 4999 := by exact_mod_cast (by omega : k ≤ 4999)
      rw [abs_of_nonpos (by linarith)]
      linarith
    · have : (5000 : ℝ) ≤ k := by exact_mod_cast h
      rw [abs_of_nonneg (by linarith)]
      linarith
  have h0 : 0 ≤ (n - 1 : Nat) * h / 9999 := by linarith
  nlinarith

/-- **C130** (partial, `max`). The full property: for samples symmetric about `s` with one peak, both the centre and the middle of the
interval are `s`. Proved instead: the centre is at least half a step of the fine grid away from `s`, and the middle of the interval is
half a step above `s`, unless the interval is the whole range. -/
theorem C130_max_partial (kde : KdeFn) (hkde : KdeOk kde) (c : Chain ℝ) (hc : AcceptedNoShift c) (hg : c.grid = true)
    (hk : (c.cfg .kde : ℝ) = 0) (col : String) (hcol : col ≠ c.weightColumn) (data w : List ℝ) (hd : c.samples.get col = .ok data)
    (hw : c.weights = .ok w) (v h : ℝ) (n : Nat) (he : EvenGrid data v h n) (s : ℝ) (hsym : SymmetricAbout s data w)
    (hs : c.cfg .statistics = some .max)
    (hrise : ∀ m, smoothedHistogram kde c col false none = .ok m → RisesToMiddle m.ys)
    (b : Bound ℝ) (h1 : parameterSummary kde c col = .ok b) :
    ∃ x, b.center = some x ∧ (n - 1 : Nat) * h / 9999 / 2 ≤ |x - s| ∧ ∀ l u, b.lower = some l → b.upper = some u →
      (l = v ∧ u = v + (n - 1 : Nat) * h) ∨ (l + u) / 2 = s + (n - 1 : Nat) * h / 9999 / 2 := by
  simp only [parameterSummary, hs, bind_ok_iff] at h1
  obtain ⟨m, hm, h1⟩ := h1
  obtain ⟨hy, hxs, hyl, hcs, hmx, hmy⟩ := symmetric_marginal hc hg hk hcol hd hw he hsym hm
  have hmid := middle_of_grid hxs hmx
  have hgs : gridSize = 10000 := by unfold gridSize; rfl
  have hh : 0 ≤ ((n - 1 : Nat) : ℝ) * h := mul_nonneg (Nat.cast_nonneg _) he.1.le
  have hval : ValidMarginal m := by
    obtain ⟨a, hwf, hshift, hmk⟩ := hc
    obtain ⟨-, -, -, -, ⟨w', hw', -, hpos⟩, -⟩ := C07_accepted_chain_guarantees a c hwf hshift hmk
    exact C25_marginal_valid kde hkde c w' hw' hpos col false none m hm
  obtain ⟨k, x, y, hx, -, -, h2 | ⟨l, u, s', i1, i2, t, h2, -, -, hl, hu, -, -, hi2, -, -, hcut, -, -⟩⟩ :=
    C29_max_summary m hval (c.cfg .summaryArea)
  · rw [h2] at h1
    cases h1
    exact ⟨x, rfl, grid_point_off hxs hmid hh hx, fun l u hl => by cases hl⟩
  · rw [h2] at h1
    cases h1
    refine ⟨x, rfl, grid_point_off hxs hmid hh hx, ?_⟩
    intro l' u' el eu
    cases el
    cases eu
    have hlx : m.xs.length = gridSize := by rw [hxs, linspace_length]
    rw [hlx, ← hyl] at hi2
    have hN := cut_symmetric (padY_symmetric (by omega) hmy) (padY_rises (fun z hz => (hy z hz).le) (by omega) (hrise m hm)) hcut hi2
    have hlt : i1 < i2 := hcut.left_le.trans_lt hcut.lt_right
    have hxs' : m.xs = (List.range gridSize).map fun i : Nat => v + i * (((n - 1 : Nat) : ℝ) * h / 9999) := by
      rw [hxs, linspace]
      refine List.map_congr_left fun i _ => ?_
      rw [hgs]
      push_cast
      ring
    have hend : v + ((gridSize - 1 : Nat) : ℝ) * (((n - 1 : Nat) : ℝ) * h / 9999) = v + (n - 1 : Nat) * h := by
      rw [hgs]
      push_cast
      ring
    have := padX_symmetric (by omega) hxs' (by omega : i1 + i2 = 2000 + gridSize) hlt
    rw [hend, ← hl, ← hu] at this
    rcases this with this | this
    · exact .inl this
    · right
      linarith

/-- **C130** (negation, for every such chain). The highest point of the fine grid, which is reported as centre by `max` and
`max_central`, is not the centre of symmetry. -/
theorem C130_violated_peak (kde : KdeFn) (hkde : KdeOk kde) (c : Chain ℝ) (hc : AcceptedNoShift c) (hg : c.grid = true)
    (hk : (c.cfg .kde : ℝ) = 0) (col : String) (hcol : col ≠ c.weightColumn) (data w : List ℝ) (hd : c.samples.get col = .ok data)
    (hw : c.weights = .ok w) (v h : ℝ) (n : Nat) (he : EvenGrid data v h n) (s : ℝ) (hsym : SymmetricAbout s data w)
    (hs : c.cfg .statistics = some .max ∨ c.cfg .statistics = some .maxCentral) (b : Bound ℝ) (h1 : parameterSummary kde c col = .ok b) :
    ∃ x, b.center = some x ∧ x ≠ s := by
  have hn : (0 : ℝ) < (n - 1 : Nat) := by
    have := he.2.1
    exact_mod_cast (by omega : 0 < n - 1)
  have hpos0 := mul_pos hn he.1
  have fin : ∀ {m : Marginal ℝ} {k : Nat} {x : ℝ}, smoothedHistogram kde c col false none = .ok m → m.xs[k]? = some x → x ≠ s := by
    intro m k x hm hx
    obtain ⟨-, hxs, -, -, hmx, -⟩ := symmetric_marginal hc hg hk hcol hd hw he hsym hm
    have := grid_point_off hxs (middle_of_grid hxs hmx) hpos0.le hx
    rintro rfl
    rw [sub_self, abs_zero] at this
    linarith
  rcases hs with hs | hs
  · simp only [parameterSummary, hs, bind_ok_iff] at h1
    obtain ⟨m, hm, h1⟩ := h1
    have hval : ValidMarginal m := by
      obtain ⟨a, hwf, hshift, hmk⟩ := hc
      obtain ⟨-, -, -, -, ⟨w', hw', -, hpos⟩, -⟩ := C07_accepted_chain_guarantees a c hwf hshift hmk
      exact C25_marginal_valid kde hkde c w' hw' hpos col false none m hm
    obtain ⟨k, x, y, hx, -, -, h2 | ⟨l, u, s', i1, i2, t, h2, -⟩⟩ := C29_max_summary m hval (c.cfg .summaryArea)
    · rw [h2] at h1
      cases h1
      exact ⟨x, rfl, fin hm hx⟩
    · rw [h2] at h1
      cases h1
      exact ⟨x, rfl, fin hm hx⟩
  · simp only [parameterSummary, hs, summaryMaxCentral, bind_ok_iff, pure_ok_iff] at h1
    obtain ⟨m, hm, i, hi, xi, hxi, _, _, _, _, e⟩ := h1
    cases e
    refine ⟨xi, rfl, fin hm (k := i) ?_⟩
    unfold atIndex at hxi
    split at hxi
    · cases hxi
    · cases hxi
      assumption

section triangle
variable {m : Marginal ℝ} (hys : m.ys = (linspace 0 2 gridSize).map fun x => (1 + min x (2 - x)) / 4)
include hys

theorem triangle_length : m.ys.length = 10000 := by
  rw [hys, List.length_map, linspace_length]
  unfold gridSize
  rfl

theorem triangle_getD {j : Nat} (hj : j < 10000) : m.ys.getD j 0 = (1 + min (2 * (j : ℝ) / 9999) (2 - 2 * j / 9999)) / 4 := by
  have hgs : gridSize = 10000 := by unfold gridSize; rfl
  rw [getD_eq (by rw [triangle_length hys]; exact hj)]
  simp only [hys, List.getElem_map, linspace_getElem]
  rw [hgs]
  have : (0 : ℝ) + (j : ℝ) * ((2 - 0) / ((10000 : Nat) - 1)) = 2 * j / 9999 := by
    push_cast
    ring
  rw [← this]

theorem triangle_left {j : Nat} (hj : j < 5000) : m.ys.getD j 0 = (1 + 2 * (j : ℝ) / 9999) / 4 := by
  have : (j : ℝ) ≤ 4999 := by exact_mod_cast (by omega : j ≤ 4999)
  rw [triangle_getD hys (by omega), min_eq_left]
  linarith

theorem triangle_rises : RisesToMiddle m.ys := by
  intro i j hij hj
  rw [triangle_length hys] at hj
  rw [triangle_left hys (by omega), triangle_left hys (by omega)]
  have : (i : ℝ) ≤ j := by exact_mod_cast hij
  linarith

theorem triangle_reverse : m.ys.reverse = m.ys := by
  have hl := triangle_length hys
  refine List.ext_getElem (by simp) fun i h1 h2 => ?_
  rw [List.getElem_reverse, ← getD_eq (by omega), ← getD_eq (by omega), hl, triangle_getD hys (by omega), triangle_getD hys (by omega)]
  have : ((10000 - 1 - i : Nat) : ℝ) = 9999 - i := by
    rw [Nat.cast_sub (by omega)]
    norm_num
  rw [this, min_comm]
  congr 3 <;> ring

theorem triangle_bounds {j : Nat} (hj : j < 10000) : 1 / 4 ≤ m.ys.getD j 0 ∧ m.ys.getD j 0 ≤ 1 / 2 := by
  rw [triangle_getD hys hj]
  have h1 : (j : ℝ) ≤ 9999 := by exact_mod_cast (by omega : j ≤ 9999)
  have h0 : (0 : ℝ) ≤ j := Nat.cast_nonneg _
  have h2 : (0 : ℝ) ≤ min (2 * (j : ℝ) / 9999) (2 - 2 * j / 9999) := le_min (by linarith) (by linarith)
  have h3 : min (2 * (j : ℝ) / 9999) (2 - 2 * j / 9999) ≤ 1 := by
    rcases le_total (2 * (j : ℝ) / 9999) 1 with h | h
    · exact (min_le_left _ _).trans h
    · exact (min_le_right _ _).trans (by linarith)
  constructor <;> linarith

theorem triangle_pos : ∀ y ∈ m.ys, 0 ≤ y := by
  intro y hy
  obtain ⟨i, hi, rfl⟩ := List.getElem_of_mem hy
  have := triangle_length hys
  have := (triangle_bounds hys (j := i) (by omega)).1
  rw [getD_eq hi] at this
  linarith

theorem triangle_pad {i : Nat} (hi : i < 12000) : 0 ≤ padY 1000 m i ∧ padY 1000 m i ≤ 1 / 2 := by
  have hl := triangle_length hys
  have hsym := padY_symmetric (m := m) (by omega) (triangle_reverse hys)
  have left : ∀ i, i < 11000 → 0 ≤ padY 1000 m i ∧ padY 1000 m i ≤ 1 / 2 := by
    intro i hi
    unfold padY
    split
    · rename_i h1
      rw [triangle_left hys (by omega)]
      have : (i : ℝ) ≤ 999 := by exact_mod_cast (by omega : i ≤ 999)
      have : (0 : ℝ) ≤ i := Nat.cast_nonneg _
      norm_num
      constructor <;> linarith
    · rename_i h1
      rw [if_pos (by omega)]
      have := triangle_bounds hys (j := i - 1000) (by omega)
      exact ⟨by linarith, this.2⟩
  rcases Nat.lt_or_ge i 11000 with h | h
  · exact left i h
  · have e := hsym i (by omega)
    rw [← e]
    exact left _ (by omega)

theorem triangle_main {i : Nat} (h1 : 1000 ≤ i) (h2 : i < 11000) : 1 / 4 ≤ padY 1000 m i := by
  have hl := triangle_length hys
  unfold padY
  rw [if_neg (by omega), if_pos (by omega)]
  exact (triangle_bounds hys (by omega)).1

/-- In the left half the density rises by at least 1/19998 in two steps. -/
theorem triangle_slope {i j : Nat} (hij : i + 2 ≤ j) (hj : j < 6000) : padY 1000 m i + 1 / 20000 ≤ padY 1000 m j := by
  have hl := triangle_length hys
  have hij' : (i : ℝ) + 2 ≤ j := by exact_mod_cast hij
  unfold padY
  by_cases h1 : j < 1000
  · rw [if_pos (by omega), if_pos h1, triangle_left hys (by omega)]
    norm_num
    linarith
  · rw [if_neg h1, if_pos (by omega : j < 1000 + m.ys.length)]
    rw [triangle_left hys (by omega : j - 1000 < 5000)]
    have e : ((j - 1000 : Nat) : ℝ) = j - 1000 := by
      rw [Nat.cast_sub (by omega)]
      norm_num
    rw [e]
    by_cases h2 : i < 1000
    · rw [if_pos h2, triangle_left hys (by omega)]
      have : (i : ℝ) ≤ 999 := by exact_mod_cast (by omega : i ≤ 999)
      have : (1000 : ℝ) ≤ j := by exact_mod_cast (by omega : 1000 ≤ j)
      norm_num
      linarith
    · rw [if_neg h2, if_pos (by omega), triangle_left hys (by omega : i - 1000 < 5000)]
      have e : ((i - 1000 : Nat) : ℝ) = i - 1000 := by
        rw [Nat.cast_sub (by omega)]
        norm_num
      rw [e]
      linarith

theorem triangle_total : 2500 ≤ ∑ i ∈ Finset.range 12000, padY 1000 m i := by
  have h1 : ∑ i ∈ Finset.Ico 1000 11000, padY 1000 m i ≤ ∑ i ∈ Finset.range 12000, padY 1000 m i := by
    refine Finset.sum_le_sum_of_subset_of_nonneg ?_ fun i hi _ => (triangle_pad hys (Finset.mem_range.1 hi)).1
    intro i hi
    rw [Finset.mem_Ico] at hi
    rw [Finset.mem_range]
    omega
  have h2 := Finset.card_nsmul_le_sum (Finset.Ico 1000 11000) (padY 1000 m) (1 / 4) fun i hi => by
    rw [Finset.mem_Ico] at hi
    exact triangle_main hys hi.1 hi.2
  rw [Nat.card_Ico, nsmul_eq_mul] at h2
  norm_num at h2
  linarith

/-- A few points have little mass. -/
theorem triangle_few {a b k : Nat} (hb : b ≤ 12000) (hk : b ≤ a + k) :
    ∑ i ∈ Finset.Ico a b, padY 1000 m i ≤ k / 2 := by
  have := Finset.sum_le_card_nsmul (Finset.Ico a b) (padY 1000 m) (1 / 2) fun i hi => by
    rw [Finset.mem_Ico] at hi
    exact (triangle_pad hys (by omega)).2
  rw [Nat.card_Ico, nsmul_eq_mul] at this
  have h2 : ((b - a : Nat) : ℝ) ≤ k := by exact_mod_cast (by omega : b - a ≤ k)
  linarith

theorem triangle_nonneg {a b : Nat} (hb : b ≤ 12000) : 0 ≤ ∑ i ∈ Finset.Ico a b, padY 1000 m i :=
  Finset.sum_nonneg fun i hi => by
    rw [Finset.mem_Ico] at hi
    exact (triangle_pad hys (by omega)).1

/-- The range has at least three quarters of the mass. -/
theorem triangle_whole (hl : m.xs.length = 10000) {i1 i2 : Nat} (h1 : i1 ≤ 1000) (h2 : 11000 ≤ i2) (h3 : i2 < 12000) :
    3 / 4 ≤ padMass 1000 m i1 i2 := by
  unfold padMass
  rw [hl]
  change 3 / 4 ≤ _ / ∑ i ∈ Finset.range 12000, padY 1000 m i
  have htot := triangle_total hys
  rw [le_div_iff₀ (by linarith)]
  have e : ∑ i ∈ Finset.range 12000, padY 1000 m i = ∑ i ∈ Finset.Ico 0 1001, padY 1000 m i + ∑ i ∈ Finset.Ico 1001 11000, padY 1000 m i +
      ∑ i ∈ Finset.Ico 11000 12000, padY 1000 m i := by
    rw [Finset.sum_Ico_consecutive _ (by omega) (by omega), Finset.sum_Ico_consecutive _ (by omega) (by omega), Finset.range_eq_Ico]
  have hl0 := triangle_length hys
  have hfirst : ∑ i ∈ Finset.Ico 0 1001, padY 1000 m i ≤ 1001 / 4 := by
    have := Finset.sum_le_card_nsmul (Finset.Ico 0 1001) (padY 1000 m) (1 / 4) fun i hi => by
      rw [Finset.mem_Ico] at hi
      refine (padY_rises (triangle_pos hys) (by omega) (triangle_rises hys) i 1000 (by omega) (by omega)).trans ?_
      unfold padY
      rw [if_neg (by omega), if_pos (by omega), triangle_left hys (by omega)]
      norm_num
    rw [Nat.card_Ico, nsmul_eq_mul] at this
    refine this.trans ?_
    norm_num
  have hlast : ∑ i ∈ Finset.Ico 11000 12000, padY 1000 m i ≤ 1000 / 4 := by
    have := Finset.sum_le_card_nsmul (Finset.Ico 11000 12000) (padY 1000 m) (1 / 4) fun i hi => by
      rw [Finset.mem_Ico] at hi
      have e := padY_symmetric (m := m) (by omega) (triangle_reverse hys) i (by omega)
      rw [← e]
      refine (padY_rises (triangle_pos hys) (by omega) (triangle_rises hys) _ 1000 (by omega) (by omega)).trans ?_
      unfold padY
      rw [if_neg (by omega), if_pos (by omega), triangle_left hys (by omega)]
      norm_num
    rw [Nat.card_Ico, nsmul_eq_mul] at this
    norm_num at this
    linarith
  have hsub : ∑ i ∈ Finset.Ico 1001 11000, padY 1000 m i ≤ ∑ i ∈ Finset.Ico (i1 + 1) (i2 + 1), padY 1000 m i := by
    refine Finset.sum_le_sum_of_subset_of_nonneg ?_ fun i hi _ => ?_
    · intro i hi
      rw [Finset.mem_Ico] at hi ⊢
      omega
    · rw [Finset.mem_Ico] at hi
      exact (triangle_pad hys (by omega)).1
  linarith

theorem triangle_summary (hval : ValidMarginal m) (hl : m.xs.length = 10000) (hx : ∀ i, i < 10000 → m.xs.getD i 0 = 2 * (i : ℝ) / 9999) :
    ∃ l x u, summaryMax m (6827 / 10000) = .ok ⟨some l, some x, some u⟩ ∧ l ≠ 0 := by
  have hyl := triangle_length hys
  have hN : 2000 + m.ys.length = 12000 := by omega
  have hsym := padY_symmetric (m := m) (by omega) (triangle_reverse hys)
  have hrise := padY_rises (m := m) (triangle_pos hys) (by omega) (triangle_rises hys)
  rw [hN] at hsym hrise
  have htot := triangle_total hys
  obtain ⟨k, x, y, -, -, -, h2 | ⟨l, u, s', i1, i2, t, h2, -, -, hlx, hux, -, -, hi2, -, -, hcut, hmass, -⟩⟩ :=
    C29_max_summary m hval (6827 / 10000)
  · exfalso
    obtain ⟨s, peak, lo, hi, hs, hps, -, hmax, hlo0, hlt, hhi, hdiff, hlo, hhi'⟩ := C30_gives_up_only_at_jump m hval _ _ h2
    have hsN : s < 12000 := by omega
    have hpeak : peak ≤ 1 / 2 := by rw [← hps]; exact (triangle_pad hys hsN).2
    have hgap : hi - lo ≤ 1 / 100000 := by
      rw [hdiff]
      refine le_trans (div_le_div_of_nonneg_right hpeak (by positivity)) ?_
      norm_num
    have hpk : 1 / 4 ≤ peak := by
      have := triangle_bounds hys (j := 0) (by omega)
      refine this.1.trans (hmax _ ?_)
      rw [getD_eq (by omega)]
      exact List.getElem_mem _
    have hmassdef : ∀ a b, padMass 1000 m a b = (∑ i ∈ Finset.Ico (a + 1) (b + 1), padY 1000 m i) / ∑ i ∈ Finset.range 12000, padY 1000 m i := by
      intro a b
      unfold padMass
      rw [hl]
    rcases hlo with rfl | ⟨i1, i2, hi2, hcut, hmass⟩
    · rcases hhi' with rfl | ⟨j1, j2, hj2, hcut', hmass'⟩
      · linarith
      · rw [hl] at hj2
        have hj := cut_symmetric hsym hrise hcut' (by omega)
        obtain ⟨k', hk', hyk⟩ := hcut'.below_left
        have h12 := hcut'.left_le.trans_lt hcut'.lt_right
        have : k' < 1000 := by
          by_contra hcon
          have := triangle_main hys (i := k') (by omega) (by omega)
          linarith
        have := triangle_whole hys hl (i1 := j1) (i2 := j2) (by omega) (by omega) (by omega)
        linarith
    · rw [hl] at hi2
      have hij := cut_symmetric hsym hrise hcut (by omega)
      have h12 := hcut.left_le.trans_lt hcut.lt_right
      rw [hmassdef, le_div_iff₀ (by linarith)] at hmass
      rcases hhi' with hhp | ⟨j1, j2, hj2, hcut', hmass'⟩
      · -- only a few points are as high as the peak
        have h1 := hcut.inside i1 le_rfl h12
        have h3 : 5998 ≤ i1 := by
          by_contra hcon
          have := triangle_slope hys (i := i1) (j := 5999) (by omega) (by omega)
          have h4 : padY 1000 m 5999 ≤ peak := by
            unfold padY
            rw [if_neg (by omega), if_pos (by omega)]
            refine hmax _ ?_
            rw [getD_eq (by omega)]
            exact List.getElem_mem _
          linarith
        have := triangle_few hys (a := i1 + 1) (b := i2 + 1) (k := 4) (by omega) (by omega)
        norm_num at this
        linarith
      · rw [hl] at hj2
        have hj := cut_symmetric hsym hrise hcut' (by omega)
        have h12' := hcut'.left_le.trans_lt hcut'.lt_right
        rw [hmassdef, div_le_iff₀ (by linarith)] at hmass'
        obtain ⟨k', hk', hyk⟩ := hcut'.below_left
        have h1 := hcut.inside i1 le_rfl h12
        have h3 : j1 ≤ i1 + 2 := by
          by_contra hcon
          have := triangle_slope hys (i := i1) (j := k') (by omega) (by omega)
          linarith
        have h4 : ∑ i ∈ Finset.Ico (i1 + 1) (i2 + 1), padY 1000 m i ≤ ∑ i ∈ Finset.Ico (j1 + 1) (j2 + 1), padY 1000 m i + 2 := by
          rcases Nat.lt_or_ge i1 j1 with hlt | hge
          · rw [← Finset.sum_Ico_consecutive _ (by omega : i1 + 1 ≤ j1 + 1) (by omega : j1 + 1 ≤ i2 + 1),
              ← Finset.sum_Ico_consecutive _ (by omega : j1 + 1 ≤ j2 + 1) (by omega : j2 + 1 ≤ i2 + 1)]
            have e1 := triangle_few hys (a := i1 + 1) (b := j1 + 1) (k := 2) (by omega) (by omega)
            have e2 := triangle_few hys (a := j2 + 1) (b := i2 + 1) (k := 2) (by omega) (by omega)
            norm_num at e1 e2
            linarith
          · have : ∑ i ∈ Finset.Ico (i1 + 1) (i2 + 1), padY 1000 m i ≤ ∑ i ∈ Finset.Ico (j1 + 1) (j2 + 1), padY 1000 m i := by
              refine Finset.sum_le_sum_of_subset_of_nonneg ?_ fun i hi _ => ?_
              · intro i hi
                rw [Finset.mem_Ico] at hi ⊢
                omega
              · rw [Finset.mem_Ico] at hi
                exact (triangle_pad hys (by omega)).1
            linarith
        linarith
  · refine ⟨l, x, u, h2, ?_⟩
    rintro rfl
    rw [hl] at hi2
    have hi := cut_symmetric hsym hrise hcut (by omega)
    have h12 := hcut.left_le.trans_lt hcut.lt_right
    have h1 : i1 ≤ 1000 := by
      by_contra hcon
      unfold padX at hlx
      rw [if_neg (by omega), if_pos (by omega), hx _ (by omega)] at hlx
      have : (0 : ℝ) < (i1 - 1000 : Nat) := by exact_mod_cast (by omega : 0 < i1 - 1000)
      linarith
    have := triangle_whole hys hl h1 (by omega : 11000 ≤ i2) (by omega)
    have h3 := (abs_lt.1 hmass).2
    linarith

end triangle

/-- The points 0, 1 and 2 with weights 1, 2 and 1. -/
noncomputable def triangleFrame : Frame ℝ := ⟨[.int 0, .int 1, .int 2], [("a", [0, 1, 2]), ("weight", [1, 2, 1])]⟩

theorem triangleFrame_wf : triangleFrame.WF := ⟨by simp [triangleFrame], by simp [triangleFrame]⟩

noncomputable def triangleArgs : Args ℝ :=
  { samples := triangleFrame.toRaw, name := "triangle", grid := true, config := [⟨.statistics, some .max⟩] }

/-- **C130** (negation, concrete). The middle of the interval that `max` reports for the points 0, 1 and 2 with weights 1, 2 and 1 is
1 + 1/9999, and the reported maximum is as far from 1. -/
theorem C130_violated_max (kde : KdeFn) (hkde : KdeOk kde) : ∃ c, Chain.make triangleArgs = .ok c ∧
    ∃ l x u, parameterSummary kde c "a" = .ok ⟨some l, some x, some u⟩ ∧ (l + u) / 2 = 1 + 1 / 9999 ∧ 1 / 9999 ≤ |x - 1| := by
  obtain ⟨c, hc, hsam, hwc, -, hp, hg, -, -, hcfg⟩ :=
    plain_chain_cfg (K := ℝ) true [⟨.statistics, some .max⟩] rfl
      (by change (0 : ℝ) ≤ 6827 / 10000 ∧ (6827 / 10000 : ℝ) ≤ 1; constructor <;> norm_num)
      (by change (1 : ℝ) ≤ 10; norm_num) rfl rfl (by intro h; cases h) triangleFrame triangleFrame_wf
      (by simp [triangleFrame]) (w := [1, 2, 1]) rfl (by simp) "triangle" 1 le_rfl (one_dvd _)
  have hd : c.samples.get "a" = .ok [0, 1, 2] := by rw [hsam]; rfl
  have hw : c.weights = .ok [1, 2, 1] := by rw [Chain.weights, hsam, hwc]; rfl
  have hk : (c.cfg .kde : ℝ) = 0 := by rw [hcfg]; rfl
  have hst : c.cfg .statistics = some .max := by rw [hcfg]; rfl
  have har : (c.cfg .summaryArea : ℝ) = 6827 / 10000 := by rw [hcfg]; rfl
  have hsm : c.smoothValue = 0 := by
    have : c.cfg .smooth = none := by rw [hcfg]; rfl
    simp only [Chain.smoothValue, this, hg, if_true]
  obtain ⟨m, hm, hv, hxs, hys⟩ := triangle_marginal hd hw hg hk hsm hp hkde false
  have hgs : gridSize = 10000 := by unfold gridSize; rfl
  have hxl : m.xs.length = 10000 := by rw [hxs, linspace_length, hgs]
  obtain ⟨l, x, u, h1, hne⟩ := triangle_summary hys hv hxl (fun i hi => by
    rw [getD_eq (by omega)]
    simp only [hxs, linspace_getElem]
    rw [hgs]
    norm_num
    ring)
  have he : EvenGrid [0, 1, 2] 0 1 3 := by
    refine ⟨one_pos, by omega, fun x => ?_⟩
    constructor
    · intro hx
      simp only [List.mem_cons, List.not_mem_nil, or_false] at hx
      rcases hx with rfl | rfl | rfl
      · exact ⟨0, by omega, by simp⟩
      · exact ⟨1, by omega, by simp⟩
      · exact ⟨2, by omega, by simp⟩
    · rintro ⟨i, hi, rfl⟩
      interval_cases i <;> simp
  have hsym : SymmetricAbout 1 [0, 1, 2] [1, 2, 1] := by
    unfold SymmetricAbout
    simp only [List.map_cons, List.map_nil, List.zip_cons_cons, List.zip_nil_right]
    norm_num
    exact List.reverse_perm [((0 : ℝ), (1 : ℝ)), (1, 2), (2, 1)]
  have hs : parameterSummary kde c "a" = .ok ⟨some l, some x, some u⟩ := by
    simp only [parameterSummary, hst, har, hm, bind, Except.bind, h1]
  obtain ⟨x', e, r1, r2⟩ := C130_max_partial kde hkde c ⟨_, toRaw_WF.2 triangleFrame_wf, rfl, hc⟩ hg hk "a" (by rw [hwc]; decide) _ _ hd hw
    0 1 3 he 1 hsym hst (fun m' hm' => by rw [hm] at hm'; cases hm'; exact triangle_rises hys) _ hs
  cases e
  refine ⟨c, hc, l, x, u, hs, ?_, ?_⟩
  · rcases r2 l u rfl rfl with r2 | r2
    · exact absurd r2.1 hne
    · rw [r2]
      norm_num
  · norm_num at r1 ⊢
    exact r1

end CC
