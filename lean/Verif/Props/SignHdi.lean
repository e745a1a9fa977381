import Verif.Props.SymmetricMax
import Verif.Props.Hdi
import Verif.Props.Divide
import Mathlib.Algebra.Order.Floor.Semiring

/-! # C129 and C130, continued: the statistic `hdi` -/

set_option linter.unusedSectionVars false

namespace CC
open Spec

section
variable {m : Marginal ℝ} {v d : ℝ} {N : Nat}

/-- The places on an even grid. -/
theorem places_even (hxs : m.xs = (List.range N).map fun i : Nat => v + i * d) (hN : 1 ≤ N) {k : Nat} {z : ℝ} :
    (places m)[k]? = some z ↔ k ≤ N ∧ z = v + (k - 1 : Nat) * d := by
  have hp : places m = v :: m.xs := by
    obtain ⟨N, rfl⟩ : ∃ M, N = M + 1 := ⟨N - 1, by omega⟩
    simp [places, hxs, List.range_succ_eq_map]
  rw [hp]
  cases k with
  | zero => simp [eq_comm]
  | succ k =>
    rw [List.getElem?_cons_succ, hxs]
    by_cases hk : k < N
    · simp [hk, eq_comm]
    · simp [hk]

/-- The masses up to a place. -/
theorem masses_take (hm : ValidMarginal m) {k : Nat} {p : ℝ} :
    (masses m)[k]? = some p ↔ k ≤ m.ys.length ∧ p = (m.ys.take k).sum / m.ys.sum := by
  have hl : m.cs.length = m.ys.length := by rw [hm.cs_length, hm.ys_length]
  cases k with
  | zero => simp [masses, eq_comm]
  | succ k =>
    rw [masses, List.getElem?_cons_succ]
    by_cases hk : k < m.cs.length
    · rw [List.getElem?_eq_getElem hk, hm.cumulative k hk, Option.some.injEq]
      constructor
      · intro h
        exact ⟨by omega, h.symm⟩
      · intro h
        exact h.2.symm
    · rw [List.getElem?_eq_none (by omega)]
      constructor
      · intro h
        cases h
      · intro h
        omega

theorem even_apart (hxs : m.xs = (List.range N).map fun i : Nat => v + i * d) (hd : 1 / 10 ^ 12 < d) :
    m.xs.Pairwise fun x y => 1 / 10 ^ 12 < y - x := by
  rw [hxs, List.pairwise_map]
  refine List.pairwise_lt_range.imp fun {a b} h => ?_
  have h1 : (a : ℝ) + 1 ≤ b := by exact_mod_cast h
  have h0 : (0 : ℝ) < d := lt_trans (by positivity) hd
  nlinarith

theorem first_mass (hm : ValidMarginal m) {a : ℝ} (hfine : ∀ y ∈ m.ys, y < a * m.ys.sum) :
    ∃ c0, m.cs.head? = some c0 ∧ c0 < a := by
  have hl : m.cs.length = m.ys.length := by rw [hm.cs_length, hm.ys_length]
  have h2 := hm.two
  have hc := hm.cs_length
  refine ⟨m.cs[0], by rw [List.head?_eq_getElem?, List.getElem?_eq_getElem], ?_⟩
  rw [hm.cumulative 0 (by omega), div_lt_iff₀ hm.mass_pos]
  have := hfine _ (List.getElem_mem (by omega : 0 < m.ys.length))
  cases hy : m.ys with
  | nil =>
    have := hm.ys_length
    simp [hy] at this
    omega
  | cons y ys => simpa [hy] using this

/-- The mass of the mirror image of an interval. -/
theorem take_mirror (ys : List ℝ) (k : Nat) :
    (ys.reverse.take k).sum = ys.sum - (ys.take (ys.length - k)).sum := by
  rw [List.take_reverse, List.sum_reverse]
  have := congrArg List.sum (List.take_append_drop (ys.length - k) ys)
  rw [List.sum_append] at this
  linarith

/-- The HDI of the mirror image is at most a step of the grid wider. -/
theorem hdi_mirror_width {m' : Marginal ℝ} {v' : ℝ} (hm : ValidMarginal m) (hm' : ValidMarginal m')
    (hxs : m.xs = (List.range N).map fun i : Nat => v + i * d) (hxs' : m'.xs = (List.range N).map fun i : Nat => v' + i * d)
    (hys : m'.ys = m.ys.reverse) (hd : 1 / 10 ^ 12 < d) {a : ℝ} (ha : a ≤ 1) (hfine : ∀ y ∈ m.ys, y < a * m.ys.sum)
    {l x u l' x' u' : ℝ} (h : summaryHdi m a = .ok ⟨some l, some x, some u⟩)
    (h' : summaryHdi m' a = .ok ⟨some l', some x', some u'⟩) : u' - l' ≤ u - l + d + 1 / 10 ^ 12 := by
  have h0 : (0 : ℝ) < d := lt_trans (by positivity) hd
  have hN : m.ys.length = N := by rw [hm.ys_length, hxs]; simp
  have hN2 : 2 ≤ N := by have := hm.two; rw [hxs] at this; simpa using this
  obtain ⟨l0, x0, u0, e, -, -, i, j, p, q, hij, hl, hu, hp, hq, hpq, -⟩ := C31_hdi_mass hm a ha
  rw [h] at e
  cases e
  rw [places_even hxs (by omega)] at hl hu
  rw [masses_take hm] at hp hq
  obtain ⟨-, rfl⟩ := hl
  obtain ⟨hj, rfl⟩ := hu
  obtain ⟨-, rfl⟩ := hp
  obtain ⟨-, rfl⟩ := hq
  obtain ⟨c0, hc0, hc⟩ := first_mass hm' (a := a) (by
    intro y hy
    rw [hys] at hy ⊢
    rw [List.sum_reverse]
    exact hfine y (List.mem_reverse.1 hy))
  have hlen' : m'.ys.length = N := by rw [hys, List.length_reverse, hN]
  have key := C32_hdi_narrowest hm' a ha (even_apart hxs' hd) c0 hc0 hc l' x' u' h' (N - j) (N - i) _ _ _ _ (by omega)
    ((places_even hxs' (by omega)).2 ⟨by omega, rfl⟩) ((places_even hxs' (by omega)).2 ⟨by omega, rfl⟩)
    ((masses_take hm').2 ⟨by omega, rfl⟩) ((masses_take hm').2 ⟨by omega, rfl⟩) (by
      rw [hys, List.sum_reverse, take_mirror, take_mirror, hN,
        show N - (N - i) = i by omega, show N - (N - j) = j by omega]
      refine hpq.trans (le_of_eq ?_)
      ring)
  have e1 : ((N - i - 1 : Nat) : ℝ) = N - i - 1 := by
    rw [Nat.cast_sub (by omega), Nat.cast_sub (by omega)]
    simp
  have e2 : (N : ℝ) - j - 1 ≤ ((N - j - 1 : Nat) : ℝ) := by
    have : N ≤ N - j - 1 + j + 1 := by omega
    have : (N : ℝ) ≤ (N - j - 1 : Nat) + j + 1 := by exact_mod_cast this
    linarith
  have e3 : ((j - 1 : Nat) : ℝ) = j - 1 := by
    rw [Nat.cast_sub (by omega)]
    simp
  have e4 : ((i - 1 : Nat) : ℝ) ≤ i := by exact_mod_cast Nat.sub_le _ _
  rw [e1] at key
  rw [e3]
  nlinarith

/-- The HDI of a flat density lies at its lower end. -/
theorem flat_hdi (hm : ValidMarginal m) (hxs : m.xs = (List.range N).map fun i : Nat => v + i * d) (hd : 1 / 10 ^ 12 < d)
    (hflat : ∀ y ∈ m.ys, ∀ z ∈ m.ys, y = z) {a : ℝ} (ha : a ≤ 1) (hN1 : 1 < a * N) {l x u : ℝ}
    (h : summaryHdi m a = .ok ⟨some l, some x, some u⟩) : l = v ∧ u = v + (⌈a * N⌉₊ - 1 : Nat) * d := by
  have h0 : (0 : ℝ) < d := lt_trans (by positivity) hd
  have hN : m.ys.length = N := by rw [hm.ys_length, hxs]; simp
  have hN2 : 2 ≤ N := by have := hm.two; rw [hxs] at this; simpa using this
  have hNp : (0 : ℝ) < N := by exact_mod_cast (by omega : 0 < N)
  obtain ⟨y, hy⟩ : ∃ y, m.ys = List.replicate N y := by
    refine ⟨m.ys[0], List.eq_replicate_iff.2 ⟨hN, fun z hz => hflat z hz _ (List.getElem_mem _)⟩⟩
  have hyp : 0 < y := by
    have := hm.mass_pos
    rw [hy, List.sum_replicate, nsmul_eq_mul] at this
    exact (mul_pos_iff_of_pos_left hNp).1 this
  have hmass : ∀ k, k ≤ N → (m.ys.take k).sum / m.ys.sum = k / N := by
    intro k hk
    rw [hy, List.take_replicate, min_eq_left hk, List.sum_replicate, List.sum_replicate, nsmul_eq_mul, nsmul_eq_mul]
    field_simp
  obtain ⟨l0, x0, u0, e, -, -, i, j, p, q, hij, hl, hu, hp, hq, hpq, -⟩ := C31_hdi_mass hm a ha
  rw [h] at e
  cases e
  rw [places_even hxs (by omega)] at hl hu
  rw [masses_take hm] at hp hq
  obtain ⟨-, rfl⟩ := hl
  obtain ⟨hj, rfl⟩ := hu
  obtain ⟨-, rfl⟩ := hp
  obtain ⟨-, rfl⟩ := hq
  rw [hmass i (by omega), hmass j hj, ← sub_div, le_div_iff₀ hNp] at hpq
  have hw1 : ⌈a * N⌉₊ ≤ j - i := by
    rw [Nat.ceil_le, Nat.cast_sub hij.le]
    exact hpq
  have hw0 : 2 ≤ ⌈a * N⌉₊ := by
    have : 1 < ⌈a * N⌉₊ := Nat.lt_ceil.2 (by simpa using hN1)
    exact this
  obtain ⟨c0, hc0, hc⟩ := first_mass hm (a := a) (by
    intro z hz
    rw [hy] at hz
    rw [List.eq_of_mem_replicate hz, hy, List.sum_replicate, nsmul_eq_mul]
    nlinarith)
  have key := C32_hdi_narrowest hm a ha (even_apart hxs hd) c0 hc0 hc _ x _ h 0 ⌈a * N⌉₊ _ _ _ _ (by omega)
    ((places_even hxs (by omega)).2 ⟨by omega, rfl⟩) ((places_even hxs (by omega)).2 ⟨by omega, rfl⟩)
    ((masses_take hm).2 ⟨by omega, rfl⟩) ((masses_take hm).2 ⟨by omega, rfl⟩) (by
      rw [hmass 0 (by omega), hmass _ (by omega), ← sub_div, le_div_iff₀ hNp]
      simpa using Nat.le_ceil (a * N))
  have e1 : ((j - 1 : Nat) : ℝ) = j - 1 := by
    rw [Nat.cast_sub (by omega)]
    simp
  have e2 : ((⌈a * N⌉₊ - 1 : Nat) : ℝ) = ⌈a * N⌉₊ - 1 := by
    rw [Nat.cast_sub (by omega)]
    simp
  have hw1' : (⌈a * N⌉₊ : ℝ) ≤ j - i := by
    have : (⌈a * N⌉₊ : ℝ) ≤ (j - i : Nat) := by exact_mod_cast hw1
    rwa [Nat.cast_sub hij.le] at this
  rw [e1, e2] at key
  norm_num at key
  have hi : i = 0 := by
    by_contra hcon
    have e3 : ((i - 1 : Nat) : ℝ) = i - 1 := by
      rw [Nat.cast_sub (by omega)]
      simp
    rw [e3] at key
    norm_num at hd
    nlinarith
  subst hi
  norm_num at key hw1' ⊢
  norm_num at hd
  have : (j : ℝ) < ⌈a * N⌉₊ + 1 := by
    by_contra hcon
    nlinarith
  have hj2 : j < ⌈a * N⌉₊ + 1 := by exact_mod_cast this
  have : j = ⌈a * N⌉₊ := by omega
  left
  rw [this]

end

/-- The marginals that the HDI of a parameter and of its mirror image are read off. -/
theorem hdi_marginals (kde : KdeFn) (hkde : KdeOk kde) (c : Chain ℝ) (hc : AcceptedNoShift c) (hg : c.grid = true)
    (hk : (c.cfg .kde : ℝ) = 0) (col : String) (hcol : col ≠ c.weightColumn) (data : List ℝ) (hd : c.samples.get col = .ok data)
    (v h : ℝ) (n : Nat) (he : EvenGrid data v h n) (hs : c.cfg .statistics = some .hdi) (b : Bound ℝ)
    (h1 : parameterSummary kde c col = .ok b) :
    ∃ m m', smoothedHistogram kde c col true none = .ok m ∧ smoothedHistogram kde (flipped c col) col true none = .ok m' ∧
      ValidMarginal m ∧ ValidMarginal m' ∧ summaryHdi m (c.cfg .summaryArea) = .ok b ∧ (c.cfg .summaryArea : ℝ) ≤ 1 ∧
      (m.xs = (List.range 10000).map fun i : Nat => v + i * ((n - 1 : Nat) * h / 9999)) ∧
      (m'.xs = (List.range 10000).map fun i : Nat => -(v + (n - 1 : Nat) * h) + i * ((n - 1 : Nat) * h / 9999)) ∧
      m'.ys = m.ys.reverse := by
  obtain ⟨a, hwf, hshift, hmk⟩ := hc
  obtain ⟨hWF, -, -, -, ⟨w, hw, hwl, hpos⟩, -⟩ := C07_accepted_chain_guarantees a c hwf hshift hmk
  have hlen : w.length = data.length := by
    rw [hwl]
    exact (hWF.2 _ (get_mem hd)).symm
  simp only [parameterSummary, hs, bind_ok_iff] at h1
  obtain ⟨m, hm, h1⟩ := h1
  obtain ⟨hy, hxs, hyl, hcs, hfl⟩ := marginal_flipped hg hk hcol hd hw hpos hlen he hm
  have hw' : (flipped c col).weights = .ok w := by
    rw [Chain.weights] at hw ⊢
    change (rescaled c col (-1) 0).samples.get c.weightColumn = _
    rw [rescaled_get, if_neg hcol.symm, hw]
  have hgs : gridSize = 10000 := by unfold gridSize; rfl
  refine ⟨m, _, hm, hfl, C25_marginal_valid kde hkde c w hw hpos col true none m hm,
    C25_marginal_valid kde hkde _ w hw' hpos col true none _ hfl, h1, (accepted_settings hwf hshift hmk).2.1.2, ?_, ?_, rfl⟩
  · rw [hxs, linspace, hgs]
    refine List.map_congr_left fun i _ => ?_
    push_cast
    ring
  · dsimp only
    rw [hxs, ← linspace_mirror _ _ two_le_gridSize, linspace, hgs]
    refine List.map_congr_left fun i _ => ?_
    push_cast
    ring

/-- **C129** (partial, `hdi`). The full property: limits of the opposite sign, exchanged. Proved: the interval is as wide, up to a
step of the fine grid and the tolerance of the search, if no point of the marginal has the requested mass on its own. -/
theorem C129_hdi_width_partial (kde : KdeFn) (hkde : KdeOk kde) (c : Chain ℝ) (hc : AcceptedNoShift c) (hg : c.grid = true)
    (hk : (c.cfg .kde : ℝ) = 0) (col : String) (hcol : col ≠ c.weightColumn) (data : List ℝ) (hd : c.samples.get col = .ok data)
    (v h : ℝ) (n : Nat) (he : EvenGrid data v h n) (hs : c.cfg .statistics = some .hdi)
    (hstep : 1 / 10 ^ 12 < (n - 1 : Nat) * h / 9999)
    (hfine : ∀ m, smoothedHistogram kde c col true none = .ok m → ∀ y ∈ m.ys, y < c.cfg .summaryArea * m.ys.sum)
    (l x u l' x' u' : ℝ) (h1 : parameterSummary kde c col = .ok ⟨some l, some x, some u⟩)
    (h2 : parameterSummary kde (flipped c col) col = .ok ⟨some l', some x', some u'⟩) :
    |(u' - l') - (u - l)| ≤ (n - 1 : Nat) * h / 9999 + 1 / 10 ^ 12 := by
  obtain ⟨m, m', hm, hm', hv, hv', r1, ha, hxs, hxs', hys⟩ := hdi_marginals kde hkde c hc hg hk col hcol data hd v h n he hs _ h1
  have hs' : (flipped c col).cfg .statistics = some .hdi := hs
  simp only [parameterSummary, hs', bind_ok_iff, hm'] at h2
  obtain ⟨_, e, r2⟩ := h2
  cases e
  have k1 := hdi_mirror_width hv hv' hxs hxs' hys hstep ha (hfine m hm) r1 r2
  have k2 := hdi_mirror_width hv' hv hxs' hxs (by rw [hys, List.reverse_reverse]) hstep ha (by
    intro y hy
    rw [hys] at hy ⊢
    rw [List.sum_reverse]
    exact hfine m hm y (List.mem_reverse.1 hy)) r2 r1
  rw [abs_le]
  constructor <;> linarith

/-- What becomes of a flat marginal: both intervals are at the lower end. -/
theorem flat_parts (kde : KdeFn) (hkde : KdeOk kde) (c : Chain ℝ) (hc : AcceptedNoShift c) (hg : c.grid = true)
    (hk : (c.cfg .kde : ℝ) = 0) (col : String) (hcol : col ≠ c.weightColumn) (data : List ℝ) (hd : c.samples.get col = .ok data)
    (v h : ℝ) (n : Nat) (he : EvenGrid data v h n) (hs : c.cfg .statistics = some .hdi)
    (hstep : 1 / 10 ^ 12 < (n - 1 : Nat) * h / 9999)
    (hflat : ∀ m, smoothedHistogram kde c col true none = .ok m → ∀ y ∈ m.ys, ∀ z ∈ m.ys, y = z)
    (ha1 : (1 / 10000 : ℝ) < c.cfg .summaryArea) (l x u : ℝ)
    (h1 : parameterSummary kde c col = .ok ⟨some l, some x, some u⟩) :
    (l = v ∧ u = v + (⌈(c.cfg .summaryArea : ℝ) * 10000⌉₊ - 1 : Nat) * ((n - 1 : Nat) * h / 9999)) ∧
      ∀ l' x' u', parameterSummary kde (flipped c col) col = .ok ⟨some l', some x', some u'⟩ →
        l' = -(v + (n - 1 : Nat) * h) ∧
        u' = -(v + (n - 1 : Nat) * h) + (⌈(c.cfg .summaryArea : ℝ) * 10000⌉₊ - 1 : Nat) * ((n - 1 : Nat) * h / 9999) := by
  obtain ⟨m, m', hm, hm', hv, hv', r1, ha, hxs, hxs', hys⟩ := hdi_marginals kde hkde c hc hg hk col hcol data hd v h n he hs _ h1
  have hN : (1 : ℝ) < c.cfg .summaryArea * (10000 : Nat) := by
    push_cast
    linarith
  have k1 := flat_hdi hv hxs hstep (hflat m hm) ha hN r1
  refine ⟨by simpa using k1, fun l' x' u' h2 => ?_⟩
  have hs' : (flipped c col).cfg .statistics = some .hdi := hs
  simp only [parameterSummary, hs', bind_ok_iff, hm'] at h2
  obtain ⟨_, e, r2⟩ := h2
  cases e
  have k2 := flat_hdi hv' hxs' hstep (by
    intro y hy z hz
    rw [hys] at hy hz
    exact hflat m hm y (List.mem_reverse.1 hy) z (List.mem_reverse.1 hz)) ha hN r2
  simpa using k2

/-- **C129** (negation, `hdi`, for every chain with a flat marginal). Of all the intervals of the requested mass the lowest is
reported, for the parameter and for its mirror image, unless the requested mass is nearly everything. -/
theorem C129_violated_hdi (kde : KdeFn) (hkde : KdeOk kde) (c : Chain ℝ) (hc : AcceptedNoShift c) (hg : c.grid = true)
    (hk : (c.cfg .kde : ℝ) = 0) (col : String) (hcol : col ≠ c.weightColumn) (data : List ℝ) (hd : c.samples.get col = .ok data)
    (v h : ℝ) (n : Nat) (he : EvenGrid data v h n) (hs : c.cfg .statistics = some .hdi)
    (hstep : 1 / 10 ^ 12 < (n - 1 : Nat) * h / 9999)
    (hflat : ∀ m, smoothedHistogram kde c col true none = .ok m → ∀ y ∈ m.ys, ∀ z ∈ m.ys, y = z)
    (ha1 : (1 / 10000 : ℝ) < c.cfg .summaryArea) (ha2 : (c.cfg .summaryArea : ℝ) ≤ 9999 / 10000) (l x u l' x' u' : ℝ)
    (h1 : parameterSummary kde c col = .ok ⟨some l, some x, some u⟩)
    (h2 : parameterSummary kde (flipped c col) col = .ok ⟨some l', some x', some u'⟩) :
    l = v ∧ u < v + (n - 1 : Nat) * h ∧ l' = -(v + (n - 1 : Nat) * h) ∧ l' < -u ∧ u' < -l := by
  obtain ⟨⟨rfl, hu⟩, k2⟩ := flat_parts kde hkde c hc hg hk col hcol data hd v h n he hs hstep hflat ha1 l x u h1
  obtain ⟨hl', hu'⟩ := k2 l' x' u' h2
  have hw : ⌈(c.cfg .summaryArea : ℝ) * 10000⌉₊ ≤ 9999 := by
    rw [Nat.ceil_le]
    push_cast
    linarith
  have h0 : (0 : ℝ) < (n - 1 : Nat) * h / 9999 := lt_trans (by positivity) hstep
  have e1 : ((⌈(c.cfg .summaryArea : ℝ) * 10000⌉₊ - 1 : Nat) : ℝ) ≤ 9998 := by exact_mod_cast (by omega : _ - 1 ≤ 9998)
  have e2 := mul_le_mul_of_nonneg_right e1 h0.le
  have e3 : ((n - 1 : Nat) : ℝ) * h = 9999 * ((n - 1 : Nat) * h / 9999) := by ring
  refine ⟨rfl, ?_, hl', ?_, ?_⟩
  · rw [hu]
    linarith
  · rw [hl', hu]
    linarith
  · rw [hu']
    linarith

/-- **C130** (negation, `hdi`, for every chain with a flat marginal). The middle of the interval is below the centre of symmetry
by half a step of the fine grid for each point that is left out. -/
theorem C130_violated_hdi (kde : KdeFn) (hkde : KdeOk kde) (c : Chain ℝ) (hc : AcceptedNoShift c) (hg : c.grid = true)
    (hk : (c.cfg .kde : ℝ) = 0) (col : String) (hcol : col ≠ c.weightColumn) (data w : List ℝ) (hd : c.samples.get col = .ok data)
    (hw : c.weights = .ok w) (v h : ℝ) (n : Nat) (he : EvenGrid data v h n) (s : ℝ) (hsym : SymmetricAbout s data w)
    (hs : c.cfg .statistics = some .hdi) (hstep : 1 / 10 ^ 12 < (n - 1 : Nat) * h / 9999)
    (hflat : ∀ m, smoothedHistogram kde c col true none = .ok m → ∀ y ∈ m.ys, ∀ z ∈ m.ys, y = z)
    (ha1 : (1 / 10000 : ℝ) < c.cfg .summaryArea) (l x u : ℝ) (h1 : parameterSummary kde c col = .ok ⟨some l, some x, some u⟩) :
    (l + u) / 2 = s - (10000 - ⌈(c.cfg .summaryArea : ℝ) * 10000⌉₊ : Nat) * ((n - 1 : Nat) * h / 9999) / 2 := by
  obtain ⟨⟨rfl, hu⟩, -⟩ := flat_parts kde hkde c hc hg hk col hcol data hd v h n he hs hstep hflat ha1 l x u h1
  obtain ⟨m, m', hm, -, -, -, -, ha, -, -, -⟩ := hdi_marginals kde hkde c hc hg hk col hcol data hd l h n he hs _ h1
  obtain ⟨-, hxs, -, -, hmx, -⟩ := symmetric_marginal hc hg hk hcol hd hw he hsym hm
  have hmid := middle_of_grid hxs hmx
  have hw1 : ⌈(c.cfg .summaryArea : ℝ) * 10000⌉₊ ≤ 10000 := by
    rw [Nat.ceil_le]
    push_cast
    linarith
  have hw0 : 0 < ⌈(c.cfg .summaryArea : ℝ) * 10000⌉₊ := by
    rw [Nat.ceil_pos]
    linarith
  generalize ⌈(c.cfg .summaryArea : ℝ) * 10000⌉₊ = k at hu hw1 hw0 ⊢
  have e1 : ((10000 - k : Nat) : ℝ) = 10000 - k := by exact_mod_cast Nat.cast_sub (R := ℝ) hw1
  have e2 : ((k - 1 : Nat) : ℝ) = k - 1 := by exact_mod_cast Nat.cast_sub (R := ℝ) hw0
  rw [hu, e1, e2]
  linarith

/-- The points 0 and 1 of equal weight, summarised by the HDI. -/
theorem even_hdi (kde : KdeFn) (hkde : KdeOk kde) : ∃ c, Chain.make (evenArgs .hdi) = .ok c ∧ AcceptedNoShift c ∧
    c.grid = true ∧ (c.cfg .kde : ℝ) = 0 ∧ "a" ≠ c.weightColumn ∧ c.samples.get "a" = .ok [0, 1] ∧ c.weights = .ok [1, 1] ∧
    EvenGrid [0, 1] 0 1 2 ∧ SymmetricAbout (1 / 2) [0, 1] [1, 1] ∧ c.cfg .statistics = some .hdi ∧
    (c.cfg .summaryArea : ℝ) = 6827 / 10000 ∧
    (∀ m, smoothedHistogram kde c "a" true none = .ok m → ∀ y ∈ m.ys, ∀ z ∈ m.ys, y = z) ∧
    (∀ m, smoothedHistogram kde c "a" true none = .ok m → ∀ y ∈ m.ys, y < c.cfg .summaryArea * m.ys.sum) ∧
    (∃ l x u, parameterSummary kde c "a" = .ok ⟨some l, some x, some u⟩) ∧
    ∃ l x u, parameterSummary kde (flipped c "a") "a" = .ok ⟨some l, some x, some u⟩ := by
  obtain ⟨c, hc, hsam, hwc, -, hp, hg, -, -, hcfg⟩ :=
    plain_chain_cfg (K := ℝ) true [⟨.statistics, some .hdi⟩] rfl
      (by change (0 : ℝ) ≤ 6827 / 10000 ∧ (6827 / 10000 : ℝ) ≤ 1; constructor <;> norm_num)
      (by change (1 : ℝ) ≤ 10; norm_num) rfl rfl (by intro h; cases h) (twoFrame 1 1) (twoFrame_wf 1 1)
      (by simp [twoFrame]) (w := [1, 1]) rfl (by simp) "even" 1 le_rfl (one_dvd _)
  have hd : c.samples.get "a" = .ok [0, 1] := by rw [hsam]; rfl
  have hw : c.weights = .ok [1, 1] := by rw [Chain.weights, hsam, hwc]; rfl
  have hk : (c.cfg .kde : ℝ) = 0 := by rw [hcfg]; rfl
  have hst : c.cfg .statistics = some .hdi := by rw [hcfg]; rfl
  have har : (c.cfg .summaryArea : ℝ) = 6827 / 10000 := by rw [hcfg]; rfl
  have hsm : c.smoothValue = 0 := by
    have : c.cfg .smooth = none := by rw [hcfg]; rfl
    simp only [Chain.smoothValue, this, hg, if_true]
  obtain ⟨m, hm, hv, hxs, hys⟩ := two_marginal (u := 1) (v := 1) hd hw hg hk hsm hp one_pos one_pos hkde true
  have hy : ∀ y ∈ m.ys, y = 1 / 2 := by
    intro y hy
    rw [hys] at hy
    obtain ⟨x, -, rfl⟩ := List.mem_map.1 hy
    norm_num
  have he : EvenGrid [0, 1] 0 1 2 := by
    refine ⟨one_pos, le_rfl, fun x => ?_⟩
    constructor
    · intro hx
      rcases List.mem_cons.1 hx with rfl | hx
      · exact ⟨0, by omega, by simp⟩
      · rw [List.mem_singleton] at hx
        exact ⟨1, by omega, by simp [hx]⟩
    · rintro ⟨i, hi, rfl⟩
      interval_cases i <;> simp
  have hsym : SymmetricAbout (1 / 2) [0, 1] [1, 1] := by
    unfold SymmetricAbout
    simp only [List.map_cons, List.map_nil, List.zip_cons_cons, List.zip_nil_right]
    norm_num
    exact List.Perm.swap _ _ _
  have hacc : AcceptedNoShift c := ⟨_, toRaw_WF.2 (twoFrame_wf 1 1), rfl, hc⟩
  have hcol : "a" ≠ c.weightColumn := by rw [hwc]; decide
  obtain ⟨l, x, u, h1, -⟩ := C31_hdi_mass hv (6827 / 10000) (by norm_num)
  have h1' : parameterSummary kde c "a" = .ok ⟨some l, some x, some u⟩ := by
    simp only [parameterSummary, hst, har, hm, bind, Except.bind, h1]
  obtain ⟨m1, m', -, hm', -, hv', -⟩ := hdi_marginals kde hkde c hacc hg hk "a" hcol _ hd 0 1 2 he hst _ h1'
  obtain ⟨l', x', u', h2, -⟩ := C31_hdi_mass hv' (6827 / 10000) (by norm_num)
  have hst' : (flipped c "a").cfg .statistics = some .hdi := hst
  have har' : ((flipped c "a").cfg .summaryArea : ℝ) = 6827 / 10000 := har
  refine ⟨c, hc, hacc, hg, hk, hcol, hd, hw, he, hsym, hst, har, ?_, ?_, ⟨l, x, u, h1'⟩, l', x', u', ?_⟩
  · intro m2 hm2 y hy2 z hz2
    rw [hm] at hm2
    cases hm2
    rw [hy y hy2, hy z hz2]
  · intro m2 hm2 y hy2
    rw [hm] at hm2
    cases hm2
    have hlen : m.ys.length = 10000 := by
      rw [hv.ys_length, hxs, linspace_length]
      unfold gridSize
      rfl
    have hsum : m.ys.sum = 5000 := by
      rw [List.eq_replicate_iff.2 ⟨hlen, hy⟩, List.sum_replicate, nsmul_eq_mul]
      norm_num
    rw [hy y hy2, hsum, har]
    norm_num
  · simp only [parameterSummary, hst', har', hm', bind, Except.bind, h2]

/-- **C129** (negation, `hdi`, concrete). The HDI of the points 0 and 1, of equal weight, and of the points -1 and 0: both begin at
the lower end and neither reaches the upper. -/
theorem C129_violated_hdi_chain (kde : KdeFn) (hkde : KdeOk kde) : ∃ c, Chain.make (evenArgs .hdi) = .ok c ∧
    ∃ l x u l' x' u', parameterSummary kde c "a" = .ok ⟨some l, some x, some u⟩ ∧
      parameterSummary kde (flipped c "a") "a" = .ok ⟨some l', some x', some u'⟩ ∧ l = 0 ∧ u < 1 ∧ l' = -1 ∧ u' < 0 := by
  obtain ⟨c, hc, ha, hg, hk, hcol, hd, -, he, -, hst, har, hflat, -, ⟨l, x, u, h1⟩, l', x', u', h2⟩ := even_hdi kde hkde
  obtain ⟨r1, r2, r3, -, r5⟩ := C129_violated_hdi kde hkde c ha hg hk "a" hcol _ hd 0 1 2 he hst (by norm_num) hflat
    (by rw [har]; norm_num) (by rw [har]; norm_num) l x u l' x' u' h1 h2
  subst r1
  norm_num at r2 r3 r5
  exact ⟨c, hc, 0, x, u, l', x', u', h1, h2, rfl, r2, r3, r5⟩

/-- **C130** (negation, `hdi`, concrete). The HDI of the points 0 and 1, of equal weight, has its middle below 0.342. -/
theorem C130_violated_hdi_chain (kde : KdeFn) (hkde : KdeOk kde) : ∃ c, Chain.make (evenArgs .hdi) = .ok c ∧
    ∃ l x u, parameterSummary kde c "a" = .ok ⟨some l, some x, some u⟩ ∧ (l + u) / 2 = 6826 / 9999 / 2 := by
  obtain ⟨c, hc, ha, hg, hk, hcol, hd, hw, he, hsym, hst, har, hflat, -, ⟨l, x, u, h1⟩, -⟩ := even_hdi kde hkde
  have r := C130_violated_hdi kde hkde c ha hg hk "a" hcol _ _ hd hw 0 1 2 he _ hsym hst (by norm_num) hflat
    (by rw [har]; norm_num) l x u h1
  rw [har] at r
  norm_num at r
  refine ⟨c, hc, l, x, u, h1, ?_⟩
  rw [r]
  norm_num

/-- The hypotheses of `C129_hdi_width_partial` hold for the same chain. -/
example (kde : KdeFn) (hkde : KdeOk kde) : ∃ c, Chain.make (evenArgs .hdi) = .ok c ∧
    ∃ l x u l' x' u', parameterSummary kde c "a" = .ok ⟨some l, some x, some u⟩ ∧
      parameterSummary kde (flipped c "a") "a" = .ok ⟨some l', some x', some u'⟩ ∧
      |(u' - l') - (u - l)| ≤ (2 - 1 : Nat) * (1 : ℝ) / 9999 + 1 / 10 ^ 12 := by
  obtain ⟨c, hc, ha, hg, hk, hcol, hd, -, he, -, hst, har, -, hfine, ⟨l, x, u, h1⟩, l', x', u', h2⟩ := even_hdi kde hkde
  exact ⟨c, hc, l, x, u, l', x', u', h1, h2, C129_hdi_width_partial kde hkde c ha hg hk "a" hcol _ hd 0 1 2 he hst (by norm_num)
    hfine l x u l' x' u' h1 h2⟩

end CC
