import Verif.Props.Nested
import Verif.Lemmas.Mirror

/-! # C138: the HDI is not wider than the equal-tailed interval of the same chain -/

set_option linter.unusedSectionVars false

namespace CC
open Spec

section
variable {K : Type} [Field K] [LinearOrder K] [IsStrictOrderedRing K]

/-- A point of a rising curve lies between two of its vertices that are at most one step apart from it. -/
theorem onCurve_bracket {xs cs : List K} {d : K} (hd : 0 ≤ d)
    (hstep : ∀ (k : Nat) a b, xs[k]? = some a → xs[k + 1]? = some b → a ≤ b ∧ b - a ≤ d)
    (hmono : ∀ (k : Nat) a b, cs[k]? = some a → cs[k + 1]? = some b → a ≤ b) {x y : K} (h : OnCurve (xs.zip cs) x y) :
    ∃ (i j : Nat) (a b p q : K), xs[i]? = some a ∧ cs[i]? = some p ∧ xs[j]? = some b ∧ cs[j]? = some q ∧
      x - d ≤ a ∧ p ≤ y ∧ b ≤ x + d ∧ y ≤ q := by
  rcases h with h | ⟨pre, v, w, post, t, hpts, ht0, ht1, rfl, rfl⟩
  · obtain ⟨i, hi⟩ := List.mem_iff_getElem?.1 h
    rw [List.getElem?_zip_eq_some] at hi
    exact ⟨i, i, x, x, y, y, hi.1, hi.2, hi.1, hi.2, by linarith, le_rfl, by linarith, le_rfl⟩
  · have h1 : (xs.zip cs)[pre.length]? = some v := by rw [hpts]; simp
    have h2 : (xs.zip cs)[pre.length + 1]? = some w := by rw [hpts]; simp
    rw [List.getElem?_zip_eq_some] at h1 h2
    obtain ⟨s1, s2⟩ := hstep _ _ _ h1.1 h2.1
    have s3 := hmono _ _ _ h1.2 h2.2
    have e1 : 0 ≤ t * (w.1 - v.1) := mul_nonneg ht0 (by linarith)
    have e2 : t * (w.1 - v.1) ≤ w.1 - v.1 := by nlinarith
    have e3 : 0 ≤ t * (w.2 - v.2) := mul_nonneg ht0 (by linarith)
    have e4 : t * (w.2 - v.2) ≤ w.2 - v.2 := by nlinarith
    exact ⟨_, _, _, _, _, _, h1.1, h1.2, h2.1, h2.2, by linarith, by linarith, by linarith, by linarith⟩

variable {m : Marginal K}

/-- Any interval that holds the area on the cumulative curve is at most two steps of the grid narrower. -/
theorem hdi_narrower (hm : ValidMarginal m) {a : K} (ha : 0 < a) (h1 : a ≤ 1) {d : K}
    (hstep : ∀ (k : Nat) x y, m.xs[k]? = some x → m.xs[k + 1]? = some y → y - x ≤ d)
    (hgrid : m.xs.Pairwise fun x y => 1 / 10 ^ 12 < y - x) {c0 : K} (hc0 : m.cs.head? = some c0)
    (hfirst : c0 < a) {l c u : K} (h : summaryHdi m a = .ok ⟨some l, some c, some u⟩) {l' u' p q : K}
    (hl : OnCurve (m.xs.zip m.cs) l' p) (hu : OnCurve (m.xs.zip m.cs) u' q) (hpq : a ≤ q - p) :
    u - l ≤ u' - l' + 2 * d + 1 / 10 ^ 12 := by
  have hinc : ∀ (k : Nat) x y, m.xs[k]? = some x → m.xs[k + 1]? = some y → x ≤ y := by
    intro k x y hx hy
    obtain ⟨i1, rfl⟩ := List.getElem?_eq_some_iff.1 hx
    obtain ⟨i2, rfl⟩ := List.getElem?_eq_some_iff.1 hy
    exact (List.pairwise_iff_getElem.1 hm.increasing k (k + 1) i1 i2 (by omega)).le
  have hmono : ∀ (k : Nat) x y, m.cs[k]? = some x → m.cs[k + 1]? = some y → x ≤ y := by
    intro k x y hx hy
    obtain ⟨i1, rfl⟩ := List.getElem?_eq_some_iff.1 hx
    obtain ⟨i2, rfl⟩ := List.getElem?_eq_some_iff.1 hy
    exact List.pairwise_iff_getElem.1 hm.nondecreasing k (k + 1) i1 i2 (by omega)
  have h2 := hm.two
  have hd : 0 ≤ d := by
    have e1 := hstep 0 _ _ (List.getElem?_eq_getElem (by omega)) (List.getElem?_eq_getElem (by omega))
    have e2 := hinc 0 _ _ (List.getElem?_eq_getElem (by omega)) (List.getElem?_eq_getElem (by omega))
    linarith
  have hboth := fun k x y hx hy => And.intro (hinc k x y hx hy) (hstep k x y hx hy)
  obtain ⟨i, -, x, -, s, -, hx, hs, -, -, hlx, hsp, -, -⟩ := onCurve_bracket hd hboth hmono hl
  obtain ⟨-, j, -, y, -, t, -, -, hy, ht, -, -, hyu, hqt⟩ := onCurve_bracket hd hboth hmono hu
  have hij : i < j := by
    by_contra hji
    obtain ⟨i1, rfl⟩ := List.getElem?_eq_some_iff.1 hs
    obtain ⟨i2, rfl⟩ := List.getElem?_eq_some_iff.1 ht
    have : m.cs[j] ≤ m.cs[i] := by
      rcases Nat.lt_or_ge j i with hlt | hge
      · exact List.pairwise_iff_getElem.1 hm.nondecreasing j i i2 i1 hlt
      · obtain rfl : i = j := by omega
        exact le_rfl
    linarith
  obtain ⟨x0, xl, hx0, -, hpl, -⟩ := hm.hdi_setup
  have := C32_hdi_narrowest hm a h1 hgrid c0 hc0 hfirst l c u h (i + 1) (j + 1) x y s t (by omega)
    (by rw [hpl]; simpa using hx) (by rw [hpl]; simpa using hy) (by simpa [masses] using hs)
    (by simpa [masses] using ht) (by linarith)
  linarith

theorem onCurve_within {xs cs : List K} {lo hi : K} (hb : ∀ x ∈ xs, lo ≤ x ∧ x ≤ hi) {x y : K} (h : OnCurve (xs.zip cs) x y) :
    lo ≤ x ∧ x ≤ hi := by
  rcases h with h | ⟨pre, v, w, post, t, hpts, ht0, ht1, rfl, rfl⟩
  · exact hb _ (List.of_mem_zip h).1
  · have h1 := hb _ (List.of_mem_zip (show (v.1, v.2) ∈ xs.zip cs by rw [hpts]; simp)).1
    have h2 := hb _ (List.of_mem_zip (show (w.1, w.2) ∈ xs.zip cs by rw [hpts]; simp)).1
    constructor <;> nlinarith

/-- The equal-tailed interval of an area below 1 ends before the range does. -/
theorem equalTailed_inside (hm : ValidMarginal m) {a : K} (h0 : 0 ≤ a) (h1 : a < 1) {x0 xl : K} (hx0 : m.xs.head? = some x0)
    (hxl : m.xs.getLast? = some xl) {l c u : K} (h : equalTailed m a = .ok (l, c, u)) : x0 ≤ l ∧ l ≤ c ∧ c ≤ u ∧ u < xl := by
  obtain ⟨c0, hc0⟩ : ∃ c0, m.cs.head? = some c0 := by
    obtain ⟨c0, _, _, hc0, -⟩ := hm.ends
    exact ⟨c0, hc0⟩
  by_cases hle : c0 ≤ (1 - a) / 2
  · obtain ⟨l', c', u', h', hlc, hcu, hl, -, hu⟩ := (equalTailed_spec hm h0 h1.le hc0).1 hle
    obtain ⟨rfl, rfl, rfl⟩ : l' = l ∧ c' = c ∧ u' = u := by
      have := Except.ok.inj (h'.symm.trans h)
      simpa using this
    have hb : ∀ x ∈ m.xs, x0 ≤ x ∧ x ≤ xl := by
      intro x hx
      obtain ⟨i, hi, rfl⟩ := List.mem_iff_getElem.1 hx
      rw [List.head?_eq_getElem?] at hx0
      rw [List.getLast?_eq_getElem?] at hxl
      obtain ⟨i0, rfl⟩ := List.getElem?_eq_some_iff.1 hx0
      obtain ⟨i1, rfl⟩ := List.getElem?_eq_some_iff.1 hxl
      constructor
      · rcases Nat.eq_zero_or_pos i with rfl | h
        · exact le_rfl
        · exact (List.pairwise_iff_getElem.1 hm.increasing 0 i i0 hi h).le
      · rcases Nat.lt_or_ge i (m.xs.length - 1) with h | h
        · exact (List.pairwise_iff_getElem.1 hm.increasing i _ hi i1 h).le
        · obtain rfl : i = m.xs.length - 1 := by omega
          exact le_rfl
    refine ⟨(onCurve_within hb hl).1, hlc, hcu, lt_of_le_of_ne (onCurve_within hb hu).2 ?_⟩
    rintro rfl
    have hsort : (m.xs.zip m.cs).Pairwise fun p q => p.1 < q.1 := by
      refine List.pairwise_iff_getElem.2 fun i j hi hj hij => ?_
      simp only [List.getElem_zip]
      exact List.pairwise_iff_getElem.1 hm.increasing _ _ _ _ hij
    have hlast : OnCurve (m.xs.zip m.cs) u' 1 :=
      .inl (List.mem_of_getLast? (zip_getLast? hm.cs_length.symm hxl hm.ends_at_one))
    have := (curve_unique hsort hlast).symm.trans (curve_unique hsort hu)
    linarith
  · exact absurd ((equalTailed_spec hm h0 h1.le hc0).2 (not_le.1 hle)) (by rw [h]; simp)
end

/-- The chain with another statistic. -/
def Spec.withStat (c : Chain ℝ) (s : Stat) : Chain ℝ := c.withCfg (c.cfg.set ⟨.statistics, some s⟩)

theorem withStat_cfg (c : Chain ℝ) (s : Stat) {k : Key} (hk : k ≠ .statistics) : (withStat c s).cfg k = c.cfg k := by
  simp [withStat, Chain.withCfg, Cfg.set, hk]

theorem withStat_stat (c : Chain ℝ) (s : Stat) : (withStat c s).cfg .statistics = some s := by
  simp [withStat, Chain.withCfg, Cfg.set]

theorem withStat_marginal (kde : KdeFn) (c : Chain ℝ) (s : Stat) (col : String) (pad : Bool) (u : Option Bool) :
    smoothedHistogram kde (withStat c s) col pad u = smoothedHistogram kde c col pad u :=
  smoothedHistogram_settings kde c _ (withStat_cfg c s (by decide)) (withStat_cfg c s (by decide))
    (withStat_cfg c s (by decide)) col pad u

/-- The statistics that cut off the same mass at both ends. -/
def Spec.EqualTails (s : Stat) : Prop := s = .mean ∨ s = .cumulative ∨ s = .maxCentral

/-- The limits of such a summary of a grid. -/
theorem equalTails_limits {kde : KdeFn} {c : Chain ℝ} (hg : c.grid = true) {col : String} {m : Marginal ℝ}
    (hm : smoothedHistogram kde c col true none = .ok m) (hv : ValidMarginal m) (h0 : 0 ≤ (c.cfg .summaryArea : ℝ))
    (h1 : (c.cfg .summaryArea : ℝ) ≤ 1) {s : Stat} (hs : EqualTails s) {l x u : ℝ}
    (h : parameterSummary kde (withStat c s) col = .ok ⟨some l, some x, some u⟩) :
    (∃ y, equalTailed m (c.cfg .summaryArea) = .ok (l, y, u)) ∧
      OnCurve (m.xs.zip m.cs) l ((1 - c.cfg .summaryArea) / 2) ∧ OnCurve (m.xs.zip m.cs) u ((1 + c.cfg .summaryArea) / 2) := by
  have hpad : smoothedHistogram kde c col false none = .ok m := by
    rw [← hm]
    simp only [smoothedHistogram, marginalBins, hg, if_true]
  simp only [parameterSummary, withStat_marginal, withStat_stat] at h
  rw [withStat_cfg c s (by decide)] at h
  generalize (c.cfg .summaryArea : ℝ) = a at *
  obtain ⟨c0, _, _, hc0, -⟩ := hv.ends
  have key := equalTailed_spec hv h0 h1 hc0
  by_cases hle : c0 ≤ (1 - a) / 2
  · obtain ⟨l', c', u', h', -, -, hl, -, hu⟩ := key.1 hle
    have hlu : l' = l ∧ u' = u := by
      rcases hs with rfl | rfl | rfl
      · simp only [hpad, summaryMean, bind, Except.bind, h', pure, Except.pure, Except.ok.injEq, Bound.mk.injEq,
          Option.some.injEq] at h
        exact ⟨h.1, h.2.2⟩
      · simp only [hpad, summaryCumulative, bind, Except.bind, h', pure, Except.pure, Except.ok.injEq, Bound.mk.injEq,
          Option.some.injEq] at h
        exact ⟨h.1, h.2.2⟩
      · simp only [hpad, summaryMaxCentral, bind_ok_iff, pure_ok_iff, Except.ok.injEq, Bound.mk.injEq, Option.some.injEq] at h
        obtain ⟨_, rfl, _, -, _, -, _, h2, _, h3, rfl, -, rfl⟩ := h
        simp only [equalTailed, bind_ok_iff, pure_ok_iff, Prod.mk.injEq] at h'
        obtain ⟨_, h4, _, -, _, h5, rfl, -, rfl⟩ := h'
        rw [show (1 / 2 - a / 2 : ℝ) = 1 / 2 - 1 / 2 * a by ring, h2] at h4
        rw [show (1 / 2 + a / 2 : ℝ) = 1 / 2 + 1 / 2 * a by ring, h3] at h5
        exact ⟨(Except.ok.inj h4).symm, (Except.ok.inj h5).symm⟩
    obtain ⟨rfl, rfl⟩ := hlu
    exact ⟨⟨c', h'⟩, hl, hu⟩
  · have hbad := key.2 (not_le.1 hle)
    have hbad' := (C28_max_central_partial m hv a c0 h0 h1 hc0).2 (not_le.1 hle)
    rcases hs with rfl | rfl | rfl
    · simp [hpad, summaryMean, bind, Except.bind, hbad] at h
    · simp [hpad, summaryCumulative, bind, Except.bind, hbad] at h
    · simp [hpad, bind, Except.bind, hbad'] at h

/-- The abscissae of a marginal are evenly spaced. -/
theorem marginal_spacing {kde : KdeFn} {c : Chain ℝ} {col : String} {pad : Bool} {o : Option Bool} {m : Marginal ℝ}
    (hm : smoothedHistogram kde c col pad o = .ok m) {x0 xl : ℝ} (hx0 : m.xs.head? = some x0) (hxl : m.xs.getLast? = some xl) :
    m.xs.length = 10000 ∧ ∀ (k : Nat) (x : ℝ), m.xs[k]? = some x → x = x0 + k * ((xl - x0) / 9999) := by
  simp only [smoothedHistogram, bind_ok_iff, pure_ok_iff] at hm
  obtain ⟨data, -, w, -, bins, -, hist, -, hist', -, ab, -, -, -, ys, -, cs, -, rfl⟩ := hm
  have hn : gridSize = 10000 := by unfold gridSize; rfl
  dsimp only at hx0 hxl ⊢
  have hlen : (linspace ab.1 ab.2 gridSize).length = 10000 := by rw [linspace_length, hn]
  rw [linspace_head (by omega)] at hx0
  rw [linspace_last (by omega)] at hxl
  obtain rfl := Option.some.inj hx0
  obtain rfl := Option.some.inj hxl
  refine ⟨hlen, fun k x hx => ?_⟩
  obtain ⟨hk, rfl⟩ := List.getElem?_eq_some_iff.1 hx
  rw [linspace_getElem, hn]
  norm_num

/-- **C138** (partial: for grids, up to two steps of the 10000 point grid, for steps of more than 1e-12 and areas above the mass of the
first point). The HDI summary is not wider than the summary of the same chain with another statistic that cuts off the same mass at
both ends. -/
theorem C138_narrowest_partial (kde : KdeFn) (hk : KdeOk kde) (c : Chain ℝ) (hg : c.grid = true) (w : List ℝ)
    (hw : c.weights = .ok w) (hpos : ∀ v ∈ w, 0 < v) (h1 : (c.cfg .summaryArea : ℝ) ≤ 1) (col : String) (m : Marginal ℝ)
    (hm : smoothedHistogram kde c col true none = .ok m) (x0 xl c0 : ℝ) (hx0 : m.xs.head? = some x0)
    (hxl : m.xs.getLast? = some xl) (hc0 : m.cs.head? = some c0) (hstep : 1 / 10 ^ 12 < (xl - x0) / 9999)
    (hfirst : c0 < c.cfg .summaryArea) (s : Stat) (hs : EqualTails s) (l x u l' x' u' : ℝ)
    (h : parameterSummary kde (withStat c .hdi) col = .ok ⟨some l, some x, some u⟩)
    (h' : parameterSummary kde (withStat c s) col = .ok ⟨some l', some x', some u'⟩) :
    u - l ≤ u' - l' + 2 * ((xl - x0) / 9999) + 1 / 10 ^ 12 := by
  have hv := C25_marginal_valid kde hk c w hw hpos col true none m hm
  obtain ⟨hlen, hsp⟩ := marginal_spacing hm hx0 hxl
  have hc0' : 0 ≤ c0 := by
    obtain ⟨_, _, _, _, _, _, _, _, _, h01, -⟩ := hv.hdi_setup
    exact (h01 c0 (List.mem_cons_of_mem _ (List.mem_of_head? hc0))).1
  have hpos' : 0 < (c.cfg .summaryArea : ℝ) := lt_of_le_of_lt hc0' hfirst
  obtain ⟨-, hl, hu⟩ := equalTails_limits hg hm hv hpos'.le h1 hs h'
  have hh : summaryHdi m (c.cfg .summaryArea) = .ok ⟨some l, some x, some u⟩ := by
    simp only [parameterSummary, withStat_marginal, withStat_stat, hm, bind, Except.bind] at h
    rwa [withStat_cfg c _ (by decide)] at h
  refine hdi_narrower hv hpos' h1 (fun k a b ha hb => ?_) ?_ hc0 hfirst hh hl hu (by linarith)
  · rw [hsp _ _ ha, hsp _ _ hb]
    push_cast
    linarith
  · refine List.pairwise_iff_getElem.2 fun i j hi hj hij => ?_
    rw [hsp i _ (List.getElem?_eq_getElem hi), hsp j _ (List.getElem?_eq_getElem hj)]
    have : (i : ℝ) + 1 ≤ j := by exact_mod_cast hij
    nlinarith

/-- **C138** (what goes wrong). If the whole range of a grid is at most 1e-12 wide, the HDI summary is strictly wider than the others, for
every area between 0 and 1. -/
theorem C138_narrow_range (kde : KdeFn) (hk : KdeOk kde) (c : Chain ℝ) (hg : c.grid = true) (w : List ℝ)
    (hw : c.weights = .ok w) (hpos : ∀ v ∈ w, 0 < v) (h0 : 0 ≤ (c.cfg .summaryArea : ℝ)) (h1 : (c.cfg .summaryArea : ℝ) < 1)
    (col : String) (m : Marginal ℝ) (hm : smoothedHistogram kde c col true none = .ok m) (x0 xl : ℝ)
    (hx0 : m.xs.head? = some x0) (hxl : m.xs.getLast? = some xl) (hnarrow : xl - x0 ≤ 1 / 10 ^ 12) (s : Stat) (hs : EqualTails s)
    (l' x' u' : ℝ) (h' : parameterSummary kde (withStat c s) col = .ok ⟨some l', some x', some u'⟩) :
    ∃ l x u, parameterSummary kde (withStat c .hdi) col = .ok ⟨some l, some x, some u⟩ ∧ u' - l' < u - l := by
  have hv := C25_marginal_valid kde hk c w hw hpos col true none m hm
  obtain ⟨⟨y, hy⟩, -, -⟩ := equalTails_limits hg hm hv h0 h1.le hs h'
  obtain ⟨hl, -, -, hu⟩ := equalTailed_inside hv h0 h1 hx0 hxl hy
  obtain ⟨x, hx⟩ := C33_narrow_range hv (c.cfg .summaryArea) x0 xl hx0 hxl hnarrow
  refine ⟨x0, x, xl, ?_, by linarith⟩
  simp only [parameterSummary, withStat_marginal, withStat_stat, hm, bind, Except.bind]
  rw [withStat_cfg c _ (by decide)]
  exact hx

/-- **C138** (negation). An accepted grid chain with the points 0 and 1e-13 and the area one half: its HDI is wider than its
equal-tailed interval, whichever statistic reports it. -/
theorem C138_violated (kde : KdeFn) (hk : KdeOk kde) : ∃ c,
    Chain.make { samples := (tinyFrame (1 / 10 ^ 13)).toRaw, name := "tiny", grid := true, config := [⟨.statistics, some .hdi⟩, ⟨.summaryArea, 1 / 2⟩] } = .ok c ∧
    ∀ s, EqualTails s → ∃ l x u l' x' u', parameterSummary kde (withStat c .hdi) "a" = .ok ⟨some l, some x, some u⟩ ∧
      parameterSummary kde (withStat c s) "a" = .ok ⟨some l', some x', some u'⟩ ∧ u' - l' < u - l := by
  obtain ⟨c, m, hc, -, hv, hxs, ⟨k, hk'⟩, hg, ha, hw, hm⟩ :=
    tiny_chain kde hk (r := 1 / 10 ^ 13) (a := 1 / 2) (by positivity) (by norm_num) (by norm_num)
  refine ⟨c, hc, fun s hs => ?_⟩
  have hn : gridSize = 10000 := by unfold gridSize; rfl
  have hx0 : m.xs.head? = some 0 := by rw [hxs, List.head?_map, linspace_head (by omega)]; simp
  have hxl : m.xs.getLast? = some (1 / 10 ^ 13) := by rw [hxs, List.getLast?_map, linspace_last (by omega)]; simp
  have hlen : m.xs.length = 10000 := by rw [hxs, List.length_map, linspace_length, hn]
  obtain ⟨c0, _, _, hc0, -⟩ := hv.ends
  have hle : c0 ≤ (1 - 1 / 2) / 2 := by
    have hsum : ∀ L : List ℝ, (∀ y ∈ L, y = k) → L.sum = L.length * k := by
      intro L hL
      rw [List.eq_replicate_of_mem hL, List.sum_replicate, List.length_replicate, nsmul_eq_mul]
    have htot : m.ys.sum = 10000 * k := by
      rw [hsum _ hk', hv.ys_length, hlen]
      norm_num
    have hkpos : 0 < k := by
      have := hv.mass_pos
      rw [htot] at this
      linarith
    rw [List.head?_eq_getElem?] at hc0
    obtain ⟨h0, rfl⟩ := List.getElem?_eq_some_iff.1 hc0
    rw [hv.cumulative 0 h0, htot, hsum _ fun y hy => hk' y (List.mem_of_mem_take hy), List.length_take, hv.ys_length, hlen,
      div_le_iff₀ (by linarith)]
    norm_num
    linarith
  have hsome : ∃ l' x' u', parameterSummary kde (withStat c s) "a" = .ok ⟨some l', some x', some u'⟩ := by
    have hpad : smoothedHistogram kde c "a" false none = .ok m := by
      rw [← hm]
      simp only [smoothedHistogram, marginalBins, hg, if_true]
    simp only [parameterSummary, withStat_marginal, withStat_stat]
    rw [withStat_cfg c s (by decide), ha]
    rcases hs with rfl | rfl | rfl
    · obtain ⟨l, _, u, -, h2, -⟩ := (C27_mean m hv (1 / 2) c0 (by norm_num) (by norm_num) hc0).1 hle
      exact ⟨l, (l + u) / 2, u, by simp only [hpad, bind, Except.bind, h2]⟩
    · obtain ⟨l, x, u, h2, -⟩ := (C26_cumulative m hv (1 / 2) c0 (by norm_num) (by norm_num) hc0).1 hle
      exact ⟨l, x, u, by simp only [hpad, bind, Except.bind, h2]⟩
    · obtain ⟨l, x, u, _, _, h2, -⟩ := (C28_max_central_partial m hv (1 / 2) c0 (by norm_num) (by norm_num) hc0).1 hle
      exact ⟨l, x, u, by simp only [hpad, bind, Except.bind, h2]⟩
  obtain ⟨l', x', u', h'⟩ := hsome
  obtain ⟨l, x, u, h, hlt⟩ := C138_narrow_range kde hk c hg [1, 1] hw (by simp) (by rw [ha]; norm_num) (by rw [ha]; norm_num) "a" m hm 0 _ hx0
    hxl (by norm_num) s hs l' x' u' h'
  exact ⟨l, x, u, l', x', u', h, h', hlt⟩

/-- A concrete case for the hypotheses: the grid with the points 0 and 1. -/
example (kde : KdeFn) (hk : KdeOk kde) : ∃ (c : Chain ℝ) (m : Marginal ℝ) (c0 : ℝ), c.grid = true ∧ c.weights = .ok [1, 1] ∧
    smoothedHistogram kde c "a" true none = .ok m ∧ m.xs.head? = some 0 ∧ m.xs.getLast? = some 1 ∧ m.cs.head? = some c0 ∧
    c0 < c.cfg .summaryArea := by
  obtain ⟨c, m, hc, -, hv, hxs, ⟨k, hk'⟩, hg, ha, hw, hm⟩ :=
    tiny_chain kde hk (r := 1) (a := 1 / 2) (by positivity) (by norm_num) (by norm_num)
  have hn : gridSize = 10000 := by unfold gridSize; rfl
  have hlen : m.xs.length = 10000 := by rw [hxs, List.length_map, linspace_length, hn]
  obtain ⟨c0, _, _, hc0, -⟩ := hv.ends
  refine ⟨c, m, c0, hg, hw, hm, by rw [hxs, List.head?_map, linspace_head (by omega)]; simp,
    by rw [hxs, List.getLast?_map, linspace_last (by omega)]; simp, hc0, ?_⟩
  have hsum : ∀ L : List ℝ, (∀ y ∈ L, y = k) → L.sum = L.length * k := by
    intro L hL
    rw [List.eq_replicate_of_mem hL, List.sum_replicate, List.length_replicate, nsmul_eq_mul]
  have htot : m.ys.sum = 10000 * k := by
    rw [hsum _ hk', hv.ys_length, hlen]
    norm_num
  have hkpos : 0 < k := by
    have := hv.mass_pos
    rw [htot] at this
    linarith
  rw [List.head?_eq_getElem?] at hc0
  obtain ⟨h0, rfl⟩ := List.getElem?_eq_some_iff.1 hc0
  rw [hv.cumulative 0 h0, htot, hsum _ fun y hy => hk' y (List.mem_of_mem_take hy), List.length_take, hv.ys_length, hlen, ha,
    div_lt_iff₀ (by linarith)]
  norm_num
  linarith

end CC
