import Verif.Props.Titles
import Verif.Lemmas.TwoPoint
import Verif.Props.MegKde
import Verif.Props.Format
import Verif.Lemmas.LayoutText

/-! # C89: which multimodal chains are summarised; violations of C85 -/

namespace CC
open Spec

variable {c : Chain ℝ} {u v : ℝ}

/-- The whole density has mass one. -/
theorem massAbove_zero {m : Marginal ℝ} (hm : ValidMarginal m) (hs : simpson m.ys m.xs ≠ 0) :
    massAbove m (m.ys.map (· / simpson m.ys m.xs)) 0 = 1 := by
  have hpos := simpson_pos_of_ne hm hs
  set T := simpson m.ys m.xs with hT
  unfold massAbove
  have e : (m.ys.map (· / T)).map (fun v => if 0 ≤ v then v else 0) = m.ys.map (· * (1 / T)) := by
    rw [List.map_map]
    refine List.map_congr_left fun y hy => ?_
    simp only [Function.comp]
    rw [if_pos (div_nonneg (hm.density_nonneg y hy) hpos.le)]
    ring
  rw [e, simpson_smul, ← hT]
  field_simp

/-- More mass than requested at the peak: the bisection has no bracket. -/
theorem hdiCut_error {m : Marginal ℝ} (hm : ValidMarginal m) (hs : simpson m.ys m.xs ≠ 0) {top : ℝ}
    (hmem : top ∈ m.ys.map (· / simpson m.ys m.xs))
    (hmax : ∀ v ∈ m.ys.map (· / simpson m.ys m.xs), v ≤ top) {a : ℝ} (ha1 : a < 1)
    (h : a < massAbove m (m.ys.map (· / simpson m.ys m.xs)) top) : hdiCut m a = .error .value := by
  obtain ⟨M, hM, hMmem, hMmax⟩ := npMax_spec (List.ne_nil_of_mem hmem)
  have hMt : M = top := le_antisymm (hmax M hMmem) (hMmax top hmem)
  subst hMt
  have e0 : massDiff (m.ys.map (· / simpson m.ys m.xs)) m.xs a 0 = 1 - a := by rw [← massAbove_zero hm hs]; rfl
  have e1 : massDiff (m.ys.map (· / simpson m.ys m.xs)) m.xs a M =
      massAbove m (m.ys.map (· / simpson m.ys m.xs)) M - a := rfl
  have hb : bisect (massDiff (m.ys.map (· / simpson m.ys m.xs)) m.xs a) defaultRtol 0 M = .error .value := by
    unfold bisect
    rw [e0, e1, if_neg (by linarith), if_neg (by linarith), if_pos (mul_pos (by linarith) (by linarith))]
  simp only [hdiCut, ensure, hs, ne_eq, not_false_eq_true, decide_true, if_true, arrMax, hM, bind, Except.bind, hb]

/-- The greatest value of a marginal. -/
def Spec.Peak (m : Marginal ℝ) (y : ℝ) : Prop := y ∈ m.ys ∧ ∀ z ∈ m.ys, z ≤ y

/-- **C89, partial**: which multimodal chains are summarised. With positive weights and the statistic of multimodal chains,
`get_summary` returns for a parameter exactly if the integral over the points at the peak of the marginal is at most
`summary_area` (or that is one); otherwise it raises a ValueError. Missing: marginals with more than that at the peak
(`C89_violated`). -/
theorem C89_summaries_partial {lib : Lib} (hk : KdeOk lib.kde) {c : Chain ℝ} {w : List ℝ} (hw : c.weights = .ok w)
    (hpos : ∀ x ∈ w, 0 < x) (hmm : c.cfg .multimodal = true) (hstat : c.cfg .statistics = some .hdi)
    (ha : (c.cfg .summaryArea : ℝ) ≤ 1) {p : String} {m : Marginal ℝ}
    (hm : smoothedHistogram lib.kde c p true none = .ok m) (hs : simpson m.ys m.xs ≠ 0) {y : ℝ} (hy : Peak m y) :
    let mass := massAbove m (m.ys.map (· / simpson m.ys m.xs)) (y / simpson m.ys m.xs)
    (mass ≤ (c.cfg .summaryArea : ℝ) ∨ (c.cfg .summaryArea : ℝ) = 1 → ∃ fit, Reported lib c p fit) ∧
    ((c.cfg .summaryArea : ℝ) < mass → (c.cfg .summaryArea : ℝ) < 1 → ∀ heap registry,
      getSummary lib.kde heap registry (some [c]) (some [p]) = .error .value) := by
  intro mass
  have hv := C25_marginal_valid lib.kde hk c w hw hpos p true none m hm
  have hsp := simpson_pos_of_ne hv hs
  have hp : p ∈ c.samples.columns := by
    simp only [smoothedHistogram, bind_ok_iff] at hm
    obtain ⟨d, hd, -⟩ := hm
    exact List.mem_map_of_mem (get_mem hd)
  have hmem : y / simpson m.ys m.xs ∈ m.ys.map (· / simpson m.ys m.xs) := List.mem_map_of_mem hy.1
  have hmax : ∀ v ∈ m.ys.map (· / simpson m.ys m.xs), v ≤ y / simpson m.ys m.xs := by
    intro v hv
    obtain ⟨z, hz, rfl⟩ := List.mem_map.1 hv
    exact div_le_div_of_nonneg_right (hy.2 z hz) hsp.le
  obtain ⟨l, cc, u, hsum, -⟩ := C31_hdi_mass hv (c.cfg .summaryArea : ℝ) ha
  have hps : parameterSummary lib.kde c p = .ok ⟨some l, some cc, some u⟩ := by
    simp only [parameterSummary, hstat, hm, bind, Except.bind, hsum]
  refine ⟨fun h => ?_, fun h h1 heap registry => ?_⟩
  · obtain ⟨t, d, hcut⟩ := (C35_cut_exists_iff m hv hs _ hmem hmax _ ha).2 h
    obtain ⟨ivs, bs, hiv, hbs, -⟩ := C36_bounds_of_bands m hv _ ha t d hcut
    by_cases h2 : 2 ≤ ivs.length
    · refine ⟨.multi bs, reported_iff.2 ⟨hp, ?_⟩⟩
      simp only [summaryEntry, hps, hmm, if_true, hm, hiv, hbs, bind, Except.bind, h2]
      rfl
    · refine ⟨.single ⟨some l, some cc, some u⟩, reported_iff.2 ⟨hp, ?_⟩⟩
      simp only [summaryEntry, hps, hmm, if_true, hm, hiv, bind, Except.bind, h2, if_false]
      rfl
  · have hcut := hdiCut_error hv hs hmem hmax h1 h
    have hiv : hdiIntervals m (c.cfg .summaryArea : ℝ) = .error .value := by
      simp only [hdiIntervals, hsum, hcut, bind, Except.bind]
    have he : summaryEntry lib.kde c p = .error .value := by
      simp only [summaryEntry, hps, hmm, if_true, hm, hiv, bind, Except.bind]
    simp only [getSummary, summaryLoop, chainSummary, sanitiseColumns, hp, not_true_eq_false, if_false, bind, Except.bind, he, pure,
      Except.pure]

theorem two_get {i : Nat} (hi : i < gridSize) : (linspace (0 : ℝ) 1 gridSize)[i]? = some (i * (1 / ((gridSize : ℝ) - 1))) := by
  rw [List.getElem?_eq_getElem (by simpa using hi), linspace_getElem]
  simp

theorem grid_pos : (0 : ℝ) < (gridSize : ℝ) - 1 := by
  rw [gridSize_eq]
  norm_num

/-- The points and the values of the marginal. -/
theorem two_values {m : Marginal ℝ}
    (hy : m.ys = (linspace 0 1 gridSize).map fun x => (u + (v - u) * x) / (u + v)) {i : Nat} {y : ℝ}
    (h : m.ys[i]? = some y) : i < gridSize ∧ y = (u + (v - u) * (i * (1 / ((gridSize : ℝ) - 1)))) / (u + v) := by
  rw [hy, List.getElem?_map] at h
  by_cases hi : i < gridSize
  · rw [two_get hi] at h
    refine ⟨hi, ?_⟩
    simpa using h.symm
  · rw [List.getElem?_eq_none (by simpa using hi)] at h
    cases h

theorem two_simpson {m : Marginal ℝ} (hu : 0 < u) (hv : 0 < v) (hm : ValidMarginal m) (hx : m.xs = linspace 0 1 gridSize)
    (hy : m.ys = (linspace 0 1 gridSize).map fun x => (u + (v - u) * x) / (u + v)) : simpson m.ys m.xs ≠ 0 := by
  refine (simpson_pos ?_ ?_ ?_).ne'
  · have h2 := hm.two
    rw [getD_eq (by omega), getD_eq (by omega)]
    have := List.pairwise_iff_getElem.1 hm.increasing 0 1 (by omega) (by omega) (by omega)
    linarith
  · rw [hm.ys_length, hx, linspace_length]
    unfold gridSize
    omega
  · intro y hy'
    rw [hy] at hy'
    obtain ⟨x, hx, rfl⟩ := List.mem_map.1 hy'
    obtain ⟨h0, h1⟩ := linspace_mem zero_le_one two_le_gridSize hx
    have e : u + (v - u) * x = u * (1 - x) + v * x := by ring
    refine div_pos ?_ (by linarith)
    rw [e]
    rcases h0.eq_or_lt with rfl | h0
    · linarith
    · exact add_pos_of_nonneg_of_pos (mul_nonneg hu.le (by linarith)) (mul_pos hv h0)

/-- **C89** (violation). A multimodal grid of two points with equal weights, hence with a constant marginal, has no summary:
`get_summary` raises a ValueError. -/
theorem C89_violated : ∃ c : Chain ℝ,
    Chain.make { samples := (twoFrame 1 1).toRaw, name := "two", grid := true, config := modalKw true } = .ok c ∧
    c.weights = .ok [1, 1] ∧ c.cfg .multimodal = true ∧
    ∀ (lib : Lib), KdeOk lib.kde → (∀ heap registry,
      getSummary lib.kde heap registry (some [c]) (some ["a"]) = .error .value) ∧
      ¬ ∃ fit, Reported lib c "a" fit := by
  obtain ⟨c, h1, h2⟩ := twoPoint_exists true (u := 1) (v := 1) one_pos one_pos
  refine ⟨c, h1, h2.weights, h2.modal, fun lib hk => ?_⟩
  obtain ⟨m, hm, hv, hx, hy⟩ := h2.marginal one_pos one_pos hk true
  have hs := two_simpson one_pos one_pos hv hx hy
  have hc : ∀ y ∈ m.ys, y = 1 / 2 := by
    intro y h
    rw [hy] at h
    obtain ⟨x, -, rfl⟩ := List.mem_map.1 h
    norm_num
  have hpk : Peak m (1 / 2) := by
    refine ⟨?_, fun z hz => (hc z hz).le⟩
    have h2' := hv.two
    have h3 := hv.ys_length
    have : m.ys[0]'(by omega) ∈ m.ys := List.getElem_mem _
    rwa [hc _ this] at this
  have key : ∀ heap registry, getSummary lib.kde heap registry (some [c]) (some ["a"]) = .error .value := by
    intro heap registry
    have ha := h2.area
    refine (C89_summaries_partial hk h2.weights (by simp) h2.modal h2.hdi (by rw [ha]; norm_num) hm hs hpk).2 ?_
      (by rw [ha]; norm_num) heap registry
    rw [ha]
    have e : massAbove m (m.ys.map (· / simpson m.ys m.xs)) (1 / 2 / simpson m.ys m.xs) = 1 := by
      refine Eq.trans ?_ (massAbove_zero hv hs)
      unfold massAbove
      congr 1
      refine List.map_congr_left fun d hd => ?_
      obtain ⟨y, hy', rfl⟩ := List.mem_map.1 hd
      rw [hc y hy', if_pos le_rfl, if_pos (div_nonneg (by norm_num) (simpson_pos_of_ne hv hs).le)]
    rw [e]
    norm_num
  refine ⟨key, ?_⟩
  rintro ⟨fit, hfit⟩
  have := hfit [] {}
  rw [key] at this
  cases this

/-- On a nondecreasing curve, nothing at a vertex that begins a new abscissa is below it. -/
theorem onCurve_ge {xs ys : List ℝ} (hx : xs.Pairwise (· ≤ ·)) (hy : ys.Pairwise (· ≤ ·))
    {j : Nat} {x' x q : ℝ} (h0 : xs[j]? = some x') (h1 : xs[j + 1]? = some x) (hlt : x' < x) (hq : ys[j + 1]? = some q)
    {y : ℝ} (h : OnCurve (xs.zip ys) x y) : q ≤ y := by
  have mono : ∀ (l : List ℝ), l.Pairwise (· ≤ ·) → ∀ (a b : Nat) (va vb : ℝ), a ≤ b → l[a]? = some va → l[b]? = some vb → va ≤ vb := by
    intro l hl a b va vb hab ha hb
    obtain ⟨ha', rfl⟩ := List.getElem?_eq_some_iff.1 ha
    obtain ⟨hb', rfl⟩ := List.getElem?_eq_some_iff.1 hb
    rcases hab.eq_or_lt with rfl | hab
    · exact le_rfl
    · exact List.pairwise_iff_getElem.1 hl a b ha' hb' hab
  have split : ∀ (k : Nat) (p : ℝ × ℝ), (xs.zip ys)[k]? = some p → xs[k]? = some p.1 ∧ ys[k]? = some p.2 := by
    intro k p hp
    rw [List.getElem?_zip_eq_some] at hp
    exact hp
  rcases h with h | ⟨pre, p, r, post, t, e, ht0, ht1, ex, ey⟩
  · obtain ⟨k, hk⟩ := List.mem_iff_getElem?.1 h
    obtain ⟨hk1, hk2⟩ := split k _ hk
    have hkj : j + 1 ≤ k := by
      by_contra hc
      have := mono xs hx k j x x' (by omega) hk1 h0
      linarith
    exact mono ys hy (j + 1) k q y hkj hq hk2
  · obtain ⟨p1, p2⟩ := split pre.length p (by rw [e]; simp)
    obtain ⟨r1, r2⟩ := split (pre.length + 1) r (by rw [e]; simp)
    have hp12 := mono xs hx _ _ _ _ (Nat.le_succ _) p1 r1
    have hy12 := mono ys hy _ _ _ _ (Nat.le_succ _) p2 r2
    by_cases hk : j + 1 ≤ pre.length
    · have := mono ys hy (j + 1) _ q _ hk hq p2
      have : 0 ≤ t * (r.2 - p.2) := mul_nonneg ht0 (by linarith)
      linarith
    · by_cases hk' : pre.length = j
      · rw [hk'] at p1 r1 p2 r2
        rw [h1] at r1
        rw [h0] at p1
        rw [hq] at r2
        simp only [Option.some.injEq] at r1 p1 r2
        have : (1 - t) * (x - x') = 0 := by
          rw [← r1, ← p1] at ex
          linarith
        have ht : t = 1 := by
          rcases mul_eq_zero.1 this with h | h <;> linarith
        rw [ey, ht, ← r2]
        linarith
      · exfalso
        have hr := mono xs hx (pre.length + 1) j _ _ (by omega) r1 h0
        have : t * (r.1 - p.1) ≤ 1 * (r.1 - p.1) := mul_le_mul_of_nonneg_right ht1 (by linarith)
        linarith

/-- The centre of the HDI is below its upper limit if the first point holds less than the area. -/
theorem hdi_center_lt {m : Marginal ℝ} (hm : ValidMarginal m) {a : ℝ} (ha : a ≤ 1) (ha0 : 1 / 10 ^ 12 < a)
    (h0 : ∀ y, m.cs[0]? = some y → y < a) {l c u : ℝ} (h : summaryHdi m a = .ok ⟨some l, some c, some u⟩) : c < u := by
  obtain ⟨l', c', u', h', -, hcu, i, j, p, q, hij, hl, hu, hp, hq, hpq, hcurve, -⟩ := C31_hdi_mass hm a ha
  rw [h] at h'
  obtain ⟨rfl, rfl, rfl⟩ : l = l' ∧ c = c' ∧ u = u' := by simpa using h'
  obtain ⟨x0, xl, hx0, hxl, hpl, hend, hmono, hxmono, hlen, h01, hm0, hml, hp0, hpl'⟩ := hm.hdi_setup
  rcases hcu.lt_or_eq with hcu | rfl
  · exact hcu
  exfalso
  have hc := hcurve (by linarith)
  obtain ⟨j, rfl⟩ : ∃ k, j = k + 1 := ⟨j - 1, by omega⟩
  cases j with
  | zero =>
    have hi : i = 0 := by omega
    subst hi
    simp only [masses, List.getElem?_cons_zero, List.getElem?_cons_succ, Option.some.injEq] at hp hq
    have := h0 q hq
    linarith
  | succ j =>
    rw [hpl] at hu hc
    have hu1 : m.xs[j + 1]? = some c := by simpa using hu
    obtain ⟨hj, hje⟩ := List.getElem?_eq_some_iff.1 hu1
    have hprev : (x0 :: m.xs)[j + 1]? = some (m.xs[j]'(by omega)) := by
      rw [List.getElem?_cons_succ, List.getElem?_eq_getElem (by omega)]
    have hlt := List.pairwise_iff_getElem.1 hm.increasing j (j + 1) (by omega) hj (by omega)
    rw [hje] at hlt
    have := onCurve_ge (xs := x0 :: m.xs) (by rw [← hpl]; exact hxmono) hmono hprev hu hlt hq hc
    linarith

theorem onCurve_le {xs ys : List ℝ} (hx : xs.Pairwise (· ≤ ·)) (hy : ys.Pairwise (· ≤ ·))
    {j : Nat} {x x' p : ℝ} (h0 : xs[j]? = some x) (h1 : xs[j + 1]? = some x') (hlt : x < x') (hp : ys[j]? = some p)
    {y : ℝ} (h : OnCurve (xs.zip ys) x y) : y ≤ p := by
  have mono : ∀ (l : List ℝ), l.Pairwise (· ≤ ·) → ∀ (a b : Nat) (va vb : ℝ), a ≤ b → l[a]? = some va → l[b]? = some vb → va ≤ vb := by
    intro l hl a b va vb hab ha hb
    obtain ⟨ha', rfl⟩ := List.getElem?_eq_some_iff.1 ha
    obtain ⟨hb', rfl⟩ := List.getElem?_eq_some_iff.1 hb
    rcases hab.eq_or_lt with rfl | hab
    · exact le_rfl
    · exact List.pairwise_iff_getElem.1 hl a b ha' hb' hab
  have split : ∀ (k : Nat) (p : ℝ × ℝ), (xs.zip ys)[k]? = some p → xs[k]? = some p.1 ∧ ys[k]? = some p.2 := by
    intro k p hp
    rw [List.getElem?_zip_eq_some] at hp
    exact hp
  rcases h with h | ⟨pre, r, s, post, t, e, ht0, ht1, ex, ey⟩
  · obtain ⟨k, hk⟩ := List.mem_iff_getElem?.1 h
    obtain ⟨hk1, hk2⟩ := split k _ hk
    have hkj : k ≤ j := by
      by_contra hc
      have := mono xs hx (j + 1) k x' x (by omega) h1 hk1
      linarith
    exact mono ys hy k j y p hkj hk2 hp
  · obtain ⟨p1, p2⟩ := split pre.length r (by rw [e]; simp)
    obtain ⟨r1, r2⟩ := split (pre.length + 1) s (by rw [e]; simp)
    have hp12 := mono xs hx _ _ _ _ (Nat.le_succ _) p1 r1
    have hy12 := mono ys hy _ _ _ _ (Nat.le_succ _) p2 r2
    by_cases hk : pre.length + 1 ≤ j
    · have h5 := mono ys hy _ j _ p hk r2 hp
      have : t * (s.2 - r.2) ≤ 1 * (s.2 - r.2) := mul_le_mul_of_nonneg_right ht1 (by linarith)
      linarith
    · by_cases hk' : pre.length = j
      · rw [hk'] at p1 r1 p2 r2
        rw [h1] at r1
        rw [h0] at p1
        rw [hp] at p2
        simp only [Option.some.injEq] at r1 p1 p2
        have : t * (x' - x) = 0 := by
          rw [← r1, ← p1] at ex
          linarith
        have ht : t = 0 := by
          rcases mul_eq_zero.1 this with h | h <;> linarith
        rw [ey, ht, ← p2]
        linarith
      · exfalso
        have hr := mono xs hx (j + 1) pre.length _ _ (by omega) h1 p1
        have : 0 ≤ t * (s.1 - r.1) := mul_nonneg ht0 (by linarith)
        linarith

/-- The centre of an HDI lies above its lower limit, unless the first point holds half of it. -/
theorem hdi_lower_lt {m : Marginal ℝ} (hm : ValidMarginal m) {a : ℝ} (ha : a ≤ 1) (ha0 : 1 / 10 ^ 12 < a)
    (h0 : ∀ y, m.cs[0]? = some y → y < a / 2) {l c u : ℝ} (h : summaryHdi m a = .ok ⟨some l, some c, some u⟩) : l < c := by
  obtain ⟨l', c', u', h', hlc, -, i, j, p, q, hij, hl, hu, hp, hq, hpq, hcurve, -⟩ := C31_hdi_mass hm a ha
  rw [h] at h'
  obtain ⟨rfl, rfl, rfl⟩ : l = l' ∧ c = c' ∧ u = u' := by simpa using h'
  obtain ⟨x0, xl, hx0, hxl, hpl, hend, hmono, hxmono, hlen, h01, hm0, hml, hp0, hpl'⟩ := hm.hdi_setup
  rcases hlc.lt_or_eq with hlc | rfl
  · exact hlc
  exfalso
  have hc := hcurve (by linarith)
  have htwo := hm.two
  have hcs := hm.cs_length
  rw [hpl] at hl hu hc
  have hxm : (x0 :: m.xs).Pairwise (· ≤ ·) := by rw [← hpl]; exact hxmono
  cases i with
  | zero =>
    rw [List.head?_eq_getElem?] at hx0
    have hl0 : x0 = l := by simpa using hl
    subst hl0
    have h1 : (x0 :: m.xs)[1]? = some x0 := by rw [List.getElem?_cons_succ]; exact hx0
    have h2 : (x0 :: m.xs)[1 + 1]? = some (m.xs[1]'(by omega)) := by
      rw [List.getElem?_cons_succ, List.getElem?_eq_getElem]
    have hlt := List.pairwise_iff_getElem.1 hm.increasing 0 1 (by omega) (by omega) (by omega)
    have hx0' : m.xs[0]'(by omega) = x0 := by
      rw [List.getElem?_eq_getElem (by omega)] at hx0
      exact Option.some.inj hx0
    rw [hx0'] at hlt
    have h3 : (masses m)[1]? = some (m.cs[0]'(by omega)) := by
      simp [masses]
    have h4 := onCurve_le hxm hmono h1 h2 hlt h3 hc
    have h5 := h0 _ (List.getElem?_eq_getElem (l := m.cs) (i := 0) (by omega))
    have h6 : p = 0 := by
      simp only [masses, List.getElem?_cons_zero, Option.some.injEq] at hp
      exact hp.symm
    linarith
  | succ i =>
    have hl1 : m.xs[i]? = some l := by simpa using hl
    obtain ⟨hi, hie⟩ := List.getElem?_eq_some_iff.1 hl1
    obtain ⟨hj, -⟩ := List.getElem?_eq_some_iff.1 hu
    simp only [List.length_cons] at hj
    have hnext : (x0 :: m.xs)[i + 1 + 1]? = some (m.xs[i + 1]'(by omega)) := by
      rw [List.getElem?_cons_succ, List.getElem?_eq_getElem (by omega)]
    have hlt := List.pairwise_iff_getElem.1 hm.increasing i (i + 1) hi (by omega) (by omega)
    rw [hie] at hlt
    have := onCurve_le hxm hmono hl hnext hlt hp hc
    linarith

/-- At the peak of the increasing line there is less than the requested area. -/
theorem two_peak {m : Marginal ℝ} (hm : ValidMarginal m) (hx : m.xs = linspace 0 1 gridSize)
    (hy : m.ys = (linspace 0 1 gridSize).map fun x => (1 + (2 - 1) * x) / (1 + 2)) :
    Peak m (2 / 3) ∧ massAbove m (m.ys.map (· / simpson m.ys m.xs)) (2 / 3 / simpson m.ys m.xs) ≤ 6827 / 10000 := by
  have hg : gridSize = 10000 := by unfold gridSize; rfl
  have hs := two_simpson one_pos two_pos hm hx hy
  have hpos := simpson_pos_of_ne hm hs
  have hlen : m.ys.length = 10000 := by rw [hm.ys_length, hx, linspace_length, hg]
  have hval : ∀ i, i < 10000 → m.ys.getD i 0 = (1 + i / 9999) / 3 := by
    intro i hi
    have : m.ys[i]? = some (m.ys[i]'(by omega)) := List.getElem?_eq_getElem _
    obtain ⟨-, h⟩ := two_values hy this
    rw [List.getD_eq_getElem?_getD, this, Option.getD_some, h, hg]
    norm_num
    ring
  have hle : ∀ z ∈ m.ys, z ≤ 2 / 3 := by
    intro z hz
    rw [hy] at hz
    obtain ⟨x, hx, rfl⟩ := List.mem_map.1 hz
    obtain ⟨h0, h1⟩ := linspace_mem zero_le_one two_le_gridSize hx
    linarith
  have hlast : m.ys.getD 9999 0 = 2 / 3 := by
    rw [hval _ (by omega)]
    norm_num
  have hmem : (2 / 3 : ℝ) ∈ m.ys := by
    rw [← hlast, List.getD_eq_getElem?_getD, List.getElem?_eq_getElem (by omega), Option.getD_some]
    exact List.getElem_mem _
  refine ⟨⟨hmem, hle⟩, ?_⟩
  set T := simpson m.ys m.xs with hT
  set h := m.xs.getD 1 0 - m.xs.getD 0 0 with hh
  have hhpos : 0 < h := by
    have h2 := hm.two
    rw [hh, getD_eq (by omega), getD_eq (by omega)]
    have := List.pairwise_iff_getElem.1 hm.increasing 0 1 (by omega) (by omega) (by omega)
    linarith
  -- the whole integral
  have hT' : 5 / 12 * h * (2 / 3) + 7 / 12 * h * (1 / 3) ≤ T := by
    have hodd : 0 ≤ simpsonOdd h (m.ys.take 9999) := by
      refine simpsonOdd_nonneg hhpos.le _ fun y hy' => hm.density_nonneg y (List.mem_of_mem_take hy')
    rw [hT, simpson, hlen]
    simp only [Nat.reduceMod, Nat.reduceSub, Nat.reduceEqDiff, if_false, ← hh, hlast, hval 9998 (by omega), hval 9997 (by omega),
      zero_ne_one]
    push_cast
    nlinarith
  -- the part at the peak
  have hodd0 : ∀ (l : List ℝ), (∀ y ∈ l, y = 0) → simpsonOdd h l = 0 := by
    intro l hl
    induction l using simpsonOdd.induct with
    | case1 a b c rest ih =>
      rw [simpsonOdd, ih (fun y hy => hl y (by simp only [List.mem_cons] at hy ⊢; tauto)), hl a (by simp), hl b (by simp), hl c (by simp)]
      ring
    | case2 l hl' => rw [simpsonOdd]; exact hl'
  have hz : ∀ i, i < 9999 → ((m.ys.map (· / T)).map fun v => if 2 / 3 / T ≤ v then v else 0).getD i 0 = 0 := by
    intro i hi
    rw [List.getD_eq_getElem?_getD, List.getElem?_map, List.getElem?_map, List.getElem?_eq_getElem (by omega)]
    simp only [Option.map_some, Option.getD_some]
    rw [if_neg]
    intro hc
    rw [div_le_div_iff_of_pos_right hpos] at hc
    have := hval i (by omega)
    rw [List.getD_eq_getElem?_getD, List.getElem?_eq_getElem (by omega), Option.getD_some] at this
    rw [this] at hc
    have : (i : ℝ) < 9999 := by exact_mod_cast hi
    linarith
  have hl1 : ((m.ys.map (· / T)).map fun v => if 2 / 3 / T ≤ v then v else 0).getD 9999 0 = 2 / 3 / T := by
    have := hlast
    rw [List.getD_eq_getElem?_getD, List.getElem?_eq_getElem (by omega), Option.getD_some] at this
    rw [List.getD_eq_getElem?_getD, List.getElem?_map, List.getElem?_map, List.getElem?_eq_getElem (by omega), this]
    simp
  have hm' : massAbove m (m.ys.map (· / T)) (2 / 3 / T) = 5 / 12 * h * (2 / 3 / T) := by
    unfold massAbove
    rw [simpson]
    simp only [List.length_map, hlen, Nat.reduceMod, Nat.reduceSub, Nat.reduceEqDiff, if_false, ← hh, hl1, hz 9998 (by omega),
      hz 9997 (by omega), zero_ne_one]
    rw [hodd0]
    · ring
    · intro y hy'
      obtain ⟨i, hi⟩ := List.mem_iff_getElem?.1 hy'
      rw [List.getElem?_take] at hi
      split at hi
      · rename_i hi'
        have := hz i hi'
        rw [List.getD_eq_getElem?_getD, hi, Option.getD_some] at this
        exact this
      · cases hi
  rw [hm', ← mul_div_assoc, div_le_iff₀ hpos]
  nlinarith

/-- On an increasing marginal the bands are one, and it is centred on its upper limit. -/
theorem increasing_band {m : Marginal ℝ} (hm : ValidMarginal m) (hi : m.ys.Pairwise (· < ·)) {a : ℝ} (h1 : a ≤ 1) {t : ℝ}
    {d : List ℝ} (hcut : hdiCut m a = .ok (t, d)) {lh ch uh : ℝ} (hh : summaryHdi m a = .ok ⟨some lh, some ch, some uh⟩) :
    ∃ l u, hdiIntervals m a = .ok [(l, u)] ∧ multimodalBounds m [(l, u)] = .ok [⟨some l, some u, some u⟩] ∧ uh ≤ u ∧
      l ∈ m.xs ∧ u ∈ m.xs := by
  have mono : ∀ (i j : Nat) (y y' : ℝ), i < j → m.ys[i]? = some y → m.ys[j]? = some y' → y < y' := by
    intro i j y y' hij hy hy'
    obtain ⟨h3, rfl⟩ := List.getElem?_eq_some_iff.1 hy
    obtain ⟨h4, rfl⟩ := List.getElem?_eq_some_iff.1 hy'
    exact List.pairwise_iff_getElem.1 hi i j h3 h4 hij
  have xmono : ∀ (i j : Nat) (x x' : ℝ), i ≤ j → m.xs[i]? = some x → m.xs[j]? = some x' → x ≤ x' := by
    intro i j y y' hij hy hy'
    obtain ⟨h3, rfl⟩ := List.getElem?_eq_some_iff.1 hy
    obtain ⟨h4, rfl⟩ := List.getElem?_eq_some_iff.1 hy'
    rcases hij.eq_or_lt with rfl | hij
    · exact le_rfl
    · exact (List.pairwise_iff_getElem.1 hm.increasing i j h3 h4 hij).le
  have hlen := hm.ys_length
  -- where the limits of the HDI are
  have huh : ∃ i k : Nat, i ≤ k ∧ m.xs[i]? = some lh ∧ m.xs[k]? = some uh := by
    obtain ⟨l', c', u', h7, -, -, i, j, p, q, hij, hl, hu, -⟩ := C31_hdi_mass hm a h1
    rw [hh] at h7
    obtain ⟨rfl, -, rfl⟩ : lh = l' ∧ ch = c' ∧ uh = u' := by simpa using h7
    obtain ⟨x0, xl, hx0, -, hpl, -⟩ := hm.hdi_setup
    rw [List.head?_eq_getElem?] at hx0
    rw [hpl] at hl hu
    obtain ⟨j, rfl⟩ : ∃ k, j = k + 1 := ⟨j - 1, by omega⟩
    cases i with
    | zero => exact ⟨0, j, Nat.zero_le _, by simpa [← hx0] using hl, by simpa using hu⟩
    | succ i => exact ⟨i, j, by omega, by simpa using hl, by simpa using hu⟩
  -- bands of points are centred on their upper limits
  have hcenter : ∀ l u (s e : Nat), s ≤ e → m.xs[s]? = some l → m.xs[e]? = some u →
      multimodalBounds m [(l, u)] = .ok [⟨some l, some u, some u⟩] := by
    intro l u s e hse hs he
    obtain ⟨bs, h3, h4⟩ := C36_multimodal_bounds m hm [(l, u)] (by
      intro iv hiv
      obtain rfl := List.mem_singleton.1 hiv
      exact ⟨s, e, hse, hs, he⟩)
    rcases h4 with _ | ⟨⟨k, x, y, rfl, hx, hy, hlx, hxu, hmax⟩, ⟨⟩⟩
    rw [h3]
    have hek : x = u := by
      obtain ⟨he', -⟩ := List.getElem?_eq_some_iff.1 he
      have hye : m.ys[e]? = some (m.ys[e]'(by omega)) := List.getElem?_eq_getElem _
      have h5 := hmax e u _ he hye (xmono s e l u hse hs he) le_rfl
      rcases lt_trichotomy k e with h6 | rfl | h6
      · have := mono k e _ _ h6 hy hye
        linarith
      · rw [hx] at he
        exact Option.some.inj he
      · have h7 := xmono e k u x h6.le he hx
        exact le_antisymm hxu h7
    rw [hek]
  obtain ⟨ivs, lev, h2, -, h4⟩ := C34_bands m hm a h1 t d hcut
  rcases h4 with ⟨hne, hpw, hiff, -⟩ | ⟨⟨l, c, u, h5, h6⟩, -⟩
  · have hend : ∀ iv ∈ ivs, ∃ s e : Nat, s < e ∧ e + 1 = m.xs.length ∧ m.xs[s]? = some iv.1 ∧ m.xs[e]? = some iv.2 := by
      intro iv hiv
      obtain ⟨s, e, hse, hs, he, hin, hout⟩ := (hiff iv).1 hiv
      refine ⟨s, e, hse, ?_, hs, he⟩
      obtain ⟨he', -⟩ := List.getElem?_eq_some_iff.1 he
      by_contra hc
      have hye : m.ys[e + 1]? = some (m.ys[e + 1]'(by omega)) := List.getElem?_eq_getElem _
      obtain ⟨y, hy, hyl⟩ := hin e hse.le le_rfl
      have h7 := hout (e + 1) _ (.inr rfl) hye
      have := mono e (e + 1) _ _ (by omega) hy hye
      linarith
    match ivs, hne, hpw, hend, h2 with
    | [iv], _, _, hend, h2 =>
      obtain ⟨s, e, hse, hel, hs, he⟩ := hend iv (by simp)
      refine ⟨iv.1, iv.2, h2, hcenter iv.1 iv.2 s e hse.le hs he, ?_, List.mem_of_getElem? hs, List.mem_of_getElem? he⟩
      obtain ⟨i, k, -, -, hk⟩ := huh
      obtain ⟨hk', -⟩ := List.getElem?_eq_some_iff.1 hk
      exact xmono k e _ _ (by omega) hk he
    | iv :: iv' :: rest, _, hpw, hend, h2 =>
      obtain ⟨s, e, hse, hel, hs, he⟩ := hend iv (by simp)
      obtain ⟨s', e', hse', hel', hs', he'⟩ := hend iv' (by simp)
      have : e = e' := by omega
      subst this
      have h8 := ((List.pairwise_cons.1 hpw).1 iv' (by simp))
      rw [he] at he'
      have := Option.some.inj he'
      linarith [h8.2.1, h8.2.2]
  · rw [hh] at h5
    obtain ⟨rfl, rfl, rfl⟩ : lh = l ∧ ch = c ∧ uh = u := by simpa using h5
    obtain ⟨i, k, hik, hi', hk⟩ := huh
    exact ⟨lh, uh, by rw [h2, h6], hcenter lh uh i k hik hi' hk, le_rfl, List.mem_of_getElem? hi',
      List.mem_of_getElem? hk⟩


/-- The HDI of the increasing line. -/
theorem two_hdi {m : Marginal ℝ} (hm : ValidMarginal m) (hx : m.xs = linspace 0 1 gridSize)
    (hy : m.ys = (linspace 0 1 gridSize).map fun x => (1 + (2 - 1) * x) / (1 + 2)) :
    ∃ l c u, summaryHdi m (6827 / 10000) = .ok ⟨some l, some c, some u⟩ ∧ 0 ≤ l ∧ l < c ∧ u ≤ 1 ∧ c < u := by
  obtain ⟨l, c, u, h, hlc, hcu, i, j, p, q, hij, hl, hu, -⟩ := C31_hdi_mass hm (6827 / 10000) (by norm_num)
  obtain ⟨x0, xl, hx0, -, hpl, -⟩ := hm.hdi_setup
  have hmem : ∀ (k : Nat) (x : ℝ), (places m)[k]? = some x → 0 ≤ x ∧ x ≤ 1 := by
    intro k x hk
    refine linspace_mem zero_le_one two_le_gridSize ?_
    rw [← hx]
    have := List.mem_of_getElem? hk
    rw [hpl] at this
    rcases List.mem_cons.1 this with rfl | h
    · exact List.mem_of_mem_head? hx0
    · exact h
  suffices hfirst : ∀ y, m.cs[0]? = some y → y < 6827 / 10000 / 2 from
    ⟨l, c, u, h, (hmem _ _ hl).1, hdi_lower_lt hm (by norm_num) (by norm_num) hfirst h, (hmem _ _ hu).2,
      hdi_center_lt hm (by norm_num) (by norm_num) (fun y hy' => by have := hfirst y hy'; linarith) h⟩
  intro y h0
  obtain ⟨h1, rfl⟩ := List.getElem?_eq_some_iff.1 h0
  rw [hm.cumulative 0 h1]
  have h2 := hm.two
  have h3 := hm.ys_length
  have hg : gridSize = 10000 := by unfold gridSize; rfl
  obtain ⟨-, e0⟩ := two_values hy (List.getElem?_eq_getElem (l := m.ys) (i := 0) (by omega))
  obtain ⟨-, e1⟩ := two_values hy (List.getElem?_eq_getElem (l := m.ys) (i := 1) (by omega))
  have hg3 : 3 < m.ys.length := by rw [h3, hx, linspace_length, hg]; norm_num
  obtain ⟨-, e2⟩ := two_values hy (List.getElem?_eq_getElem (l := m.ys) (i := 2) (by omega))
  have hle : m.ys[0] + m.ys[1] + m.ys[2] ≤ m.ys.sum := by
    have e : m.ys = m.ys[0] :: m.ys[1] :: m.ys[2] :: m.ys.drop 3 := by
      rw [List.getElem_cons_drop, List.getElem_cons_drop, List.getElem_cons_drop, List.drop_zero]
    have hnn : 0 ≤ (m.ys.drop 3).sum := List.sum_nonneg fun y hy' => hm.density_nonneg y (List.mem_of_mem_drop hy')
    have : m.ys.sum = m.ys[0] + (m.ys[1] + (m.ys[2] + (m.ys.drop 3).sum)) := by
      conv_lhs => rw [e]
      rw [List.sum_cons, List.sum_cons, List.sum_cons]
    linarith
  have ht : (m.ys.take (0 + 1)).sum = m.ys[0] := by
    have hne : m.ys = m.ys[0] :: m.ys.drop 1 := by
      rw [List.getElem_cons_drop, List.drop_zero]
    conv_lhs => rw [hne]
    simp
  rw [ht, div_lt_iff₀ hm.mass_pos]
  have h01 : m.ys[0] ≤ m.ys[1] := by
    rw [e0, e1, hg]
    norm_num
  have h02 : m.ys[0] ≤ m.ys[2] := by
    rw [e0, e2, hg]
    norm_num
  have : 0 < m.ys[0] := by
    rw [e0]
    norm_num
  nlinarith

/-- The histogram of a two-point chain, with its shading. -/
theorem two_bars {multi : Bool} (h : TwoPoint c multi u v) (hu : 0 < u) (hv : 0 < v) (lib : Lib) (cfg : PlotConfig) (flip summary : Bool)
    {shade : List Call} (hs : barShade lib cfg c "a" [0, 1] flip summary = .ok shade) :
    ∃ top, plotBars lib cfg "a" c flip summary =
      .ok (.marginal "two" "a" flip [0, 1] [u / (u + v), v / (u + v)] :: shade, top) := by
  have hd : barData lib c "a" = .ok ([0, 1], [u / (u + v), v / (u + v)]) := by
    simp only [barData, h.smooth, h.kde, ne_eq, not_true_eq_false, or_self, if_false, h.data, h.weights, marginalBins, h.grid, if_true,
      two_bins, two_density hu hv, h.power, two_pow, two_mid, bind, Except.bind, pure, Except.pure]
  refine ⟨max (u / (u + v)) (v / (u + v)), ?_⟩
  simp only [plotBars, Chain.finHeight, barShadeIf, hd, h.height, h.shaded, if_true, hs, h.name, bind, Except.bind, pure, Except.pure,
    List.map_cons, List.map_nil, mul_one, arrMax, npMax, List.foldl_cons, List.foldl_nil]

theorem two_minmax : arrMin ([0, 1] : List ℝ) = .ok 0 ∧ arrMax ([0, 1] : List ℝ) = .ok 1 := by
  constructor
  · simp [arrMin]
  · simp [arrMax, npMax]

/-- Bounds with a centre below the upper limit, or on it and not at zero, have a text that is not empty. -/
theorem single_text {l c u : ℝ} (h : ¬ (l = 0 ∧ c = 0 ∧ u = 0)) (label : Option String) :
    ∃ t, parameterText (some (.single (⟨some l, some c, some u⟩ : Bound ℝ))) true label = .ok t ∧ t ≠ "" := by
  obtain ⟨-, h2⟩ := C42_formats_partial (⟨some l, some c, some u⟩ : Bound ℝ) true label (by simpa using h)
  obtain ⟨text, -, h3⟩ := h2 l c u rfl
  refine ⟨_, h3, ?_⟩
  intro he
  have := congrArg String.length he
  simp at this

/-- Figures of one parameter, the first of the data of `two_bars`. -/
noncomputable def oneBase (c : Chain ℝ) : PlottingBase where
  chains := [c]
  columns := ["a"]
  extents := [("a", some (0, 1))]
  blind := []
  logScales := []

/-- The figure of `plot_distributions` from the histogram of its only chain. -/
theorem two_distribution {multi : Bool} (h : TwoPoint c multi u v) (lib : Lib) (cfg : PlotConfig) (hsum : cfg.summarise = true)
    {bars : List Call} {top : ℝ} (hb : plotBars lib cfg "a" c false true = .ok (bars, top)) :
    ∃ fig calls, plotDistributionsBase lib cfg [] 1 (oneBase c) = .ok fig ∧ ((0, 0), calls) ∈ fig.panels ∧
      titles calls = titles bars := by
  have hp : c.plottingColumns = ["a"] := by
    have h4 : c.cfg .colorParam = none := by rw [h.cfg]; cases multi <;> rfl
    have h5 : c.cfg .plotCloud = false := by rw [h.cfg]; cases multi <;> rfl
    rw [Chain.plottingColumns, Chain.dataColumns, h4, h5, h.samples, h.weight, h.posterior]
    have hc : (twoFrame u v).columns = ["a", "weight"] := rfl
    rw [hc]
    decide
  have hd : distChains lib cfg "a" true [c] none = .ok (bars, topStep none top) := by
    simp only [distChains, h.contour, hp, List.mem_singleton, not_true_eq_false, decide_false, Bool.not_true, Bool.or_self,
      Bool.false_eq_true, if_false, hb, bind, Except.bind, pure, Except.pure, List.append_nil]
  obtain ⟨calls, hc, ht⟩ : ∃ calls, distPanel lib cfg (oneBase c) [] "a" = .ok calls ∧ titles calls = titles bars := by
    refine ⟨[.noTicks .y, .maxNLocator .x, .lim .x 0 1] ++ bars ++ [.lim .y 0 (11 / 10 * top), .axisLabel .x "a"], ?_, ?_⟩
    · simp only [distPanel, oneBase, hsum, List.length_singleton, decide_true, List.not_mem_nil, decide_false, Bool.not_false,
        Bool.and_self, hd, bind, Except.bind, pure, Except.pure, if_false, List.lookup, beq_self_eq_true, setLim,
        topStep, distYlim, plotTruths, List.flatMap_nil, List.append_nil, List.cons_append, List.nil_append]
    · rw [titles_append, titles_append]
      simp [titles]
  refine ⟨{ panels := [((0, 0), calls)] }, calls, ?_, by simp, ht⟩
  have e : (oneBase c).columns = ["a"] := rfl
  have hg : gridPanels ((1 + 1 - 1) / 1) (min 1 1) = [(0, 0)] := rfl
  simp only [plotDistributionsBase, e, List.length_singleton, hg, List.mapM_cons, List.mapM_nil, ensure, ne_eq, one_ne_zero,
    not_false_eq_true, decide_true, if_true, Nat.lt_one_iff, bind, Except.bind, pure, Except.pure, zero_mul, zero_add,
    nonpos_iff_eq_zero, if_false, List.getD_cons_zero, hc]
  rfl

/-- **C85** (violation). The multimodal grid of two points with weights 1 and 2 has one band: `get_summary` reports a bound of
the HDI, but the title of `plot_distributions` shows another, centred on the greatest density (its upper limit), which
is greater than the centre reported, and the two texts differ. -/
theorem C85_violated : ∃ c : Chain ℝ,
    Chain.make { samples := (twoFrame 1 2).toRaw, name := "two", grid := true, config := modalKw true } = .ok c ∧
    ∀ (lib : Lib), KdeOk lib.kde → ∃ fig calls l x u l' u' t t',
      plotDistributionsBase lib {} [] 1 (oneBase c) = .ok fig ∧ ((0, 0), calls) ∈ fig.panels ∧
      Reported lib c "a" (.single ⟨some l, some x, some u⟩) ∧
      parameterText (some (.single (⟨some l, some x, some u⟩ : Bound ℝ))) true (some "a") = .ok t' ∧
      parameterText (some (.single (⟨some l', some u', some u'⟩ : Bound ℝ))) true (some "a") = .ok t ∧
      titles calls = [t] ∧ x < u' ∧ t ≠ t' := by
  obtain ⟨c, h1, h2⟩ := twoPoint_exists true (u := 1) (v := 2) one_pos two_pos
  refine ⟨c, h1, fun lib hk => ?_⟩
  obtain ⟨m, hm, hv, hx, hy⟩ := h2.marginal one_pos two_pos hk true
  obtain ⟨l, x, u, hh, hl0, hlx, hu1, hxu⟩ := two_hdi hv hx hy
  have hlu : l ≤ u := by linarith
  have ha := h2.area
  have hs := two_simpson one_pos two_pos hv hx hy
  obtain ⟨hpk, hmass⟩ := two_peak hv hx hy
  have hsp := simpson_pos_of_ne hv hs
  obtain ⟨t, d, hcut⟩ := (C35_cut_exists_iff m hv hs (2 / 3 / simpson m.ys m.xs) (List.mem_map_of_mem hpk.1) (by
    intro v hv'
    obtain ⟨z, hz, rfl⟩ := List.mem_map.1 hv'
    exact div_le_div_of_nonneg_right (hpk.2 z hz) hsp.le) (6827 / 10000) (by norm_num)).2 (.inl hmass)
  have hinc : m.ys.Pairwise (· < ·) := by
    rw [hy, List.pairwise_map]
    refine List.Pairwise.imp ?_ (linspace_increasing zero_lt_one two_le_gridSize)
    intro a b hab
    linarith
  obtain ⟨l', u', hiv, hbs, huu, hl', hu'⟩ := increasing_band hv hinc (by norm_num) hcut hh
  have hps : parameterSummary lib.kde c "a" = .ok ⟨some l, some x, some u⟩ := by
    simp only [parameterSummary, h2.hdi, hm, ha, bind, Except.bind, hh]
  have hrep : Reported lib c "a" (.single ⟨some l, some x, some u⟩) := by
    refine reported_iff.2 ⟨by rw [h2.samples]; decide, ?_⟩
    simp only [summaryEntry, hps, h2.modal, if_true, hm, ha, hiv, bind, Except.bind, List.length_singleton]
    rfl
  obtain ⟨t, ht, htne⟩ := single_text (l := l') (c := u') (u := u') (by
    rintro ⟨-, h0, -⟩
    linarith) (some "a")
  have hshade : barShade lib {} c "a" [0, 1] false true = .ok [.shade "two" "a" false l u, .title t] := by
    have hmul : parameterText (some (.multi [(⟨some l', some u', some u'⟩ : Bound ℝ)])) true (some "a") = .ok t := ht
    have hlab : stripDollars (getLabel ({} : PlotConfig).labels "a") = "a" := by decide
    simp only [barShade, hps, shadeBounds, h2.modal, if_true, hm, ha, hiv, hbs, List.length_singleton, Nat.one_lt_two, two_minmax.1,
      two_minmax.2, bind, Except.bind, pure, Except.pure, List.all_cons, List.all_nil, min_eq_left hlu, max_eq_right hlu, hl0, hu1,
      decide_true, Bool.and_self, ensure, barTitle, hlab, hmul, List.map_cons, List.map_nil, htne, if_false, h2.name]
    rfl
  obtain ⟨top, hb⟩ := two_bars h2 one_pos two_pos lib {} false true hshade
  obtain ⟨fig, calls, h3, h4, h5⟩ := two_distribution h2 lib {} rfl hb
  obtain ⟨t', ht', -⟩ := single_text (l := l) (c := x) (u := u) (by
    rintro ⟨-, h0, -⟩
    linarith) (some "a")
  refine ⟨fig, calls, l, x, u, l', u', t, t', h3, h4, hrep, ht', ht, by rw [h5]; rfl, lt_of_lt_of_le hxu huu, ?_⟩
  rw [hx] at hl' hu'
  obtain ⟨hl'0, hl'1⟩ := linspace_mem zero_le_one two_le_gridSize hl'
  obtain ⟨hu'0, hu'1⟩ := linspace_mem zero_le_one two_le_gridSize hu'
  have hscale : scaleOf l' u' u' < 100 := by
    unfold scaleOf
    rw [sub_self, if_pos rfl]
    split
    · rw [abs_lt]; constructor <;> linarith
    · rw [abs_lt]; constructor <;> linarith
  obtain ⟨-, hf⟩ := C42_formats_partial (⟨some l, some x, some u⟩ : Bound ℝ) true (some "a") (by
    intro h0
    have : x = 0 := by simpa using congrArg Bound.center h0
    linarith)
  obtain ⟨s, hs1, hs2⟩ := hf l x u rfl
  obtain ⟨-, hf'⟩ := C42_formats_partial (⟨some l', some u', some u'⟩ : Bound ℝ) true (some "a") (by
    intro h0
    have : u' = 0 := by simpa using congrArg Bound.center h0
    linarith)
  obtain ⟨s', hs1', hs2'⟩ := hf' l' u' u' rfl
  rw [ht'] at hs2
  rw [ht] at hs2'
  have hne := display_ne hxu.ne' hlx.ne hscale hs1 hs1'
  intro heq
  rw [Except.ok.inj hs2, Except.ok.inj hs2'] at heq
  apply hne
  have := congrArg String.toList heq
  simp at this
  exact String.toList_inj.1 this.symm

/-- The figure of `plot` from the histogram of its only chain. -/
theorem two_plot {multi : Bool} (h : TwoPoint c multi u v) (lib : Lib)
    {bars : List Call} {top : ℝ} (hb : plotBars lib {} "a" c false true = .ok (bars, top)) :
    ∃ fig calls, plotBase lib {} [] (oneBase c) = .ok fig ∧ ((0, 0), calls) ∈ fig.panels ∧ titles calls = titles bars := by
  have hp : "a" ∈ c.samples.columns := by rw [h.samples]; exact List.mem_cons_self
  have hd : histChains lib {} "a" false true [c] none = .ok (bars, topStep none top) := by
    simp only [histChains, h.contour, hp, not_true_eq_false, decide_false, Bool.not_true, Bool.or_self,
      Bool.false_eq_true, if_false, hb, bind, Except.bind, pure, Except.pure, List.append_nil]
  obtain ⟨s, hs⟩ : ∃ s, trianglePanel {} (oneBase c) 1 0 0 "a" "a" = .ok s := ⟨_, rfl⟩
  have hst : titles s = [] := (trianglePanel_ticks hs le_rfl).2.2
  have hdr : drawPanel lib {} (oneBase c) [] true false 1 0 0 "a" "a" = .ok (bars ++ topLim false (some top), []) := by
    simp only [drawPanel, Nat.lt_irrefl, if_false, decide_true, Bool.and_self, if_true, histPanel, oneBase, List.not_mem_nil,
      decide_false, Bool.not_false, Bool.false_and, hd, bind, Except.bind, pure, Except.pure, topStep]
    rfl
  have hf : ([c].filter fun c => c.cfg .plotContour) = [c] := by
    rw [List.filter_cons_of_pos (by simpa using h.contour)]
    rfl
  refine ⟨{ panels := [((0, 0), s ++ (bars ++ topLim false (some top)))], colorbars := [] }, _, ?_, List.mem_singleton_self _, ?_⟩
  · have e : (oneBase c).columns = ["a"] := rfl
    have e' : (oneBase c).chains = [c] := rfl
    have hg : gridPanels 1 1 = [(0, 0)] := rfl
    have hn : decide (1 = 2) = false := rfl
    simp only [plotBase, e, e', hf, List.length_singleton, if_true, hg, List.mapM_cons, List.mapM_nil, ensure, Nat.zero_lt_one,
      decide_true, Bool.and_self, hn, Bool.false_and, bind, Except.bind, pure, Except.pure, List.getD_cons_zero, hs, hdr]
    rfl
  · rw [titles_append, titles_append, hst, (topLim_setup _ _).2, List.nil_append, List.append_nil]

/-- The hypotheses of `C85_plot_partial` and `C85_distributions_partial` are met by the same grid without modes: its titles are
the text of the HDI. -/
example (lib : Lib) (hk : KdeOk lib.kde) : ∃ (c : Chain ℝ) (fig fig' : Fig) (calls calls' : List Call) (b : Bound ℝ) (t : String),
    plotDistributionsBase lib {} [] 1 (oneBase c) = .ok fig ∧ ((0, 0), calls) ∈ fig.panels ∧
    plotBase lib {} [] (oneBase c) = .ok fig' ∧ ((0, 0), calls') ∈ fig'.panels ∧ Reported lib c "a" (.single b) ∧
    Closed b ∧ parameterText (some (.single b)) true (some "a") = .ok t ∧ titles calls = [t] ∧ titles calls' = [t] := by
  obtain ⟨c, h1, h2⟩ := twoPoint_exists false (u := 1) (v := 2) one_pos two_pos
  obtain ⟨m, hm, hv, hx, hy⟩ := h2.marginal one_pos two_pos hk true
  obtain ⟨l, x, u, hh, hl0, hlx, hu1, hxu⟩ := two_hdi hv hx hy
  have ha := h2.area
  have hps : parameterSummary lib.kde c "a" = .ok ⟨some l, some x, some u⟩ := by
    simp only [parameterSummary, h2.hdi, hm, ha, bind, Except.bind, hh]
  have hrep : Reported lib c "a" (.single ⟨some l, some x, some u⟩) := by
    refine reported_iff.2 ⟨by rw [h2.samples]; decide, ?_⟩
    simp only [summaryEntry, hps, h2.modal, bind, Except.bind]
    rfl
  obtain ⟨t, ht, htne⟩ := single_text (l := l) (c := x) (u := u) (by
    rintro ⟨-, h0, h0'⟩
    linarith) (some "a")
  have hlu : l ≤ u := by linarith
  have hshade : barShade lib {} c "a" [0, 1] false true = .ok [.shade "two" "a" false l u, .title t] := by
    have hlab : stripDollars (getLabel ({} : PlotConfig).labels "a") = "a" := by decide
    simp only [barShade, hps, shadeBounds, h2.modal, Bool.false_eq_true, two_minmax.1, max_eq_left hl0, min_eq_left hu1,
      two_minmax.2, bind, Except.bind, pure, Except.pure, List.all_cons, List.all_nil, min_eq_left hlu, max_eq_right hlu, hl0, hu1,
      decide_true, Bool.and_self, ensure, barTitle, hlab, ht, List.map_cons, List.map_nil, htne, if_false, if_true, h2.name]
    rfl
  obtain ⟨top, hb⟩ := two_bars h2 one_pos two_pos lib {} false true hshade
  obtain ⟨fig, calls, h3, h4, h5⟩ := two_distribution h2 lib {} rfl hb
  obtain ⟨fig', calls', h3', h4', h5'⟩ := two_plot h2 lib hb
  exact ⟨c, fig, fig', calls, calls', _, t, h3, h4, h3', h4', hrep, ⟨by simp, by simp⟩, ht, by rw [h5]; rfl, by rw [h5']; rfl⟩

/-- The increasing grid meets the hypotheses of `C89_summaries_partial`, with a summary. -/
example (lib : Lib) (hk : KdeOk lib.kde) : ∃ (c : Chain ℝ) (fit : Summary ℝ), c.weights = .ok [1, 2] ∧
    c.cfg .multimodal = true ∧ Reported lib c "a" fit := by
  obtain ⟨c, h1, h2⟩ := twoPoint_exists true (u := 1) (v := 2) one_pos two_pos
  obtain ⟨m, hm, hv, hx, hy⟩ := h2.marginal one_pos two_pos hk true
  obtain ⟨hpk, hmass⟩ := two_peak hv hx hy
  have ha := h2.area
  obtain ⟨fit, hf⟩ := (C89_summaries_partial hk h2.weights (by simp) h2.modal h2.hdi (by rw [ha]; norm_num) hm
    (two_simpson one_pos two_pos hv hx hy) hpk).1 (.inl (by rw [ha]; exact hmass))
  exact ⟨c, fit, h2.weights, h2.modal, hf⟩

end CC
