import Verif.Lemmas.Hdi
import Verif.Props.EqualTailed

/-! # C31, C32, C33: the HDI summary -/

set_option linter.unusedSectionVars false

namespace CC
variable {K : Type} [Field K] [LinearOrder K]

/-- The cumulative masses, starting from no mass at all, ... -/
def Spec.masses (m : Marginal K) : List K := 0 :: m.cs

/-- ... and the abscissae at which they are reached (the first grid point twice: before and after its
own mass). -/
def Spec.places (m : Marginal K) : List K := m.xs.head?.toList ++ m.xs

open Spec
variable [IsStrictOrderedRing K]

theorem polyline_ge_vertex {pts : List (K × K)} (hs : Sorted1 pts)
    (hv : pts.Pairwise fun p q => p.2 ≤ q.2) {v : K} {p : K × K} (hp : p ∈ pts) (hpv : p.1 ≤ v) :
    p.2 ≤ polyline pts v := by
  induction pts generalizing p with
  | nil => cases hp
  | cons a pts ih =>
    cases pts with
    | nil =>
      have : p = a := by simpa using hp
      rw [this, polyline]
    | cons q rest =>
      rw [polyline]
      obtain ⟨hs1, hs2⟩ := List.pairwise_cons.1 hs
      obtain ⟨hv1, hv2⟩ := List.pairwise_cons.1 hv
      split
      · rename_i hlt
        rcases List.mem_cons.1 hp with rfl | hp
        · have h1 := hv1 q (by simp)
          have : 0 ≤ (q.2 - p.2) / (q.1 - p.1) * (v - p.1) :=
            mul_nonneg (div_nonneg (by linarith) (by linarith)) (by linarith)
          linarith
        · exfalso
          have : q.1 ≤ p.1 := by
            rcases List.mem_cons.1 hp with rfl | hp
            · exact le_rfl
            · exact (List.pairwise_cons.1 hs2).1 p hp
          linarith
      · rename_i hnl
        rcases List.mem_cons.1 hp with rfl | hp
        · refine (hv1 q (by simp)).trans ?_
          exact ih hs2 hv2 (by simp) (not_lt.1 hnl)
        · exact ih hs2 hv2 hp hpv

theorem polyline_le_vertex {pts : List (K × K)} (hs : Sorted1 pts)
    (hv : pts.Pairwise fun p q => p.2 ≤ q.2) {v : K} {a : K × K} (ha : pts.head? = some a)
    (hav : a.1 ≤ v) {p : K × K} (hp : p ∈ pts) (hpv : v < p.1) : polyline pts v ≤ p.2 := by
  induction pts generalizing a with
  | nil => cases hp
  | cons a' pts ih =>
    obtain rfl : a' = a := by simpa using ha
    rename' a' => a
    clear ha
    cases pts with
    | nil =>
      have : p = a := by simpa using hp
      rw [this, polyline]
    | cons q rest =>
      rw [polyline]
      obtain ⟨hs1, hs2⟩ := List.pairwise_cons.1 hs
      obtain ⟨hv1, hv2⟩ := List.pairwise_cons.1 hv
      have hpin : p ∈ q :: rest := by
        rcases List.mem_cons.1 hp with rfl | hp
        · exact absurd hav (not_le.2 hpv)
        · exact hp
      split
      · rename_i hlt
        have hqp : q.2 ≤ p.2 := by
          rcases List.mem_cons.1 hpin with rfl | h
          · exact le_rfl
          · exact (List.pairwise_cons.1 hv2).1 p h
        have h1 := hv1 q (by simp)
        have hpos : 0 < q.1 - a.1 := by linarith
        have h2 : (q.2 - a.2) / (q.1 - a.1) * (v - a.1) ≤ q.2 - a.2 := by
          rw [div_mul_eq_mul_div, div_le_iff₀ hpos]
          exact mul_le_mul_of_nonneg_left (by linarith) (by linarith)
        linarith
      · rename_i hnl
        exact ih hs2 hv2 rfl (not_lt.1 hnl) hpin

section
variable {m : Marginal K}

theorem Spec.ValidMarginal.hdi_setup (hm : ValidMarginal m) : ∃ x0 xl,
    m.xs.head? = some x0 ∧ m.xs.getLast? = some xl ∧
    places m = x0 :: m.xs ∧ endpoints m.xs = .ok (x0, xl) ∧
    (masses m).Pairwise (· ≤ ·) ∧ (places m).Pairwise (· ≤ ·) ∧
    (places m).length = (masses m).length ∧ (∀ y ∈ masses m, 0 ≤ y ∧ y ≤ 1) ∧
    (masses m).getD 0 0 = 0 ∧ (masses m).getD ((masses m).length - 1) 0 = 1 ∧
    (places m).getD 0 0 = x0 ∧ (places m).getD ((masses m).length - 1) 0 = xl := by
  obtain ⟨c0, x0, xl, hc0, hx0, hxl, -⟩ := hm.ends
  have h2 := hm.two
  have hcl := hm.cs_length
  have hplaces : places m = x0 :: m.xs := by simp [places, hx0]
  have hxmin : ∀ x ∈ m.xs, x0 ≤ x := by
    intro x hx
    obtain ⟨i, hi, rfl⟩ := List.mem_iff_getElem.1 hx
    rw [List.head?_eq_getElem?, List.getElem?_eq_getElem (by omega)] at hx0
    cases hx0
    rcases Nat.eq_zero_or_pos i with rfl | h
    · exact le_rfl
    · exact (List.pairwise_iff_getElem.1 hm.increasing 0 i (by omega) hi h).le
  have hcnn : ∀ y ∈ m.cs, 0 ≤ y := by
    intro y hy
    obtain ⟨i, hi, rfl⟩ := List.mem_iff_getElem.1 hy
    rw [hm.cumulative]
    exact div_nonneg (List.sum_nonneg fun y hy => hm.density_nonneg y (List.mem_of_mem_take hy))
      hm.mass_pos.le
  have hmass : (masses m).Pairwise (· ≤ ·) := List.pairwise_cons.2 ⟨hcnn, hm.nondecreasing⟩
  have hlast1 : m.cs[m.cs.length - 1]? = some 1 := by
    rw [← List.getLast?_eq_getElem?]; exact hm.ends_at_one
  have hml : (masses m).getD ((masses m).length - 1) 0 = 1 := by
    obtain ⟨h1, h3⟩ := List.getElem?_eq_some_iff.1 hlast1
    have e : (masses m).length - 1 = (m.cs.length - 1) + 1 := by simp [masses]; omega
    rw [e]
    simp only [masses, List.getD_cons_succ]
    rw [getD_eq h1, h3]
  refine ⟨x0, xl, hx0, hxl, hplaces, by unfold endpoints; rw [hx0, hxl], hmass, ?_, ?_, ?_, rfl, hml, ?_, ?_⟩
  · rw [hplaces]
    exact List.pairwise_cons.2 ⟨hxmin, hm.increasing.imp fun h => h.le⟩
  · rw [hplaces]; simp [masses, hcl]
  · intro y hy
    constructor
    · rcases List.mem_cons.1 hy with rfl | hy
      · exact le_rfl
      · exact hcnn y hy
    · obtain ⟨i, hi, rfl⟩ := List.mem_iff_getElem.1 hy
      have := getD_mono hmass (i := i) (j := (masses m).length - 1) (by omega) (by omega)
      rwa [hml, getD_eq hi] at this
  · rw [hplaces]; rfl
  · rw [List.getLast?_eq_getElem?] at hxl
    obtain ⟨h1, h3⟩ := List.getElem?_eq_some_iff.1 hxl
    have e : (masses m).length - 1 = (m.xs.length - 1) + 1 := by simp [masses]; omega
    rw [e, hplaces]
    simp only [List.getD_cons_succ]
    rw [getD_eq h1, h3]

/-- **C31**. The HDI summary always returns; its limits are places between which at least the
requested mass lies; they bracket the centre; and the centre is where half of the interval's mass is
reached (half way between the limits if the interval holds at most 1e-12). -/
theorem C31_hdi_mass (hm : ValidMarginal m) (a : K) (h1 : a ≤ 1) :
    ∃ l c u, summaryHdi m a = .ok ⟨some l, some c, some u⟩ ∧ l ≤ c ∧ c ≤ u ∧
      ∃ (i j : Nat) (p q : K), i < j ∧ (places m)[i]? = some l ∧ (places m)[j]? = some u ∧
        (masses m)[i]? = some p ∧ (masses m)[j]? = some q ∧ a ≤ q - p ∧
        (1 / 10 ^ 12 < q - p → OnCurve ((places m).zip (masses m)) c ((p + q) / 2)) ∧
        (q - p ≤ 1 / 10 ^ 12 → c = (l + u) / 2) := by
  obtain ⟨x0, xl, hx0, hxl, hpl, hend, hmono, hxmono, hlen, h01, hm0, hml, hp0, hpl'⟩ := hm.hdi_setup
  have h2 := hm.two
  have hcl := hm.cs_length
  have hmlen : (masses m).length = m.xs.length + 1 := by simp [masses, hcl]
  set b := hdiLoop (masses m) (places m) a (List.range ((masses m).length - 1))
    { width := none, lower := x0, upper := xl, startMass := 0, endMass := 1 } with hb
  have hgood : HdiGood (masses m) (places m) a b := by
    refine hdiLoop_good hmono _ _ ⟨⟨0, (masses m).length - 1, by omega, by omega, hp0.symm, hpl'.symm,
      hm0.symm, hml.symm, by rw [hml, hm0]; linarith⟩, by intro w hw; cases hw⟩
  obtain ⟨i, j, hij, hj, hl, hu, hs, he, ha⟩ := hgood.pos
  have hrun : summaryHdi m a = .ok ⟨some b.lower, some (if b.endMass - b.startMass ≤ hdiEps then
      1 / 2 * (b.lower + b.upper) else npInterp (masses m) (places m) b.lower b.upper
        (b.startMass + 1 / 2 * (b.endMass - b.startMass))), some b.upper⟩ := by
    simp only [summaryHdi, hend, bind, Except.bind, pure, Except.pure]
    rw [hb, hpl]
    rfl
  have hlu : b.lower ≤ b.upper := by rw [hl, hu]; exact getD_mono hxmono hij.le (by omega)
  have hsome : ∀ {l : List K} {k : Nat}, k < l.length → l[k]? = some (l.getD k 0) := by
    intro l k hk
    rw [getD_eq hk, List.getElem?_eq_getElem hk]
  by_cases hsmall : b.endMass - b.startMass ≤ hdiEps
  · rw [if_pos hsmall] at hrun
    refine ⟨_, _, _, hrun, by linarith, by linarith, i, j, b.startMass, b.endMass, hij, ?_, ?_, ?_, ?_,
      by rw [he, hs]; exact ha, fun hlt => absurd hsmall (not_le.2 hlt), fun _ => by ring⟩
    · rw [hl]; exact hsome (by omega)
    · rw [hu]; exact hsome (by omega)
    · rw [hs]; exact hsome (by omega)
    · rw [he]; exact hsome (by omega)
  · rw [if_neg hsmall] at hrun
    have heps := hdiEps_pos (K := K)
    have hpq : b.startMass < b.endMass := by linarith [not_le.1 hsmall]
    have hcm : b.startMass + 1 / 2 * (b.endMass - b.startMass) = (b.startMass + b.endMass) / 2 := by ring
    rw [hcm] at hrun
    set v := (b.startMass + b.endMass) / 2 with hv
    have hs0 : 0 ≤ b.startMass := by
      rw [hs, getD_eq (by omega)]; exact (h01 _ (List.getElem_mem _)).1
    have he1 : b.endMass ≤ 1 := by
      rw [he, getD_eq (by omega)]; exact (h01 _ (List.getElem_mem _)).2
    have hhead : (masses m).head? = some 0 := rfl
    have hlast : (masses m).getLast? = some 1 := by
      rw [List.getLast?_eq_getElem?, hsome (by omega), hml]
    have hphead : (places m).head? = some x0 := by rw [hpl]; rfl
    have hplast : (places m).getLast? = some xl := by
      rw [List.getLast?_eq_getElem?, hsome (by omega), ← hpl', hlen]
    have hinterp : npInterp (masses m) (places m) b.lower b.upper v =
        polyline ((masses m).zip (places m)) v := by
      unfold npInterp
      rw [hhead, hlast]
      simp only
      rw [if_neg (by simp only [hv, not_lt]; linarith), if_neg (by simp only [hv, not_lt]; linarith)]
    have hsort := sorted1_zip (fp := places m) hmono
    have hval := pairwise_zip_snd (l := masses m) hxmono
    have hzip : ∀ k, k < (masses m).length →
        ((masses m).getD k 0, (places m).getD k 0) ∈ (masses m).zip (places m) := by
      intro k hk
      refine List.mem_iff_getElem?.2 ⟨k, ?_⟩
      rw [List.getElem?_zip_eq_some]
      exact ⟨hsome hk, hsome (by omega)⟩
    have hlc : b.lower ≤ polyline ((masses m).zip (places m)) v := by
      rw [hl]
      exact polyline_ge_vertex hsort hval (hzip i (by omega)) (by rw [← hs]; simp only [hv]; linarith)
    have hcu : polyline ((masses m).zip (places m)) v ≤ b.upper := by
      rw [hu]
      exact polyline_le_vertex hsort hval (zip_head? hhead hphead) (by simp only [hv]; linarith)
        (hzip j hj) (by rw [← he]; simp only [hv]; linarith)
    rw [hinterp] at hrun
    refine ⟨_, _, _, hrun, hlc, hcu, i, j, b.startMass, b.endMass, hij, ?_, ?_, ?_, ?_,
      by rw [he, hs]; exact ha, fun _ => ?_, fun h => absurd h hsmall⟩
    · rw [hl]; exact hsome (by omega)
    · rw [hu]; exact hsome (by omega)
    · rw [hs]; exact hsome (by omega)
    · rw [he]; exact hsome (by omega)
    · refine onCurve_swap (polyline_onCurve (zip_head? hhead hphead)
        (zip_getLast? hlen.symm hlast hplast) (by simp only; linarith) (by simp only; linarith))

/-- **C32**. If the grid points are more than 1e-12 apart and the first one holds less than the
requested mass, then no interval between two places that holds the requested mass is narrower than
the HDI summary by more than 1e-12. -/
theorem C32_hdi_narrowest (hm : ValidMarginal m) (a : K) (h1 : a ≤ 1)
    (hgrid : m.xs.Pairwise fun x y => 1 / 10 ^ 12 < y - x) (c0 : K) (hc0 : m.cs.head? = some c0)
    (hfirst : c0 < a) (l c u : K) (h : summaryHdi m a = .ok ⟨some l, some c, some u⟩)
    (i j : Nat) (x y p q : K) (hij : i < j) (hx : (places m)[i]? = some x)
    (hy : (places m)[j]? = some y) (hp : (masses m)[i]? = some p) (hq : (masses m)[j]? = some q)
    (ha : a ≤ q - p) : u - l ≤ y - x + 1 / 10 ^ 12 := by
  obtain ⟨x0, xl, hx0, hxl, hpl, hend, hmono, hxmono, hlen, h01, hm0, hml, hp0, hpl'⟩ := hm.hdi_setup
  have h2 := hm.two
  have hcl := hm.cs_length
  have hmlen : (masses m).length = m.xs.length + 1 := by simp [masses, hcl]
  set b := hdiLoop (masses m) (places m) a (List.range ((masses m).length - 1))
    { width := none, lower := x0, upper := xl, startMass := 0, endMass := 1 } with hb
  have hgood : HdiGood (masses m) (places m) a b := by
    refine hdiLoop_good hmono _ _ ⟨⟨0, (masses m).length - 1, by omega, by omega, hp0.symm, hpl'.symm,
      hm0.symm, hml.symm, by rw [hml, hm0]; linarith⟩, by intro w hw; cases hw⟩
  have hlu : l = b.lower ∧ u = b.upper := by
    simp only [summaryHdi, hend, bind, Except.bind, pure, Except.pure, Except.ok.injEq, Bound.mk.injEq,
      Option.some.injEq] at h
    have e : hdiLoop (0 :: m.cs) (x0 :: m.xs) a (List.range ((0 :: m.cs).length - 1))
      { width := none, lower := x0, upper := xl, startMass := 0, endMass := 1 } = b := by
      rw [hb, hpl]; rfl
    rw [e] at h
    exact ⟨h.1.symm, h.2.2.symm⟩
  have gi : (places m).getD i 0 = x := by rw [List.getD_eq_getElem?_getD, hx]; rfl
  have gj : (places m).getD j 0 = y := by rw [List.getD_eq_getElem?_getD, hy]; rfl
  have gp : (masses m).getD i 0 = p := by rw [List.getD_eq_getElem?_getD, hp]; rfl
  have gq : (masses m).getD j 0 = q := by rw [List.getD_eq_getElem?_getD, hq]; rfl
  obtain ⟨hjl, -⟩ := List.getElem?_eq_some_iff.1 hq
  have hwide : ∀ e, i < e → e < (masses m).length → (masses m).getD i 0 + a ≤ (masses m).getD e 0 →
      hdiEps < (places m).getD e 0 - (places m).getD i 0 := by
    intro e hie he hmass
    rw [hpl]
    have hstep : ∀ s t, s < t → t < m.xs.length → hdiEps < m.xs.getD t 0 - m.xs.getD s 0 := by
      intro s t hst ht
      rw [getD_eq ht, getD_eq (by omega)]
      exact List.pairwise_iff_getElem.1 hgrid s t (by omega) ht hst
    have h00 : m.xs.getD 0 0 = x0 := by
      rw [List.head?_eq_getElem?] at hx0
      rw [List.getD_eq_getElem?_getD, hx0]; rfl
    obtain ⟨e', rfl⟩ : ∃ e', e = e' + 1 := ⟨e - 1, by omega⟩
    rw [List.getD_cons_succ]
    cases i with
    | zero =>
      -- the first point alone does not hold the mass
      have hne : e' ≠ 0 := by
        rintro rfl
        have e1 : (masses m).getD (0 + 1) 0 = c0 := by
          rw [List.head?_eq_getElem?] at hc0
          simp only [masses, List.getD_cons_succ]
          rw [List.getD_eq_getElem?_getD, hc0]; rfl
        rw [e1, hm0] at hmass
        linarith
      rw [List.getD_cons_zero, ← h00]
      exact hstep 0 e' (by omega) (by omega)
    | succ i =>
      rw [List.getD_cons_succ]
      exact hstep i e' (by omega) (by omega)
  obtain ⟨w, hw, hle⟩ := hdiLoop_narrow hmono hxmono hlen (fun y hy => (h01 y hy).2) hij hjl
    (by rw [gp, gq]; linarith) hwide (List.range ((masses m).length - 1)) List.pairwise_lt_range
    (List.mem_range.2 (by omega))
    { width := none, lower := x0, upper := xl, startMass := 0, endMass := 1 }
  rw [← hb] at hw
  have := hgood.width w hw
  rw [hlu.1, hlu.2, ← this]
  rw [gi, gj] at hle
  exact hle

/-- A concrete case for C31 and C32. -/
example : ValidMarginal skewed ∧ (skewed.xs.Pairwise fun x y => 1 / 10 ^ 12 < y - x) ∧
    skewed.cs.head? = some (4 / 10) ∧ summaryHdi skewed (1 / 2) = .ok ⟨some 0, some 0, some 1⟩ := by
  refine ⟨skewed_valid, by decide +kernel, rfl, ?_⟩
  decide +kernel

/-! ## C33 -/

/-- The same distribution with the parameter in other units. -/
def Spec.rescale (r : K) (m : Marginal K) : Marginal K := ⟨m.xs.map (r * ·), m.ys, m.cs⟩

theorem rescale_valid (hm : ValidMarginal m) {r : K} (hr : 0 < r) : ValidMarginal (rescale r m) := by
  refine ⟨by simpa [rescale] using hm.ys_length, by simpa [rescale] using hm.cs_length,
    by simpa [rescale] using hm.two, ?_, hm.density_nonneg, hm.mass_pos, hm.cumulative,
    hm.nondecreasing, hm.ends_at_one⟩
  simp only [rescale, List.pairwise_map]
  exact hm.increasing.imp fun h => mul_lt_mul_of_pos_left h hr

theorem hdiLoop_skip {cdf xp : List K} (hc : cdf.Pairwise (· ≤ ·)) {area : K} (L : List Nat)
    (hL : ∀ i ∈ L, i < cdf.length) (b : HdiBest K)
    (hw : ∀ i e, i < cdf.length → e < cdf.length → xp.getD e 0 - xp.getD i 0 ≤ hdiEps) :
    hdiLoop cdf xp area L b = b := by
  induction L with
  | nil => rfl
  | cons i L ih =>
    simp only [hdiLoop]
    split
    · rfl
    · cases h : hdiEnd cdf area i (cdf.getD i 0) with
      | none => rfl
      | some e =>
        obtain ⟨-, he, -⟩ := (hdiEnd_spec hc).1 e h
        have : hdiUpdate cdf xp i e (cdf.getD i 0) b = b := by
          unfold hdiUpdate
          simp only
          rw [if_pos (hw i e (hL i (by simp)) he)]
        simp only [this, ih fun k hk => hL k (List.mem_cons_of_mem _ hk)]

/-- **C33** (what goes wrong). If the whole range is at most 1e-12 wide, the HDI summary is the whole
range, whatever mass is requested. -/
theorem C33_narrow_range (hm : ValidMarginal m) (a : K) (x0 xl : K) (hx0 : m.xs.head? = some x0)
    (hxl : m.xs.getLast? = some xl) (hnarrow : xl - x0 ≤ 1 / 10 ^ 12) :
    ∃ c, summaryHdi m a = .ok ⟨some x0, some c, some xl⟩ := by
  obtain ⟨y0, yl, hy0, hyl, hpl, hend, hmono, hxmono, hlen, h01, hm0, hml, hp0, hpl'⟩ := hm.hdi_setup
  rw [hx0] at hy0
  rw [hxl] at hyl
  cases hy0
  cases hyl
  have hcl := hm.cs_length
  have h2 := hm.two
  have hmlen : (masses m).length = m.xs.length + 1 := by simp [masses, hcl]
  have hbound : ∀ k, k < (places m).length → x0 ≤ (places m).getD k 0 ∧ (places m).getD k 0 ≤ xl := by
    intro k hk
    rw [← hp0, ← hpl']
    exact ⟨getD_mono hxmono (by omega) hk, getD_mono hxmono (by omega) (by omega)⟩
  have hskip : ∀ b, hdiLoop (0 :: m.cs) (x0 :: m.xs) a (List.range ((0 :: m.cs).length - 1)) b = b := by
    intro b
    refine hdiLoop_skip hmono _ (fun i hi => ?_) b fun i e hi he => ?_
    · exact lt_of_lt_of_le (List.mem_range.1 hi) (Nat.sub_le _ _)
    · rw [← hpl]
      have h3 := hbound i (by rw [hlen]; exact hi)
      have h4 := hbound e (by rw [hlen]; exact he)
      exact le_trans (by linarith) hnarrow
  simp only [summaryHdi, hend, bind, Except.bind, pure, Except.pure, hskip]
  exact ⟨_, rfl⟩

/-- **C33** (negation). Whenever the HDI summary is not the whole range, there is a unit of the
parameter in which it is not the rescaled summary. -/
theorem C33_violated (hm : ValidMarginal m) (a : K) (l c u x0 xl : K) (hx0 : m.xs.head? = some x0)
    (hxl : m.xs.getLast? = some xl) (_h : summaryHdi m a = .ok ⟨some l, some c, some u⟩)
    (hne : l ≠ x0 ∨ u ≠ xl) :
    ∃ r, 0 < r ∧ summaryHdi (rescale r m) a ≠ .ok ⟨some (r * l), some (r * c), some (r * u)⟩ := by
  have hlt : x0 < xl := by
    have h2 := hm.two
    rw [List.head?_eq_getElem?] at hx0
    rw [List.getLast?_eq_getElem?] at hxl
    obtain ⟨_, rfl⟩ := List.getElem?_eq_some_iff.1 hx0
    obtain ⟨_, rfl⟩ := List.getElem?_eq_some_iff.1 hxl
    exact List.pairwise_iff_getElem.1 hm.increasing _ _ _ _ (by omega)
  have hr : (0 : K) < 1 / 10 ^ 12 / (xl - x0) := div_pos (by positivity) (by linarith)
  refine ⟨_, hr, ?_⟩
  set r := (1 : K) / 10 ^ 12 / (xl - x0) with hrdef
  obtain ⟨c', hc'⟩ := C33_narrow_range (rescale_valid hm hr) a (r * x0) (r * xl)
    (by simp [rescale, hx0]) (by simp [rescale, hxl]) (by
      rw [← mul_sub, hrdef, div_mul_cancel₀ _ (by linarith)])
  rw [hc']
  intro he
  simp only [Except.ok.injEq, Bound.mk.injEq, Option.some.injEq] at he
  rcases hne with h | h
  · exact h (mul_left_cancel₀ hr.ne' he.1).symm
  · exact h (mul_left_cancel₀ hr.ne' he.2.2).symm

example : ValidMarginal skewed ∧ skewed.xs.getLast? = some 3 ∧
    summaryHdi skewed (1 / 2) = .ok ⟨some 0, some 0, some 1⟩ ∧
    summaryHdi (rescale (1 / 10 ^ 13) skewed) (1 / 2) = .ok ⟨some 0, some (1 / 3 / 10 ^ 13), some (3 / 10 ^ 13)⟩ := by
  refine ⟨skewed_valid, rfl, ?_, ?_⟩
  · decide +kernel
  · decide +kernel

/-- **C33** (partial: only widths, and only up to 1e-12 in either unit). If the grid points are more
than 1e-12 apart in both units and the first one holds less than the requested mass, the width of the
HDI summary in the new units differs from the rescaled width by at most 1e-12 in the respective
unit. -/
theorem C33_width_partial (hm : ValidMarginal m) (a : K) (h1 : a ≤ 1) (r : K) (hr : 0 < r)
    (hgrid : m.xs.Pairwise fun x y => 1 / 10 ^ 12 < y - x ∧ 1 / 10 ^ 12 < r * y - r * x)
    (c0 : K) (hc0 : m.cs.head? = some c0) (hfirst : c0 < a) :
    ∃ l c u l' c' u', summaryHdi m a = .ok ⟨some l, some c, some u⟩ ∧
      summaryHdi (rescale r m) a = .ok ⟨some l', some c', some u'⟩ ∧
      u' - l' ≤ r * (u - l) + 1 / 10 ^ 12 ∧ r * (u - l) ≤ u' - l' + r * (1 / 10 ^ 12) := by
  have hm' := rescale_valid hm hr
  obtain ⟨l, c, u, h, -, -, i, j, p, q, hij, hi, hj, hp, hq, ha, -⟩ := C31_hdi_mass hm a h1
  obtain ⟨l', c', u', h', -, -, i', j', p', q', hij', hi', hj', hp', hq', ha', -⟩ :=
    C31_hdi_mass hm' a h1
  refine ⟨l, c, u, l', c', u', h, h', ?_, ?_⟩
  all_goals
    have hpl : places (rescale r m) = (places m).map (r * ·) := by
      unfold places rescale
      cases m.xs <;> simp
  · have := C32_hdi_narrowest hm' a h1 (by
        simp only [rescale, List.pairwise_map]
        exact hgrid.imp fun h => h.2) c0 hc0 hfirst l' c' u' h' i j (r * l) (r * u) p q hij
      (by rw [hpl, List.getElem?_map, hi]; rfl) (by rw [hpl, List.getElem?_map, hj]; rfl) hp hq ha
    linarith
  · rw [hpl, List.getElem?_map] at hi' hj'
    obtain ⟨x, hx, rfl⟩ := Option.map_eq_some_iff.1 hi'
    obtain ⟨y, hy, rfl⟩ := Option.map_eq_some_iff.1 hj'
    have := C32_hdi_narrowest hm a h1 (hgrid.imp fun h => h.1) c0 hc0 hfirst l c u h i' j' x y p' q' hij'
      hx hy hp' hq' ha'
    have := mul_le_mul_of_nonneg_left this hr.le
    linarith

end
end CC
