import Verif.Lemmas.Marginal
import Verif.Lemmas.Demo

/-! # C25: marginal distributions are valid distributions -/

set_option linter.unusedSectionVars false

namespace CC
open Spec

theorem endpoints_ok {K : Type} {l : List K} {ab : K × K} (h : endpoints l = .ok ab) :
    l.head? = some ab.1 ∧ l.getLast? = some ab.2 := by
  unfold endpoints at h
  cases h1 : l.head? with
  | none => simp [h1] at h
  | some a =>
    cases h2 : l.getLast? with
    | none => simp [h1, h2] at h
    | some b =>
      simp only [h1, h2, Except.ok.injEq] at h
      subst h
      exact ⟨rfl, rfl⟩

theorem head_lt_last {l : List ℝ} (h : l.Pairwise (· < ·)) (h2 : 2 ≤ l.length) {a b : ℝ}
    (ha : l.head? = some a) (hb : l.getLast? = some b) : a < b := by
  rw [List.head?_eq_getElem?, List.getElem?_eq_getElem (by omega)] at ha
  rw [List.getLast?_eq_getElem?, List.getElem?_eq_getElem (by omega)] at hb
  cases ha
  cases hb
  exact List.pairwise_iff_getElem.1 h 0 (l.length - 1) (by omega) (by omega) (by omega)

theorem kdeDensity_ok {kde : KdeFn} (hk : KdeOk kde) {factor : ℝ} {data w bins : List ℝ} {a b : ℝ}
    (hab : a < b) {xs ys : List ℝ} (hok : kdeDensity kde factor data w bins a b xs = .ok ys) :
    ys.length = xs.length ∧ ∀ y ∈ ys, 0 ≤ y := by
  simp only [kdeDensity, bind_ok_iff, ensure_ok_iff] at hok
  obtain ⟨n, hn, ks, hks, _, harea, hm⟩ := hok
  obtain ⟨hkl, hkp⟩ := hk _ _ _ _ _ hks
  have hn2 : 2 ≤ n := by
    simp only [kdeGridSize, bind_ok_iff, pure_ok_iff] at hn
    obtain ⟨m, -, rfl⟩ := hn
    have := le_max_left 200 (if 0 ≤ m then ⌊m⌋.toNat else 0)
    omega
  have hinc := linspace_increasing hab hn2
  have harea' : 0 ≤ simpson ks (linspace a b n) := by
    refine simpson_nonneg ?_ hkp
    have := List.pairwise_iff_getElem.1 hinc 0 1 (by simp; omega) (by simp; omega) (by omega)
    rw [List.getD_eq_getElem?_getD, List.getD_eq_getElem?_getD,
      List.getElem?_eq_getElem (by simp; omega), List.getElem?_eq_getElem (by simp; omega)]
    simp only [Option.getD_some]
    linarith
  refine mapM_interp1d (hinc.imp fun h => h.le) ?_ ?_ hm
  · simp [hkl]
  · intro v hv
    obtain ⟨u, hu, rfl⟩ := List.mem_map.1 hv
    exact div_nonneg (hkp u hu) harea'

theorem two_le_gridSize : 2 ≤ gridSize := by unfold gridSize; norm_num

/-- **C25**. Whenever the marginal of a column is computed without encountering NaN, it is a valid
distribution: for every chain with positive weights (every accepted chain without `shift_params`,
C07), every column, padding, smoothing, power, and with or without KDE. -/
theorem C25_marginal_valid (kde : KdeFn) (hk : KdeOk kde) (c : Chain ℝ) (w : List ℝ)
    (hw : c.weights = .ok w) (hpos : ∀ v ∈ w, 0 < v) (col : String) (pad : Bool)
    (useKde : Option Bool) (m : Marginal ℝ) (h : smoothedHistogram kde c col pad useKde = .ok m) :
    ValidMarginal m := by
  simp only [smoothedHistogram, bind_ok_iff, ensure_ok_iff, pure_ok_iff] at h
  obtain ⟨data, hdata, w', hw', bins, hbins, hist, hhist, hist', hpow, ab, hab, _, htwo, ys, hys,
    cs, hcs, rfl⟩ := h
  rw [hw] at hw'
  cases hw'
  have hw0 : ∀ v ∈ w, 0 ≤ v := fun v hv => (hpos v hv).le
  obtain ⟨hinc, hlen, hnn⟩ := histDensity_ok hw0 hhist
  obtain ⟨hlen', hnn'⟩ := powAll_ok hnn hpow
  obtain ⟨ha, hb⟩ := endpoints_ok hab
  have hmid := midpoints_increasing hinc
  have hlt : ab.1 < ab.2 := head_lt_last hmid (of_decide_eq_true htwo) ha hb
  have hy : ys.length = gridSize ∧ ∀ y ∈ ys, 0 ≤ y := by
    simp only [marginalYs, bind_ok_iff] at hys
    obtain ⟨g, hg, hys⟩ := hys
    obtain ⟨hgl, hgn⟩ := smoothHist_ok hnn' hg
    split at hys
    · have := kdeDensity_ok hk hlt hys
      rwa [linspace_length] at this
    · have := mapM_interp1d (hmid.imp fun h => h.le)
        (by rw [hgl, hlen', hlen, midpoints_length]) hgn hys
      rwa [linspace_length] at this
  obtain ⟨hyne, hsum, rfl⟩ := normCumsum_ok hy.2 hcs
  refine ⟨by simp [hy.1], by simp [hy.1], by simpa using two_le_gridSize,
    linspace_increasing hlt two_le_gridSize,
    hy.2, hsum, ?_, ?_, ?_⟩
  · intro i hi
    simp only [List.getElem_map, cumsum_getElem]
  · simp only [List.pairwise_map]
    exact (cumsum_mono hy.2).imp fun h => div_le_div_of_nonneg_right h hsum.le
  · simp only [List.getLast?_map, cumsum_last hyne, Option.map_some, div_self hsum.ne']

/-! ## When the marginal exists -/

theorem sum_pos_of_mem {l : List ℝ} (hnn : ∀ v ∈ l, 0 ≤ v) {x : ℝ} (hx : x ∈ l) (hpos : 0 < x) :
    0 < l.sum :=
  lt_of_lt_of_le hpos (List.single_le_sum hnn x hx)

/-- Every half-open interval at least one grid step long contains a grid point. -/
theorem grid_point_between {a b : ℝ} (hab : a < b) {n : Nat} (hn : 2 ≤ n) {l r : ℝ} (hal : a ≤ l)
    (hrb : r ≤ b) (hlr : (b - a) / ((n : ℝ) - 1) ≤ r - l) :
    ∃ x ∈ linspace a b n, l ≤ x ∧ x < r := by
  have hn' : (0 : ℝ) < (n : ℝ) - 1 := by
    have : (2 : ℝ) ≤ n := by exact_mod_cast hn
    linarith
  have hs : 0 < (b - a) / ((n : ℝ) - 1) := div_pos (by linarith) hn'
  have hbs : a + ((n : ℝ) - 1) * ((b - a) / ((n : ℝ) - 1)) = b := by field_simp; ring
  simp only [linspace, List.mem_map, List.mem_range]
  generalize (b - a) / ((n : ℝ) - 1) = s at *
  have h1 : (l - a) / s ≤ ⌈(l - a) / s⌉₊ := Nat.le_ceil _
  have h2 : (⌈(l - a) / s⌉₊ : ℝ) < (l - a) / s + 1 := Nat.ceil_lt_add_one (div_nonneg (by linarith) hs.le)
  rw [div_le_iff₀ hs] at h1
  have h3 : (⌈(l - a) / s⌉₊ : ℝ) * s < l - a + s := by
    have := mul_lt_mul_of_pos_right h2 hs
    rwa [add_mul, div_mul_cancel₀ _ hs.ne', one_mul] at this
  refine ⟨_, ⟨⌈(l - a) / s⌉₊, ?_, rfl⟩, by linarith, by linarith⟩
  have h4 : (⌈(l - a) / s⌉₊ : ℝ) * s < (n - 1) * s := by linarith
  have h5 := lt_of_mul_lt_mul_right h4 hs.le
  have : (⌈(l - a) / s⌉₊ : ℝ) < n := by linarith
  exact_mod_cast this

theorem polyline_pos_segment {pts : List (ℝ × ℝ)} (hs : Sorted1 pts) (hnn : ∀ p ∈ pts, 0 ≤ p.2)
    {pre post : List (ℝ × ℝ)} {p q : ℝ × ℝ} (hpts : pts = pre ++ p :: q :: post) (hp : 0 < p.2)
    {x : ℝ} (h1 : p.1 ≤ x) (h2 : x < q.1) : 0 < polyline pts x := by
  induction pre generalizing pts with
  | nil =>
    subst hpts
    simp only [List.nil_append, polyline]
    rw [if_pos h2]
    have hq := hnn q (by simp)
    have hpos : 0 < q.1 - p.1 := by linarith
    have e : p.2 + (q.2 - p.2) / (q.1 - p.1) * (x - p.1) =
        (p.2 * (q.1 - x) + q.2 * (x - p.1)) / (q.1 - p.1) := by
      field_simp
      ring
    rw [e]
    have : 0 < p.2 * (q.1 - x) := mul_pos hp (by linarith)
    have : 0 ≤ q.2 * (x - p.1) := mul_nonneg hq (by linarith)
    positivity
  | cons r pre ih =>
    subst hpts
    obtain ⟨hs1, hs2⟩ := List.pairwise_cons.1 hs
    have ih' := ih hs2 (fun p hp => hnn p (List.mem_cons_of_mem _ hp)) rfl
    cases hpre : pre ++ p :: q :: post with
    | nil => simp at hpre
    | cons s rest =>
      rw [List.cons_append, hpre, polyline, if_neg, ← hpre]
      · exact ih'
      · have hsx : s.1 ≤ p.1 := by
          have hs2 : Sorted1 (pre ++ p :: q :: post) := hs2
          rw [hpre] at hs2
          have hmem : p ∈ s :: rest := by rw [← hpre]; simp
          rcases List.mem_cons.1 hmem with h | h
          · rw [h]
          · exact (List.pairwise_cons.1 hs2).1 p h
        exact not_lt.2 (hsx.trans h1)

theorem polyline_last {pts : List (ℝ × ℝ)} (hs : Sorted1 pts) {l : ℝ × ℝ}
    (hl : pts.getLast? = some l) : polyline pts l.1 = l.2 := by
  induction pts with
  | nil => cases hl
  | cons p pts ih =>
    cases pts with
    | nil => cases hl; rfl
    | cons q rest =>
      have hl' : (q :: rest).getLast? = some l := by simpa using hl
      obtain ⟨hs1, hs2⟩ := List.pairwise_cons.1 hs
      rw [polyline, if_neg, ih hs2 hl']
      rcases List.mem_cons.1 (List.mem_of_getLast? hl') with h | h
      · rw [h]; exact lt_irrefl _
      · exact not_lt.2 ((List.pairwise_cons.1 hs2).1 l h)

/-- A value between the outer edges lies in some bin. -/
theorem exists_inBin {e : List ℝ} (h2 : 2 ≤ e.length) {x : ℝ}
    (hlo : e.getD 0 0 ≤ x) (hhi : x ≤ e.getD (e.length - 1) 0) :
    ∃ i, i < e.length - 1 ∧ inBin e i x = true := by
  classical
  let i := Nat.findGreatest (fun i => e.getD i 0 ≤ x) (e.length - 2)
  have hi : e.getD i 0 ≤ x := Nat.findGreatest_spec (P := fun i => e.getD i 0 ≤ x) (Nat.zero_le _) hlo
  have hile : i ≤ e.length - 2 := Nat.findGreatest_le _
  refine ⟨i, by omega, ?_⟩
  simp only [inBin, Bool.and_eq_true, Bool.or_eq_true, decide_eq_true_eq]
  refine ⟨hi, ?_⟩
  rcases Nat.lt_or_ge i (e.length - 2) with hlt | hge
  · left
    have := Nat.findGreatest_is_greatest (P := fun i => e.getD i 0 ≤ x) (n := e.length - 2)
      (k := i + 1) (by omega) (by omega)
    exact not_le.1 this
  · right
    have hie : i + 1 = e.length - 1 := by omega
    exact ⟨by omega, by rw [hie]; exact hhi⟩

theorem mapM_ok_of_forall {α β : Type} {f : α → Res β} {l : List α}
    (h : ∀ a ∈ l, ∃ b, f a = .ok b) : ∃ bs, l.mapM f = .ok bs := by
  induction l with
  | nil => exact ⟨[], rfl⟩
  | cons a l ih =>
    obtain ⟨b, hb⟩ := h a (by simp)
    obtain ⟨bs, hbs⟩ := ih fun a ha => h a (List.mem_cons_of_mem _ ha)
    exact ⟨b :: bs, by rw [List.mapM_cons, hb, hbs]; rfl⟩

/-- **C25** (existence). A sufficient condition for the marginal to exist, without KDE: the bins
increase, there are at least two, none is narrower than the grid step, some sample lies inside, and
the smoothing and power are not negative. -/
theorem C25_marginal_exists (kde : KdeFn) (c : Chain ℝ) (w data bins : List ℝ)
    (hw : c.weights = .ok w) (hpos : ∀ v ∈ w, 0 < v) (hlen : w.length = data.length) (col : String)
    (hdata : c.samples.get col = .ok data) (pad : Bool)
    (hbins : marginalBins c data w pad = .ok bins) (hinc : bins.Pairwise (· < ·))
    (h3 : 3 ≤ bins.length) (hstep : ∀ i (_ : i + 1 < (midpoints bins).length),
      ((midpoints bins).getD ((midpoints bins).length - 1) 0 - (midpoints bins).getD 0 0) /
        ((gridSize : ℝ) - 1) ≤ (midpoints bins).getD (i + 1) 0 - (midpoints bins).getD i 0)
    (x : ℝ) (hx : x ∈ data) (hlo : bins.getD 0 0 ≤ x) (hhi : x ≤ bins.getD (bins.length - 1) 0)
    (hsm : 0 ≤ c.smoothValue) (hpw : 0 ≤ c.power) :
    ∃ m, smoothedHistogram kde c col pad (some false) = .ok m := by
  have hw0 : ∀ v ∈ w, 0 ≤ v := fun v hv => (hpos v hv).le
  -- the histogram
  obtain ⟨i, hi, hbin⟩ := exists_inBin (by omega) hlo hhi
  have hmass : 0 < binMass bins data w i := by
    unfold binMass
    obtain ⟨j, hj, rfl⟩ := List.mem_iff_getElem.1 hx
    have hjw : j < w.length := by omega
    refine sum_pos_of_mem (x := w[j]) ?_ ?_ (hpos _ (List.getElem_mem _))
    · intro v hv
      obtain ⟨k, hk, rfl⟩ := List.mem_iff_getElem.1 hv
      rw [List.getElem_zipWith]
      split
      · exact hw0 _ (List.getElem_mem _)
      · exact le_rfl
    · refine List.mem_iff_getElem.2 ⟨j, by simp; omega, ?_⟩
      rw [List.getElem_zipWith, if_pos hbin]
  set n := (List.range (bins.length - 1)).map (binMass bins data w) with hn
  have hnsum : 0 < n.sum := by
    refine sum_pos_of_mem (x := binMass bins data w i) ?_ ?_ hmass
    · intro v hv
      obtain ⟨k, -, rfl⟩ := List.mem_map.1 hv
      exact binMass_nonneg hw0 k
    · exact List.mem_map.2 ⟨i, List.mem_range.2 hi, rfl⟩
  have hhist : ∃ h, histDensity bins data w = .ok h ∧ (∃ v ∈ h, 0 < v) := by
    refine ⟨List.zipWith (fun m d => m / d / n.sum) n
      (List.zipWith (fun l r => r - l) bins bins.tail), ?_, ?_⟩
    · have h1 : histogram bins data w = .ok n := histogram_ok_iff.2 ⟨(all_tail_iff _ _).2
        ((List.isChain_iff_pairwise.2 hinc).imp fun a b h => decide_eq_true (le_of_lt h)), rfl⟩
      have h2 : (List.zipWith (fun l r => decide (l ≠ r)) bins bins.tail).all id = true :=
        (all_tail_iff _ _).2
          ((List.isChain_iff_pairwise.2 hinc).imp fun a b h => decide_eq_true (ne_of_lt h))
      simp only [histDensity, h1, h2, bind, Except.bind, ensure, if_true, pure, Except.pure,
        decide_eq_true hnsum.ne']
    · refine ⟨binMass bins data w i / (bins[i + 1]'(by omega) - bins[i]'(by omega)) / n.sum,
        List.mem_iff_getElem.2 ⟨i, by simp [n]; omega, ?_⟩, ?_⟩
      · simp [n]
      · have := List.pairwise_iff_getElem.1 hinc i (i + 1) (by omega) (by omega) (by omega)
        have : 0 < bins[i + 1]'(by omega) - bins[i]'(by omega) := by linarith
        positivity
  obtain ⟨h, hh, v, hv, hv0⟩ := hhist
  obtain ⟨-, hhl, hhn⟩ := histDensity_ok hw0 hh
  -- the power
  have hpow : powAll h c.power = .ok (h.map fun v => v ^ c.power) := by
    simp only [powAll, decide_eq_true hpw, Bool.true_or, ensure, if_true, bind, Except.bind, pure,
      Except.pure]
  obtain ⟨hpl, hpn⟩ := powAll_ok hhn hpow
  have hpsum : 0 < (h.map fun v => v ^ c.power).sum :=
    sum_pos_of_mem hpn (List.mem_map.2 ⟨v, hv, rfl⟩) (Real.rpow_pos_of_pos hv0 _)
  -- the smoothing
  have hsmooth : ∃ g, smoothHist c.smoothValue (h.map fun v => v ^ c.power) = .ok g ∧ 0 < g.sum := by
    unfold smoothHist
    by_cases h0 : c.smoothValue = 0
    · rw [if_pos h0]
      exact ⟨_, rfl, hpsum⟩
    · rw [if_neg h0, if_pos (by omega)]
      exact ⟨_, rfl, by rw [(C47_gaussian_filter _ _).2.1]; exact hpsum⟩
  obtain ⟨g, hg, hgsum⟩ := hsmooth
  obtain ⟨hgl, hgn⟩ := smoothHist_ok hpn hg
  -- the grid
  set cen := midpoints bins with hcen
  have hcl : cen.length = bins.length - 1 := midpoints_length bins
  have hcinc : cen.Pairwise (· < ·) := midpoints_increasing hinc
  have hglen : g.length = cen.length := by rw [hgl, hpl, hhl, hcl]
  have ha : cen.head? = some (cen[0]'(by omega)) := by
    rw [List.head?_eq_getElem?, List.getElem?_eq_getElem]
  have hb : cen.getLast? = some (cen[cen.length - 1]'(by omega)) := by
    rw [List.getLast?_eq_getElem?, List.getElem?_eq_getElem]
  have hend : endpoints cen = .ok (cen[0]'(by omega), cen[cen.length - 1]'(by omega)) := by
    unfold endpoints
    rw [ha, hb]
  have hab := head_lt_last hcinc (by omega) ha hb
  set a := cen[0]'(by omega) with hadef
  set b := cen[cen.length - 1]'(by omega) with hbdef
  have hg0 : cen.getD 0 0 = a := by
    rw [List.getD_eq_getElem?_getD, List.getElem?_eq_getElem (by omega)]; rfl
  have hg1 : cen.getD (cen.length - 1) 0 = b := by
    rw [List.getD_eq_getElem?_getD, List.getElem?_eq_getElem (by omega)]; rfl
  have hinterp : ∀ x ∈ linspace a b gridSize, interp1d cen g x = .ok (polyline (cen.zip g) x) :=
    fun x hx => interp1d_ok_iff.2 ⟨a, b, ha, hb, (linspace_mem hab.le two_le_gridSize hx).1,
      (linspace_mem hab.le two_le_gridSize hx).2, rfl⟩
  obtain ⟨ys, hys⟩ := mapM_ok_of_forall (f := interp1d cen g) (l := linspace a b gridSize)
    fun x hx => ⟨_, hinterp x hx⟩
  obtain ⟨hyl, hyn⟩ := mapM_interp1d (hcinc.imp fun h => h.le) hglen hgn hys
  have hval : ∀ x ∈ linspace a b gridSize, polyline (cen.zip g) x ∈ ys := by
    intro x hx
    have hF := mapM_ok_iff.1 hys
    obtain ⟨k, hk, rfl⟩ := List.mem_iff_getElem.1 hx
    have hk' : k < ys.length := by rw [hyl]; exact hk
    have := (List.forall₂_iff_get.1 hF).2 k hk hk'
    simp only [List.get_eq_getElem] at this
    rw [hinterp _ (List.getElem_mem _)] at this
    rw [Except.ok.inj this]
    exact List.getElem_mem _
  -- some density value is positive
  have hex : ∃ k, ∃ hk : k < g.length, 0 < g[k] := by
    by_contra hcon
    push Not at hcon
    have : ∀ v ∈ g, v = 0 := by
      intro v hv
      have := hgn v hv
      obtain ⟨k, hk, rfl⟩ := List.mem_iff_getElem.1 hv
      exact le_antisymm (hcon k hk) this
    rw [List.sum_eq_zero this] at hgsum
    exact lt_irrefl _ hgsum
  obtain ⟨k, hk, hgk⟩ := hex
  have hsorted : Sorted1 (cen.zip g) := sorted1_zip (hcinc.imp fun h => h.le)
  have hysum : 0 < ys.sum := by
    rcases Nat.lt_or_ge (k + 1) cen.length with hlt | hge
    · have hl := hstep k hlt
      rw [hg0, hg1] at hl
      have e1 : cen.getD (k + 1) 0 = cen[k + 1] := by
        rw [List.getD_eq_getElem?_getD, List.getElem?_eq_getElem (by omega)]; rfl
      have e2 : cen.getD k 0 = cen[k]'(by omega) := by
        rw [List.getD_eq_getElem?_getD, List.getElem?_eq_getElem (by omega)]; rfl
      rw [e1, e2] at hl
      have hak : a ≤ cen[k]'(by omega) := by
        rcases Nat.eq_zero_or_pos k with rfl | hk0
        · exact le_rfl
        · exact (List.pairwise_iff_getElem.1 hcinc 0 k (by omega) (by omega) hk0).le
      have hkb : cen[k + 1] ≤ b := by
        rcases Nat.lt_or_ge (k + 1) (cen.length - 1) with h | h
        · exact (List.pairwise_iff_getElem.1 hcinc (k + 1) (cen.length - 1) (by omega) (by omega) h).le
        · have : k + 1 = cen.length - 1 := by omega
          simp only [hbdef, this]
          exact le_rfl
      obtain ⟨t, ht, ht1, ht2⟩ := grid_point_between hab two_le_gridSize hak hkb hl
      refine sum_pos_of_mem hyn (hval t ht) ?_
      refine polyline_pos_segment hsorted (fun p hp => hgn _ (List.of_mem_zip hp).2)
        (pre := (cen.zip g).take k) (post := (cen.zip g).drop (k + 2))
        (p := (cen[k]'(by omega), g[k])) (q := (cen[k + 1], g[k + 1]'(by omega))) ?_ hgk ht1 ht2
      have hz : (cen.zip g).length = cen.length := by simp [hglen]
      conv_lhs => rw [← List.take_append_drop k (cen.zip g)]
      rw [List.drop_eq_getElem_cons (by omega), List.drop_eq_getElem_cons (by omega)]
      simp
    · have hke : k = cen.length - 1 := by omega
      have hlast : (cen.zip g).getLast? = some (b, g[k]) := by
        rw [List.getLast?_eq_getElem?, List.getElem?_eq_getElem (by simp; omega)]
        simp [hglen, hke, hbdef]
      have hmem : b ∈ linspace a b gridSize :=
        List.mem_of_getLast? (linspace_last two_le_gridSize)
      refine sum_pos_of_mem hyn (hval b hmem) ?_
      have := polyline_last hsorted hlast
      simp only at this
      rw [this]
      exact hgk
  have hyne : ys ≠ [] := by
    rintro rfl
    simp at hysum
  have hcs : normCumsum ys = .ok ((cumsum ys).map (· / ys.sum)) := by
    simp only [normCumsum, arrMax, npMax_cumsum hyn hyne, bind, Except.bind, ensure,
      decide_eq_true hysum.ne', if_true, pure, Except.pure]
  refine ⟨⟨linspace a b gridSize, ys, (cumsum ys).map (· / ys.sum)⟩, ?_⟩
  have htwo : decide (2 ≤ cen.length) = true := decide_eq_true (by omega)
  have hy' : marginalYs kde c (some false) data w bins (h.map fun v => v ^ c.power) a b
      (linspace a b gridSize) = .ok ys := by
    simp only [marginalYs, hg, bind, Except.bind, Option.getD_some, Bool.false_eq_true, if_false]
    exact hys
  simp only [smoothedHistogram, hdata, hw, hbins, hh, hpow, ← hcen, hend, htwo, ensure, if_true,
    hy', hcs, bind, Except.bind, pure, Except.pure]

end CC
