import Verif.Props.ContourRuns
import Verif.Props.PlotDist
import Verif.Props.Bandwidth
import Verif.Props.Colorbars

/-! # C118: the power of a chain reshapes its distribution -/

namespace CC
open Spec

/-! ### The same chain with another power -/

/-- The chain with another `power`. -/
def Spec.withPower (c : Chain ℝ) (p : ℝ) : Chain ℝ := { c with power := p }

/-- It is what the constructor makes of the same arguments with that power. -/
theorem make_withPower (a : Args ℝ) (p : ℝ) : Chain.make { a with power := p } = (Chain.make a).map (withPower · p) := by
  simp only [Chain.make, map_bind]
  rfl

/-! ### Sums of powers -/

theorem cross_sums {α : Type} {g k : α → ℝ} {s t : List α} (h : ∀ a ∈ s, ∀ b ∈ t, g a * k b ≤ k a * g b) :
    (s.map g).sum * (t.map k).sum ≤ (s.map k).sum * (t.map g).sum := by
  induction s with
  | nil => simp
  | cons a s ih =>
    have h1 : g a * (t.map k).sum ≤ k a * (t.map g).sum := by
      have ha := h a (by simp)
      clear ih h
      induction t with
      | nil => simp
      | cons b t ih =>
        have h2 := ha b (by simp)
        have h3 := ih fun b hb => ha b (List.mem_cons_of_mem _ hb)
        simp only [List.map_cons, List.sum_cons, mul_add]
        linarith
    have h2 := ih fun a ha => h a (List.mem_cons_of_mem _ ha)
    simp only [List.map_cons, List.sum_cons, add_mul]
    linarith

/-- If the entries of one list grow by smaller factors than the earlier ones, earlier ones make up a larger part of the sum. -/
theorem part_le {α : Type} {g k : α → ℝ} {s : List α} (hg : 0 < (s.map g).sum) (hk : 0 < (s.map k).sum)
    (h : s.Pairwise fun a b => g a * k b ≤ k a * g b) (i : Nat) :
    ((s.map g).take i).sum / (s.map g).sum ≤ ((s.map k).take i).sum / (s.map k).sum := by
  rw [div_le_div_iff₀ hg hk]
  have e : s = s.take i ++ s.drop i := (List.take_append_drop i s).symm
  have hc := cross_sums (g := g) (k := k) (s := s.take i) (t := s.drop i)
    (by rw [e] at h; exact (List.pairwise_append.1 h).2.2)
  have e1 : ∀ f : α → ℝ, (s.map f).sum = ((s.take i).map f).sum + ((s.drop i).map f).sum := by
    intro f
    conv_lhs => rw [e]
    rw [List.map_append, List.sum_append]
  rw [← List.map_take, ← List.map_take, e1 g, e1 k]
  nlinarith

/-! ### The surface of contours -/

/-- `np.argsort` only compares: values in the same order, with the same ties, are put into the same order. -/
def Spec.OrderFree (argsort : List ℝ → List Nat) : Prop :=
  ∀ (f : ℝ → ℝ) (l : List ℝ), (∀ u ∈ l, ∀ v ∈ l, u < v → f u < f v) → argsort (l.map f) = argsort l

theorem stdevFlat_power {argsort : List ℝ → List Nat} (ha : ArgsortOk argsort) (ho : OrderFree argsort) {l : List ℝ} (hne : l ≠ [])
    {g k : ℝ → ℝ} (hg : ∀ v ∈ l, 0 < g v) (hk : ∀ v ∈ l, 0 < k v) (hgm : ∀ u ∈ l, ∀ v ∈ l, u < v → g u < g v)
    (hkm : ∀ u ∈ l, ∀ v ∈ l, u < v → k u < k v) (h : ∀ u ∈ l, ∀ v ∈ l, v ≤ u → g u * k v ≤ k u * g v) :
    ∃ vg vk, stdevFlat argsort (l.map g) = .ok vg ∧ stdevFlat argsort (l.map k) = .ok vk ∧ vg.length = l.length ∧
      vk.length = l.length ∧ ∀ i, vg.getD i 0 ≤ vk.getD i 0 := by
  obtain ⟨hp, hs⟩ := ha l
  set q := (argsort l).reverse with hq
  have hqp : q.Perm (List.range l.length) := (List.reverse_perm _).trans hp
  obtain ⟨hup, -⟩ := argsortNat_spec hqp
  set u := argsortNat q with hudef
  set s := gather l q with hsdef
  have hsp : s.Perm l := filterMap_getElem_perm hqp
  have hsne : s ≠ [] := by
    intro h
    rw [h] at hsp
    exact hne (List.nil_perm.1 hsp)
  have hmem : ∀ v ∈ s, v ∈ l := fun v hv => hsp.mem_iff.1 hv
  have hdesc : s.Pairwise (· ≥ ·) := by
    have : s = (gather l (argsort l)).reverse := by
      rw [hsdef, hq]
      unfold gather
      rw [List.filterMap_reverse]
    rw [this]
    exact List.pairwise_reverse.2 (hs.imp fun h => h)
  have hpair : s.Pairwise fun a b => g a * k b ≤ k a * g b :=
    hdesc.imp_of_mem fun ha hb hab => h _ (hmem _ ha) _ (hmem _ hb) hab
  have hsum : ∀ f : ℝ → ℝ, (∀ v ∈ l, 0 < f v) → 0 < (s.map f).sum := by
    intro f hf
    refine List.sum_pos _ (fun v hv => ?_) (by simpa using hsne)
    obtain ⟨v0, hv0, rfl⟩ := List.mem_map.1 hv
    exact hf _ (hmem _ hv0)
  have key : ∀ f : ℝ → ℝ, (∀ v ∈ l, 0 < f v) → (∀ u ∈ l, ∀ v ∈ l, u < v → f u < f v) →
      stdevFlat argsort (l.map f) = .ok (gather ((cumsum (s.map f)).map (· / (s.map f).sum)) u) := by
    intro f hf hfm
    unfold stdevFlat
    simp only [ho f l hfm, ← hq, ← hudef, gather_map, ← hsdef, cumsum_last (l := s.map f) (by simpa using hsne), ensure,
      (hsum f hf).ne', ne_eq, not_false_eq_true, decide_true, if_true, bind, Except.bind, pure, Except.pure]
  have hlen : ∀ f : ℝ → ℝ, ((cumsum (s.map f)).map (· / (s.map f).sum)).length = l.length := by
    intro f
    simp [hsp.length_eq]
  have hult : ∀ i ∈ u, i < l.length := fun i hi => List.mem_range.1 (hup.mem_iff.1 hi)
  have hgl : ∀ f : ℝ → ℝ, (gather ((cumsum (s.map f)).map (· / (s.map f).sum)) u).length = l.length := by
    intro f
    rw [gather_length (by rw [hlen]; exact hult), hup.length_eq, List.length_range]
  refine ⟨_, _, key g hg hgm, key k hk hkm, hgl g, hgl k, fun i => ?_⟩
  rw [gather_eq_map (by rw [hlen]; exact hult) 0, gather_eq_map (by rw [hlen]; exact hult) 0]
  by_cases hi : i < u.length
  · simp only [List.getD_eq_getElem?_getD, List.getElem?_map, List.getElem?_eq_getElem hi, Option.map_some, Option.getD_some]
    have hu := hult _ (List.getElem_mem hi)
    have hc : ∀ f : ℝ → ℝ, u[i] < (cumsum (s.map f)).length := by
      intro f
      simpa [hsp.length_eq] using hu
    rw [List.getElem?_eq_getElem (hc g), List.getElem?_eq_getElem (hc k), cumsum_getElem, cumsum_getElem]
    exact part_le (hsum g hg) (hsum k hk) hpair _
  · simp only [List.getD_eq_getElem?_getD, List.getElem?_map, List.getElem?_eq_none (not_lt.1 hi)]
    exact le_rfl

theorem getD_take {α : Type} (l : List α) (n i : Nat) (d : α) : (l.take n).getD i d = if i < n then l.getD i d else d := by
  simp only [List.getD_eq_getElem?_getD, List.getElem?_take]
  split_ifs <;> rfl

theorem getD_drop {α : Type} (l : List α) (n i : Nat) (d : α) : (l.drop n).getD i d = l.getD (n + i) d := by
  simp only [List.getD_eq_getElem?_getD, List.getElem?_drop]

theorem reshapeLike_le : ∀ {rows rows' : List (List ℝ)} (_ : rows.map List.length = rows'.map List.length) {v v' : List ℝ}
    (_ : ∀ i, v.getD i 0 ≤ v'.getD i 0) (i j : Nat), cell (reshapeLike rows v) i j ≤ cell (reshapeLike rows' v') i j
  | [], [], _, _, _, _, _, _ => le_rfl
  | [], _ :: _, h, _, _, _, _, _ => by simp at h
  | _ :: _, [], h, _, _, _, _, _ => by simp at h
  | r :: rs, r' :: rs', h, v, v', hv, i, j => by
    simp only [List.map_cons, List.cons.injEq] at h
    cases i with
    | zero =>
      simp only [reshapeLike, cell, List.getD_cons_zero, getD_take, h.1]
      split_ifs
      · exact hv j
      · exact le_rfl
    | succ i =>
      have := reshapeLike_le h.2 (v := v.drop r.length) (v' := v'.drop r'.length) (fun i => by
        rw [getD_drop, getD_drop, h.1]; exact hv _) i j
      simpa only [reshapeLike, cell, List.getD_cons_succ] using this

/-- What becomes of a cell: its power, or `1e-16` if that is zero. -/
noncomputable def filledPower (p v : ℝ) : ℝ := if v ^ p = 0 then 1 / 10 ^ 16 else v ^ p

theorem filledPower_zero {p : ℝ} (hp : 0 < p) : filledPower p 0 = 1 / 10 ^ 16 := by
  rw [filledPower, Real.zero_rpow hp.ne', if_pos rfl]

theorem filledPower_pos {p v : ℝ} (hv : 0 < v) : filledPower p v = v ^ p :=
  if_neg (Real.rpow_pos_of_pos hv p).ne'

/-- Larger powers make denser cells count for more. -/
theorem contourSurface_power {argsort : List ℝ → List Nat} (ha : ArgsortOk argsort) (ho : OrderFree argsort) {h : List (List ℝ)}
    (hne : h.flatten ≠ []) {p q : ℝ} (hp : 0 < p) (hpq : p ≤ q)
    (hh : (∀ r ∈ h, ∀ v ∈ r, 0 < v) ∨ ∀ r ∈ h, ∀ v ∈ r, v = 0 ∨ 1 ≤ v) :
    ∃ vp vq, contourSurface argsort (h.map (List.map (· ^ p))) = .ok vp ∧ contourSurface argsort (h.map (List.map (· ^ q))) = .ok vq ∧
      ∀ i j, cell vp i j ≤ cell vq i j := by
  have hq : 0 < q := hp.trans_le hpq
  have hh' : (∀ v ∈ h.flatten, 0 < v) ∨ ∀ v ∈ h.flatten, v = 0 ∨ 1 ≤ v := by
    refine hh.imp ?_ ?_ <;>
    · intro hh v hv
      obtain ⟨r, hr, hvr⟩ := List.mem_flatten.1 hv
      exact hh r hr v hvr
  have hnn : ∀ v ∈ h.flatten, 0 ≤ v := by
    intro v hv
    rcases hh' with hh' | hh'
    · exact (hh' v hv).le
    · rcases hh' v hv with h | h <;> linarith
  have hfl : ∀ p : ℝ, (fillZeros (h.map (List.map (· ^ p)))).flatten = h.flatten.map (filledPower p) := by
    intro p
    simp only [fillZeros, List.map_map, List.map_flatten]
    refine congrArg _ (List.map_congr_left fun r _ => ?_)
    simp only [Function.comp_apply, List.map_map]
    rfl
  have hpos : ∀ s : ℝ, ∀ v ∈ h.flatten, 0 < s → 0 < filledPower s v := by
    intro s v hv hs
    rcases (hnn v hv).eq_or_lt with h | h
    · rw [← h, filledPower_zero hs]; norm_num
    · rw [filledPower_pos h]; exact Real.rpow_pos_of_pos h _
  have hmono : ∀ s : ℝ, 0 < s → ∀ u ∈ h.flatten, ∀ v ∈ h.flatten, u < v → filledPower s u < filledPower s v := by
    intro s hs u hu v hv huv
    have hv0 : 0 < v := (hnn u hu).trans_lt huv
    rcases (hnn u hu).eq_or_lt with h | h
    · rw [← h, filledPower_zero hs, filledPower_pos hv0]
      have h1 : 1 ≤ v := by
        rcases hh' with hh' | hh'
        · exact absurd (hh' u hu) (by rw [← h]; exact lt_irrefl _)
        · exact (hh' v hv).resolve_left hv0.ne'
      exact lt_of_lt_of_le (by norm_num) (Real.one_le_rpow h1 hs.le)
    · rw [filledPower_pos h, filledPower_pos hv0]
      exact Real.rpow_lt_rpow h.le huv hs
  have hcross : ∀ u ∈ h.flatten, ∀ v ∈ h.flatten, v ≤ u →
      filledPower p u * filledPower q v ≤ filledPower q u * filledPower p v := by
    intro u hu v hv huv
    rcases (hnn v hv).eq_or_lt with h0 | h0
    · rw [← h0, filledPower_zero hp, filledPower_zero hq]
      refine mul_le_mul_of_nonneg_right ?_ (by norm_num)
      rcases (hnn u hu).eq_or_lt with h1 | h1
      · rw [← h1, filledPower_zero hp, filledPower_zero hq]
      · rw [filledPower_pos h1, filledPower_pos h1]
        have h2 : 1 ≤ u := by
          rcases hh' with hh' | hh'
          · exact absurd (hh' v hv) (by rw [← h0]; exact lt_irrefl _)
          · exact (hh' u hu).resolve_left h1.ne'
        exact Real.rpow_le_rpow_of_exponent_le h2 hpq
    · have hu0 := h0.trans_le huv
      rw [filledPower_pos h0, filledPower_pos h0, filledPower_pos hu0, filledPower_pos hu0]
      have e : ∀ x : ℝ, 0 < x → x ^ q = x ^ p * x ^ (q - p) := by
        intro x hx
        rw [← Real.rpow_add hx]
        congr 1
        ring
      rw [e v h0, e u hu0]
      have h3 : v ^ (q - p) ≤ u ^ (q - p) := Real.rpow_le_rpow h0.le huv (by linarith)
      have h4 : 0 < u ^ p * v ^ p := mul_pos (Real.rpow_pos_of_pos hu0 _) (Real.rpow_pos_of_pos h0 _)
      nlinarith
  obtain ⟨vp, vq, h1, h2, h3, h4, h5⟩ := stdevFlat_power ha ho hne (fun v hv => hpos p v hv hp) (fun v hv => hpos q v hv hq)
    (hmono p hp) (hmono q hq) hcross
  refine ⟨reshapeLike (fillZeros (h.map (List.map (· ^ p)))) vp, reshapeLike (fillZeros (h.map (List.map (· ^ q)))) vq, ?_, ?_, ?_⟩
  · unfold contourSurface convertToStdev
    rw [hfl, h1]
    rfl
  · unfold contourSurface convertToStdev
    rw [hfl, h2]
    rfl
  · refine reshapeLike_le ?_ h5
    simp [fillZeros, Function.comp_def]

/-! ### Surfaces and curves -/

theorem rows_one (h : List (List ℝ)) : h.map (List.map (· ^ (1 : ℝ))) = h := by
  simp

/-- The two-dimensional histogram, and with KDE the estimate, are raised to the power of the chain, unless they are smoothed.
Missing: smoothed histograms, where the power is applied before smoothing. -/
theorem C118_surface_partial (near : NearFn) (c : Chain ℝ) (hs : c.cfg .kde ≠ (0 : ℝ) ∨ c.smoothValue = 0) {px py : String} {r : Hist2d}
    (hr : smoothedHistogram2d near (withPower c 1) px py = .ok r) {p : ℝ} (hp : 0 ≤ p) :
    smoothedHistogram2d near (withPower c p) px py = .ok ⟨r.hist.map (List.map (· ^ p)), r.xs, r.ys⟩ := by
  by_cases hk : c.cfg .kde = (0 : ℝ)
  · have hs := hs.resolve_left (not_not.2 hk)
    obtain ⟨x, y, w, b, h0, h1, h2, hx, hy, hw, hb, hh0, hh1, hh2, rfl⟩ :=
      (smoothedHistogram2d_ok_iff (c := withPower c 1) hk).1 hr
    refine (smoothedHistogram2d_ok_iff (c := withPower c p) hk).2 ⟨x, y, w, b, h0, _, _, hx, hy, hw, hb, hh0,
      powRows_ok_iff.2 ⟨.inl hp, rfl⟩, if_pos hs, ?_⟩
    obtain ⟨-, rfl⟩ := powRows_ok_iff.1 hh1
    rw [show smoothRows (withPower c 1).smoothValue _ _ = .ok _ from if_pos hs] at hh2
    cases hh2
    rw [show (withPower c 1).power = 1 from rfl, rows_one]
    rfl
  · obtain ⟨x, y, w, b, h0, h1, hx, hy, hw, hb, hh0, hh1, hk2⟩ := (smoothedHistogram2d_kde_ok_iff (c := withPower c 1) hk).1 hr
    obtain ⟨x0, x1, y0, y1, v, e1, e2, e3, e4, e5, v', e6, rfl⟩ := kde2d_ok_iff.1 hk2
    obtain ⟨-, rfl⟩ := powRows_ok_iff.1 e6
    refine (smoothedHistogram2d_kde_ok_iff (c := withPower c p) hk).2 ⟨x, y, w, b, h0, _, hx, hy, hw, hb, hh0,
      powRows_ok_iff.2 ⟨.inl hp, rfl⟩, kde2d_ok_iff.2 ⟨x0, x1, y0, y1, v, e1, e2, e3, e4, e5, _, powRows_ok_iff.2 ⟨.inl hp, rfl⟩, ?_⟩⟩
    rw [show (withPower c 1).power = 1 from rfl, rows_one]
    rfl

theorem powAll_one (l : List ℝ) : powAll l 1 = .ok l := by
  simp [powAll, ensure, pure, Except.pure, bind, Except.bind]

theorem powAll_nonneg (l : List ℝ) {p : ℝ} (hp : 0 ≤ p) : powAll l p = .ok (l.map (· ^ p)) := by
  simp [powAll, ensure, hp, pure, Except.pure, bind, Except.bind]

/-- The curve or histogram drawn by `plot_dist` is raised to the power of the chain, unless it is smoothed. -/
theorem C118_curve_partial (lib : Lib) (c : Chain ℝ) (hs : c.cfg .kde ≠ (0 : ℝ) ∨ c.smoothValue = 0) {px : String} {xs ys : List ℝ}
    (h : distCurve lib (withPower c 1) px = .ok (xs, ys)) {p : ℝ} (hp : 0 ≤ p) :
    distCurve lib (withPower c p) px = .ok (xs, ys.map (· ^ p)) := by
  simp only [distCurve, bind_ok_iff] at h
  obtain ⟨x, hx, w, hw, h⟩ := h
  have hx' : (withPower c p).samples.get px = .ok x := hx
  have hw' : (withPower c p).weights = .ok w := hw
  simp only [distCurve, hx', hw', bind, Except.bind]
  by_cases hk : c.cfg .kde = (0 : ℝ)
  · have hs := hs.resolve_left (not_not.2 hk)
    rw [if_neg (show ¬(withPower c 1).cfg .kde ≠ (0 : ℝ) from not_not.2 hk),
      if_neg (show ¬(withPower c 1).smoothValue ≠ 0 from not_not.2 hs)] at h
    rw [if_neg (show ¬(withPower c p).cfg .kde ≠ (0 : ℝ) from not_not.2 hk),
      if_neg (show ¬(withPower c p).smoothValue ≠ 0 from not_not.2 hs)]
    simp only [distPlain, bind_ok_iff, pure_ok_iff] at h
    obtain ⟨b, hb, d, hd, d', hd', h⟩ := h
    rw [show powAll d (withPower c 1).power = .ok d from powAll_one d] at hd'
    cases hd'
    cases h
    have hb' : marginalBins (withPower c p) x w false = .ok b := hb
    simp only [distPlain, hb', hd, bind, Except.bind, show powAll ys (withPower c p).power = _ from powAll_nonneg ys hp]
    rfl
  · rw [if_pos (show (withPower c 1).cfg .kde ≠ (0 : ℝ) from hk), bind_ok_iff] at h
    rw [if_pos (show (withPower c p).cfg .kde ≠ (0 : ℝ) from hk)]
    obtain ⟨b, hb, h⟩ := h
    have hb' : distBins (withPower c p) x w = .ok b := hb
    simp only [distKdeCurve, bind_ok_iff, pure_ok_iff] at h
    obtain ⟨x0, h0, x1, h1, d, hd, d', hd', h⟩ := h
    rw [show powAll d (withPower c 1).power = .ok d from powAll_one d] at hd'
    cases hd'
    obtain ⟨rfl, rfl⟩ := Prod.mk.inj h
    have hd2 : distKde lib.near x w ((withPower c p).cfg .kde) (linspace x0 x1 1000) = .ok d := hd
    simp only [hb', distKdeCurve, h0, h1, hd2, bind, Except.bind, show powAll d (withPower c p).power = _ from powAll_nonneg d hp]
    rfl

/-- The bars of a marginal are raised to the power of the chain, and the curve that its summaries are taken from joins the tops of
these bars, for chains without smoothing and KDE. -/
theorem C118_bars_partial (lib : Lib) (c : Chain ℝ) (hk : c.cfg .kde = (0 : ℝ)) (hs : c.smoothValue = 0) {col : String}
    {xs ys : List ℝ} (h : barData lib (withPower c 1) col = .ok (xs, ys)) {p : ℝ} (hp : 0 ≤ p) :
    barData lib (withPower c p) col = .ok (xs, ys.map (· ^ p)) ∧
      ∀ m, smoothedHistogram lib.kde (withPower c p) col false none = .ok m →
        m.xs.mapM (interp1d xs (ys.map (· ^ p))) = .ok m.ys := by
  have hn : ∀ p, ¬((withPower c p).smoothValue ≠ 0 ∨ (withPower c p).cfg .kde ≠ (0 : ℝ)) := by
    rintro p (h | h)
    · exact h hs
    · exact h hk
  unfold barData at h ⊢
  rw [if_neg (hn 1)] at h
  rw [if_neg (hn p)]
  simp only [bind_ok_iff, pure_ok_iff] at h
  obtain ⟨x, hx, w, hw, b, hb, d, hd, d', hd', h⟩ := h
  rw [show powAll d (withPower c 1).power = .ok d from powAll_one d] at hd'
  cases hd'
  cases h
  have hx' : (withPower c p).samples.get col = .ok x := hx
  have hw' : (withPower c p).weights = .ok w := hw
  have hb' : marginalBins (withPower c p) x w false = .ok b := hb
  have hpw : powAll ys (withPower c p).power = .ok (ys.map (· ^ p)) := powAll_nonneg ys hp
  constructor
  · simp only [hx', hw', hb', hd, hpw, bind, Except.bind]
    rfl
  · intro m hm
    simp only [smoothedHistogram, hx', hw', hb', hd, hpw, bind_ok_iff, ensure_ok_iff, pure_ok_iff, Except.ok.injEq, exists_eq_left'] at hm
    obtain ⟨ab, -, -, -, v, hv, cs, -, rfl⟩ := hm
    simp only [marginalYs, show smoothHist (withPower c p).smoothValue _ = .ok _ from if_pos hs, bind, Except.bind, Option.getD_none,
      show (withPower c p).cfg .kde = (0 : ℝ) from hk, ne_eq, not_true_eq_false, decide_false, Bool.false_eq_true, if_false] at hv
    exact hv

/-! ### Contours -/

/-- Cells are empty or hold at least 1 if all weights do. -/
theorem cells_counted {near : NearFn} {c : Chain ℝ} (hk : c.cfg .kde = (0 : ℝ)) (hs : c.smoothValue = 0) {w : List ℝ}
    (hw : c.weights = .ok w) (h1 : ∀ v ∈ w, 1 ≤ v) {px py : String} {r : Hist2d}
    (hr : smoothedHistogram2d near (withPower c 1) px py = .ok r) : ∀ row ∈ r.hist, ∀ v ∈ row, v = 0 ∨ 1 ≤ v := by
  obtain ⟨x, y, w', b, h0, h1', h2, hx, hy, hw', hb, hh0, hh1, hh2, rfl⟩ := (smoothedHistogram2d_ok_iff (c := withPower c 1) hk).1 hr
  rw [show (withPower c 1).weights = .ok w from hw] at hw'
  cases hw'
  obtain ⟨-, rfl⟩ := powRows_ok_iff.1 hh1
  rw [show smoothRows (withPower c 1).smoothValue _ _ = .ok _ from if_pos hs] at hh2
  cases hh2
  rw [show (withPower c 1).power = 1 from rfl, rows_one]
  simp only [histogram2d, bind_ok_iff, pure_ok_iff] at hh0
  obtain ⟨_, -, _, -, rfl⟩ := hh0
  intro r hr v hv
  obtain ⟨i, -, rfl⟩ := List.mem_map.1 hr
  obtain ⟨j, -, rfl⟩ := List.mem_map.1 hv
  unfold cellMass
  have hall : ∀ q ∈ x.zip (y.zip w), 1 ≤ q.2.2 := fun q hq => h1 _ (List.of_mem_zip (List.of_mem_zip hq).2).2
  generalize x.zip (y.zip w) = l at hall
  induction l with
  | nil => exact .inl rfl
  | cons q l ih =>
    have ih := ih fun q hq => hall q (List.mem_cons_of_mem _ hq)
    have hq := hall q (by simp)
    simp only [List.map_cons, List.sum_cons]
    split_ifs
    · right
      rcases ih with h | h <;> linarith
    · rw [zero_add]; exact ih

/-- **C118, partial**. A larger power tightens contours: every cell gets the same or a larger value on the surface, so that each contour
encloses no cell that it did not enclose with the smaller power. For KDEs, and for histograms without smoothing if all weights are at
least 1 or no cell is empty. Missing: smoothed histograms; smaller weights with empty cells (`C118_violated_empty`); summaries with
KDE (`C118_violated_kde`). -/
theorem C118_contours_partial {lib : Lib} (hn : NearOk lib.near) (ha : ArgsortOk lib.argsort) (ho : OrderFree lib.argsort)
    (cfg : PlotConfig) (c : Chain ℝ) (hc : AcceptedNoShift c) {p q : ℝ} (hp : 0 < p) (hpq : p ≤ q) {px py : String}
    (hs : c.cfg .kde ≠ (0 : ℝ) ∨ c.smoothValue = 0 ∧ ((∃ w, c.weights = .ok w ∧ ∀ v ∈ w, 1 ≤ v) ∨
      ∀ r, smoothedHistogram2d lib.near (withPower c 1) px py = .ok r → ∀ row ∈ r.hist, ∀ v ∈ row, 0 < v))
    {r : Hist2d} (hr : smoothedHistogram2d lib.near (withPower c 1) px py = .ok r)
    {xs ys : List ℝ} {vals : List (List ℝ)} {levels : List ℝ}
    (h : plotContour lib cfg (withPower c p) px py = .ok (.contour c.name px py xs ys vals levels)) :
    ∃ vals', plotContour lib cfg (withPower c q) px py = .ok (.contour c.name px py xs ys vals' levels) ∧
      ∀ i < xs.length, ∀ j < ys.length, cell vals j i ≤ cell vals' j i := by
  obtain ⟨args, hwf0, hsh, hmk⟩ := hc
  obtain ⟨hwf, -, -, -, ⟨w, hw, -, hpos⟩, -⟩ := C07_accepted_chain_guarantees args c hwf0 hsh hmk
  have hs' : c.cfg .kde ≠ (0 : ℝ) ∨ c.smoothValue = 0 := hs.imp_right And.left
  have hrp := C118_surface_partial lib.near c hs' hr hp.le
  have hrq := C118_surface_partial lib.near c hs' hr (hp.le.trans hpq)
  obtain ⟨hrect, hnn⟩ := smoothedHistogram2d_valid (c := withPower c 1) hn hwf hw hpos hr
  have hcells : (∀ row ∈ r.hist, ∀ v ∈ row, 0 < v) ∨ ∀ row ∈ r.hist, ∀ v ∈ row, v = 0 ∨ 1 ≤ v := by
    by_cases hk : c.cfg .kde = (0 : ℝ)
    · obtain ⟨hsm, ⟨w', hw', h1⟩ | hfull⟩ := hs.resolve_left (not_not.2 hk)
      · exact .inr (cells_counted hk hsm hw' h1 hr)
      · exact .inl (hfull r hr)
    · left
      intro row hrow v hv
      obtain ⟨x, y, w', b, h0', h1, -, -, hw', -, -, -, hk2⟩ := (smoothedHistogram2d_kde_ok_iff (c := withPower c 1) hk).1 hr
      rw [show (withPower c 1).weights = .ok w from hw] at hw'
      cases hw'
      obtain ⟨x0, x1, y0, y1, u, -, -, -, -, hu, u', hu', rfl⟩ := kde2d_ok_iff.1 hk2
      obtain ⟨-, rfl⟩ := powRows_ok_iff.1 hu'
      obtain ⟨row0, hrow0, rfl⟩ := List.mem_map.1 hrow
      obtain ⟨v0, hv0, rfl⟩ := List.mem_map.1 hv
      exact Real.rpow_pos_of_pos (megKde2d_pos hn hpos hu row0 hrow0 v0 hv0) _
  simp only [plotContour, bind_ok_iff, pure_ok_iff, ensure_ok_iff, Bool.and_eq_true, decide_eq_true_eq] at h
  obtain ⟨_, hcol, r', hr', vals0, hvals, -, ⟨hx2, hy2⟩, -, hfill, -, hlev, he⟩ := h
  rw [hrp] at hr'
  cases hr'
  cases he
  obtain ⟨vp, vq, h1, h2, h3⟩ := contourSurface_power ha ho (contour_nonempty hrect hx2 hy2) hp hpq hcells
  have h1' := h1.symm.trans hvals
  cases h1'
  refine ⟨transpose r.ys.length vq, ?_, fun i hi j hj => ?_⟩
  · simp only [plotContour, bind_ok_iff, pure_ok_iff, ensure_ok_iff, Bool.and_eq_true, decide_eq_true_eq]
    exact ⟨_, hcol, _, hrq, vq, h2, (), ⟨hx2, hy2⟩, (), hfill, (), hlev, rfl⟩
  · have hrows : ∀ {s : ℝ} {v}, contourSurface lib.argsort (r.hist.map (List.map (· ^ s))) = .ok v → v.length = r.xs.length := by
      intro s v hv
      have hnn' : ∀ row ∈ r.hist.map (List.map (· ^ s)), ∀ v ∈ row, 0 ≤ v := by
        intro row hrow v hv
        obtain ⟨row0, hrow0, rfl⟩ := List.mem_map.1 hrow
        obtain ⟨v0, hv0, rfl⟩ := List.mem_map.1 hv
        exact Real.rpow_nonneg (rect_nonneg hrect hnn row0 hrow0 v0 hv0) _
      obtain ⟨v', hv', hlen, -⟩ := C51_highest_density ha (hist := r.hist.map (List.map (· ^ s))) (by
        have := contour_nonempty hrect hx2 hy2
        rw [← List.map_flatten]
        simpa using this) hnn'
      rw [hv] at hv'
      cases hv'
      have := congrArg List.length hlen
      simpa [hrect.rows] using this
    rw [cell_transpose (hrows h1) hi hj, cell_transpose (hrows h2) hi hj]
    exact h3 i j

/-! ### Summaries with KDE -/

/-- **C118** (violation). With KDE the power changes neither the curve of a marginal nor its summary. -/
theorem C118_ignored (lib : Lib) (c : Chain ℝ) (hk : c.cfg .kde ≠ (0 : ℝ)) (col : String) {p q : ℝ} (hp : 0 ≤ p) (hq : 0 ≤ q) :
    barData lib (withPower c p) col = barData lib (withPower c q) col ∧
      summaryEntry lib.kde (withPower c p) col = summaryEntry lib.kde (withPower c q) col := by
  have hm : ∀ pad, smoothedHistogram lib.kde (withPower c p) col pad none = smoothedHistogram lib.kde (withPower c q) col pad none := by
    intro pad
    unfold smoothedHistogram
    refine bind_congr fun x _ => bind_congr fun w _ => bind_congr fun b _ => bind_congr fun d _ => ?_
    rw [show powAll d (withPower c p).power = .ok _ from powAll_nonneg d hp, show powAll d (withPower c q).power = .ok _ from
      powAll_nonneg d hq]
    change (endpoints (midpoints b) >>= _) = (endpoints (midpoints b) >>= _)
    refine bind_congr fun ab _ => bind_congr fun _ _ => ?_
    have : ∀ (h h' : List ℝ) (s : Int), (∃ e, smoothHist s h = .error e ∧ smoothHist s h' = .error e) ∨
        ∃ v v', smoothHist s h = .ok v ∧ smoothHist s h' = .ok v' := by
      intro h h' s
      unfold smoothHist
      split_ifs
      · exact .inr ⟨_, _, rfl, rfl⟩
      · exact .inr ⟨_, _, rfl, rfl⟩
      · exact .inl ⟨_, rfl, rfl⟩
    have hy : ∀ h h' a z xs, marginalYs lib.kde (withPower c p) none x w b h a z xs =
        marginalYs lib.kde (withPower c q) none x w b h' a z xs := by
      intro h h' a z xs
      unfold marginalYs
      rw [show (withPower c q).smoothValue = (withPower c p).smoothValue from rfl]
      rcases this h h' (withPower c p).smoothValue with ⟨e, e1, e2⟩ | ⟨v, v', e1, e2⟩
      · rw [e1, e2]; rfl
      · rw [e1, e2]
        simp only [bind, Except.bind, Option.getD_none, show (withPower c p).cfg .kde ≠ (0 : ℝ) from hk,
          show (withPower c q).cfg .kde ≠ (0 : ℝ) from hk, ne_eq, not_false_eq_true, decide_true, if_true]
        rfl
    exact congrArg (fun z => z >>= fun ys => normCumsum ys >>= fun cs => pure (⟨_, ys, cs⟩ : Marginal ℝ)) (hy _ _ _ _ _)
  constructor
  · unfold barData
    rw [if_pos (.inr (show (withPower c p).cfg .kde ≠ (0 : ℝ) from hk)), if_pos (.inr (show (withPower c q).cfg .kde ≠ (0 : ℝ) from hk)), hm]
  · simp only [summaryEntry, parameterSummary, hm]
    rfl

theorem four_trainable : Trainable (onePoints (n := 4) [0, 0, 1, 1] rfl) (entries (n := 4) [1, 1, 1, 1] rfl) := by
  refine (trainable_iff fun i => by fin_cases i <;> simp [entries]).2 ⟨by norm_num, fun v hv => ?_⟩
  have h1 := hv 0 2
  simp [onePoints, entries, dotProduct] at h1
  funext j
  fin_cases j
  simpa using h1.symm

/-- The curve of `plot_dist` for the samples 0, 0, 1, 1 lies above 1. -/
theorem four_curve {near : NearFn} (hn : NearOk near) {ts : List ℝ} (hts : ∀ t ∈ ts, -1 / 2 ≤ t ∧ t ≤ 3 / 2) :
    ∃ vs, distKde near [0, 0, 1, 1] [1, 1, 1, 1] 1 ts = .ok vs ∧ vs.length = ts.length ∧ ∀ v ∈ vs, 1 < v := by
  obtain ⟨k, hk⟩ := (Kde.make_exists_iff (tr := (1 : ℝ)) (m := 4)).2 ⟨one_ne_zero, four_trainable⟩
  have hk' : Kde.make (n := ([0, 0, 1, 1] : List ℝ).length) (p := 1) (fun i _ => ([0, 0, 1, 1] : List ℝ)[i])
      (fun i => ([1, 1, 1, 1] : List ℝ)[i.val]'(by have := i.2; simp at this ⊢)) 1 4 1 = .ok k := hk
  have hex : ∃ vs, distKde near [0, 0, 1, 1] [1, 1, 1, 1] 1 ts = .ok vs := by
    unfold distKde
    rw [dif_pos (show ([1, 1, 1, 1] : List ℝ).length = ([0, 0, 1, 1] : List ℝ).length from rfl), hk']
    simp only [bind, Except.bind, Kde.evaluate]
    clear hts
    induction ts with
    | nil => exact ⟨[], rfl⟩
    | cons t ts ih =>
      obtain ⟨vs, hvs⟩ := ih
      obtain ⟨v, hv⟩ := kdeAt_exists near (tr := (1 : ℝ)) (m := 4) one_ne_zero four_trainable le_rfl (fun _ => t)
      unfold kdeAt at hv
      rw [hk] at hv
      have hv2 : k.at near (fun _ => t) = .ok v := hv
      refine ⟨v :: vs, ?_⟩
      rw [List.map_cons, List.mapM_cons, hv2, hvs]
      rfl
  obtain ⟨vs, hvs⟩ := hex
  obtain ⟨hl, hF⟩ := C50_plot_dist hn hvs
  refine ⟨vs, hvs, hF.length_eq.symm, fun v hv => ?_⟩
  obtain ⟨t, ht, s, hs, rfl⟩ := forall₂_mem_right hF hv
  obtain ⟨t1, t2⟩ := hts t ht
  have hu : s = Finset.univ := by
    have hcard : 4 ≤ s.card := by
      rcases hs with ⟨h1, rfl⟩ | ⟨-, h2, -⟩
      · exact h1
      · exact h2.ge
    refine (Finset.card_eq_iff_eq_univ s).1 (le_antisymm (Finset.card_le_univ s) ?_)
    simpa using hcard
  subst hu
  have hb := four_bandwidth 1
  have hterm : ∀ x : ℝ, (x - t) ^ 2 ≤ 1 / 4 → 5 / 8 ≤ Real.exp (-(3 * (x - t) ^ 2 / (2 * bandwidth 4 1 1 ^ 2))) := by
    intro x hx
    have h1 := Real.add_one_le_exp (-(3 * (x - t) ^ 2 / (2 * bandwidth 4 1 1 ^ 2)))
    have h2 : 3 * (x - t) ^ 2 / (2 * bandwidth 4 1 1 ^ 2) ≤ 3 / 8 := by
      rw [div_le_iff₀ (by positivity)]
      nlinarith
    linarith
  change 1 < gaussSum (onePoints (n := 4) [0, 0, 1, 1] rfl) (entries (n := 4) [1, 1, 1, 1] rfl) 1 (fun _ => t) Finset.univ
  unfold gaussSum
  simp only [pair_maha, Fin.sum_univ_four]
  simp only [onePoints, entries]
  norm_num
  have p0 := Real.exp_pos (-(3 * (0 - t) ^ 2 / (2 * bandwidth 4 1 1 ^ 2)))
  have p1 := Real.exp_pos (-(3 * (1 - t) ^ 2 / (2 * bandwidth 4 1 1 ^ 2)))
  rcases le_total t (1 / 2) with h | h
  · have := hterm 0 (by nlinarith)
    norm_num at this p0 p1
    linarith
  · have := hterm 1 (by nlinarith)
    norm_num at this p0 p1
    linarith

/-- **C118** (violation). Two chains of the same four samples with KDE, one with the default power and one with `power=2`: both have
the same summary, although `plot_dist` draws the second with larger values everywhere. -/
theorem C118_violated_kde {lib : Lib} (hn : NearOk lib.near) : ∃ (c c' : Chain ℝ) (b : Summary ℝ) (xs ys ys' : List ℝ),
    Chain.make fourArgs = .ok c ∧ Chain.make { fourArgs with power := 2 } = .ok c' ∧ c.power = 1 ∧ c'.power = 2 ∧
    summaryEntry lib.kde c "x" = .ok b ∧ summaryEntry lib.kde c' "x" = .ok b ∧
    distCurve lib c "x" = .ok (xs, ys) ∧ distCurve lib c' "x" = .ok (xs, ys') ∧ xs ≠ [] ∧ ys.length = xs.length ∧
    List.Forall₂ (· < ·) ys ys' := by
  obtain ⟨c, m, hc, hacc, hk, hw, hwc, hs, hm, hv⟩ := four_chain hn
  obtain ⟨c0, hc0, -, -, -, hp, hg, -, -, hcfg⟩ :=
    plain_chain_cfg true [⟨.kde, (1 : ℝ)⟩] rfl
      (by change (0 : ℝ) ≤ 6827 / 10000 ∧ (6827 / 10000 : ℝ) ≤ 1; constructor <;> norm_num)
      (by change (1 : ℝ) ≤ 10; norm_num) rfl rfl (by intro h; cases h) fourFrame ⟨by simp [fourFrame], by simp [fourFrame]⟩
      (by simp [fourFrame]) (w := [1, 1, 1, 1]) rfl (by simp) "four" 1 le_rfl (one_dvd _)
  have hcc := hc.symm.trans hc0
  cases hcc
  have hsm : c.smoothValue = 0 := by
    unfold Chain.smoothValue
    rw [hcfg, hg]
    rfl
  have hst : c.cfg .statistics = some .max := by rw [hcfg]; rfl
  have hmm : c.cfg .multimodal = false := by rw [hcfg]; rfl
  have hb : getBins c = 100 := by
    unfold getBins
    rw [hsm, hcfg, hs]
    change max (100 : Int) (Nat.sqrt (Nat.sqrt 2) : Int) = 100
    refine max_eq_left ?_
    have h1 := Nat.sqrt_le_self (Nat.sqrt 2)
    have h2 := Nat.sqrt_le_self 2
    omega
  have hpow : withPower c 1 = c := by
    unfold withPower
    rw [← hp]
  have hk0 : c.cfg .kde ≠ (0 : ℝ) := by rw [hk]; exact one_ne_zero
  obtain ⟨b, hsum⟩ : ∃ b, summaryEntry lib.kde c "x" = .ok b := by
    have hm' : smoothedHistogram lib.kde c "x" false none = .ok m := hm
    obtain ⟨k, x, y, -, -, -, h | ⟨l, u, _, _, _, _, h, -⟩⟩ := C29_max_summary m hv (c.cfg .summaryArea : ℝ)
    · exact ⟨.single _, by simp only [summaryEntry, parameterSummary, hst, hm', bind, Except.bind, h, hmm]; rfl⟩
    · exact ⟨.single _, by simp only [summaryEntry, parameterSummary, hst, hm', bind, Except.bind, h, hmm]; rfl⟩
  have hsum' : summaryEntry lib.kde (withPower c 2) "x" = .ok b := by
    rw [← hsum, (C118_ignored lib c hk0 "x" (p := 2) (q := 1) (by norm_num) (by norm_num)).2, hpow]
  have hdata : c.samples.get "x" = .ok [0, 0, 1, 1] := by rw [hs]; rfl
  have hwt : c.weights = .ok [1, 1, 1, 1] := hw
  obtain ⟨i, j, t, R, l, u, hi, hij, hj, -, hl, hu, hlu, hext, -⟩ := C45_extents (K := ℝ) [0, 0, 1, 1] [1, 1, 1, 1] rfl (by simp) 0 1
    (by simp) (by simp) (by simp) (by norm_num) false true false true
  have hedge : ∀ n : Nat, n ≤ 2000 → 0 ≤ cellEdge (0 : ℝ) 1 n ∧ cellEdge (0 : ℝ) 1 n ≤ 1 := by
    intro n hn
    have : (n : ℝ) ≤ 2000 := by exact_mod_cast hn
    have h0 : (0 : ℝ) ≤ n := Nat.cast_nonneg n
    unfold cellEdge
    constructor <;> linarith
  have hl0 : 0 ≤ l := by
    rw [hl]; linarith [(hedge i (by omega)).1, (hedge (i + 1) (by omega)).1]
  have hu1 : u ≤ 1 := by
    rw [hu]; linarith [(hedge j (by omega)).2, (hedge (j + 1) (by omega)).2]
  set bins := linspace (l - (u - l) / 5) (u + (u - l) / 5) 100 with hbins
  have hbin : ∀ x ∈ bins, -1 / 2 ≤ x ∧ x ≤ 3 / 2 := by
    intro x hx
    have := linspace_mem (by linarith) (by norm_num) hx
    constructor <;> linarith [this.1, this.2]
  have hdb : distBins c [0, 0, 1, 1] [1, 1, 1, 1] = .ok bins := by
    simp only [distBins, getSmoothedBins, hext, hsm, hb, bind, Except.bind, if_true]
    rfl
  have hne : bins ≠ [] := by
    intro h
    have := congrArg List.length h
    simp [hbins] at this
  obtain ⟨x0, h0⟩ := arrMin_exists hne
  obtain ⟨x1, h1⟩ := arrMax_exists hne
  have e0 := arrMin_ok_iff.1 h0
  have e1 := arrMax_ok_iff.1 h1
  obtain ⟨vs, hvs, hlen, hgt⟩ := four_curve hn (ts := linspace x0 x1 1000) (by
    intro t ht
    have := linspace_mem (e0.2 _ e1.1) (by norm_num) ht
    have := hbin _ e0.1
    have := hbin _ e1.1
    constructor <;> linarith)
  have hcur : distCurve lib c "x" = .ok (linspace x0 x1 1000, vs) := by
    simp only [distCurve, hdata, hwt, bind, Except.bind]
    rw [if_pos hk0, hdb]
    have hvs' : distKde lib.near [0, 0, 1, 1] [1, 1, 1, 1] (c.cfg .kde) (linspace x0 x1 1000) = .ok vs := by rw [hk]; exact hvs
    simp only [distKdeCurve, h0, h1, hvs', bind, Except.bind, hp, powAll_one]
    rfl
  refine ⟨c, withPower c 2, b, linspace x0 x1 1000, vs, vs.map (· ^ (2 : ℝ)), hc, ?_, hp, rfl, hsum, hsum', hcur, ?_, ?_, hlen, ?_⟩
  · rw [make_withPower, hc]
    rfl
  · exact C118_curve_partial lib c (.inl hk0) (by rw [hpow]; exact hcur) (by norm_num)
  · intro h
    have := congrArg List.length h
    rw [linspace_length] at this
    simp at this
  · rw [List.forall₂_map_right_iff]
    clear hlen hcur hvs
    induction vs with
    | nil => exact .nil
    | cons v vs ih =>
      refine .cons ?_ (ih fun x hx => hgt x (List.mem_cons_of_mem _ hx))
      have := hgt v (by simp)
      rw [Real.rpow_two]
      nlinarith

/-! ### Empty cells -/

theorem thousandth_six : ((1 / 1000 : ℝ)) ^ (6 : ℝ) = 1 / 10 ^ 18 := by
  rw [show (6 : ℝ) = ((6 : ℕ) : ℝ) by norm_num, Real.rpow_natCast]
  norm_num

/-- **C118** (violation). Two chains of the same four samples, all with weights 1/1000 (normalised weights are often that small), one with
the default power and one with `power=6`: the contours of the first enclose the filled cells before the empty ones, those of the second
the empty cells before the filled ones. -/
theorem C118_violated_empty {lib : Lib} (hn : NearOk lib.near) (ha : ArgsortOk lib.argsort) (cfg : PlotConfig) :
    ∃ c : Chain ℝ, AcceptedNoShift c ∧ c.weights = .ok [1 / 1000, 1 / 1000, 1 / 1000, 1 / 1000] ∧ c.power = 1 ∧
      (∃ args, Chain.make args = .ok (withPower c 6)) ∧
      ∃ xs ys hist vals vals' levels levels', smoothedHistogram2d lib.near c "x" "y" = .ok ⟨hist, xs, ys⟩ ∧
        plotContour lib cfg c "x" "y" = .ok (.contour "step" "x" "y" xs ys vals levels) ∧
        plotContour lib cfg (withPower c 6) "x" "y" = .ok (.contour "step" "x" "y" xs ys vals' levels') ∧
        cell hist 0 0 = 1 / 1000 ∧ cell hist 0 2 = 0 ∧ cell vals 0 0 < cell vals 2 0 ∧ cell vals' 2 0 < cell vals' 0 0 := by
  obtain ⟨c0, hc0, hacc0, hwc, hp0, hk, hsig, hal, hgr, hco, -, hwt0, hname, hr0, hcs⟩ := step_chain lib
  set c := reweighted c0 (1 / 1000) with hcdef
  have hr : smoothedHistogram2d lib.near c "x" "y" = .ok ⟨[[1 / 1000, 1 / 1000, 0], [1 / 1000, 0, 1 / 1000]],
      midpoints [-1 / 2, 1 / 2, 3 / 2], midpoints [-1 / 2, 1 / 2, 3 / 2, 5 / 2]⟩ := by
    have := smoothedHistogram2d_reweighted hn hacc0 (k := 1 / 1000) (by positivity) (px := "x") (py := "y")
      (by rw [hwc]; decide) (by rw [hwc]; decide)
    rw [hr0, hp0, Real.rpow_one] at this
    rw [hcdef, this]
    simp [Except.map, scaleHist, scaleRows]
  have hmk : Chain.make { stepArgs [] with samples := rawScale (stepArgs []).weightColumn (1 / 1000) (stepArgs []).samples } = .ok c :=
    (make_reweighted (stepArgs []) (k := 1 / 1000) (by positivity) (by simp [stepArgs, stepFrame, Frame.toRaw])).trans
      (by rw [hc0]; rfl)
  have hacc : AcceptedNoShift c := by
    refine ⟨_, ?_, rfl, hmk⟩
    constructor
    · simp [stepArgs, stepFrame, Frame.toRaw, rawScale]
    · simp [stepArgs, stepFrame, Frame.toRaw, rawScale]
  have hwt : c.weights = .ok [1 / 1000, 1 / 1000, 1 / 1000, 1 / 1000] := by
    have := reweighted_get c0 (1 / 1000) c0.weightColumn
    rw [if_pos rfl, show c0.samples.get c0.weightColumn = .ok [1, 1, 1, 1] from hwt0] at this
    rw [show c.weights = _ from this]
    simp [Except.map]
  have hpos : ∀ v ∈ ([1 / 1000, 1 / 1000, 1 / 1000, 1 / 1000] : List ℝ), 0 < v := by simp
  have hwf : c.samples.WF := by
    obtain ⟨args, hwf0, hsh, hmk⟩ := hacc
    exact (C07_accepted_chain_guarantees args c hwf0 hsh hmk).1
  have hp : c.power = 1 := hp0
  have hpow : withPower c 1 = c := by
    unfold withPower
    rw [← hp]
  have hs : c.smoothValue = 0 := by
    obtain ⟨c1, hc1, -, -, -, -, hg, -, -, hcfg⟩ := plain_chain_cfg (K := ℝ) true [] rfl
      (by change (0 : ℝ) ≤ 6827 / 10000 ∧ (6827 / 10000 : ℝ) ≤ 1; constructor <;> norm_num)
      (by change (1 : ℝ) ≤ 10; norm_num) rfl rfl (by intro h; cases h) stepFrame stepFrame_wf
      (by simp [stepFrame]) (w := [1, 1, 1, 1]) rfl (by simp) "step" 1 le_rfl (one_dvd _)
    have := hc0.symm.trans hc1
    cases this
    change c0.smoothValue = 0
    unfold Chain.smoothValue
    rw [hcfg, hg]
    rfl
  have hr' := C118_surface_partial lib.near c (.inr hs) (px := "x") (py := "y") (by rw [hpow]; exact hr) (p := 6) (by norm_num)
  have draw : ∀ c' : Chain ℝ, c'.cfg = c0.cfg → ∀ w, c'.weights = .ok w → (∀ v ∈ w, 0 < v) → c'.samples.WF →
      ∀ r, smoothedHistogram2d lib.near c' "x" "y" = .ok r → 2 ≤ r.xs.length → 2 ≤ r.ys.length →
      ∃ call, plotContour lib cfg c' "x" "y" = .ok call := by
    intro c' hcfg w hw hpos hwf r hr hx2 hy2
    exact C88_drawn_partial hn ha hwf hw hpos hr hx2 hy2 (by rw [hcfg, hsig]; simp) (by rw [hcfg, hsig]; norm_num)
      (by rw [hcfg, hsig]; simp) (.inr ⟨by rw [hcfg, hsig]; simp, 1 / 2, by norm_num, by rw [hcfg, hal]⟩)
      (by rw [hcfg, hco]; simp) (by rw [hcfg, hgr]; norm_num) (by rw [hcfg, hgr]; norm_num)
  obtain ⟨call, hcall⟩ := draw c rfl _ hwt hpos hwf _ hr (by simp [midpoints_length]) (by simp [midpoints_length])
  obtain ⟨call', hcall'⟩ := draw (withPower c 6) rfl _ hwt hpos hwf _ hr' (by simp [midpoints_length]) (by simp [midpoints_length])
  obtain ⟨r, vals, levels, h1, rfl, -, hd, -, -⟩ := C79_contour hn ha hwf hwt hpos hcall
  rw [hr] at h1
  cases h1
  obtain ⟨r', vals', levels', h2, rfl, -, hd', -, -⟩ := C79_contour (c := withPower c 6) hn ha hwf hwt hpos hcall'
  rw [hr'] at h2
  cases h2
  rw [show c.name = "step" from hname] at hcall
  rw [show (withPower c 6).name = "step" from hname] at hcall'
  refine ⟨c, hacc, hwt, hp, ⟨_, (make_withPower _ 6).trans (by rw [hmk]; rfl)⟩, _, _, _, vals, vals', levels, levels', hr, hcall, hcall',
    rfl, rfl, ?_, ?_⟩
  · simp only [midpoints_length] at hd
    change HighestDensity (surfaceCells 2 3 _ _) at hd
    refine hd.denser (1 / 1000, cell vals 0 0) ?_ (1 / 10 ^ 16, cell vals 2 0) ?_ (by norm_num)
    · simp [surfaceCells, List.range_succ, cell]
    · simp [surfaceCells, List.range_succ, cell]
  · simp only [midpoints_length, List.map_cons, List.map_nil, thousandth_six, Real.zero_rpow (show (6 : ℝ) ≠ 0 by norm_num)] at hd'
    change HighestDensity (surfaceCells 2 3 _ _) at hd'
    refine hd'.denser (1 / 10 ^ 16, cell vals' 2 0) ?_ (1 / 10 ^ 18, cell vals' 0 0) ?_ (by norm_num)
    · simp [surfaceCells, List.range_succ, cell]
    · simp [surfaceCells, List.range_succ, cell]

/-! ### The hypotheses are met -/

/-- Sorting by comparisons conforms. -/
theorem orderFree_exists : ∃ argsort : List ℝ → List Nat, ArgsortOk argsort ∧ OrderFree argsort := by
  let key : List ℝ → Nat → WithBot ℝ := fun l i => l[i]?
  refine ⟨fun l => (List.range l.length).mergeSort fun i j => decide (key l i ≤ key l j), fun l => ?_, fun f l hf => ?_⟩
  · have hp : ((List.range l.length).mergeSort fun i j => decide (key l i ≤ key l j)).Perm (List.range l.length) :=
      List.mergeSort_perm _ _
    refine ⟨hp, ?_⟩
    have hlt : ∀ i ∈ (List.range l.length).mergeSort fun i j => decide (key l i ≤ key l j), i < l.length :=
      fun i hi => List.mem_range.1 (hp.mem_iff.1 hi)
    rw [gather_eq_map hlt 0]
    refine List.pairwise_map.2 ?_
    have := List.pairwise_mergeSort (le := fun i j => decide (key l i ≤ key l j))
      (fun a b c h1 h2 => by
        simp only [decide_eq_true_eq] at *
        exact h1.trans h2)
      (fun a b => by
        simp only [Bool.or_eq_true, decide_eq_true_eq]
        exact le_total _ _) (List.range l.length)
    refine this.imp_of_mem fun {a b} ha hb h => ?_
    have h := of_decide_eq_true h
    simp only [key, List.getElem?_eq_getElem (hlt a ha), List.getElem?_eq_getElem (hlt b hb)] at h
    simp only [List.getD_eq_getElem?_getD, List.getElem?_eq_getElem (hlt a ha), List.getElem?_eq_getElem (hlt b hb), Option.getD_some]
    exact WithBot.coe_le_coe.1 h
  · have hle : ∀ u ∈ l, ∀ v ∈ l, f u ≤ f v ↔ u ≤ v := by
      intro u hu v hv
      constructor
      · intro h
        by_contra h'
        exact absurd (hf v hv u hu (not_le.1 h')) (not_lt.2 h)
      · intro h
        rcases h.eq_or_lt with rfl | h
        · exact le_rfl
        · exact (hf u hu v hv h).le
    have hkey : ∀ i j, key (l.map f) i ≤ key (l.map f) j ↔ key l i ≤ key l j := by
      intro i j
      simp only [key, List.getElem?_map]
      cases hi : l[i]? with
      | none => exact ⟨fun _ => bot_le, fun _ => bot_le⟩
      | some u =>
        cases hj : l[j]? with
        | none =>
          constructor <;>
          · intro h
            exact absurd (le_bot_iff.1 h) (WithBot.coe_ne_bot)
        | some v =>
          have := hle u (List.mem_of_getElem? hi) v (List.mem_of_getElem? hj)
          exact WithBot.coe_le_coe.trans (this.trans WithBot.coe_le_coe.symm)
    have : (fun i j => decide (key (l.map f) i ≤ key (l.map f) j)) = fun i j => decide (key l i ≤ key l j) := by
      funext i j
      exact decide_eq_decide.2 (hkey i j)
    simp only [this, List.length_map]

/-- The hypotheses of `C118_contours_partial` are met by the chain of four points with weights 1, whose contours are drawn with the
default power, and by the chain of four corners of a square with KDE. -/
example : ∃ lib : Lib, NearOk lib.near ∧ ArgsortOk lib.argsort ∧ OrderFree lib.argsort ∧
    (∃ (c : Chain ℝ) (r : Hist2d) (call : Call), AcceptedNoShift c ∧ c.cfg .kde = (0 : ℝ) ∧
      (∃ w, c.weights = .ok w ∧ ∀ v ∈ w, 1 ≤ v) ∧ smoothedHistogram2d lib.near (withPower c 1) "x" "y" = .ok r ∧
      plotContour lib {} (withPower c 1) "x" "y" = .ok call) ∧
    ∃ (c : Chain ℝ) (r : Hist2d), c.cfg .kde ≠ (0 : ℝ) ∧ smoothedHistogram2d lib.near (withPower c 1) "x" "y" = .ok r := by
  obtain ⟨near, hn⟩ := nearOk_exists
  obtain ⟨argsort, ha, ho⟩ := orderFree_exists
  refine ⟨⟨near, argsort, []⟩, hn, ha, ho, ?_, ?_⟩
  · obtain ⟨c, hc, hacc, hwc, hp, hk, hsig, hal, hgr, hco, hwf, hwt, hname, hr, hcs⟩ := step_chain ⟨near, argsort, []⟩
    have hpow : withPower c 1 = c := by
      unfold withPower
      rw [← hp]
    obtain ⟨call, hcall⟩ := C88_drawn_partial (lib := ⟨near, argsort, []⟩) (cfg := {}) hn ha hwf hwt (by simp) hr
      (by simp [midpoints_length]) (by simp [midpoints_length]) (by rw [hsig]; simp) (by rw [hsig]; norm_num)
      (by rw [hsig]; simp) (.inr ⟨by rw [hsig]; simp, 1 / 2, by norm_num, by rw [hal]⟩)
      (by rw [hco]; simp) (by rw [hgr]; norm_num) (by rw [hgr]; norm_num)
    exact ⟨c, _, call, hacc, hk, ⟨_, hwt, by simp⟩, by rw [hpow]; exact hr, by rw [hpow]; exact hcall⟩
  · obtain ⟨c, h, hc, hr, -⟩ := C50_violated hn
    have hp : c.power = 1 ∧ c.cfg .kde ≠ (0 : ℝ) := by
      obtain ⟨c1, hc1, -, -, -, hp, -, -, -, hcfg⟩ :=
        plain_chain_cfg true [⟨.kde, (10 : ℝ)⟩] rfl
          (by change (0 : ℝ) ≤ 6827 / 10000 ∧ (6827 / 10000 : ℝ) ≤ 1; constructor <;> norm_num)
          (by change (1 : ℝ) ≤ 10; norm_num) rfl rfl (by intro h; cases h) squareFrame ⟨by simp [squareFrame], by simp [squareFrame]⟩
          (by simp [squareFrame]) (w := [1, 1, 1, 1]) rfl (by simp) "square" 1 le_rfl (one_dvd _)
      have := hc.symm.trans hc1
      cases this
      exact ⟨hp, by rw [hcfg]; change (10 : ℝ) ≠ 0; norm_num⟩
    have hpow : withPower c 1 = c := by
      unfold withPower
      rw [← hp.1]
    exact ⟨c, h, hp.2, by rw [hpow]; exact hr⟩

/-- The hypotheses of `C118_bars_partial` and `C118_curve_partial` are met by the grid chain of two points with weights 1 and 2: with
`power=2` its bars of heights 1/3 and 2/3 become 1/9 and 4/9. -/
example (lib : Lib) : ∃ c : Chain ℝ, c.cfg .kde = (0 : ℝ) ∧ c.smoothValue = 0 ∧
    barData lib (withPower c 1) "a" = .ok ([0, 1], [1 / 3, 2 / 3]) ∧ barData lib (withPower c 2) "a" = .ok ([0, 1], [1 / 9, 4 / 9]) ∧
    distCurve lib (withPower c 1) "a" = .ok ([0, 1], [1 / 3, 2 / 3]) ∧
    distCurve lib (withPower c 2) "a" = .ok ([0, 1], [1 / 9, 4 / 9]) := by
  obtain ⟨c, -, h⟩ := twoPoint_exists false (u := 1) (v := 2) one_pos two_pos
  have hpow : withPower c 1 = c := by
    unfold withPower
    rw [← h.power]
  have hn : ([1 / (1 + 2), 2 / (1 + 2)] : List ℝ) = [1 / 3, 2 / 3] := by norm_num
  have hsq : ([1 / 3, 2 / 3] : List ℝ).map (· ^ (2 : ℝ)) = [1 / 9, 4 / 9] := by
    simp only [List.map_cons, List.map_nil, Real.rpow_two]
    norm_num
  have hb : barData lib (withPower c 1) "a" = .ok ([0, 1], [1 / 3, 2 / 3]) := by
    rw [hpow, ← hn]
    simp only [barData, h.smooth, h.kde, ne_eq, not_true_eq_false, or_self, if_false, h.data, h.weights, marginalBins, h.grid, if_true,
      two_bins, two_density one_pos two_pos, h.power, two_pow, two_mid, bind, Except.bind, pure, Except.pure]
  have hd : distCurve lib (withPower c 1) "a" = .ok ([0, 1], [1 / 3, 2 / 3]) := by
    rw [hpow, ← hn]
    simp only [distCurve, distPlain, h.smooth, h.kde, ne_eq, not_true_eq_false, if_false, h.data, h.weights, marginalBins, h.grid, if_true,
      two_bins, two_density one_pos two_pos, h.power, two_pow, two_mid, bind, Except.bind, pure, Except.pure]
  refine ⟨c, h.kde, h.smooth, hb, ?_, hd, ?_⟩
  · rw [← hsq]
    exact (C118_bars_partial lib c h.kde h.smooth hb (by norm_num)).1
  · rw [← hsq]
    exact C118_curve_partial lib c (.inr h.smooth) hd (by norm_num)

end CC
