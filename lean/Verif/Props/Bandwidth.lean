import Verif.Model.Histogram2d
import Verif.Props.MegKde

/-! # C50: the `kde` setting and the bandwidth -/

set_option linter.unusedSectionVars false

namespace CC
open Matrix Spec

theorem bandwidth_mul (n p : ℕ) (f : ℝ) : bandwidth n p f = f * bandwidth n p 1 := by
  unfold bandwidth
  ring

/-- Two columns as points. -/
def twoPoints {n : ℕ} (x y : List ℝ) (hx : x.length = n) (hy : y.length = n) : Fin n → Fin 2 → ℝ :=
  fun i => ![entries x hx i, entries y hy i]

/-- **C50** in one dimension. With `kde = f` the marginal interpolates kernel sums with truncation 3 whose
bandwidth is `f` times the bandwidth for `kde = 1`, divided by their integral. Missing: two dimensions and
`plot_dist`, where it fails (`C50_violated`, `C50_plot_dist_violated`). -/
theorem C50_bandwidth_partial {near : NearFn} (hn : NearOk near) (c : Chain ℝ) (col : String) (pad : Bool)
    (m : Marginal ℝ) (hf : c.cfg .kde ≠ (0 : ℝ)) (hm : smoothedHistogram (megKde near) c col pad none = .ok m) :
    bandwidth = (fun n p f => f * bandwidth n p 1) ∧
    ∃ (data w : List ℝ) (hl : w.length = data.length) (ts ks : List ℝ) (area : ℝ),
      c.samples.get col = .ok data ∧ c.weights = .ok w ∧ area ≠ 0 ∧
      List.Forall₂ (fun t v => IsKdeValue (onePoints data rfl) (entries w hl) 3 4 (c.cfg .kde) (fun _ => t) v) ts ks ∧
      m.xs.mapM (interp1d ts (ks.map (· / area))) = .ok m.ys := by
  refine ⟨by funext n p f; exact bandwidth_mul n p f, ?_⟩
  simp only [smoothedHistogram, bind_ok_iff, pure_ok_iff] at hm
  obtain ⟨data, hdata, w, hw, bins, hbins, h0, hh0, h1, hh1, ab, hab, _, h2, ys, hys, cs, hcs, rfl⟩ := hm
  obtain ⟨sm, hsm, hys⟩ := (bind_ok_iff ..).1 hys
  simp only [Option.getD_none, hf, ne_eq, not_false_eq_true, decide_true, if_true] at hys
  simp only [kdeDensity, bind_ok_iff, ensure_ok_iff] at hys
  obtain ⟨n, hn', ks, hks, _, harea, hmap⟩ := hys
  obtain ⟨hl, hF⟩ := megKde_ok hks
  exact ⟨data, w, hl, _, ks, _, hdata, hw, of_decide_eq_true harea,
    hF.imp fun t v h => (kdeAt_spec hn h).2.2.2, hmap⟩

theorem megKde2d_ok {near : NearFn} {x y w xs ys : List ℝ} {t : ℝ} {h : List (List ℝ)}
    (hok : megKde2d near x y w t xs ys = .ok h) : ∃ (hy : y.length = x.length) (hw : w.length = x.length),
      List.Forall₂ (fun a r => List.Forall₂ (fun b v =>
        kdeAt near (twoPoints x y rfl hy) (entries w hw) t 4 1 ![a, b] = .ok v) ys r) xs h := by
  unfold megKde2d at hok
  split_ifs at hok with hl
  refine ⟨hl.1, hl.2, ?_⟩
  obtain ⟨k, hk, hok⟩ := (bind_ok_iff ..).1 hok
  refine (mapM_ok_iff.1 hok).imp fun a r hr => (mapM_ok_iff.1 hr).imp fun b v hv => ?_
  unfold kdeAt
  have : Kde.make (twoPoints x y rfl hl.1) (entries w hl.2) t 4 1 = .ok k := hk
  rw [this]
  exact hv

theorem megKde2d_exists (near : NearFn) {x y w : List ℝ} (hy : y.length = x.length) (hw : w.length = x.length)
    (ht : Trainable (twoPoints x y rfl hy) (entries w hw)) (h4 : 4 ≤ x.length) (t : ℝ) (xs ys : List ℝ) :
    ∃ h, megKde2d near x y w t xs ys = .ok h := by
  obtain ⟨k, hk⟩ := (Kde.make_exists_iff (tr := t) (m := 4)).2 ⟨one_ne_zero, ht⟩
  unfold megKde2d
  rw [dif_pos ⟨hy, hw⟩]
  have hk' : Kde.make (fun i : Fin x.length => ![x[i], y[i.val]'(by omega)]) (fun i => w[i.val]'(by omega)) t 4 1 =
      .ok k := hk
  rw [hk']
  refine mapM_ok_of_forall fun a _ => mapM_ok_of_forall fun b _ => ?_
  have := kdeAt_exists near (tr := t) (m := 4) one_ne_zero ht h4 ![a, b]
  unfold kdeAt at this
  rwa [hk] at this

/-- What the two-dimensional histogram contains with `kde = f`: kernel sums with the bandwidth of `kde = 1`,
truncated at `f` bandwidths. -/
theorem C50_two_dimensions {near : NearFn} (hn : NearOk near) (c : Chain ℝ) (px py : String) (h : Hist2d)
    (hf : c.cfg .kde ≠ (0 : ℝ)) (hok : smoothedHistogram2d near c px py = .ok h) :
    ∃ (x y w : List ℝ) (hy : y.length = x.length) (hw : w.length = x.length) (vals : List (List ℝ)),
      c.samples.get px = .ok x ∧ c.samples.get py = .ok y ∧ c.weights = .ok w ∧
      List.Forall₂ (fun a r => List.Forall₂ (fun b v =>
        IsKdeValue (twoPoints x y rfl hy) (entries w hw) (c.cfg .kde) 4 1 ![a, b] v) h.ys r) h.xs vals ∧
      h.hist = vals.map (List.map (· ^ c.power)) := by
  simp only [smoothedHistogram2d, bind_ok_iff] at hok
  obtain ⟨x, hx, y, hy, w, hw, ⟨bx, by'⟩, hb, h0, hh0, h1, hh1, hok⟩ := hok
  rw [if_pos hf] at hok
  simp only [kde2d, bind_ok_iff, pure_ok_iff] at hok
  obtain ⟨x0, -, x1, -, y0, -, y1, -, vals, hv, vals', hv', rfl⟩ := hok
  obtain ⟨ly, lw, hF⟩ := megKde2d_ok hv
  refine ⟨x, y, w, ly, lw, vals, hx, hy, hw, hF.imp fun a r hr => hr.imp fun b v hv => (kdeAt_spec hn hv).2.2.2, ?_⟩
  unfold powRows at hv'
  have := mapM_ok_iff.1 hv'
  clear hv' hF hv
  induction this with
  | nil => rfl
  | cons h1 _ ih =>
    simp only [powAll, bind_ok_iff, pure_ok_iff] at h1
    obtain ⟨_, _, rfl⟩ := h1
    exact congrArg (_ :: ·) ih

/-- What `plot_dist` evaluates with `kde = f`. -/
theorem C50_plot_dist {near : NearFn} (hn : NearOk near) {data w ts ks : List ℝ} {f : ℝ}
    (h : distKde near data w f ts = .ok ks) : ∃ hl : w.length = data.length,
      List.Forall₂ (fun t v => IsKdeValue (onePoints data rfl) (entries w hl) f 4 1 (fun _ => t) v) ts ks := by
  unfold distKde at h
  split_ifs at h with hl
  refine ⟨hl, ?_⟩
  obtain ⟨k, hk, hok⟩ := (bind_ok_iff ..).1 h
  unfold Kde.evaluate at hok
  rw [List.mapM_map] at hok
  refine (mapM_ok_iff.1 hok).imp fun t v hv => ?_
  have hv' : kdeAt near (onePoints data rfl) (entries w hl) f 4 1 (fun _ => t) = .ok v := by
    unfold kdeAt
    have : Kde.make (onePoints data rfl) (entries w hl) f 4 1 = .ok k := hk
    rw [this]
    exact hv
  exact (kdeAt_spec hn hv').2.2.2

/-- Truncation instead of bandwidth gives too small a value: for `f > 1`, positive weights and at least
`m` samples within `f` bandwidths of the target, not all at the target, the kernel sum truncated at `f`
bandwidths is smaller than every kernel sum with `f` times the bandwidth. -/
theorem truncation_lt {n p m : ℕ} {x : Fin n → Fin p → ℝ} {w : Fin n → ℝ} {f v v' : ℝ} {t : Fin p → ℝ} (hf : 1 < f)
    (hw : ∀ i, 0 < w i) (ht : Trainable x w) (hm : m ≤ (inRadius x w f 1 t).card)
    (hne : ∃ i ∈ inRadius x w f 1 t, x i ≠ t) (h : IsKdeValue x w f m 1 t v) (h' : IsKdeValue x w 3 m f t v') :
    v < v' := by
  have hb : 0 < bandwidth n p 1 := by
    obtain ⟨i, -⟩ := hne
    have hn : 0 < (n : ℝ) := by exact_mod_cast i.pos
    unfold bandwidth
    have := Real.rpow_pos_of_pos hn (-1 / (4 + (p : ℝ)))
    positivity
  have hpd := ht.posDef.inv
  have hge : ∀ u v, 0 ≤ mahaSq (ellCov x w) u v := fun u v => by
    have := (Matrix.posSemidef_iff_dotProduct_mulVec.1 hpd.posSemidef).2 (u - v)
    simpa [mahaSq] using this
  have hgt : ∀ u v, u ≠ v → 0 < mahaSq (ellCov x w) u v := fun u v huv => by
    have := (Matrix.posDef_iff_dotProduct_mulVec.1 hpd).2 (sub_ne_zero.2 huv)
    simpa [mahaSq] using this
  have hsub : inRadius x w f 1 t ⊆ inRadius x w 3 f t := by
    intro i hi
    obtain ⟨-, h1, h2⟩ := Finset.mem_filter.1 hi
    refine Finset.mem_filter.2 ⟨Finset.mem_univ _, ?_, h2.trans ?_⟩
    · rw [bandwidth_mul]
      positivity
    · rw [bandwidth_mul n p f]
      exact pow_le_pow_left₀ h1 (by nlinarith [mul_pos hb (lt_trans one_pos hf)]) 2
  obtain ⟨s, hs, rfl⟩ := h
  obtain ⟨s', hs', rfl⟩ := h'
  have es : s = inRadius x w f 1 t := by
    rcases hs with ⟨_, e⟩ | ⟨h1, _⟩
    · exact e
    · omega
  have es' : s' = inRadius x w 3 f t := by
    rcases hs' with ⟨_, e⟩ | ⟨h1, _⟩
    · exact e
    · exact absurd (hm.trans (Finset.card_le_card hsub)) (by omega)
  subst es es'
  have hterm : ∀ d : ℝ, 0 ≤ d → Real.exp (-(d / (2 * bandwidth n p 1 ^ 2))) ≤
      Real.exp (-(d / (2 * bandwidth n p f ^ 2))) := by
    intro d hd
    rw [Real.exp_le_exp, neg_le_neg_iff, bandwidth_mul n p f]
    refine div_le_div_of_nonneg_left hd (by positivity) ?_
    have : bandwidth n p 1 ^ 2 ≤ (f * bandwidth n p 1) ^ 2 := pow_le_pow_left₀ hb.le (by nlinarith) 2
    linarith
  have hterm' : ∀ d : ℝ, 0 < d → Real.exp (-(d / (2 * bandwidth n p 1 ^ 2))) <
      Real.exp (-(d / (2 * bandwidth n p f ^ 2))) := by
    intro d hd
    rw [Real.exp_lt_exp, neg_lt_neg_iff, bandwidth_mul n p f]
    refine div_lt_div_of_pos_left hd (by positivity) ?_
    have : bandwidth n p 1 ^ 2 < (f * bandwidth n p 1) ^ 2 := pow_lt_pow_left₀ (by nlinarith) hb.le two_ne_zero
    linarith
  unfold gaussSum
  refine lt_of_lt_of_le (Finset.sum_lt_sum (fun i _ => mul_le_mul_of_nonneg_left (hterm _ (hge _ _)) (hw i).le) ?_)
    (Finset.sum_le_sum_of_subset_of_nonneg hsub fun i _ _ => mul_nonneg (hw i).le (Real.exp_pos _).le)
  obtain ⟨i, hi, hne⟩ := hne
  exact ⟨i, hi, mul_lt_mul_of_pos_left (hterm' _ (hgt _ _ hne)) (hw i)⟩

theorem forall₂_imp_mem {α β : Type} {R S : α → β → Prop} {l : List α} {l' : List β} (h : List.Forall₂ R l l')
    (hS : ∀ a ∈ l, ∀ b, R a b → S a b) : List.Forall₂ S l l' := by
  induction h with
  | nil => exact .nil
  | cons h1 _ ih =>
    exact .cons (hS _ (by simp) _ h1) (ih fun a ha => hS a (by simp [ha]))

theorem four_bandwidth (p : ℕ) : 1 ≤ bandwidth 4 p 1 := by
  unfold bandwidth
  have h : ((4 : ℝ)) ^ (-1 / 2 : ℝ) ≤ (4 : ℝ) ^ (-1 / (4 + (p : ℝ))) := by
    refine Real.rpow_le_rpow_of_exponent_le (by norm_num) ?_
    rw [div_le_div_iff₀ (by norm_num) (by positivity)]
    have : (0 : ℝ) ≤ p := Nat.cast_nonneg p
    linarith
  have h2 : (4 : ℝ) ^ (-1 / 2 : ℝ) = 1 / 2 := by
    rw [show (4 : ℝ) = 2 ^ (2 : ℝ) by norm_num, ← Real.rpow_mul (by norm_num)]
    norm_num [Real.rpow_neg_one]
  push_cast
  linarith

/-- The corners of a square. -/
def squareFrame : Frame ℝ :=
  ⟨[.int 0, .int 1, .int 2, .int 3], [("x", [0, 0, 1, 1]), ("y", [0, 1, 0, 1]), ("weight", [1, 1, 1, 1])]⟩

/-- A grid chain of them with `kde=10`. -/
noncomputable def squareArgs : Args ℝ where
  samples := squareFrame.toRaw
  name := "square"
  grid := true
  config := [⟨.kde, (10 : ℝ)⟩]

theorem square_trainable :
    Trainable (twoPoints (n := 4) [0, 0, 1, 1] [0, 1, 0, 1] rfl rfl) (entries (n := 4) [1, 1, 1, 1] rfl) := by
  refine (trainable_iff ?_).2 ⟨by norm_num, ?_⟩
  · intro i
    fin_cases i <;> simp [entries]
  · intro v hv
    have h1 := hv 0 1
    have h2 := hv 0 2
    simp [twoPoints, entries, dotProduct, Fin.sum_univ_two] at h1 h2
    funext j
    fin_cases j
    · simpa using h2.symm
    · simpa using h1.symm

theorem square_maha (u t : Fin 2 → ℝ) :
    mahaSq (ellCov (twoPoints (n := 4) [0, 0, 1, 1] [0, 1, 0, 1] rfl rfl) (entries (n := 4) [1, 1, 1, 1] rfl)) u t =
      3 * ((u 0 - t 0) ^ 2 + (u 1 - t 1) ^ 2) := by
  have hC : ellCov (twoPoints (n := 4) [0, 0, 1, 1] [0, 1, 0, 1] rfl rfl) (entries (n := 4) [1, 1, 1, 1] rfl) =
      Matrix.diagonal fun _ => (1 / 3 : ℝ) := by
    ext j k
    fin_cases j <;> fin_cases k <;>
      norm_num [ellCov, ellMean, twoPoints, entries, Fin.sum_univ_four, Matrix.diagonal]
  have hI : (ellCov (twoPoints (n := 4) [0, 0, 1, 1] [0, 1, 0, 1] rfl rfl) (entries (n := 4) [1, 1, 1, 1] rfl))⁻¹ =
      Matrix.diagonal fun _ => (3 : ℝ) := by
    rw [hC]
    refine Matrix.inv_eq_right_inv ?_
    rw [Matrix.diagonal_mul_diagonal]
    ext j k
    fin_cases j <;> fin_cases k <;> norm_num [Matrix.diagonal, Matrix.one_apply]
  unfold mahaSq
  rw [hI]
  simp [dotProduct, Fin.sum_univ_two, Matrix.mulVec_diagonal]
  ring

/-- The code does not satisfy C50 in two dimensions: a grid chain with `kde=10` is accepted and its histogram
exists, but no value of it is a kernel sum with ten times the bandwidth; all are too small. -/
theorem C50_violated {near : NearFn} (hn : NearOk near) : ∃ c h, Chain.make squareArgs = .ok c ∧
    smoothedHistogram2d near c "x" "y" = .ok h ∧ h.xs ≠ [] ∧ h.ys ≠ [] ∧
    List.Forall₂ (fun a r => List.Forall₂ (fun b v =>
      ∀ v', IsKdeValue (twoPoints (n := 4) [0, 0, 1, 1] [0, 1, 0, 1] rfl rfl) (entries (n := 4) [1, 1, 1, 1] rfl)
        3 4 10 ![a, b] v' → v < v') h.ys r) h.xs h.hist := by
  have hf : squareFrame.WF := by
    refine ⟨by simp [squareFrame], by simp [squareFrame]⟩
  obtain ⟨c, hc, hcs, hw, -, hp, hg, -, hnm, hcfg⟩ :=
    plain_chain_cfg true [⟨.kde, (10 : ℝ)⟩] rfl
      (by change (0 : ℝ) ≤ 6827 / 10000 ∧ (6827 / 10000 : ℝ) ≤ 1; constructor <;> norm_num)
      (by change (1 : ℝ) ≤ 10; norm_num) rfl rfl (by intro h; cases h) squareFrame hf
      (by simp [squareFrame]) (w := [1, 1, 1, 1]) rfl (by simp) "square" 1 le_rfl (one_dvd _)
  have hk : c.cfg .kde = (10 : ℝ) := by rw [hcfg]; rfl
  have hwt : c.weights = .ok [1, 1, 1, 1] := by unfold Chain.weights; rw [hcs, hw]; rfl
  have hx : c.samples.get "x" = .ok [0, 0, 1, 1] := by rw [hcs]; rfl
  have hy : c.samples.get "y" = .ok [0, 1, 0, 1] := by rw [hcs]; rfl
  have hgb : ∀ l : List ℝ, (∀ x, x ∈ l ↔ x = 0 ∨ x = 1) → getGridBins l = .ok [-1 / 2, 1 / 2, 3 / 2] := by
    intro l hl
    have : sortUnique l = [0, 1] :=
      increasing_unique (sortUnique_increasing _) (by simp) fun x => by rw [mem_sortUnique, hl]; simp
    simp only [getGridBins, this]
    norm_num [pure, Except.pure, bind, Except.bind]
  have hbins : bins2d c [0, 0, 1, 1] [0, 1, 0, 1] [1, 1, 1, 1] =
      .ok ([-1 / 2, 1 / 2, 3 / 2], [-1 / 2, 1 / 2, 3 / 2]) := by
    unfold bins2d
    rw [if_pos hg, hgb _ (by simp), hgb _ (by intro x; simp; tauto)]
    rfl
  have hpow : ∀ h : List (List ℝ), ∃ h', powRows h c.power = .ok h' := fun h =>
    mapM_ok_of_forall fun r _ => ⟨r.map (· ^ c.power), by
      unfold powAll
      rw [hp]
      norm_num [ensure, bind, Except.bind, pure, Except.pure]⟩
  obtain ⟨h0, hh0⟩ : ∃ h0, histogram2d (K := ℝ) [-1 / 2, 1 / 2, 3 / 2] [-1 / 2, 1 / 2, 3 / 2]
      [0, 0, 1, 1] [0, 1, 0, 1] [1, 1, 1, 1] = .ok h0 := by
    unfold histogram2d
    norm_num [ensure, bind, Except.bind, pure, Except.pure]
  obtain ⟨h1, hh1⟩ := hpow h0
  obtain ⟨h2, hh2⟩ := megKde2d_exists near (x := [0, 0, 1, 1]) (y := [0, 1, 0, 1]) (w := [1, 1, 1, 1]) rfl rfl
    square_trainable (by simp) 10 (linspace (-1 / 2) (3 / 2) 4) (linspace (-1 / 2) (3 / 2) 4)
  obtain ⟨h3, hh3⟩ := hpow h2
  have hmin : arrMin ([-1 / 2, 1 / 2, 3 / 2] : List ℝ) = .ok (-1 / 2) := by norm_num [arrMin]
  have hmax : arrMax ([-1 / 2, 1 / 2, 3 / 2] : List ℝ) = .ok (3 / 2) := by norm_num [arrMax, npMax]
  have hok : smoothedHistogram2d near c "x" "y" =
      .ok ⟨h3, linspace (-1 / 2) (3 / 2) 4, linspace (-1 / 2) (3 / 2) 4⟩ := by
    unfold smoothedHistogram2d
    simp only [hx, hy, hwt, hbins, hh0, hh1, bind, Except.bind]
    rw [if_pos (by rw [hk]; norm_num)]
    simp only [kde2d, hmin, hmax, hk, bind, Except.bind]
    have hl : (midpoints ([-1 / 2, 1 / 2, 3 / 2] : List ℝ)).length * 2 = 4 := rfl
    rw [hl, hh2]
    simp only [hh3]
    rfl
  refine ⟨c, _, hc, hok, by simp [linspace], by simp [linspace], ?_⟩
  obtain ⟨x, y, w, ly, lw, vals, ex, ey, ew, hF, hH⟩ := C50_two_dimensions hn c "x" "y" _ (by rw [hk]; norm_num) hok
  rw [hx] at ex
  rw [hy] at ey
  rw [hwt] at ew
  cases ex
  cases ey
  cases ew
  have hH' : h3 = vals := by
    rw [hp] at hH
    simpa using hH
  have hr : ∀ a ∈ linspace (-1 / 2 : ℝ) (3 / 2) 4, -1 / 2 ≤ a ∧ a ≤ 3 / 2 := by
    intro a ha
    simp only [linspace, List.mem_map, List.mem_range] at ha
    obtain ⟨i, hi, rfl⟩ := ha
    interval_cases i <;> norm_num
  rw [hk, ← hH'] at hF
  have hr' : ∀ i a, -1 / 2 ≤ a → a ≤ 3 / 2 → (entries (n := 4) [0, 0, 1, 1] rfl i - a) ^ 2 ≤ (9 : ℝ) / 4 ∧
      (entries (n := 4) [0, 1, 0, 1] rfl i - a) ^ 2 ≤ (9 : ℝ) / 4 := by
    intro i a h1 h2
    constructor <;> fin_cases i <;> simp [entries] <;> nlinarith
  refine forall₂_imp_mem hF fun a ha r hr1 => forall₂_imp_mem hr1 fun b hb v hv v' hv' => ?_
  have hall : inRadius (twoPoints (n := 4) [0, 0, 1, 1] [0, 1, 0, 1] rfl rfl) (entries (n := 4) [1, 1, 1, 1] rfl) 10 1
      ![a, b] = Finset.univ := by
    refine Finset.filter_true_of_mem fun i _ => ⟨?_, ?_⟩
    · linarith [four_bandwidth 2]
    · rw [square_maha]
      have h1 := (hr' i a (hr a ha).1 (hr a ha).2).1
      have h2 := (hr' i b (hr b hb).1 (hr b hb).2).2
      have h3 := four_bandwidth 2
      have h4 : (10 : ℝ) ^ 2 ≤ (bandwidth 4 2 1 * 10) ^ 2 := pow_le_pow_left₀ (by norm_num) (by linarith) 2
      simp only [twoPoints, Matrix.cons_val_zero, Matrix.cons_val_one] at *
      linarith
  refine truncation_lt (m := 4) (by norm_num) (fun i => by fin_cases i <;> simp [entries]) square_trainable
    (by rw [hall]; simp) ?_ hv hv'
  rw [hall]
  by_cases ha0 : a = 0
  · refine ⟨2, Finset.mem_univ _, fun h => ?_⟩
    have := congrFun h 0
    simp [twoPoints, entries, ha0] at this
  · refine ⟨0, Finset.mem_univ _, fun h => ?_⟩
    have := congrFun h 0
    simp [twoPoints, entries] at this
    exact ha0 this.symm

theorem pair_maha (u t : Fin 1 → ℝ) :
    mahaSq (ellCov (onePoints (n := 4) [0, 0, 1, 1] rfl) (entries (n := 4) [1, 1, 1, 1] rfl)) u t =
      3 * (u 0 - t 0) ^ 2 := by
  have hI : (ellCov (onePoints (n := 4) [0, 0, 1, 1] rfl) (entries (n := 4) [1, 1, 1, 1] rfl))⁻¹ =
      Matrix.diagonal fun _ => (3 : ℝ) := by
    refine Matrix.inv_eq_right_inv ?_
    ext j k
    fin_cases j
    fin_cases k
    norm_num [ellCov, ellMean, onePoints, entries, Fin.sum_univ_four, Matrix.mul_apply]
  unfold mahaSq
  rw [hI]
  simp [dotProduct, Matrix.mulVec_diagonal]
  ring

/-- Nor does the curve of `plot_dist`: with samples 0, 0, 1, 1 and `kde=10` its value at every point between
-1 and 2 is too small. -/
theorem C50_plot_dist_violated {near : NearFn} (hn : NearOk near) (t : ℝ) (ht : -1 ≤ t ∧ t ≤ 2) :
    ∃ v, distKde near [0, 0, 1, 1] [1, 1, 1, 1] 10 [t] = .ok [v] ∧
      ∀ v', IsKdeValue (onePoints (n := 4) [0, 0, 1, 1] rfl) (entries (n := 4) [1, 1, 1, 1] rfl) 3 4 10
        (fun _ => t) v' → v < v' := by
  have htr : Trainable (onePoints (n := 4) [0, 0, 1, 1] rfl) (entries (n := 4) [1, 1, 1, 1] rfl) := by
    refine (trainable_iff fun i => by fin_cases i <;> simp [entries]).2 ⟨by norm_num, fun v hv => ?_⟩
    have h1 := hv 0 2
    simp [onePoints, entries, dotProduct] at h1
    funext j
    fin_cases j
    simpa using h1.symm
  obtain ⟨k, hk⟩ := (Kde.make_exists_iff (tr := (10 : ℝ)) (m := 4)).2 ⟨one_ne_zero, htr⟩
  obtain ⟨v, hv⟩ := kdeAt_exists near (tr := (10 : ℝ)) (m := 4) one_ne_zero htr le_rfl (fun _ => t)
  have hv' := hv
  unfold kdeAt at hv'
  rw [hk] at hv'
  have hok : distKde near [0, 0, 1, 1] [1, 1, 1, 1] 10 [t] = .ok [v] := by
    unfold distKde
    rw [dif_pos (show ([1, 1, 1, 1] : List ℝ).length = ([0, 0, 1, 1] : List ℝ).length from rfl)]
    have hk' : Kde.make (n := ([0, 0, 1, 1] : List ℝ).length) (p := 1) (fun i _ => ([0, 0, 1, 1] : List ℝ)[i])
      (fun i => ([1, 1, 1, 1] : List ℝ)[i.val]'(by have := i.2; simp at this ⊢)) 10 4 1 = .ok k := hk
    rw [hk']
    have hv2 : k.at near (fun _ => t) = .ok v := hv'
    simp [Kde.evaluate, bind, Except.bind, hv2, pure, Except.pure]
  refine ⟨v, hok, fun v' hv' => ?_⟩
  have hs := (kdeAt_spec hn hv).2.2.2
  have hall : inRadius (onePoints (n := 4) [0, 0, 1, 1] rfl) (entries (n := 4) [1, 1, 1, 1] rfl) 10 1
      (fun _ => t) = Finset.univ := by
    refine Finset.filter_true_of_mem fun i _ => ⟨?_, ?_⟩
    · linarith [four_bandwidth 1]
    · rw [pair_maha]
      have h3 := four_bandwidth 1
      have h4 : (10 : ℝ) ^ 2 ≤ (bandwidth 4 1 1 * 10) ^ 2 := pow_le_pow_left₀ (by norm_num) (by linarith) 2
      have h1 : (onePoints (n := 4) [0, 0, 1, 1] rfl i 0 - t) ^ 2 ≤ 4 := by
        fin_cases i <;> simp [onePoints, entries] <;> nlinarith
      linarith
  refine truncation_lt (m := 4) (by norm_num) (fun i => by fin_cases i <;> simp [entries]) htr
    (by rw [hall]; simp) ?_ hs hv'
  rw [hall]
  by_cases ha0 : t = 0
  · refine ⟨2, Finset.mem_univ _, fun h => ?_⟩
    have := congrFun h 0
    simp [onePoints, entries, ha0] at this
  · refine ⟨0, Finset.mem_univ _, fun h => ?_⟩
    have := congrFun h 0
    simp [onePoints, entries] at this
    exact ha0 this.symm

/-- The hypotheses of `C50_bandwidth_partial` are met by the chain of four samples with `kde=1`, those of
`C50_two_dimensions` by the square. -/
example : ∃ near : NearFn, NearOk near ∧
    (∃ c m, Chain.make fourArgs = .ok c ∧ c.cfg .kde ≠ (0 : ℝ) ∧ smoothedHistogram (megKde near) c "x" false none = .ok m) ∧
    ∃ c h, Chain.make squareArgs = .ok c ∧ smoothedHistogram2d near c "x" "y" = .ok h := by
  obtain ⟨near, hn⟩ := nearOk_exists
  obtain ⟨c, m, hc, -, hk, -, -, -, hm, -⟩ := four_chain hn
  obtain ⟨c', h, hc', hh, -⟩ := C50_violated hn
  exact ⟨near, hn, ⟨c, m, hc, by rw [hk]; norm_num, hm⟩, c', h, hc', hh⟩

end CC
