import Verif.Model.Degenerate
import Verif.Props.Extents
import Verif.Props.Request
import Verif.Props.Points
import Verif.Props.Affine
import Verif.Props.MaxSummary
import Verif.Props.EqualTailed
import Verif.Lemmas.Degenerate
import Verif.Lemmas.Demo

/-! # C74: parameters that have no summary, such as those of markers -/

namespace CC
open Spec

/-! ### NaN spreads -/

theorem nan_mul (x : Flt ℝ) : x.mul .nan = .nan := by cases x <;> rfl
theorem nan_add (x : Flt ℝ) : x.add .nan = .nan := by cases x <;> rfl
theorem add_nan (x : Flt ℝ) : Flt.add .nan x = .nan := by cases x <;> rfl
theorem div_nan (x : Flt ℝ) : Flt.div .nan x = .nan := by cases x <;> rfl
theorem mul_nan (x : Flt ℝ) : Flt.mul .nan x = .nan := by cases x <;> rfl
theorem lt_nan (x : Flt ℝ) : x.lt .nan = false := by cases x <;> rfl

theorem fltSum_nan {l : List (Flt ℝ)} (h : .nan ∈ l) : fltSum l = .nan := by
  induction l with
  | nil => cases h
  | cons a l ih =>
    simp only [fltSum, List.foldr_cons] at ih ⊢
    rcases List.mem_cons.1 h with h | h
    · rw [← h, add_nan]
    · rw [ih h, nan_add]

/-- All entries are NaN. -/
def AllNan (l : List (Flt ℝ)) : Prop := ∀ v ∈ l, v = .nan

theorem fltFilter_nan {sigma : Nat} {h : List (Flt ℝ)} (hn : AllNan h) : AllNan (fltFilter sigma h) := by
  intro v hv
  obtain ⟨i, hi, rfl⟩ := List.mem_map.1 hv
  have hlt : i < h.length := List.mem_range.1 hi
  refine fltSum_nan (List.mem_map.2 ⟨4 * sigma, List.mem_range.2 (by omega), ?_⟩)
  have hr : reflectIndex h.length ((i : Int) + (((4 * sigma : Nat) : Int) - (4 * sigma : Nat))) = i := by
    simp only [sub_self, add_zero, reflectIndex]
    have : ((i : Int) % (2 * (h.length : Int))).toNat = i := by
      rw [Int.emod_eq_of_lt (by omega) (by omega)]; omega
    rw [this, if_pos hlt]
  rw [hr, List.getD_eq_getElem?_getD, List.getElem?_eq_getElem hlt, Option.getD_some, hn _ (List.getElem_mem hlt), nan_mul]

theorem fltPolyline_nan (p : List (ℝ × Flt ℝ)) (hne : p ≠ []) (h : ∀ q ∈ p, q.2 = .nan) (x : ℝ) : fltPolyline p x = .nan := by
  induction p with
  | nil => exact absurd rfl hne
  | cons a p ih =>
    cases p with
    | nil => exact h a (by simp)
    | cons b p =>
      simp only [fltPolyline]
      split
      · rw [h a (by simp), add_nan]
      · exact ih (by simp) fun q hq => h q (List.mem_cons_of_mem _ hq)

/-- The maximum statistic raises IndexError on a marginal that is NaN. -/
theorem fltSummaryMax_nan {xs : List ℝ} {ys : List (Flt ℝ)} (hx : xs ≠ []) (hy : ys ≠ []) (hn : AllNan ys) (area : ℝ) :
    fltSummaryMax xs ys area = .error .index := by
  obtain ⟨x, xl, hxe⟩ := List.exists_cons_of_ne_nil hx
  obtain ⟨y, yl, hye⟩ := List.exists_cons_of_ne_nil hy
  have hex : ∃ xe, endpoints xs = .ok xe := by
    subst hxe
    simp only [endpoints, List.head?_cons]
    rw [List.getLast?_eq_some_getLast (by simp)]
    exact ⟨_, rfl⟩
  have hey : endpoints ys = .ok (.nan, .nan) := by
    have hl := hn (ys.getLast hy) (List.getLast_mem hy)
    have h0 := hn y (by rw [hye]; simp)
    simp only [endpoints, List.getLast?_eq_some_getLast hy, hl]
    rw [hye, List.head?_cons, h0]
  obtain ⟨xe, hex⟩ := hex
  have hpad : 2 ≤ padSize := by unfold padSize; norm_num
  obtain ⟨k, hk⟩ : ∃ k, padSize = k + 2 := ⟨padSize - 2, by omega⟩
  have hlin : ∃ r, fltLinspace (.fin 0) .nan padSize = .nan :: r := by
    rw [fltLinspace, hk, show k + 2 - 1 = k + 1 by omega, List.range_succ_eq_map, List.map_cons, List.cons_append]
    exact ⟨_, rfl⟩
  obtain ⟨r, hr⟩ := hlin
  simp only [fltSummaryMax, hex, hey, bind, Except.bind, hr, List.cons_append]
  generalize hY : r ++ ys ++ fltLinspace .nan (.fin 0) padSize = Y
  have hcum : ∃ a l, fltCumsum (.nan :: Y) = a :: l := by
    rw [fltCumsum, List.length_cons, List.range_succ_eq_map, List.map_cons]; exact ⟨_, _, rfl⟩
  obtain ⟨a, l, hal⟩ := hcum
  have hmax : fltArgmax (.nan :: Y) = .ok 0 := by
    simp only [fltArgmax, List.findIdx?_cons, decide_true, if_true]
  have hxs : ∃ v, atIndex (List.replicate padSize xe.1 ++ xs ++ List.replicate padSize xe.2) 0 = .ok v := by
    refine ⟨_, atIndex_ok ?_⟩
    simp only [List.length_append, List.length_replicate]; omega
  obtain ⟨v, hv⟩ := hxs
  simp only [hal, fltArrMax, hmax, hv]
  rfl

/-! ### Ranges without samples -/

/-- The sum of weights that are not selected. -/
theorem binMass_zero {edges data : List ℝ} (w : List ℝ) {i : Nat} (h : ∀ x ∈ data, inBin edges i x = false) :
    binMass edges data w i = 0 := by
  rw [binMass]
  induction data generalizing w with
  | nil => simp
  | cons x xs ih =>
    cases w with
    | nil => simp
    | cons w ws =>
      simp only [List.zipWith_cons_cons, h x (by simp), Bool.false_eq_true, if_false, List.sum_cons, zero_add]
      exact ih ws fun x hx => h x (List.mem_cons_of_mem _ hx)

theorem linspace_step_le {l u : ℝ} (hlu : l ≤ u) {n i j : Nat} (hn : 2 ≤ n) (hij : i ≤ j) :
    l + (i : ℝ) * ((u - l) / ((n : ℝ) - 1)) ≤ l + (j : ℝ) * ((u - l) / ((n : ℝ) - 1)) := by
  have h1 : (2 : ℝ) ≤ n := by exact_mod_cast hn
  have h2 : 0 ≤ (u - l) / ((n : ℝ) - 1) := div_nonneg (by linarith) (by linarith)
  have h3 : (i : ℝ) ≤ j := by exact_mod_cast hij
  have := mul_le_mul_of_nonneg_right h3 h2
  linarith

/-- Without samples between the first and last edge the densities are `0/0`. -/
theorem fltHistDensity_empty {l u : ℝ} (hlu : l ≤ u) {n : Nat} (hn : 2 ≤ n) {data : List ℝ} (w : List ℝ)
    (h : ∀ x ∈ data, x < l ∨ u < x) :
    ∃ d, fltHistDensity (linspace l u n) data w = .ok d ∧ d.length = n - 1 ∧ AllNan d := by
  have hlast : l + ((n - 1 : ℕ) : ℝ) * ((u - l) / ((n : ℝ) - 1)) = u := by
    have h1 : (2 : ℝ) ≤ n := by exact_mod_cast hn
    have : (n : ℝ) - 1 ≠ 0 := by intro h; linarith
    rw [Nat.cast_sub (by omega), Nat.cast_one, mul_div_cancel₀ _ this]
    ring
  have hget : ∀ k, k < n → (linspace l u n).getD k 0 = l + (k : ℝ) * ((u - l) / ((n : ℝ) - 1)) := by
    intro k hk
    rw [List.getD_eq_getElem?_getD, List.getElem?_eq_getElem (by simpa using hk), Option.getD_some, linspace_getElem]
  have hh : ∃ c, histogram (linspace l u n) data w = .ok c ∧ c.length = n - 1 ∧ ∀ v ∈ c, v = 0 := by
    refine ⟨_, histogram_ok_iff.2 ⟨?_, rfl⟩, by simp, ?_⟩
    · rw [List.all_eq_true]
      intro b hb
      obtain ⟨i, hi, rfl⟩ := List.getElem_of_mem hb
      simp only [List.getElem_zipWith, List.getElem_tail, linspace_getElem, id_eq, decide_eq_true_eq]
      exact linspace_step_le hlu hn (by omega)
    · intro v hv
      obtain ⟨i, hi, rfl⟩ := List.mem_map.1 hv
      have hi' : i < n - 1 := by simpa using hi
      refine binMass_zero w fun x hx => ?_
      rw [inBin, hget i (by omega), hget (i + 1) (by omega), Bool.eq_false_iff]
      intro hc
      simp only [Bool.and_eq_true, decide_eq_true_eq, Bool.or_eq_true] at hc
      have h0 : l ≤ l + (i : ℝ) * ((u - l) / ((n : ℝ) - 1)) := by simpa using linspace_step_le hlu hn (Nat.zero_le i)
      have h1 := linspace_step_le hlu hn (show i + 1 ≤ n - 1 by omega)
      rw [hlast] at h1
      have hxu : x ≤ l + ((i + 1 : ℕ) : ℝ) * ((u - l) / ((n : ℝ) - 1)) := by
        rcases hc.2 with h2 | ⟨-, h2⟩
        · exact h2.le
        · exact h2
      rcases h x hx with h2 | h2
      · linarith [hc.1]
      · linarith
  obtain ⟨c, hc, hl, h0⟩ := hh
  have hsum : c.sum = 0 := List.sum_eq_zero h0
  refine ⟨_, by simp only [fltHistDensity, hc, bind, Except.bind]; rfl, by simp [hl], ?_⟩
  intro v hv
  obtain ⟨i, hi, rfl⟩ := List.getElem_of_mem hv
  have hz : ∀ d : ℝ, ((Flt.fin 0).div (.fin d)).div (.fin c.sum) = .nan := by
    intro d
    by_cases hd : d = 0 <;> simp [Flt.div, hd, hsum, Flt.infTimes]
  rw [List.getElem_zipWith, h0 _ (List.getElem_mem _), hz]

/-- The number of edges of the bins of a chain, helpers.py 70-73. -/
def edgeCount (c : Chain ℝ) : Int := if c.smoothValue = 0 then getBins c else 2 * c.smoothValue * getBins c

theorem marginalBins_range {c : Chain ℝ} (hg : c.grid = false) {data w : List ℝ} {pad : Bool} {l u : ℝ}
    (hx : getExtents data w false true false pad = .ok (l, u)) (he : 0 ≤ edgeCount c) :
    marginalBins c data w pad = .ok (linspace l u (edgeCount c).toNat) := by
  unfold edgeCount at he ⊢
  simp only [marginalBins, hg, getSmoothedBins, hx, bind, Except.bind, pure, Except.pure, linspaceInt, Bool.false_eq_true, if_false]
  by_cases h0 : c.smoothValue = 0
  · simp only [h0, if_true] at he ⊢
    rw [if_neg (by omega)]
  · simp only [h0, if_false] at he ⊢
    rw [if_neg (by omega)]

theorem midpoints_linspace_getElem (l u : ℝ) (n i : Nat) (hi : i < (midpoints (linspace l u n)).length) :
    (midpoints (linspace l u n))[i] = l + ((i : ℝ) + 1 / 2) * ((u - l) / ((n : ℝ) - 1)) := by
  simp only [midpoints, List.getElem_zipWith, List.getElem_tail, linspace_getElem]
  push_cast
  ring

theorem fltMarginal_empty {c : Chain ℝ} (hg : c.grid = false) {col : String} {data w : List ℝ}
    (hd : c.samples.get col = .ok data) (hcw : c.weights = .ok w) {pad : Bool} {l u : ℝ}
    (hx : getExtents data w false true false pad = .ok (l, u)) (hlu : l ≤ u) (hne : ∀ x ∈ data, x < l ∨ u < x)
    (hs : 0 ≤ c.smoothValue) (hp : c.power ≠ 0) (he : 2 ≤ edgeCount c) :
    ∃ xs ys, fltMarginal c col pad = .ok (xs, ys) ∧ xs ≠ [] ∧ ys ≠ [] ∧ AllNan ys := by
  have hb := marginalBins_range hg hx (by omega)
  obtain ⟨n, hn⟩ : ∃ n : Nat, (edgeCount c).toNat = n + 2 := ⟨(edgeCount c).toNat - 2, by omega⟩
  rw [hn] at hb
  obtain ⟨d, hd1, hd2, hd3⟩ := fltHistDensity_empty hlu (show 2 ≤ n + 2 by omega) w hne
  have hpow : AllNan (d.map (fltPow c.power)) := by
    intro y hy
    obtain ⟨x, hx, rfl⟩ := List.mem_map.1 hy
    rw [hd3 x hx]
    simp [fltPow, hp]
  have hsm : ∃ h, fltSmooth c.smoothValue (d.map (fltPow c.power)) = .ok h ∧ h.length = n + 1 ∧ AllNan h := by
    unfold fltSmooth
    by_cases h0 : c.smoothValue = 0
    · rw [if_pos h0]; exact ⟨_, rfl, by simpa using hd2, hpow⟩
    · rw [if_neg h0, if_pos (by omega)]
      exact ⟨_, rfl, by simpa [fltFilter] using hd2, fltFilter_nan hpow⟩
  obtain ⟨h, hh1, hh2, hh3⟩ := hsm
  have hml : (midpoints (linspace l u (n + 2))).length = n + 1 := by rw [midpoints_length, linspace_length]; omega
  obtain ⟨a, ha⟩ : ∃ a, (midpoints (linspace l u (n + 2))).head? = some a := by
    rw [List.head?_eq_getElem?, List.getElem?_eq_getElem (by omega)]; exact ⟨_, rfl⟩
  obtain ⟨b, hbl⟩ : ∃ b, (midpoints (linspace l u (n + 2))).getLast? = some b := by
    rw [List.getLast?_eq_getElem?, List.getElem?_eq_getElem (by omega)]; exact ⟨_, rfl⟩
  have hab : a ≤ b := by
    rw [List.head?_eq_getElem?, List.getElem?_eq_getElem (by omega), Option.some.injEq, midpoints_linspace_getElem] at ha
    rw [List.getLast?_eq_getElem?, List.getElem?_eq_getElem (by omega), Option.some.injEq, midpoints_linspace_getElem] at hbl
    have := linspace_step_le hlu (show 2 ≤ n + 2 by omega) (Nat.zero_le ((midpoints (linspace l u (n + 2))).length - 1))
    rw [← ha, ← hbl]
    linarith
  have hend : endpoints (midpoints (linspace l u (n + 2))) = .ok (a, b) := by simp only [endpoints, ha, hbl]
  have hgs : 2 ≤ gridSize := by unfold gridSize; norm_num
  have hys : (linspace a b gridSize).mapM (fltInterp1d (midpoints (linspace l u (n + 2))) h) =
      .ok (List.replicate gridSize .nan) := by
    rw [mapM_ok_iff, List.forall₂_iff_get]
    refine ⟨by simp, fun i h1 h2 => ?_⟩
    have hm := linspace_mem hab hgs (List.get_mem (linspace a b gridSize) ⟨i, h1⟩)
    generalize (linspace a b gridSize).get ⟨i, h1⟩ = x at hm
    simp only [List.get_eq_getElem, List.getElem_replicate]
    simp only [fltInterp1d, ha, hbl, not_lt.2 hm.1, not_lt.2 hm.2, if_false]
    rw [fltPolyline_nan]
    · intro hz
      have := congrArg List.length hz
      simp [hh2, hml] at this
    · intro q hq
      exact hh3 _ (List.of_mem_zip hq).2
  refine ⟨linspace a b gridSize, List.replicate gridSize .nan, ?_, ?_, ?_, ?_⟩
  · simp only [fltMarginal, hd, hcw, hb, hd1, hh1, hend, bind, Except.bind, hys]
    rfl
  · intro hc; have := congrArg List.length hc; simp at this; omega
  · intro hc; have := congrArg List.length hc; simp at this; omega
  · intro y hy; exact List.eq_of_mem_replicate hy

/-- The maximum statistic of a parameter whose range holds none of its values. -/
theorem fltParameterSummaryMax_empty {c : Chain ℝ} (hg : c.grid = false) {col : String} {data w : List ℝ}
    (hd : c.samples.get col = .ok data) (hcw : c.weights = .ok w) {l u : ℝ}
    (hx : getExtents data w false true false false = .ok (l, u)) (hlu : l ≤ u) (hne : ∀ x ∈ data, x < l ∨ u < x)
    (hs : 0 ≤ c.smoothValue) (hp : c.power ≠ 0) (he : 2 ≤ edgeCount c) : fltParameterSummaryMax c col = .error .index := by
  obtain ⟨xs, ys, h1, h2, h3, h4⟩ := fltMarginal_empty hg hd hcw hx hlu hne hs hp he
  simp only [fltParameterSummaryMax, h1, bind, Except.bind]
  exact fltSummaryMax_nan h2 h3 h4 _

theorem midpoints_linspace_getD (l u : ℝ) (n i : Nat) (hi : i + 1 < n) :
    (midpoints (linspace l u n)).getD i 0 = l + ((i : ℝ) + 1 / 2) * ((u - l) / ((n : ℝ) - 1)) := by
  have h1 : i < (midpoints (linspace l u n)).length := by rw [midpoints_length, linspace_length]; omega
  rw [List.getD_eq_getElem?_getD, List.getElem?_eq_getElem h1, Option.getD_some, midpoints_linspace_getElem]

/-- **C74, partial.** A parameter whose range is more than a point and holds a sample has a summary with the statistic `max`, in
the exact model and in the one with NaN alike. Missing: parameters whose range is a point (`C74_violated`, `C74_violated_two`). -/
theorem C74_exists_partial (kde : KdeFn) (hkde : KdeOk kde) {c : Chain ℝ} (hg : c.grid = false) (hk : c.cfg .kde = (0 : ℝ))
    (hst : c.cfg .statistics = some Stat.max) {col : String} {data w : List ℝ} (hd : c.samples.get col = .ok data)
    (hcw : c.weights = .ok w) (hl : w.length = data.length) (hw : ∀ x ∈ w, 0 < x) {l u : ℝ}
    (hx : getExtents data w false true false false = .ok (l, u)) (hlu : l < u) {x : ℝ} (hxd : x ∈ data) (hlx : l ≤ x) (hxu : x ≤ u)
    (hs : 0 ≤ c.smoothValue) (hp : 0 ≤ c.power) (h3 : 3 ≤ edgeCount c) (hmax : edgeCount c ≤ gridSize) :
    ∃ b x0, parameterSummary kde c col = .ok b ∧ fltParameterSummaryMax c col = .ok b ∧ b.center = some x0 := by
  obtain ⟨n, hn⟩ : ∃ n : Nat, edgeCount c = n := ⟨(edgeCount c).toNat, by omega⟩
  have hbins := marginalBins_range hg hx (by omega)
  rw [hn, Int.toNat_natCast] at hbins
  have hn3 : 3 ≤ n := by omega
  have hng : n ≤ gridSize := by omega
  have hnr : (3 : ℝ) ≤ n := by exact_mod_cast hn3
  have hgr : (n : ℝ) ≤ gridSize := by exact_mod_cast hng
  obtain ⟨m, hm⟩ := C25_marginal_exists kde c w data (linspace l u n) hcw hw hl col hd false hbins
    (linspace_increasing hlu (by omega)) (by simpa using hn3) (fun i hi => by
      rw [midpoints_length, linspace_length] at hi ⊢
      rw [midpoints_linspace_getD _ _ _ _ (by omega), midpoints_linspace_getD _ _ _ _ (by omega),
        midpoints_linspace_getD _ _ _ _ (by omega), midpoints_linspace_getD _ _ _ _ (by omega)]
      have hd0 : 0 < (u - l) / ((n : ℝ) - 1) := div_pos (by linarith) (by linarith)
      rw [div_le_iff₀ (by linarith)]
      have hcast : ((n - 1 - 1 : ℕ) : ℝ) = (n : ℝ) - 2 := by
        rw [Nat.sub_sub, Nat.cast_sub (by omega)]; norm_num
      rw [hcast]
      push_cast
      nlinarith [hd0, hgr]) x hxd
    (by rw [List.getD_eq_getElem?_getD, List.getElem?_eq_getElem (by simp; omega), Option.getD_some, linspace_getElem]; simpa using hlx)
    (by
      rw [List.getD_eq_getElem?_getD, List.getElem?_eq_getElem (by simp; omega), Option.getD_some, linspace_getElem,
        linspace_length, Nat.cast_sub (by omega)]
      have : (n : ℝ) - 1 ≠ 0 := by intro h; linarith
      rw [Nat.cast_one, mul_div_cancel₀ _ this]
      linarith) hs hp
  have hm' : smoothedHistogram kde c col false none = .ok m := by
    rw [← hm]
    simp only [smoothedHistogram, marginalYs, Option.getD_none, Option.getD_some, hk, ne_eq, not_true_eq_false, decide_false]
  have hv := C25_marginal_valid kde hkde c w hcw hw col false none m hm'
  obtain ⟨k, x0, y, -, -, -, h | ⟨lo, up, -, -, -, -, h, -⟩⟩ := C29_max_summary m hv (c.cfg .summaryArea)
  · have hpar : parameterSummary kde c col = .ok ⟨none, some x0, none⟩ := by
      simp only [parameterSummary, hst, hm', bind, Except.bind]; exact h
    exact ⟨_, x0, hpar, fltParameterSummaryMax_exact hk hst hpar, rfl⟩
  · have hpar : parameterSummary kde c col = .ok ⟨some lo, some x0, some up⟩ := by
      simp only [parameterSummary, hst, hm', bind, Except.bind]; exact h
    exact ⟨_, x0, hpar, fltParameterSummaryMax_exact hk hst hpar, rfl⟩

/-- **C74** is violated: with the statistic `max`, the summary of every constant parameter raises IndexError (without KDE, not
on a grid, power not 0, at least two bin edges). -/
theorem C74_violated {c : Chain ℝ} (hg : c.grid = false) {col : String} {data w : List ℝ}
    (hd : c.samples.get col = .ok data) (hcw : c.weights = .ok w) (hl : w.length = data.length)
    (hw : ∀ x ∈ w, 0 < x) {v : ℝ} (hv : ∀ x ∈ data, x = v) (hne : data ≠ []) (hs : 0 ≤ c.smoothValue) (hp : c.power ≠ 0)
    (he : 2 ≤ edgeCount c) : fltParameterSummaryMax c col = .error .index := by
  refine fltParameterSummaryMax_empty hg hd hcw (C45_constant data w hl hw v hv hne false true false false) le_rfl (fun x hx => ?_)
    hs hp he
  rw [hv x hx]
  left; linarith

/-- The range of a parameter with exactly two values is a single point: the centre of the last of the 2000 cells. -/
theorem getExtents_two {data w : List ℝ} (hl : w.length = data.length) (hw : ∀ x ∈ w, 0 < x) {lo hi : ℝ} (hlt : lo < hi)
    (hlo : lo ∈ data) (hhi : hi ∈ data) (hv : ∀ x ∈ data, x = lo ∨ x = hi) (plot wide tiny pad : Bool) :
    getExtents data w plot wide tiny pad = .ok (hi - (hi - lo) / 4000, hi - (hi - lo) / 4000) := by
  have hb : ∀ x ∈ data, lo ≤ x ∧ x ≤ hi := by
    intro x hx
    rcases hv x hx with rfl | rfl
    · exact ⟨le_rfl, hlt.le⟩
    · exact ⟨hlt.le, le_rfl⟩
  obtain ⟨i, j, t, R, l, u, h1, h2, h3, ht, h4, h5, -, h6, -, hR, -, h7, -, -⟩ :=
    C45_extents data w hl hw lo hi hlo hhi hb hlt plot wide tiny pad
  have hi2 : i = 1999 := by
    by_contra hne
    have hlt2 : i + 1 < 2000 := by omega
    have hz : weightWhere data w (fun x => decide (cellEdge lo hi 1 ≤ x ∧ (x < cellEdge lo hi (i + 1) ∨ i + 1 = 2000))) =
        weightWhere data w (fun _ => false) := by
      refine weightWhere_congr data w fun x hx => ?_
      rw [decide_eq_false_iff_not]
      rintro ⟨a1, a2 | a2⟩
      · unfold cellEdge at a1 a2
        have hd : 0 < (hi - lo) / 2000 := by apply div_pos <;> linarith
        rcases hv x hx with rfl | rfl
        · push_cast at a1; linarith
        · have : ((i + 1 : ℕ) : ℝ) ≤ 2000 := by exact_mod_cast hlt2.le
          have := mul_le_mul_of_nonneg_right this hd.le
          linarith
      · omega
    rw [hz] at h7
    have h0 : weightWhere data w (fun _ => false) = 0 := by simp [weightWhere]
    have htn : 0 ≤ t := by rw [ht]; split_ifs <;> norm_num
    rw [h0] at h7
    exact absurd h7 (not_lt.2 (mul_nonneg htn hR.le))
  obtain rfl : j = 1999 := by omega
  subst hi2
  have hl' : l = hi - (hi - lo) / 4000 := by rw [h4]; unfold cellEdge; push_cast; ring
  have hu' : u = hi - (hi - lo) / 4000 := by rw [h5]; unfold cellEdge; push_cast; ring
  rw [h6, hl', hu', sub_self, zero_div, sub_zero, add_zero, ite_self]

/-- **C74** is violated for parameters with two values as well, such as flags, whatever the weights. -/
theorem C74_violated_two {c : Chain ℝ} (hg : c.grid = false) {col : String} {data w : List ℝ}
    (hd : c.samples.get col = .ok data) (hcw : c.weights = .ok w) (hl : w.length = data.length) (hw : ∀ x ∈ w, 0 < x)
    {lo hi : ℝ} (hlt : lo < hi) (hlo : lo ∈ data) (hhi : hi ∈ data) (hv : ∀ x ∈ data, x = lo ∨ x = hi)
    (hs : 0 ≤ c.smoothValue) (hp : c.power ≠ 0) (he : 2 ≤ edgeCount c) : fltParameterSummaryMax c col = .error .index := by
  refine fltParameterSummaryMax_empty hg hd hcw (getExtents_two hl hw hlt hlo hhi hv false true false false) le_rfl (fun x hx => ?_)
    hs hp he
  rcases hv x hx with h | h <;> rw [h]
  · left; linarith
  · right; linarith

/-- **C74**, which parameters have a summary: with the statistic `max` and a range of more than a point, those with a sample in
their range; for the others IndexError is raised. -/
theorem C74_exists_iff (kde : KdeFn) (hkde : KdeOk kde) {c : Chain ℝ} (hg : c.grid = false) (hk : c.cfg .kde = (0 : ℝ))
    (hst : c.cfg .statistics = some Stat.max) {col : String} {data w : List ℝ} (hd : c.samples.get col = .ok data)
    (hcw : c.weights = .ok w) (hl : w.length = data.length) (hw : ∀ x ∈ w, 0 < x) {l u : ℝ}
    (hx : getExtents data w false true false false = .ok (l, u)) (hlu : l < u)
    (hs : 0 ≤ c.smoothValue) (hp : 0 < c.power) (h3 : 3 ≤ edgeCount c) (hmax : edgeCount c ≤ gridSize) :
    ((∃ x ∈ data, l ≤ x ∧ x ≤ u) ↔ ∃ b, fltParameterSummaryMax c col = .ok b) ∧
      ((¬ ∃ x ∈ data, l ≤ x ∧ x ≤ u) ↔ fltParameterSummaryMax c col = .error .index) := by
  by_cases h : ∃ x ∈ data, l ≤ x ∧ x ≤ u
  · obtain ⟨x, hxd, hlx, hxu⟩ := id h
    obtain ⟨b, -, -, hb, -⟩ := C74_exists_partial kde hkde hg hk hst hd hcw hl hw hx hlu hxd hlx hxu hs hp.le h3 hmax
    refine ⟨⟨fun _ => ⟨b, hb⟩, fun _ => h⟩, ⟨fun hn => absurd h hn, fun he => ?_⟩⟩
    rw [hb] at he; cases he
  · have he := fltParameterSummaryMax_empty hg hd hcw hx hlu.le (fun x hxd => by
      by_contra hc
      rw [not_or, not_lt, not_lt] at hc
      exact h ⟨x, hxd, hc.1, hc.2⟩) hs hp.ne' (by omega)
    refine ⟨⟨fun hh => absurd hh h, fun ⟨b, hb⟩ => ?_⟩, ⟨fun _ => he, fun _ => h⟩⟩
    rw [he] at hb; cases hb

/-- **C74** is violated on grids too: a constant parameter has no second grid point (IndexError), whatever the statistic. -/
theorem C74_violated_grid (kde : KdeFn) {c : Chain ℝ} (hg : c.grid = true) {col : String} {data w : List ℝ}
    (hd : c.samples.get col = .ok data) (hcw : c.weights = .ok w) {v : ℝ} (hv : ∀ x ∈ data, x = v)
    (hst : c.cfg .statistics ≠ none) : parameterSummary kde c col = .error .index := by
  have hu : sortUnique data = [] ∨ sortUnique data = [v] := by
    have hm : ∀ x ∈ sortUnique data, x = v := fun x hx => hv x (by simpa [sortUnique] using hx)
    have hnd : (sortUnique data).Nodup := List.nodup_dedup _
    generalize sortUnique data = l at hm hnd
    cases l with
    | nil => exact Or.inl rfl
    | cons a l =>
      cases l with
      | nil => right; rw [hm a (by simp)]
      | cons b l =>
        have h1 := hm a (by simp)
        have h2 := hm b (by simp)
        simp [h1, h2] at hnd
  have hgb : getGridBins data = .error .index := by
    unfold getGridBins
    rcases hu with h | h <;> rw [h]
  have hb : ∀ pad, smoothedHistogram kde c col pad none = .error .index := by
    intro pad
    simp only [smoothedHistogram, hd, hcw, marginalBins, hg, if_true, hgb, bind, Except.bind]
  simp only [parameterSummary]
  cases hs : (c.cfg .statistics : Option Stat) with
  | none => exact absurd hs hst
  | some s => cases s <;> simp only [hb, bind, Except.bind]

/-- The exact model does not produce a summary of such a column either, for any statistic. -/
theorem parameterSummary_const (kde : KdeFn) {c : Chain ℝ} (hg : c.grid = false) {col : String} {data w : List ℝ}
    (hd : c.samples.get col = .ok data) (hcw : c.weights = .ok w) (hl : w.length = data.length)
    (hw : ∀ x ∈ w, 0 < x) {v : ℝ} (hv : ∀ x ∈ data, x = v) (hne : data ≠ []) (he : 2 ≤ edgeCount c) (b : Bound ℝ) :
    parameterSummary kde c col ≠ .ok b := by
  have hb : ∀ pad, ∀ m, smoothedHistogram kde c col pad none ≠ .ok m := by
    intro pad m hm
    obtain ⟨n, hn⟩ : ∃ n : Nat, (edgeCount c).toNat = n + 2 := ⟨(edgeCount c).toNat - 2, by omega⟩
    have hb := marginalBins_range hg (C45_constant data w hl hw v hv hne false true false pad) (by omega)
    rw [hn, linspace_const] at hb
    simp only [smoothedHistogram, hd, hcw] at hm
    rw [bind_ok_iff] at hm
    obtain ⟨x, h1, hm⟩ := hm
    cases h1
    rw [bind_ok_iff] at hm
    obtain ⟨x, h1, hm⟩ := hm
    cases h1
    rw [bind_ok_iff] at hm
    obtain ⟨x, h1, hm⟩ := hm
    rw [hb] at h1
    cases h1
    rw [bind_ok_iff] at hm
    obtain ⟨h, hh, -⟩ := hm
    simp only [histDensity] at hh
    rw [bind_ok_iff] at hh
    obtain ⟨k, -, hh⟩ := hh
    rw [bind_ok_iff] at hh
    obtain ⟨u, h2, _⟩ := hh
    rw [ensure_ok_iff] at h2
    simp [List.replicate_succ] at h2
  intro hp
  simp only [parameterSummary] at hp
  cases hs : (c.cfg .statistics : Option Stat) with
  | none => simp only [hs] at hp; cases hp
  | some s =>
    cases s <;> simp only [hs] at hp <;> rw [bind_ok_iff] at hp <;> obtain ⟨m, hm, -⟩ := hp <;> exact hb _ _ hm

/-- A limit of the exact model, not a claim about the code: `getSummary` says nothing (never `.ok`) if one of the chains has a
constant column among the parameters asked for. -/
theorem getSummary_const (kde : KdeFn) (h : Heap ℝ) (s : Consumer ℝ) (chains : List (Chain ℝ)) (columns : Option (List String))
    {c : Chain ℝ} (hc : c ∈ chains) (hg : c.grid = false) {col : String} (hcol : col ∈ sanitiseColumns columns chains)
    {data w : List ℝ} (hd : c.samples.get col = .ok data) (hcw : c.weights = .ok w) (hl : w.length = data.length)
    (hw : ∀ x ∈ w, 0 < x) {v : ℝ} (hv : ∀ x ∈ data, x = v) (hne : data ≠ []) (he : 2 ≤ edgeCount c) :
    ¬ ∃ r, getSummary kde h s (some chains) columns = .ok r := by
  rintro ⟨r, hr⟩
  simp only [getSummary, pure_bind] at hr
  obtain ⟨kvs, hk, -⟩ := (summaryLoop_ok_iff kde _ _ _ _).1 hr
  obtain ⟨kv, hkv⟩ : ∃ kv : String × List (String × Summary ℝ),
      chainSummary kde c (sanitiseColumns columns chains) [] = .ok kv.2 := by
    clear hr
    generalize sanitiseColumns columns chains = cols at hk hcol ⊢
    induction hk with
    | nil => cases hc
    | cons h1 _ ih =>
      rcases List.mem_cons.1 hc with rfl | hc
      · exact ⟨_, h1.2⟩
      · exact ih hc
  obtain ⟨es, hes, -⟩ := (chainSummary_ok_iff kde c _ _ _).1 hkv
  have hm : col ∈ (sanitiseColumns columns chains).filter (· ∈ c.samples.columns) := by
    simp only [List.mem_filter, decide_eq_true_eq]
    exact ⟨hcol, List.mem_map.2 ⟨_, get_mem hd, rfl⟩⟩
  obtain ⟨e, he'⟩ : ∃ e : Summary ℝ, summaryEntry kde c col = .ok e := by
    generalize (sanitiseColumns columns chains).filter (· ∈ c.samples.columns) = cols at hes hm
    induction hes with
    | nil => cases hm
    | cons h1 _ ih =>
      rcases List.mem_cons.1 hm with rfl | hm
      · exact ⟨_, h1.2⟩
      · exact ih hm
  simp only [summaryEntry] at he'
  rw [bind_ok_iff] at he'
  obtain ⟨b, hb, -⟩ := he'
  exact parameterSummary_const kde hg hd hcw hl hw hv hne he b hb

theorem fltChainSummary_error {c : Chain ℝ} {e : Err} {col : String} (hc : col ∈ c.samples.columns)
    (he : fltSummaryEntry c col = .error e) {pre : List String} (post : List String)
    (hpre : ∀ p ∈ pre, p ∈ c.samples.columns → ∃ b, fltSummaryEntry c p = .ok b) (res : List (String × Summary ℝ)) :
    fltChainSummary c (pre ++ col :: post) res = .error e := by
  induction pre generalizing res with
  | nil => simp only [List.nil_append, fltChainSummary, hc, not_true_eq_false, if_false, he, bind, Except.bind]
  | cons p pre ih =>
    rw [List.cons_append, fltChainSummary]
    by_cases hp : p ∈ c.samples.columns
    · obtain ⟨b, hb⟩ := hpre p (by simp) hp
      simp only [hp, not_true_eq_false, if_false, hb, bind, Except.bind]
      exact ih (fun q hq => hpre q (by simp [hq])) _
    · rw [if_pos hp]
      exact ih (fun q hq => hpre q (by simp [hq])) _

theorem fltSummaryLoop_error {cols : List String} {c : Chain ℝ} {e : Err} (he : fltChainSummary c cols [] = .error e)
    {pre : List (Chain ℝ)} (post : List (Chain ℝ)) (hpre : ∀ d ∈ pre, ∃ r, fltChainSummary d cols [] = .ok r)
    (res : List (String × List (String × Summary ℝ))) : fltSummaryLoop cols (pre ++ c :: post) res = .error e := by
  induction pre generalizing res with
  | nil => simp only [List.nil_append, fltSummaryLoop, he, bind, Except.bind]
  | cons d pre ih =>
    obtain ⟨r, hr⟩ := hpre d (by simp)
    simp only [List.cons_append, fltSummaryLoop, hr, bind, Except.bind]
    exact ih (fun q hq => hpre q (by simp [hq])) _

/-- **C74** is violated by the whole of `get_summary`: one constant parameter of one chain with the statistic `max` raises
IndexError, although the chains and the parameters before it have summaries. -/
theorem C74_violated_summary {c : Chain ℝ} (hst : c.cfg .statistics = some Stat.max) (hk : c.cfg .kde = (0 : ℝ))
    (hmm : c.cfg .multimodal = false) (hg : c.grid = false) {col : String} {data w : List ℝ}
    (hd : c.samples.get col = .ok data) (hcw : c.weights = .ok w) (hl : w.length = data.length)
    (hw : ∀ x ∈ w, 0 < x) {v : ℝ} (hv : ∀ x ∈ data, x = v) (hne : data ≠ []) (hs : 0 ≤ c.smoothValue) (hp : c.power ≠ 0)
    (he : 2 ≤ edgeCount c) (pre post : List (Chain ℝ)) (columns : Option (List String)) (ps qs : List String)
    (hcols : sanitiseColumns columns (pre ++ c :: post) = ps ++ col :: qs)
    (hps : ∀ p ∈ ps, p ∈ c.samples.columns → ∃ b, fltSummaryEntry c p = .ok b)
    (hpre : ∀ d ∈ pre, ∃ r, fltChainSummary d (ps ++ col :: qs) [] = .ok r) :
    fltGetSummary (pre ++ c :: post) columns = .error .index := by
  have h1 : fltSummaryEntry c col = .error .index := by
    simp only [fltSummaryEntry, hst, hk, hmm, and_self, if_true, C74_violated hg hd hcw hl hw hv hne hs hp he, bind, Except.bind]
  rw [fltGetSummary, hcols]
  exact fltSummaryLoop_error (fltChainSummary_error (List.mem_map.2 ⟨_, get_mem hd, rfl⟩) h1 qs hps []) post hpre []

/-- A marker with the default settings: its own summary raises IndexError, wherever it is. -/
theorem C74_marker {location : List (String × ℝ)} {c : Chain ℝ} (hsam : c.samples = markerFrame location)
    (hn : (location.map Prod.fst).Nodup) (hpl : ∀ e ∈ location, PlainName e.1) (hwc : c.weightColumn = "weight")
    (hst : c.cfg .statistics = some Stat.max) (hk : c.cfg .kde = (0 : ℝ)) (hmm : c.cfg .multimodal = false) (hg : c.grid = false)
    (hs : 0 ≤ c.smoothValue) (hp : c.power ≠ 0) (he : 2 ≤ edgeCount c) (e : String × ℝ) (hloc : e ∈ location) :
    fltGetSummary [c] (some [e.1]) = .error .index := by
  have hwf := markerFrame_WF hn hpl
  have hd : c.samples.get e.1 = .ok [e.2] := by
    rw [hsam]
    exact get_of_mem hwf.1 (by simp only [markerFrame, List.mem_append, List.mem_map]; exact Or.inl ⟨e, hloc, rfl⟩)
  have hcw : c.weights = .ok [1] := by
    rw [Chain.weights, hwc, hsam]
    exact get_of_mem hwf.1 (by simp [markerFrame])
  exact C74_violated_summary hst hk hmm hg hd hcw rfl (by simp) (v := e.2) (by simp) (by simp) hs hp he [] [] (some [e.1]) [] [] rfl
    (by simp) (by simp)

/-- The hypotheses of `C74_marker` (and so of `C74_violated_summary` and `C74_violated`) are met: `add_marker` at `a = 2`,
`b = 5` with the default settings. -/
example : ∃ c, Chain.make (Consumer.markerArgs ([("a", (2 : ℝ)), ("b", 5)].map fun e => (e.1, .fin e.2)) "m" none 20 "." 1 []) =
    .ok c ∧ fltGetSummary [c] (some ["b"]) = .error .index := by
  have hpl : ∀ e ∈ [("a", (2 : ℝ)), ("b", 5)], PlainName e.1 := by
    intro e he
    simp only [List.mem_cons, List.not_mem_nil, or_false] at he
    rcases he with rfl | rfl <;> (unfold PlainName; decide +kernel)
  obtain ⟨c, h1, h2, h3, h4, h5, h6, h7, h8, h9⟩ := plain_chain_cfg (K := ℝ) false
    [⟨.markerSize, (20 : ℝ)⟩, ⟨.markerStyle, "."⟩, ⟨.markerAlpha, (1 : ℝ)⟩, ⟨.plotContour, false⟩, ⟨.plotPoint, true⟩] rfl
    (by change (0 : ℝ) ≤ 6827 / 10000 ∧ (6827 / 10000 : ℝ) ≤ 1; constructor <;> norm_num)
    (by change (1 : ℝ) ≤ 20; norm_num) rfl rfl (by intro h; cases h) (markerFrame [("a", (2 : ℝ)), ("b", 5)])
    (markerFrame_WF (by decide) hpl) (by simp [markerFrame]) (w := [1]) (by rfl) (by simp) "m" 1 le_rfl (one_dvd _)
  have hst : c.cfg .statistics = some Stat.max := by rw [h9]; rfl
  have hk : c.cfg .kde = (0 : ℝ) := by rw [h9]; rfl
  have hmm : c.cfg .multimodal = false := by rw [h9]; rfl
  have hsm : c.smoothValue = 3 := by unfold Chain.smoothValue; rw [h9, h6]; rfl
  refine ⟨c, ?_, C74_marker h2 (by decide) hpl h3 hst hk hmm h6 (by rw [hsm]; decide) (by rw [h5]; exact one_ne_zero) ?_ ("b", 5)
    (by simp)⟩
  · rw [← h1]
    congr 1
  · have hb : 1 ≤ getBins c := by
      have hbins : c.cfg .bins = none := by rw [h9]; rfl
      unfold getBins
      rw [hbins]
      exact le_trans (by rw [hsm]; decide) (le_max_left _ _)
    unfold edgeCount
    rw [hsm, if_neg (by decide)]
    omega

/-- The hypotheses of `C74_violated_grid` are met. -/
example (kde : KdeFn) : ∃ (c : Chain ℝ) (col : String), c.grid = true ∧ c.samples.get col = .ok [2] ∧
    parameterSummary kde c col = .error .index := by
  have hpl : ∀ e ∈ [("a", (2 : ℝ))], PlainName e.1 := by
    intro e he
    obtain rfl := List.mem_singleton.1 he
    unfold PlainName; decide +kernel
  obtain ⟨c, h1, h2, h3, h4, h5, h6, h7, h8, h9⟩ := plain_chain_cfg (K := ℝ) true [] rfl
    (by change (0 : ℝ) ≤ 6827 / 10000 ∧ (6827 / 10000 : ℝ) ≤ 1; constructor <;> norm_num)
    (by change (1 : ℝ) ≤ 10; norm_num) rfl rfl (by intro h; cases h) (markerFrame [("a", (2 : ℝ))])
    (markerFrame_WF (by decide) hpl) (by simp [markerFrame]) (w := [1]) (by rfl) (by simp) "m" 1 le_rfl (one_dvd _)
  have hst : c.cfg .statistics = some Stat.max := by rw [h9]; rfl
  have hd : c.samples.get "a" = .ok [2] := by rw [h2]; rfl
  have hcw : c.weights = .ok [1] := by rw [Chain.weights, h3, h2]; rfl
  exact ⟨c, "a", h6, hd, C74_violated_grid kde h6 hd hcw (v := 2) (by simp) (by rw [hst]; simp)⟩

/-- Four equally weighted values. -/
def rangeFrame : Frame ℝ := ⟨[.int 0, .int 1, .int 2, .int 3], [("x", [0, 1, 2, 3]), ("weight", [1, 1, 1, 1])]⟩

theorem rangeFrame_range : ∃ l u, getExtents ([0, 1, 2, 3] : List ℝ) [1, 1, 1, 1] false true false false = .ok (l, u) ∧ l ≤ 1 ∧ 2 < u := by
  obtain ⟨i, j, t, R, l, u, h1, h2, h3, ht, h4, h5, -, h6, hR, -, h7, -, h8, -⟩ :=
    C45_extents ([0, 1, 2, 3] : List ℝ) [1, 1, 1, 1] rfl (by simp) 0 3 (by simp) (by simp)
      (by intro x hx; simp only [List.mem_cons, List.not_mem_nil, or_false] at hx; rcases hx with rfl | rfl | rfl | rfl <;> norm_num)
      (by norm_num) false true false false
  have hR' : R ≤ 4 := by
    rw [hR]
    simp only [weightWhere, List.zip_cons_cons, List.zip_nil_right, List.map_cons, List.map_nil, List.sum_cons, List.sum_nil]
    split_ifs <;> norm_num
  have htR : t * R < 1 := by
    simp only [Bool.false_eq_true, if_false] at ht
    rw [ht]; linarith
  refine ⟨l, u, by simpa using h6, ?_, ?_⟩
  · by_contra hc
    have hi : (667 : ℕ) ≤ i := by
      by_contra hlt
      have : (i : ℝ) ≤ 666 := by exact_mod_cast (show i ≤ 666 by omega)
      apply hc
      rw [h4]; unfold cellEdge; push_cast; linarith
    have hi' : (667 : ℝ) ≤ i := by exact_mod_cast hi
    have hP : cellEdge (0 : ℝ) 3 1 ≤ 1 ∧ 1 < cellEdge (0 : ℝ) 3 i := by
      unfold cellEdge; constructor <;> [norm_num; linarith]
    simp only [weightWhere, List.zip_cons_cons, List.zip_nil_right, List.map_cons, List.map_nil, List.sum_cons,
      List.sum_nil, hP, and_self, decide_true,
      if_true] at h7
    revert h7
    split_ifs <;> intro h7 <;> linarith
  · obtain rfl : j = 1999 := by
      by_contra hne
      have hj : j + 1 < 2000 := by omega
      have hj' : ((j + 1 : ℕ) : ℝ) ≤ 2000 := by exact_mod_cast hj.le
      have hP : cellEdge (0 : ℝ) 3 (j + 1) ≤ 3 := by unfold cellEdge; linarith
      simp only [weightWhere, List.zip_cons_cons, List.zip_nil_right, List.map_cons, List.map_nil, List.sum_cons,
        List.sum_nil, hP, hj,
        decide_true, if_true, and_true] at h8
      revert h8
      split_ifs <;> intro h8 <;> linarith
    rw [h5]; unfold cellEdge; norm_num

/-- The hypotheses of `C74_exists_partial` and `C74_exists_iff` are met. -/
example (kde : KdeFn) (hkde : KdeOk kde) : ∃ c b, Chain.make { samples := rangeFrame.toRaw, name := "four" } = .ok c ∧
    fltParameterSummaryMax c "x" = .ok b := by
  obtain ⟨c, h1, h2, h3, h4, h5, h6, h7, h8, h9⟩ := plain_chain_cfg (K := ℝ) false [] rfl
    (by change (0 : ℝ) ≤ 6827 / 10000 ∧ (6827 / 10000 : ℝ) ≤ 1; constructor <;> norm_num)
    (by change (1 : ℝ) ≤ 10; norm_num) rfl rfl (by intro h; cases h) rangeFrame ⟨by simp [rangeFrame], by simp [rangeFrame]⟩
    (by simp [rangeFrame]) (w := [1, 1, 1, 1]) rfl (by simp) "four" 1 le_rfl (one_dvd _)
  have hst : c.cfg .statistics = some Stat.max := by rw [h9]; rfl
  have hk : c.cfg .kde = (0 : ℝ) := by rw [h9]; rfl
  have hsm : c.smoothValue = 3 := by unfold Chain.smoothValue; rw [h9, h6]; rfl
  have hbins : c.cfg .bins = none := by rw [h9]; rfl
  have he : edgeCount c = 210 := by
    unfold edgeCount getBins
    rw [hbins, hsm, h2]
    decide +kernel
  have hcw : c.weights = .ok [1, 1, 1, 1] := by rw [Chain.weights, h3, h2]; rfl
  obtain ⟨l, u, hx, hl1, hu2⟩ := rangeFrame_range
  obtain ⟨b, -, -, hb, -⟩ := C74_exists_partial kde hkde h6 hk hst (col := "x") (data := [0, 1, 2, 3]) (by rw [h2]; rfl) hcw rfl
    (by simp) hx (by linarith) (x := 1) (by simp) hl1 (by linarith) (by rw [hsm]; decide) (by rw [h5]; norm_num) (by rw [he]; decide)
    (by rw [he]; unfold gridSize; norm_num)
  exact ⟨c, b, h1, hb⟩

/-- The hypotheses of `C74_violated_two` are met. -/
example : ∃ c, Chain.make { samples := skewFrame.toRaw, name := "flag" } = .ok c ∧
    fltParameterSummaryMax c "x" = .error .index := by
  obtain ⟨c, h1, h2, h3, h4, h5, h6, h7, h8, h9⟩ := plain_chain_cfg (K := ℝ) false [] rfl
    (by change (0 : ℝ) ≤ 6827 / 10000 ∧ (6827 / 10000 : ℝ) ≤ 1; constructor <;> norm_num)
    (by change (1 : ℝ) ≤ 10; norm_num) rfl rfl (by intro h; cases h) skewFrame ⟨by simp [skewFrame], by simp [skewFrame]⟩
    (by simp [skewFrame]) (w := [3, 1]) rfl (by simp) "flag" 1 le_rfl (one_dvd _)
  have hsm : c.smoothValue = 3 := by unfold Chain.smoothValue; rw [h9, h6]; rfl
  have hbins : c.cfg .bins = none := by rw [h9]; rfl
  have he : edgeCount c = 210 := by
    unfold edgeCount getBins
    rw [hbins, hsm, h2]
    decide +kernel
  have hcw : c.weights = .ok [3, 1] := by rw [Chain.weights, h3, h2]; rfl
  exact ⟨c, h1, C74_violated_two h6 (col := "x") (data := [0, 1]) (by rw [h2]; rfl) hcw rfl (by simp) (lo := 0) (hi := 1) (by norm_num)
    (by simp) (by simp) (by simp) (by rw [hsm]; decide) (by rw [h5]; norm_num) (by rw [he]; decide)⟩

end CC
