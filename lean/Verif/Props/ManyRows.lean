import Verif.Props.Columns
import Verif.Props.PlotDist

/-! # C69: with very many rows other columns change the number of bins -/

namespace CC
open Spec

/-- Samples at 0 and 2000, and `n` samples at 3/2. -/
noncomputable def pileData (n : Nat) : List ℝ := 0 :: 2000 :: List.replicate n (3 / 2)

/-- Half of the weight is on the sample at 2000. -/
noncomputable def pileWeights (n : Nat) : List ℝ := 1 :: (n : ℝ) :: List.replicate n 1

/-- The table, with or without a further column. -/
noncomputable def pileFrame (both : Bool) (n : Nat) : Frame ℝ where
  index := (List.range (n + 2)).map fun i => .int i
  cols := ("a", pileData n) :: ("weight", pileWeights n) :: if both then [("b", pileData n)] else []

theorem pile_where (n : Nat) (P : ℝ → Bool) : weightWhere (pileData n) (pileWeights n) P =
    (if P 0 then 1 else 0) + ((if P 2000 then (n : ℝ) else 0) + if P (3 / 2) then (n : ℝ) else 0) := by
  unfold weightWhere pileData pileWeights
  simp only [List.zip_cons_cons, List.map_cons, List.sum_cons]
  congr 2
  rw [List.zip_replicate', List.map_replicate, List.sum_replicate]
  cases P (3 / 2) <;> simp

theorem pile_extents {n : Nat} (hn : 1 ≤ n) :
    getExtents (pileData n) (pileWeights n) false true false false = .ok (3 / 2, 3999 / 2) := by
  have hn' : (1 : ℝ) ≤ n := by exact_mod_cast hn
  obtain ⟨i, j, t, R, l, u, h1, h2, h3, ht, h4, h5, -, h6, hR, -, h7, -, h8, -⟩ :=
    C45_extents (pileData n) (pileWeights n) (by simp [pileData, pileWeights]) (by
      intro v hv
      simp only [pileWeights, List.mem_cons, List.mem_replicate] at hv
      rcases hv with rfl | rfl | ⟨-, rfl⟩ <;> linarith) 0 2000 (by simp [pileData]) (by simp [pileData]) (by
      intro x hx
      simp only [pileData, List.mem_cons, List.mem_replicate] at hx
      rcases hx with rfl | rfl | ⟨-, rfl⟩ <;> norm_num) (by norm_num) false true false false
  have hR' : R ≤ 3 * n := by
    rw [hR, pile_where]
    split_ifs <;> linarith
  simp only [Bool.false_eq_true, if_false] at ht
  have htR : t * R < n := by rw [ht]; linarith
  rw [pile_where] at h7 h8
  obtain rfl : j = 1999 := by
    by_contra hne
    have hj : j + 1 < 2000 := by omega
    have hj' : ((j + 1 : ℕ) : ℝ) ≤ 2000 := by exact_mod_cast hj.le
    have hP : cellEdge (0 : ℝ) 2000 (j + 1) ≤ 2000 := by unfold cellEdge; linarith
    simp only [hP, hj, and_self, decide_true, if_true] at h8
    revert h8
    split_ifs <;> intro h8 <;> linarith
  obtain rfl : i = 1 := by
    by_contra hne
    have hi' : (2 : ℝ) ≤ i := by exact_mod_cast (show 2 ≤ i by omega)
    have hP : cellEdge (0 : ℝ) 2000 1 ≤ 3 / 2 ∧ 3 / 2 < cellEdge (0 : ℝ) 2000 i := by
      unfold cellEdge; constructor <;> [norm_num; linarith]
    simp only [hP, and_self, decide_true, if_true] at h7
    revert h7
    split_ifs <;> intro h7 <;> linarith
  rw [h6, h4, h5]
  unfold cellEdge
  simp only [Bool.false_eq_true, if_false, Except.ok.injEq, Prod.mk.injEq]
  norm_num

/-- Only the first bin holds samples. -/
theorem pile_mass {n k : Nat} (hk : 3 ≤ k) {i : Nat} (hi : i + 1 < k) :
    binMass (linspace (3 / 2) (3999 / 2) k) (pileData n) (pileWeights n) i = if i = 0 then (n : ℝ) else 0 := by
  have hk' : (2 : ℝ) ≤ (k : ℝ) - 1 := by
    have : (3 : ℝ) ≤ k := by exact_mod_cast hk
    linarith
  have hd : (0 : ℝ) < (3999 / 2 - 3 / 2) / ((k : ℝ) - 1) := by
    refine div_pos (by norm_num) (by linarith)
  have he : ∀ j, j < k → (linspace (3 / 2 : ℝ) (3999 / 2) k).getD j 0 = 3 / 2 + j * ((3999 / 2 - 3 / 2) / ((k : ℝ) - 1)) := by
    intro j hj
    rw [List.getD_eq_getElem?_getD, List.getElem?_eq_getElem (by simpa using hj), Option.getD_some, linspace_getElem]
  have htop : (3 / 2 : ℝ) + ((i + 1 : ℕ) : ℝ) * ((3999 / 2 - 3 / 2) / ((k : ℝ) - 1)) ≤ 3999 / 2 := by
    have h1 : ((i + 1 : ℕ) : ℝ) ≤ (k : ℝ) - 1 := by
      have : ((i + 1 : ℕ) : ℝ) + 1 ≤ k := by exact_mod_cast hi
      linarith
    have h2 : ((i + 1 : ℕ) : ℝ) * ((3999 / 2 - 3 / 2) / ((k : ℝ) - 1)) ≤ ((k : ℝ) - 1) * ((3999 / 2 - 3 / 2) / ((k : ℝ) - 1)) :=
      mul_le_mul_of_nonneg_right h1 hd.le
    rw [mul_div_cancel₀ _ (by linarith)] at h2
    linarith
  rw [binMass_eq, pile_where]
  have hA : inBin (linspace (3 / 2 : ℝ) (3999 / 2) k) i 0 = false := by
    unfold inBin
    rw [he i (by omega), decide_eq_false, Bool.false_and]
    have : 0 ≤ (i : ℝ) * ((3999 / 2 - 3 / 2) / ((k : ℝ) - 1)) := mul_nonneg (Nat.cast_nonneg _) hd.le
    linarith
  have hB : inBin (linspace (3 / 2 : ℝ) (3999 / 2) k) i 2000 = false := by
    unfold inBin
    rw [he (i + 1) (by omega), decide_eq_false (p := (2000 : ℝ) < _) (by linarith), decide_eq_false (p := (2000 : ℝ) ≤ _) (by linarith)]
    simp
  rw [hA, hB]
  by_cases h0 : i = 0
  · subst h0
    have hX : inBin (linspace (3 / 2 : ℝ) (3999 / 2) k) 0 (3 / 2) = true := by
      unfold inBin
      rw [he 0 (by omega), he 1 (by omega), decide_eq_true (by norm_num), decide_eq_true (p := (3 / 2 : ℝ) < _) (by push_cast; linarith)]
      rfl
    rw [hX]
    simp
  · have hX : inBin (linspace (3 / 2 : ℝ) (3999 / 2) k) i (3 / 2) = false := by
      unfold inBin
      rw [he i (by omega), decide_eq_false, Bool.false_and]
      have : (1 : ℝ) ≤ i := by exact_mod_cast Nat.one_le_iff_ne_zero.2 h0
      nlinarith
    rw [hX]
    simp [h0]

/-- A line through zeros is zero. -/
theorem polyline_zeros {pts : List (ℝ × ℝ)} (h : ∀ p ∈ pts, p.2 = 0) (x : ℝ) : polyline pts x = 0 := by
  induction pts with
  | nil => rfl
  | cons p ps ih =>
    cases ps with
    | nil => exact h p (by simp)
    | cons q rest =>
      rw [polyline, h p (by simp), h q (by simp), ih fun p hp => h p (List.mem_cons_of_mem _ hp)]
      simp

theorem polyline_falls {p q : ℝ × ℝ} {rest : List (ℝ × ℝ)} (hp : 0 < p.2) (h : ∀ r ∈ q :: rest, r.2 = 0) {x : ℝ} (hx : p.1 < x) :
    polyline (p :: q :: rest) x < p.2 := by
  rw [polyline]
  split
  · next hq =>
    rw [h q (by simp)]
    have h1 : 0 < p.2 / (q.1 - p.1) * (x - p.1) := mul_pos (div_pos hp (by linarith)) (by linarith)
    have h2 : (0 - p.2) / (q.1 - p.1) * (x - p.1) = -(p.2 / (q.1 - p.1) * (x - p.1)) := by ring
    linarith
  · rw [polyline_zeros h]
    exact hp

theorem polyline_start {p q : ℝ × ℝ} {rest : List (ℝ × ℝ)} (hq : p.1 < q.1) : polyline (p :: q :: rest) p.1 = p.2 := by
  rw [polyline, if_pos hq]; ring

/-- The density of the histogram is positive in the first bin and zero in all others. -/
theorem pile_density {n k : Nat} (hn : 1 ≤ n) (hk : 3 ≤ k) {h : List ℝ}
    (hh : histDensity (linspace (3 / 2) (3999 / 2) k) (pileData n) (pileWeights n) = .ok h) :
    ∃ v rest, h = v :: rest ∧ 0 < v ∧ ∀ z ∈ rest, z = 0 := by
  have hn' : (1 : ℝ) ≤ n := by exact_mod_cast hn
  obtain ⟨j, rfl⟩ : ∃ j, k = j + 3 := ⟨k - 3, by omega⟩
  have hmass : (List.range (j + 2)).map (binMass (linspace (3 / 2) (3999 / 2) (j + 3)) (pileData n) (pileWeights n)) =
      (n : ℝ) :: List.replicate (j + 1) 0 := by
    refine List.ext_getElem (by simp) fun i h1 h2 => ?_
    simp only [List.length_map, List.length_range] at h1
    rw [List.getElem_map, List.getElem_range, pile_mass (by omega) (by omega)]
    cases i with
    | zero => rfl
    | succ i => simp
  simp only [histDensity, histogram, bind_ok_iff, ensure_ok_iff, pure_ok_iff, linspace_length] at hh
  obtain ⟨m, ⟨-, -, rfl⟩, -, -, -, -, rfl⟩ := hh
  rw [show j + 3 - 1 = j + 2 from rfl, hmass]
  have hsum : ((n : ℝ) :: List.replicate (j + 1) 0).sum = n := by simp
  rw [hsum]
  have hd : ∀ d ∈ List.zipWith (fun l r => r - l) (linspace (3 / 2 : ℝ) (3999 / 2) (j + 3)) (linspace (3 / 2) (3999 / 2) (j + 3)).tail, 0 < d := by
    intro d hd
    obtain ⟨i, hi, rfl⟩ := List.mem_iff_getElem.1 hd
    rw [List.getElem_zipWith, List.getElem_tail, sub_pos]
    exact (List.pairwise_iff_getElem.1 (linspace_increasing (by norm_num) (by omega))) _ _ _ _ (Nat.lt_succ_self i)
  have hl : (List.zipWith (fun l r => r - l) (linspace (3 / 2 : ℝ) (3999 / 2) (j + 3)) (linspace (3 / 2) (3999 / 2) (j + 3)).tail).length = j + 2 := by
    simp
  revert hd hl
  generalize List.zipWith (fun l r => r - l) (linspace (3 / 2 : ℝ) (3999 / 2) (j + 3)) (linspace (3 / 2) (3999 / 2) (j + 3)).tail = ds
  intro hd hl
  cases ds with
  | nil => simp at hl
  | cons d ds =>
    refine ⟨_, _, rfl, div_pos (div_pos (by linarith) (hd d (by simp))) (by linarith), ?_⟩
    intro z hz
    obtain ⟨i, hi, rfl⟩ := List.mem_iff_getElem.1 hz
    rw [List.getElem_zipWith, List.getElem_replicate]
    simp

/-- The mode of such a parameter is the centre of the first bin. -/
theorem pile_centre (kde : KdeFn) (hkde : KdeOk kde) {c : Chain ℝ} (hg : c.grid = false) (hk : c.cfg .kde = (0 : ℝ))
    (hst : c.cfg .statistics = some Stat.max) {col : String} {n k : Nat} (hn : 1 ≤ n) (hd : c.samples.get col = .ok (pileData n))
    (hcw : c.weights = .ok (pileWeights n)) (hs : c.smoothValue = 0) (hp : c.power = 1) (hb : getBins c = k) (h3 : 3 ≤ k)
    (hmax : k ≤ gridSize) :
    ∃ b, parameterSummary kde c col = .ok b ∧ b.center = some (3 / 2 + 999 / ((k : ℝ) - 1)) := by
  have hn' : (1 : ℝ) ≤ n := by exact_mod_cast hn
  have hedge : edgeCount c = k := by unfold edgeCount; rw [if_pos hs, hb]
  have hlen : (pileWeights n).length = (pileData n).length := by simp [pileWeights, pileData]
  have hpos : ∀ x ∈ pileWeights n, 0 < x := by
    intro v hv
    simp only [pileWeights, List.mem_cons, List.mem_replicate] at hv
    rcases hv with rfl | rfl | ⟨-, rfl⟩ <;> linarith
  obtain ⟨b, x0, h1, -, h2⟩ := C74_exists_partial kde hkde hg hk hst hd hcw hlen hpos (pile_extents hn) (by norm_num)
    (x := 3 / 2) (by simp [pileData]; omega) le_rfl (by norm_num) hs.ge (by rw [hp]; norm_num) (by omega) (by omega)
  refine ⟨b, h1, ?_⟩
  rw [h2, Option.some.injEq]
  simp only [parameterSummary, hst, bind_ok_iff] at h1
  obtain ⟨m, hm, hsum⟩ := h1
  have hv := C25_marginal_valid kde hkde c _ hcw hpos col false none m hm
  have hbins := marginalBins_range hg (pile_extents hn) (by omega : 0 ≤ edgeCount c)
  rw [hedge, Int.toNat_natCast] at hbins
  simp only [smoothedHistogram, bind_ok_iff, ensure_ok_iff, pure_ok_iff, hd, hcw, hbins, Except.ok.injEq, exists_eq_left'] at hm
  obtain ⟨h, hh, h', hpow, ab, hab, -, -, ys, hys, cs, hcs, rfl⟩ := hm
  obtain ⟨v, rest, rfl, hv0, hrest⟩ := pile_density hn h3 hh
  simp only [powAll, hp, bind_ok_iff, ensure_ok_iff, pure_ok_iff, Real.rpow_one, List.map_id'] at hpow
  obtain ⟨-, -, rfl⟩ := hpow
  simp only [marginalYs, hs, smoothHist, hk, if_true, bind, Except.bind, Option.getD_none, ne_eq, not_true_eq_false, decide_false,
    Bool.false_eq_true, if_false, mapM_ok_iff] at hys
  -- the first two bin centres
  obtain ⟨c0, c1, cr, hmid⟩ : ∃ c0 c1 cr, midpoints (linspace (3 / 2 : ℝ) (3999 / 2) k) = c0 :: c1 :: cr := by
    have : (midpoints (linspace (3 / 2 : ℝ) (3999 / 2) k)).length = k - 1 := by rw [midpoints_length, linspace_length]
    match hl : midpoints (linspace (3 / 2 : ℝ) (3999 / 2) k) with
    | [] => rw [hl] at this; simp at this; omega
    | [_] => rw [hl] at this; simp at this; omega
    | c0 :: c1 :: cr => exact ⟨_, _, _, rfl⟩
  have hc0 : c0 = 3 / 2 + 999 / ((k : ℝ) - 1) := by
    have := midpoints_linspace_getD (3 / 2) (3999 / 2) k 0 (by omega)
    rw [hmid, List.getD_cons_zero] at this
    rw [this]; push_cast; ring
  have hinc : (c0 :: c1 :: cr).Pairwise (· < ·) := by
    rw [← hmid]; exact midpoints_increasing (linspace_increasing (by norm_num) (by omega))
  have hc01 : c0 < c1 := by simp only [List.pairwise_cons, List.mem_cons, forall_eq_or_imp] at hinc; exact hinc.1.1
  rw [hmid] at hys hab
  obtain ⟨q, qs, rfl⟩ : ∃ q qs, rest = q :: qs := by
    have hl := (histDensity_ok (fun v hv => (hpos v hv).le) hh).2.1
    simp only [linspace_length, List.length_cons] at hl
    cases rest with
    | nil => simp at hl; omega
    | cons q qs => exact ⟨_, _, rfl⟩
  obtain ⟨i, ci, yi, g1, g2, g3, g4⟩ := C29_max_summary _ hv (c.cfg .summaryArea)
  have hx0 : x0 = ci := by
    rcases g4 with g4 | ⟨l, u, s, i1, i2, t, g4, -⟩ <;> rw [g4] at hsum <;> cases hsum <;> exact (Option.some.inj h2).symm
  rw [hx0, ← hc0]
  -- the highest value belongs to the first centre
  have hval : ∀ x y, interp1d (c0 :: c1 :: cr) (v :: q :: qs) x = .ok y → x = c0 ∧ y = v ∨ c0 < x ∧ y < v := by
    intro x y hxy
    unfold interp1d at hxy
    simp only [List.head?_cons] at hxy
    split at hxy
    · next a b ha hb' =>
      cases ha
      split at hxy
      · cases hxy
      next hx =>
      split at hxy
      · cases hxy
      cases hxy
      rcases (not_lt.1 hx).eq_or_lt with he | hlt
      · left
        refine ⟨he.symm, ?_⟩
        rw [← he]
        exact polyline_start (p := (c0, v)) (q := (c1, q)) hc01
      · right
        refine ⟨hlt, polyline_falls (p := (c0, v)) (q := (c1, q)) hv0 ?_ hlt⟩
        intro r hr
        exact hrest _ (List.of_mem_zip (a := r.1) (b := r.2) (l₁ := c1 :: cr) (l₂ := q :: qs) hr).2
    · cases hxy
  rw [List.forall₂_iff_get] at hys
  obtain ⟨hlen', hget⟩ := hys
  rw [linspace_length] at hlen'
  have hgs : 0 < gridSize := by unfold gridSize; norm_num
  have hab0 : ab.1 = c0 := by
    obtain ⟨ha, -⟩ := endpoints_ok hab
    simpa using ha.symm
  have hfirst : v ∈ ys := by
    have h0 := hget 0 (by simpa using hgs) (by omega)
    rw [List.get_eq_getElem, List.get_eq_getElem, linspace_getElem] at h0
    rcases hval _ _ h0 with ⟨-, h0⟩ | ⟨h0, -⟩
    · rw [← h0]; exact List.getElem_mem _
    · simp only [Nat.cast_zero, zero_mul, add_zero, hab0] at h0
      exact absurd h0 (lt_irrefl _)
  have hi : i < (linspace ab.1 ab.2 gridSize).length := by
    by_contra hne
    simp only [List.getElem?_eq_none (not_lt.1 hne)] at g1
    cases g1
  have hi' : i < ys.length := by rw [linspace_length] at hi; omega
  have h0 := hget i hi hi'
  rw [List.get_eq_getElem, List.get_eq_getElem] at h0
  simp only [List.getElem?_eq_getElem hi, List.getElem?_eq_getElem hi', Option.some.injEq] at g1 g2
  rw [g1, g2] at h0
  rcases hval _ _ h0 with ⟨h0, -⟩ | ⟨-, h0⟩
  · exact h0
  · exact absurd (g3 v hfirst) (not_le.2 h0)

/-- The settings of the witness: no smoothing, statistic `max`. -/
noncomputable def pileKw : List (Kwarg ℝ) := [⟨.smooth, some 0⟩, ⟨.statistics, some .max⟩]

theorem pile_chain (both : Bool) (n : Nat) (hn : 1 ≤ n) : ∃ c,
    Chain.make { samples := (pileFrame both n).toRaw, name := "c", config := pileKw } = .ok c ∧ c.samples = pileFrame both n ∧
    c.grid = false ∧ c.power = 1 ∧ c.smoothValue = 0 ∧ c.cfg .kde = (0 : ℝ) ∧ c.cfg .statistics = some Stat.max ∧
    c.cfg .multimodal = false ∧ c.cfg .bins = none ∧ c.samples.get "a" = .ok (pileData n) ∧ c.weights = .ok (pileWeights n) := by
  have hn' : (1 : ℝ) ≤ n := by exact_mod_cast hn
  have hw : (pileFrame both n).get "weight" = .ok (pileWeights n) := by cases both <;> rfl
  obtain ⟨c, h1, h2, h3, -, h5, h6, -, -, h9⟩ := plain_chain_cfg false pileKw rfl
    (by change (0 : ℝ) ≤ 6827 / 10000 ∧ (6827 / 10000 : ℝ) ≤ 1; constructor <;> norm_num)
    (by change (1 : ℝ) ≤ 10; norm_num) rfl rfl (by intro h; cases h) (pileFrame both n)
    ⟨by cases both <;> simp [pileFrame], by
      intro p hp
      cases both
      · simp only [pileFrame, List.mem_cons, Bool.false_eq_true, if_false, List.not_mem_nil, or_false] at hp
        rcases hp with rfl | rfl <;> simp [pileFrame, pileData, pileWeights]
      · simp only [pileFrame, List.mem_cons, if_true, List.not_mem_nil, or_false] at hp
        rcases hp with rfl | rfl | rfl <;> simp [pileFrame, pileData, pileWeights]⟩
    (by simp [pileFrame]; exact ⟨0, by omega⟩) hw (by
      intro v hv
      simp only [pileWeights, List.mem_cons, List.mem_replicate] at hv
      rcases hv with rfl | rfl | ⟨-, rfl⟩ <;> linarith) "c" 1 le_rfl (one_dvd _)
  refine ⟨c, h1, h2, h6, h5, ?_, by rw [h9]; rfl, by rw [h9]; rfl, by rw [h9]; rfl, by rw [h9]; rfl, ?_, ?_⟩
  · unfold Chain.smoothValue; rw [h9, h6]; rfl
  · rw [h2]; cases both <;> rfl
  · rw [Chain.weights, h2, h3, hw]

/-- **C69, violated for very many rows.** Two tables with the same columns "a" and "weight" and `2 * 101 ^ 4` rows, the second with
a further column "b": the chains made of them with the same arguments report different modes for "a", since the automatic number of
bins is computed from the number of rows divided by the number of columns (101 for two columns, 100 for three). -/
theorem C69_violated_rows : ∃ f g : Frame ℝ, f.index.length = 2 * 101 ^ 4 ∧ (∃ x, g.cols = f.cols ++ [("b", x)]) ∧
    AgreeOn ["weight", "a"] f.toRaw g.toRaw ∧
    ∃ c d, Chain.make { samples := f.toRaw, name := "c", config := pileKw } = .ok c ∧
      Chain.make { samples := g.toRaw, name := "c", config := pileKw } = .ok d ∧
      ∀ lib : Lib, KdeOk lib.kde → ∃ b b', Reported lib c "a" (.single b) ∧ Reported lib d "a" (.single b') ∧
        b.center = some (1149 / 100) ∧ b'.center = some (255 / 22) := by
  obtain ⟨N, hN⟩ : ∃ N, N = 2 * 101 ^ 4 := ⟨_, rfl⟩
  have h3 : 3 ≤ N := by rw [hN]; norm_num
  have hq : N / 2 = (101 ^ 2) ^ 2 := by rw [hN]; norm_num
  have hq' : N / 3 < (101 ^ 2) ^ 2 := by rw [hN]; norm_num
  rw [← hN]
  clear hN
  obtain ⟨n, rfl⟩ : ∃ n, N = n + 2 := ⟨N - 2, by omega⟩
  have hn1 : 1 ≤ n := by omega
  obtain ⟨c, c1, c2, c3, c4, c5, c6, c7, c8, c9, c10, c11⟩ := pile_chain false n hn1
  obtain ⟨d, d1, d2, d3, d4, d5, d6, d7, d8, d9, d10, d11⟩ := pile_chain true n hn1
  have hgs : gridSize = 10000 := by unfold gridSize; rfl
  have hcb : getBins c = (101 : ℕ) := by
    unfold getBins
    rw [c9, c5, c2]
    have e1 : (pileFrame false n).index.length = n + 2 := by simp [pileFrame]
    have e2 : (pileFrame false n).cols.length = 2 := by simp [pileFrame]
    rw [e1, e2, hq, Nat.sqrt_eq', Nat.sqrt_eq']
    rfl
  have hdb : getBins d = (100 : ℕ) := by
    unfold getBins
    rw [d9, d5, d2]
    have e1 : (pileFrame true n).index.length = n + 2 := by simp [pileFrame]
    have e2 : (pileFrame true n).cols.length = 3 := by simp [pileFrame]
    have e3 : Nat.sqrt (Nat.sqrt ((n + 2) / 3)) < 101 := by
      rw [Nat.sqrt_lt', Nat.sqrt_lt']; exact hq'
    rw [e1, e2]
    simp only [lt_irrefl, if_false]
    omega
  refine ⟨pileFrame false n, pileFrame true n, by simp [pileFrame], ⟨_, rfl⟩, ⟨rfl, ?_⟩, c, d, c1, d1, ?_⟩
  · intro p hp
    simp only [List.mem_cons, List.not_mem_nil, or_false] at hp
    rcases hp with rfl | rfl <;> rfl
  intro lib hlib
  obtain ⟨b, hb, hbc⟩ := pile_centre lib.kde hlib c3 c6 c7 hn1 c10 c11 c5 c4 hcb (by norm_num) (by rw [hgs]; norm_num)
  obtain ⟨b', hb', hbc'⟩ := pile_centre lib.kde hlib d3 d6 d7 hn1 d10 d11 d5 d4 hdb (by norm_num) (by rw [hgs]; norm_num)
  refine ⟨b, b', reported_iff.2 ⟨?_, ?_⟩, reported_iff.2 ⟨?_, ?_⟩, ?_, ?_⟩
  · rw [c2]; simp [pileFrame, Frame.columns]
  · simp [summaryEntry, hb, c8, bind, Except.bind, pure, Except.pure]
  · rw [d2]; simp [pileFrame, Frame.columns]
  · simp [summaryEntry, hb', d8, bind, Except.bind, pure, Except.pure]
  · rw [hbc]; norm_num
  · rw [hbc']; norm_num

end CC
