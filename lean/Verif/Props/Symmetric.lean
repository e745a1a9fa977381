import Verif.Props.SignConvention
import Verif.Lemmas.TwoPoint

/-! # C130: symmetric distributions -/

set_option linter.unusedSectionVars false

namespace CC
open Spec

/-- A weighted sample that is its own mirror image about `s`, but for the order of the rows. -/
def Spec.SymmetricAbout (s : ℝ) (data w : List ℝ) : Prop := ((data.map fun x => 2 * s - x).zip w).Perm (data.zip w)

theorem symmetric_mass {s : ℝ} {data w : List ℝ} (h : SymmetricAbout s data w) (hl : w.length = data.length) :
    SameMass (data.map (affine 1 (-(2 * s)))) w (data.map (- ·)) w := by
  have hz : ((data.map (- ·)).zip w).Perm ((data.map (affine 1 (-(2 * s)))).zip w) := by
    have := h.map fun e : ℝ × ℝ => (e.1 - 2 * s, e.2)
    have e1 : (((data.map fun x => 2 * s - x).zip w).map fun e : ℝ × ℝ => (e.1 - 2 * s, e.2)) = (data.map (- ·)).zip w := by
      rw [List.zip_map_left, List.map_map, List.zip_map_left]
      refine List.map_congr_left fun e _ => ?_
      simp [Prod.map]
    have e2 : ((data.zip w).map fun e : ℝ × ℝ => (e.1 - 2 * s, e.2)) = (data.map (affine 1 (-(2 * s)))).zip w := by
      rw [List.zip_map_left]
      refine List.map_congr_left fun e _ => ?_
      simp [affine, Prod.map, sub_eq_add_neg]
    rwa [e1, e2] at this
  refine ⟨by simpa using hl, by simpa using hl, fun x => ?_, fun g => (hz.map _).sum_eq⟩
  have h1 : ((data.map (- ·)).zip w).map Prod.fst = data.map (- ·) := List.map_fst_zip (by simp [hl])
  have h2 : ((data.map (affine 1 (-(2 * s)))).zip w).map Prod.fst = data.map (affine 1 (-(2 * s))) := List.map_fst_zip (by simp [hl])
  rw [← h1, ← h2]
  exact (hz.map _).mem_iff

/-- The marginal of a symmetric sample on an even grid is symmetric. -/
theorem symmetric_marginal {kde : KdeFn} {c : Chain ℝ} (hc : AcceptedNoShift c) (hg : c.grid = true) (hk : (c.cfg .kde : ℝ) = 0)
    {col : String} (hcol : col ≠ c.weightColumn) {data w : List ℝ} (hd : c.samples.get col = .ok data) (hw : c.weights = .ok w)
    {v h : ℝ} {n : Nat} (he : EvenGrid data v h n) {s : ℝ} (hsym : SymmetricAbout s data w) {pad : Bool}
    {m : Marginal ℝ} (hm : smoothedHistogram kde c col pad none = .ok m) :
    (∀ y ∈ m.ys, 0 < y) ∧ m.xs = linspace v (v + (n - 1 : Nat) * h) gridSize ∧ m.ys.length = gridSize ∧
      m.cs = (cumsum m.ys).map (· / m.ys.sum) ∧ mirror m.xs = m.xs.map (affine 1 (-(2 * s))) ∧ m.ys.reverse = m.ys := by
  obtain ⟨a, hwf, hshift, hmk⟩ := hc
  obtain ⟨hWF, -, -, -, ⟨w', hw', hwl, hpos⟩, -⟩ := C07_accepted_chain_guarantees a c hwf hshift hmk
  rw [hw] at hw'
  cases hw'
  have hlen : w.length = data.length := by
    rw [hwl]
    exact (hWF.2 _ (get_mem hd)).symm
  obtain ⟨hy, hxs, hyl, hcs, hfl⟩ := marginal_flipped hg hk hcol hd hw hpos hlen he hm
  have hne : data ≠ [] := by
    rintro rfl
    exact absurd ((he.2.2 v).2 ⟨0, by have := he.2.1; omega, by simp⟩) (by simp)
  have haff := smoothedHistogram_affine kde one_pos (-(2 * s)) c col hcol pad none (by simp [hk]) hw (by
    intro d hd'
    rw [hd] at hd'
    cases hd'
    exact ⟨hlen, hne⟩) hpos
  rw [hm] at haff
  have hget : ∀ (p q : ℝ), (rescaled c col p q).samples.get col = .ok (data.map (affine p q)) := by
    intro p q
    rw [rescaled_get, if_pos rfl, hd]
    rfl
  have hwt : ∀ (p q : ℝ), (rescaled c col p q).weights = .ok w := by
    intro p q
    rw [← hw, Chain.weights, Chain.weights]
    change (rescaled c col p q).samples.get c.weightColumn = _
    rw [rescaled_get, if_neg hcol.symm]
  have hneg : data.map (affine (-1) 0) = data.map (- ·) := by simp [affine]
  have hmass := smoothedHistogram_mass kde (rescaled c col 1 (-(2 * s))) (flipped c col) col pad rfl rfl rfl (.inl hg) hk
    (hget _ _) (hwt _ _) (hneg ▸ hget (-1) 0) (hwt _ _) (symmetric_mass hsym hlen)
  rw [hfl, haff] at hmass
  simp only [Except.map, Except.ok.injEq, Marginal.mk.injEq, rescaleMarginal, div_one, Real.one_rpow, one_mul, List.map_id'] at hmass
  obtain ⟨hmx, hmy, -⟩ := hmass
  exact ⟨hy, hxs, hyl, hcs, hmx, hmy⟩

/-- **C130** (partial). The full property: if the samples are symmetric about `s`, the interval is centred on `s`, and so are the
median and the centre of the mean summary. For grids all are centred half a step of the fine grid below it, whatever the data: see
`C130_violated`. -/
theorem C130_symmetric_partial (kde : KdeFn) (c : Chain ℝ) (hc : AcceptedNoShift c) (hg : c.grid = true) (hk : (c.cfg .kde : ℝ) = 0)
    (col : String) (hcol : col ≠ c.weightColumn) (data w : List ℝ) (hd : c.samples.get col = .ok data) (hw : c.weights = .ok w)
    (v h : ℝ) (n : Nat) (he : EvenGrid data v h n) (s : ℝ) (hsym : SymmetricAbout s data w) (hs : EqualTailedStat (c.cfg .statistics))
    (l x u : ℝ) (h1 : parameterSummary kde c col = .ok ⟨some l, some x, some u⟩) :
    (l + u) / 2 = s - (n - 1 : Nat) * h / 9999 / 2 ∧
      (c.cfg .statistics ≠ some .maxCentral → x = s - (n - 1 : Nat) * h / 9999 / 2) := by
  obtain ⟨m, l1, u1, hm, e1, e2, hl, hu, hx, hmean⟩ := equal_tailed_parts hs h1
  cases e1
  cases e2
  obtain ⟨hy, hxs, hyl, hcs, hmx, hmy⟩ := symmetric_marginal hc hg hk hcol hd hw he hsym hm
  have hxl : m.xs.length = m.ys.length := by rw [hxs, hyl, linspace_length]
  have hgs := two_le_gridSize
  have hstep : ∀ i (hi : i + 1 < m.xs.length), m.xs[i + 1] = m.xs[i] + (n - 1 : Nat) * h / 9999 := by
    intro i hi
    simp only [hxs, linspace_getElem, gridSize_eq]
    push_cast
    ring
  have key : ∀ {q y z : ℝ}, interp1d m.cs m.xs q = .ok y → interp1d m.cs m.xs (1 - q) = .ok z →
      y + z = 2 * s - (n - 1 : Nat) * h / 9999 := by
    intro q y z hy1 hz
    have hlc : m.xs.length = m.cs.length := by rw [hcs, List.length_map, cumsum_length, hxl]
    have hz' : interp1d ((cumsum m.ys.reverse).map (· / m.ys.sum)) (mirror m.xs) (1 - q) = .ok (z - 2 * s) := by
      rw [hmx, hmy, ← hcs, interp1d_map_right _ _ _ _ _ hlc, hz]
      simp [Except.map, affine, sub_eq_add_neg]
    rw [hcs] at hy1
    have := quantile_mirror hy hxl (by omega) hstep hy1 hz'
    linarith
  have k1 := key hl (by rw [show (1 - (1 / 2 - c.cfg .summaryArea / 2) : ℝ) = 1 / 2 + c.cfg .summaryArea / 2 by ring]; exact hu)
  refine ⟨by linarith, fun hne => ?_⟩
  rcases hs with hs | hs | hs
  · obtain ⟨x1, e1, hx1⟩ := hx hs
    cases e1
    have := key hx1 (by rw [show (1 - 1 / 2 : ℝ) = 1 / 2 by norm_num]; exact hx1)
    linarith
  · have e1 := hmean hs
    cases e1
    linarith
  · exact absurd hs hne

/-- **C130** (negation, for every such chain). -/
theorem C130_violated (kde : KdeFn) (c : Chain ℝ) (hc : AcceptedNoShift c) (hg : c.grid = true) (hk : (c.cfg .kde : ℝ) = 0)
    (col : String) (hcol : col ≠ c.weightColumn) (data w : List ℝ) (hd : c.samples.get col = .ok data) (hw : c.weights = .ok w)
    (v h : ℝ) (n : Nat) (he : EvenGrid data v h n) (s : ℝ) (hsym : SymmetricAbout s data w) (hs : EqualTailedStat (c.cfg .statistics))
    (l x u : ℝ) (h1 : parameterSummary kde c col = .ok ⟨some l, some x, some u⟩) :
    (l + u) / 2 < s ∧ (c.cfg .statistics ≠ some .maxCentral → x < s) := by
  obtain ⟨r1, r2⟩ := C130_symmetric_partial kde c hc hg hk col hcol data w hd hw v h n he s hsym hs l x u h1
  have hn : (0 : ℝ) < (n - 1 : Nat) := by
    have := he.2.1
    exact_mod_cast (by omega : 0 < n - 1)
  have hd0 : 0 < ((n - 1 : Nat) : ℝ) * h / 9999 := by
    have := mul_pos hn he.1
    linarith
  exact ⟨by linarith, fun hne => by have := r2 hne; linarith⟩

/-- A grid of the points 0 and 1 with equal weights, summarised by the median. -/
noncomputable def evenArgs (s : Stat) : Args ℝ :=
  { samples := (twoFrame 1 1).toRaw, name := "even", grid := true, config := [⟨.statistics, some s⟩] }

theorem even_chain (kde : KdeFn) (hkde : KdeOk kde) : ∃ c, Chain.make (evenArgs .cumulative) = .ok c ∧ AcceptedNoShift c ∧
    c.grid = true ∧ (c.cfg .kde : ℝ) = 0 ∧ "a" ≠ c.weightColumn ∧ c.samples.get "a" = .ok [0, 1] ∧ c.weights = .ok [1, 1] ∧
    EvenGrid [0, 1] 0 1 2 ∧ SymmetricAbout (1 / 2) [0, 1] [1, 1] ∧ c.cfg .statistics = some .cumulative ∧
    ∃ l x u, parameterSummary kde c "a" = .ok ⟨some l, some x, some u⟩ := by
  obtain ⟨c, hc, hsam, hwc, -, hp, hg, -, -, hcfg⟩ :=
    plain_chain_cfg (K := ℝ) true [⟨.statistics, some .cumulative⟩] rfl
      (by change (0 : ℝ) ≤ 6827 / 10000 ∧ (6827 / 10000 : ℝ) ≤ 1; constructor <;> norm_num)
      (by change (1 : ℝ) ≤ 10; norm_num) rfl rfl (by intro h; cases h) (twoFrame 1 1) (twoFrame_wf 1 1)
      (by simp [twoFrame]) (w := [1, 1]) rfl (by simp) "even" 1 le_rfl (one_dvd _)
  have hd : c.samples.get "a" = .ok [0, 1] := by rw [hsam]; rfl
  have hw : c.weights = .ok [1, 1] := by rw [Chain.weights, hsam, hwc]; rfl
  have hk : (c.cfg .kde : ℝ) = 0 := by rw [hcfg]; rfl
  have hst : c.cfg .statistics = some .cumulative := by rw [hcfg]; rfl
  have har : (c.cfg .summaryArea : ℝ) = 6827 / 10000 := by rw [hcfg]; rfl
  have hsm : c.smoothValue = 0 := by
    have : c.cfg .smooth = none := by rw [hcfg]; rfl
    simp only [Chain.smoothValue, this, hg, if_true]
  obtain ⟨m, hm, hv, hxs, hys⟩ := two_marginal (u := 1) (v := 1) hd hw hg hk hsm hp one_pos one_pos hkde false
  have hb : ∀ y ∈ m.ys, 1 / 4 ≤ y ∧ y ≤ 3 / 4 := by
    intro y hy
    rw [hys] at hy
    obtain ⟨x, -, rfl⟩ := List.mem_map.1 hy
    norm_num
  obtain ⟨l, x, u, h1⟩ := equal_tails_reported hv hb (by rw [hys]; simp)
  have he : EvenGrid [0, 1] 0 1 2 := by
    refine ⟨one_pos, le_rfl, fun x => ?_⟩
    constructor
    · intro hx
      rcases List.mem_cons.1 hx with rfl | hx
      · exact ⟨0, by omega, by simp⟩
      · rw [List.mem_singleton] at hx
        exact ⟨1, by omega, by simp [hx]⟩
    · rintro ⟨i, hi, rfl⟩
      interval_cases i <;> simp
  have hsym : SymmetricAbout (1 / 2) [0, 1] [1, 1] := by
    unfold SymmetricAbout
    simp only [List.map_cons, List.map_nil, List.zip_cons_cons, List.zip_nil_right]
    norm_num
    exact List.Perm.swap _ _ _
  exact ⟨c, hc, ⟨_, toRaw_WF.2 (twoFrame_wf 1 1), rfl, hc⟩, hg, hk, by rw [hwc]; decide, hd, hw, he, hsym, hst, l, x, u,
    by simp only [parameterSummary, hst, har, hm, bind, Except.bind, h1]⟩

/-- **C130** (negation, concrete). The median of the points 0 and 1, of equal weight, is 4999/9999. -/
theorem C130_violated_chain (kde : KdeFn) (hkde : KdeOk kde) : ∃ c, Chain.make (evenArgs .cumulative) = .ok c ∧
    ∃ l x u, parameterSummary kde c "a" = .ok ⟨some l, some x, some u⟩ ∧ x = 4999 / 9999 := by
  obtain ⟨c, hc, ha, hg, hk, hcol, hd, hw, he, hsym, hst, l, x, u, h1⟩ := even_chain kde hkde
  obtain ⟨-, r⟩ := C130_symmetric_partial kde c ha hg hk "a" hcol _ _ hd hw 0 1 2 he _ hsym (.inl hst) l x u h1
  have r := r (by rw [hst]; simp)
  norm_num at r
  exact ⟨c, hc, l, x, u, h1, r⟩

end CC
