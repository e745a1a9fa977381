import Verif.Lemmas.Affine

/-! # C38: units and origin -/

set_option linter.unusedSectionVars false

namespace CC
open Spec

section
variable {K : Type} [Field K] [LinearOrder K] [IsStrictOrderedRing K]

/-- The chain with parameter `col` given in other units: every value `x` of that column is replaced by
`a x + b`. -/
def Spec.rescaled (c : Chain K) (col : String) (a b : K) : Chain K :=
  { c with samples := { c.samples with
      cols := c.samples.cols.map fun e => if e.1 = col then (e.1, e.2.map fun x => a * x + b) else e } }

/-- A summary in other units. -/
def Spec.rescaleBound (a b : K) (s : Bound K) : Bound K :=
  ⟨s.lower.map fun x => a * x + b, s.center.map fun x => a * x + b, s.upper.map fun x => a * x + b⟩

/-- A marginal in other units, the density multiplied by `k`. -/
def rescaleMarginal (a b k : K) (m : Marginal K) : Marginal K :=
  ⟨m.xs.map (affine a b), m.ys.map (k * ·), m.cs⟩

theorem rescaled_get (c : Chain K) (col n : String) (a b : K) : (rescaled c col a b).samples.get n =
    if n = col then (c.samples.get n).map (List.map (affine a b)) else c.samples.get n := by
  simp only [rescaled, Frame.get]
  induction c.samples.cols with
  | nil => simp [Except.map]
  | cons e es ih =>
    obtain ⟨k, v⟩ := e
    by_cases hk : k = col
    · subst hk
      simp only [List.map_cons, if_true, List.lookup_cons]
      by_cases hn : n = k
      · subst hn; simp [Except.map, affine]
      · have : (n == k) = false := by simpa using hn
        simp only [this, hn, if_false] at ih ⊢
        exact ih
    · simp only [List.map_cons, if_neg hk, List.lookup_cons]
      by_cases hn : n = k
      · subst hn; simp [hk]
      · have : (n == k) = false := by simpa using hn
        simp only [this]
        exact ih

theorem interp1d_map_right (p q : K) (xp fp : List K) (x : K) (hl : fp.length = xp.length) :
    interp1d xp (fp.map (affine p q)) x = (interp1d xp fp x).map (affine p q) := by
  have h := interp1d_affine (a := 1) (b := 0) one_pos p q xp fp x hl
  have e : affine (1 : K) 0 = id := by funext y; simp [affine]
  simpa [e] using h

theorem affine_zero (k : K) : affine k 0 = (k * ·) := by funext y; simp [affine]

theorem equalTailed_rescale (a b k : K) {m : Marginal K} (hl : m.cs.length = m.xs.length) (area : K) :
    equalTailed (rescaleMarginal a b k m) area =
      (equalTailed m area).map fun t => (affine a b t.1, affine a b t.2.1, affine a b t.2.2) := by
  unfold equalTailed
  simp only [rescaleMarginal, interp1d_map_right a b _ _ _ hl.symm, map_bind, bind_map]
  rfl

theorem summaryMean_rescale (a b k : K) {m : Marginal K} (hl : m.cs.length = m.xs.length) (area : K) :
    summaryMean (rescaleMarginal a b k m) area = (summaryMean m area).map (rescaleBound a b) := by
  unfold summaryMean
  rw [equalTailed_rescale a b k hl, map_bind, bind_map]
  refine bind_congr fun t _ => ?_
  simp only [pure, Except.pure, Except.map, rescaleBound, affine, Option.map_some]
  congr 3
  ring

theorem summaryCumulative_rescale (a b k : K) {m : Marginal K} (hl : m.cs.length = m.xs.length) (area : K) :
    summaryCumulative (rescaleMarginal a b k m) area = (summaryCumulative m area).map (rescaleBound a b) := by
  unfold summaryCumulative
  rw [equalTailed_rescale a b k hl, map_bind, bind_map]
  rfl

theorem arrArgmax_scale {k : K} (hk : 0 < k) (l : List K) : arrArgmax (l.map (k * ·)) = arrArgmax l := by
  unfold arrArgmax
  rw [argmax_scale hk]

theorem summaryMaxCentral_rescale (a b : K) {k : K} (hk : 0 < k) {m : Marginal K}
    (hl : m.cs.length = m.xs.length) (area : K) :
    summaryMaxCentral (rescaleMarginal a b k m) area = (summaryMaxCentral m area).map (rescaleBound a b) := by
  unfold summaryMaxCentral
  simp only [rescaleMarginal, interp1d_map_right a b _ _ _ hl.symm, map_bind, bind_map, arrArgmax_scale hk,
    atIndex_map]
  rfl

theorem endpoints_map (f : K → K) (l : List K) : endpoints (l.map f) = (endpoints l).map (Prod.map f f) := by
  unfold endpoints
  rw [List.head?_map, List.getLast?_map]
  cases l.head? <;> cases l.getLast? <;> rfl

theorem linspace_scale (k u v : K) (n : Nat) : linspace (k * u) (k * v) n = (linspace u v n).map (k * ·) := by
  have := linspace_affine k 0 u v n
  rwa [affine_zero] at this

theorem padded_rescale (a b k : K) (m : Marginal K) (pad : Nat) :
    padded (rescaleMarginal a b k m) pad =
      (padded m pad).map (Prod.map (List.map (affine a b)) (List.map (k * ·))) := by
  unfold padded
  simp only [rescaleMarginal, endpoints_map, bind_map, map_bind]
  refine bind_congr fun xe _ => bind_congr fun ye _ => ?_
  simp only [pure, Except.pure, Except.map, Prod.map, List.map_append, List.map_replicate, ← linspace_scale,
    mul_zero]

theorem summaryMax_rescale (a b : K) {k : K} (hk : 0 < k) (m : Marginal K) (area : K) :
    summaryMax (rescaleMarginal a b k m) area = (summaryMax m area).map (rescaleBound a b) := by
  unfold summaryMax
  rw [padded_rescale, bind_map, map_bind]
  refine bind_congr fun p _ => ?_
  simp only [Prod.map, cumsum_scale, arrMax, npMax_scale hk, bind_map, map_bind, arrArgmax_scale hk, atIndex_map,
    List.map_map]
  refine bind_congr fun total _ => ?_
  simp only [ne_eq, mul_eq_zero, hk.ne', false_or]
  refine bind_congr fun _ _ => bind_congr fun start _ => bind_congr fun top _ => bind_congr fun xc _ => ?_
  have h1 : ((fun x => x / (k * total)) ∘ fun x => k * x) = fun x => x / total := by
    funext x
    exact mul_div_mul_left _ _ hk.ne'
  have h2 := maxLoop_scale hk p.2 ((cumsum p.2).map (· / total)) start area 50 top 0
  rw [mul_zero] at h2
  rw [h1, h2]
  refine bind_congr fun r _ => ?_
  cases r with
  | none => rfl
  | some i =>
    simp only [map_bind]
    rfl

end

/-! ### The marginal -/

theorem linspace_const (x : ℝ) (n : Nat) : linspace x x n = List.replicate n x := by
  unfold linspace
  refine List.eq_replicate_iff.2 ⟨by simp, fun y hy => ?_⟩
  obtain ⟨i, -, rfl⟩ := List.mem_map.1 hy
  simp

theorem histDensity_flat (x : ℝ) (n : Nat) (d w : List ℝ) :
    histDensity (linspace x x n) d w = .error .unmodelled := by
  rw [linspace_const]
  have h1 : histogram (List.replicate n x) d w =
      .ok ((List.range ((List.replicate n x).length - 1)).map (binMass (List.replicate n x) d w)) := by
    refine histogram_ok_iff.2 ⟨?_, rfl⟩
    rw [all_tail_iff]
    refine List.isChain_iff_getElem.2 fun i hi => ?_
    simp
  rcases Nat.lt_or_ge n 2 with hn | hn
  · have h2 : (List.range ((List.replicate n x).length - 1)) = [] := by
      rw [List.length_replicate, show n - 1 = 0 by omega]; rfl
    rw [h2] at h1
    simp only [histDensity, h1, bind, Except.bind, List.map_nil, List.sum_nil]
    have : (List.zipWith (fun l r => decide (l ≠ r)) (List.replicate n x) (List.replicate n x).tail).all id
        = true := by
      have h3 : (List.replicate n x).tail = [] := by
        rw [← List.length_eq_zero_iff]; simp; omega
      rw [h3]; simp
    rw [this]
    simp [ensure]
  · have : (List.zipWith (fun l r => decide (l ≠ r)) (List.replicate n x) (List.replicate n x).tail).all id
        = false := by
      obtain ⟨k, rfl⟩ : ∃ k, n = k + 2 := ⟨n - 2, by omega⟩
      simp [List.replicate_succ]
    simp only [histDensity, h1, bind, Except.bind, this]
    rfl

/-- A constant parameter has no marginal; the kind of failure depends on the settings only. -/
theorem smoothedHistogram_const (kde : KdeFn) (c : Chain ℝ) (col : String) (pad : Bool) (u : Option Bool)
    {data w : List ℝ} (hd : c.samples.get col = .ok data) (hw : c.weights = .ok w)
    (hl : w.length = data.length) (hpos : ∀ v ∈ w, 0 < v) (hne : data ≠ []) (x : ℝ)
    (hx : ∀ y ∈ data, y = x) :
    smoothedHistogram kde c col pad u = .error (if c.grid then .index else
      if (if c.smoothValue = 0 then getBins c else 2 * c.smoothValue * getBins c) < 0 then .value
      else .unmodelled) := by
  unfold smoothedHistogram marginalBins
  simp only [hd, hw, bind, Except.bind]
  by_cases hg : c.grid = true
  · simp only [hg, if_true, C46_constant data x hx]
  · simp only [hg, getSmoothedBins, C45_constant data w hl hpos x hx hne, bind, Except.bind, linspaceInt]
    by_cases hs : c.smoothValue = 0
    · simp only [hs, if_true]
      by_cases hn : getBins c < 0
      · simp [hn]
      · simp [hn, pure, Except.pure, histDensity_flat]
    · simp only [hs, if_false]
      by_cases hn : 2 * c.smoothValue * getBins c < 0
      · simp [hn]
      · simp [hn, pure, Except.pure, histDensity_flat]

theorem marginalBins_affine {a b : ℝ} (ha : 0 < a) (c c' : Chain ℝ) {data : List ℝ} (w : List ℝ)
    (h1 : c'.grid = c.grid) (h2 : c'.smoothValue = c.smoothValue) (h3 : getBins c' = getBins c)
    (hne : ∃ x ∈ data, ∃ y ∈ data, x < y) (pad : Bool) :
    marginalBins c' (data.map (affine a b)) w pad =
      (marginalBins c data w pad).map (List.map (affine a b)) := by
  unfold marginalBins
  rw [h1, h2, h3]
  by_cases hg : c.grid = true
  · rw [if_pos hg, if_pos hg, getGridBins_affine ha]
  · rw [if_neg hg, if_neg hg, getSmoothedBins_affine ha w hne, bind_map, map_bind]
    rfl

/-- The marginal of a rescaled parameter, without KDE. -/
theorem smoothedHistogram_affine (kde : KdeFn) {a : ℝ} (ha : 0 < a) (b : ℝ) (c : Chain ℝ) (col : String)
    (hcol : col ≠ c.weightColumn) (pad : Bool) (u : Option Bool)
    (hu : u.getD (decide (c.cfg .kde ≠ (0 : ℝ))) = false) {w : List ℝ} (hw : c.weights = .ok w)
    (hl : ∀ data, c.samples.get col = .ok data → w.length = data.length ∧ data ≠ [])
    (hpos : ∀ v ∈ w, 0 < v) :
    smoothedHistogram kde (rescaled c col a b) col pad u =
      (smoothedHistogram kde c col pad u).map (rescaleMarginal a b ((1 / a) ^ c.power)) := by
  have hget := rescaled_get c col col a b
  rw [if_pos rfl] at hget
  have hwt : (rescaled c col a b).weights = .ok w := by
    have := rescaled_get c col c.weightColumn a b
    rw [if_neg hcol.symm] at this
    rw [← hw]
    exact this
  cases hd : c.samples.get col with
  | error e =>
    rw [hd] at hget
    simp only [smoothedHistogram, hget, hd, bind, Except.bind, Except.map]
  | ok data =>
    rw [hd] at hget
    have hget : (rescaled c col a b).samples.get col = .ok (data.map (affine a b)) := hget
    obtain ⟨hlen, hne⟩ := hl data hd
    have hbins : getBins (rescaled c col a b) = getBins c := by
      simp only [getBins, rescaled, List.length_map]
      rfl
    by_cases hcst : ∃ x ∈ data, ∃ y ∈ data, x < y
    · unfold smoothedHistogram
      simp only [hget, hd, hw, hwt]
      change (marginalBins _ _ _ _ >>= _) = Except.map _ (marginalBins _ _ _ _ >>= _)
      rw [marginalBins_affine ha c (rescaled c col a b) w rfl rfl hbins hcst pad, bind_map, map_bind]
      refine bind_congr fun bins _ => ?_
      rw [histDensity_affine ha, bind_map, map_bind]
      refine bind_congr fun hist hh => ?_
      have hnn := (histDensity_ok (fun v hv => (hpos v hv).le) hh).2
      rw [show (rescaled c col a b).power = c.power from rfl, powAll_scale (by positivity) hnn.2, bind_map, map_bind]
      refine bind_congr fun hist' hp => ?_
      have hnn' := powAll_ok hnn.2 hp
      rw [midpoints_affine, endpoints_map, bind_map, map_bind]
      refine bind_congr fun ab _ => ?_
      rw [List.length_map, map_bind]
      refine bind_congr fun _ _ => ?_
      simp only [Prod.map, linspace_affine]
      have hys : marginalYs kde (rescaled c col a b) u (data.map (affine a b)) w (bins.map (affine a b))
          (hist'.map ((1 / a) ^ c.power * ·)) (affine a b ab.1) (affine a b ab.2)
          ((linspace ab.1 ab.2 gridSize).map (affine a b)) =
          (marginalYs kde c u data w bins hist' ab.1 ab.2 (linspace ab.1 ab.2 gridSize)).map
            (List.map ((1 / a) ^ c.power * ·)) := by
        unfold marginalYs
        rw [show (rescaled c col a b).smoothValue = c.smoothValue from rfl,
          show (rescaled c col a b).cfg = c.cfg from rfl, smoothHist_scale, bind_map, map_bind]
        refine bind_congr fun h hs => ?_
        have hln := (smoothHist_ok hnn'.2 hs).1
        simp only [hu, Bool.false_eq_true, if_false]
        rw [midpoints_affine]
        refine mapM_map_res _ _ _ _ (fun x => ?_) _
        rw [← affine_zero]
        refine interp1d_affine ha _ _ _ _ _ ?_
        rw [hln, hnn'.1, hnn.1, midpoints_length]
      rw [hys, bind_map, map_bind]
      refine bind_congr fun ys _ => ?_
      rw [normCumsum_scale (by positivity), map_bind]
      rfl
    · -- constant data: the same failure
      obtain ⟨x, hx⟩ := List.exists_mem_of_ne_nil _ hne
      have hall : ∀ y ∈ data, y = x := by
        intro y hy
        rcases lt_trichotomy x y with h | h | h
        · exact absurd ⟨x, hx, y, hy, h⟩ hcst
        · exact h.symm
        · exact absurd ⟨y, hy, x, hx, h⟩ hcst
      rw [smoothedHistogram_const kde c col pad u hd hw hlen hpos hne x hall,
        smoothedHistogram_const kde (rescaled c col a b) col pad u hget hwt (by simpa using hlen) hpos
          (by simpa using hne) (affine a b x) (by
            intro y hy
            obtain ⟨z, hz, rfl⟩ := List.mem_map.1 hy
            rw [hall z hz]), hbins]
      rfl

theorem marginal_lengths {kde : KdeFn} {c : Chain ℝ} {col : String} {pad : Bool} {u : Option Bool}
    (hu : u.getD (decide (c.cfg .kde ≠ (0 : ℝ))) = false) {m : Marginal ℝ}
    (h : smoothedHistogram kde c col pad u = .ok m) : m.cs.length = m.xs.length := by
  simp only [smoothedHistogram, bind_ok_iff, pure_ok_iff] at h
  obtain ⟨data, -, w, -, bins, -, hist, -, hist', -, ab, -, _, -, ys, hys, cs, hcs, rfl⟩ := h
  simp only [marginalYs, hu, Bool.false_eq_true, if_false, bind_ok_iff] at hys
  obtain ⟨h2, -, hys⟩ := hys
  have h1 := (mapM_ok_iff.1 hys).length_eq
  simp only [normCumsum, bind_ok_iff, pure_ok_iff] at hcs
  obtain ⟨_, _, _, _, rfl⟩ := hcs
  simp [h1]

/-- The facts about an accepted chain used below. -/
theorem accepted_column {c : Chain ℝ} (hc : AcceptedNoShift c) : ∃ w, c.weights = .ok w ∧ (∀ v ∈ w, 0 < v) ∧
    (∀ col data, c.samples.get col = .ok data → w.length = data.length ∧ data ≠ []) ∧
    ∃ s, c.cfg .statistics = some s := by
  obtain ⟨args, hwf, hsh, hmk⟩ := hc
  obtain ⟨hWF, -, hidx, -, ⟨w, hw, hwl, hpos⟩, -, ⟨s, hs, -⟩, -⟩ :=
    C07_accepted_chain_guarantees args c hwf hsh hmk
  refine ⟨w, hw, hpos, fun col data hd => ?_, s, hs⟩
  have : data.length = c.samples.index.length := by
    unfold Frame.get at hd
    cases hlk : c.samples.cols.lookup col with
    | none => rw [hlk] at hd; cases hd
    | some v =>
      rw [hlk] at hd
      cases hd
      exact hWF.2 _ (lookup_mem hlk)
  refine ⟨by omega, ?_⟩
  rintro rfl
  exact hidx (List.length_eq_zero_iff.1 this.symm)

/-- **C38**. Let `c` be an accepted chain without KDE, with one of the statistics mean, cumulative,
max_central or max. Expressing a parameter in other units (`x` becomes `a x + b` with `a > 0`) changes
the bounds of its summary in the same way; if no summary can be computed, the failure is the same. -/
theorem C38_units (kde : KdeFn) (c : Chain ℝ) (hc : AcceptedNoShift c) (hkde : c.cfg .kde = (0 : ℝ))
    (hstat : c.cfg .statistics ≠ some .hdi) (col : String) (hcol : col ≠ c.weightColumn) (a b : ℝ)
    (ha : 0 < a) :
    parameterSummary kde (rescaled c col a b) col =
      (parameterSummary kde c col).map (rescaleBound a b) := by
  obtain ⟨w, hw, hpos, hl, s, hs⟩ := accepted_column hc
  have hu : (none : Option Bool).getD (decide (c.cfg .kde ≠ (0 : ℝ))) = false := by simp [hkde]
  have hm := smoothedHistogram_affine kde ha b c col hcol false none hu hw (hl col) hpos
  unfold parameterSummary
  rw [show (rescaled c col a b).cfg = c.cfg from rfl, hs]
  cases s with
  | hdi => exact absurd hs hstat
  | mean =>
    simp only [hm, map_bind, bind_map]
    exact bind_congr fun m hm => summaryMean_rescale _ _ _ (marginal_lengths hu hm) _
  | cumulative =>
    simp only [hm, map_bind, bind_map]
    exact bind_congr fun m hm => summaryCumulative_rescale _ _ _ (marginal_lengths hu hm) _
  | maxCentral =>
    simp only [hm, map_bind, bind_map]
    exact bind_congr fun m hm => summaryMaxCentral_rescale _ _ (by positivity) (marginal_lengths hu hm) _
  | max =>
    simp only [hm, map_bind, bind_map]
    exact bind_congr fun m hm => summaryMax_rescale _ _ (by positivity) _ _

/-! ### HDI: changes of the origin -/

section
variable {K : Type} [Field K] [LinearOrder K] [IsStrictOrderedRing K]

/-- The best interval in another origin. -/
def shiftBest (t : K) (b : HdiBest K) : HdiBest K := { b with lower := b.lower + t, upper := b.upper + t }

theorem hdiUpdate_shift (cdf xp : List K) (t : K) {i e : Nat} (hi : i < xp.length) (he : e < xp.length) (sm : K)
    (b : HdiBest K) : hdiUpdate cdf (xp.map (affine 1 t)) i e sm (shiftBest t b) =
      shiftBest t (hdiUpdate cdf xp i e sm b) := by
  have hd : affine 1 t (xp.getD e 0) - affine 1 t (xp.getD i 0) = xp.getD e 0 - xp.getD i 0 := by
    simp only [affine]; ring
  simp only [hdiUpdate, getD_map hi, getD_map he, hd]
  split
  · rfl
  · rw [show (shiftBest t b).width = b.width from rfl]
    split
    · simp only [shiftBest, affine, one_mul]
    · rfl

theorem hdiLoop_shift (cdf xp : List K) (hl : cdf.length = xp.length) (t area : K) (L : List Nat)
    (hL : ∀ i ∈ L, i < xp.length) (b : HdiBest K) :
    hdiLoop cdf (xp.map (affine 1 t)) area L (shiftBest t b) = shiftBest t (hdiLoop cdf xp area L b) := by
  induction L generalizing b with
  | nil => rfl
  | cons i L ih =>
    simp only [hdiLoop]
    split
    · rfl
    · cases h : hdiEnd cdf area i (cdf.getD i 0) with
      | none => rfl
      | some e =>
        have he : e < xp.length := by
          rw [← hl]
          unfold hdiEnd at h
          simp only at h
          generalize (if searchsortedLeft cdf (cdf.getD i 0 + area) ≤ i then i + 1
            else searchsortedLeft cdf (cdf.getD i 0 + area)) = e1 at h
          by_cases h1 : cdf.length ≤ e1
          · rw [if_pos h1] at h; cases h
          · rw [if_neg h1] at h
            by_cases h2 : cdf.getD e1 0 - cdf.getD i 0 < area - hdiEps ∧ e1 + 1 < cdf.length
            · rw [if_pos h2] at h; cases h; exact h2.2
            · rw [if_neg h2] at h; cases h; omega
        simp only [hdiUpdate_shift cdf xp t (hL i (by simp)) he]
        exact ih (fun k hk => hL k (by simp [hk])) _

theorem npInterp_shift (t : K) (xp fp : List K) (hl : fp.length = xp.length) (l u x : K) :
    npInterp xp (fp.map (affine 1 t)) (l + t) (u + t) x = npInterp xp fp l u x + t := by
  unfold npInterp
  cases h1 : xp.head? with
  | none => rfl
  | some p =>
    cases h2 : xp.getLast? with
    | none => rfl
    | some q =>
      simp only
      by_cases h3 : x < p
      · rw [if_pos h3, if_pos h3]
      · rw [if_neg h3, if_neg h3]
        by_cases h4 : q < x
        · rw [if_pos h4, if_pos h4]
        · rw [if_neg h4, if_neg h4]
          have := polyline_affine (a := 1) (b := 0) one_pos 1 t xp fp x (by rintro rfl; simp at h1) hl
          have e : affine (1 : K) 0 = id := by funext y; simp [affine]
          rw [e, List.map_id, id] at this
          rw [this]
          simp [affine]

theorem summaryHdi_shift (t : K) {m : Marginal K} (hl : m.cs.length = m.xs.length) (area : K) :
    summaryHdi (rescaleMarginal 1 t 1 m) area = (summaryHdi m area).map (rescaleBound 1 t) := by
  unfold summaryHdi
  simp only [rescaleMarginal, endpoints_map, bind_map, map_bind]
  refine bind_congr fun ab _ => ?_
  have h := hdiLoop_shift (0 :: m.cs) (ab.1 :: m.xs) (by simp [hl]) t area
    (List.range ((0 :: m.cs).length - 1)) (by
      intro i hi
      have := List.mem_range.1 hi
      simp only [List.length_cons] at this ⊢
      omega) ⟨none, ab.1, ab.2, 0, 1⟩
  have hs : shiftBest t (⟨none, ab.1, ab.2, 0, 1⟩ : HdiBest K) =
      ⟨none, affine 1 t ab.1, affine 1 t ab.2, 0, 1⟩ := by simp [shiftBest, affine]
  rw [hs, List.map_cons] at h
  simp only [Prod.map, h]
  generalize hdiLoop (0 :: m.cs) (ab.1 :: m.xs) area (List.range ((0 :: m.cs).length - 1))
    ⟨none, ab.1, ab.2, 0, 1⟩ = best
  have hi := npInterp_shift t (0 :: m.cs) (ab.1 :: m.xs) (by simp [hl])
  rw [List.map_cons] at hi
  simp only [pure, Except.pure, Except.map, rescaleBound, Option.map_some, shiftBest, one_mul, hi]
  by_cases hm : best.endMass - best.startMass ≤ hdiEps
  · simp only [hm, if_true]
    congr 3
    ring
  · simp only [hm, if_false]

theorem simpson_shift (t : K) (ys xs : List K) (h : 2 ≤ xs.length) :
    simpson ys (xs.map (affine 1 t)) = simpson ys xs := by
  have : (xs.map (affine 1 t)).getD 1 0 - (xs.map (affine 1 t)).getD 0 0 = xs.getD 1 0 - xs.getD 0 0 := by
    rw [getD_map (by omega), getD_map (by omega)]
    simp only [affine]; ring
  simp only [simpson, this]

theorem hdiCut_shift (t : K) {m : Marginal K} (h : 2 ≤ m.xs.length) (area : K) :
    hdiCut (rescaleMarginal 1 t 1 m) area = hdiCut m area := by
  have hf : ∀ d, massDiff d (m.xs.map (affine 1 t)) area = massDiff d m.xs area := by
    intro d; funext th
    simp only [massDiff, simpson_shift t _ _ h]
  have e : (fun x : K => 1 * x) = id := by funext x; simp
  simp only [hdiCut, rescaleMarginal, simpson_shift t _ _ h, hf, e, List.map_id]

theorem filter_map_iff {α β : Type} (f : α → β) (p : β → Bool) (q : α → Bool) (h : ∀ x, p (f x) = q x) (l : List α) :
    (l.map f).filter p = (l.filter q).map f := by
  rw [List.filter_map]
  congr 2
  funext x
  exact h x

theorem maskToIntervals_affine {a : K} (ha : 0 < a) (b : K) (x : List K) (mask : List Bool) :
    maskToIntervals (x.map (affine a b)) mask =
      (maskToIntervals x mask).map (List.map (Prod.map (affine a b) (affine a b))) := by
  unfold maskToIntervals
  split
  · rfl
  · split
    · rfl
    · rw [map_bind]
      have := mapM_map_res (fun s : Nat × Nat => s) (Prod.map (affine a b) (affine a b))
        (fun se => do
          let e ← atIndex (x.map (affine a b)) se.2
          let s ← atIndex (x.map (affine a b)) se.1
          return (s, e))
        (fun se => do
          let e ← atIndex x se.2
          let s ← atIndex x se.1
          return (s, e)) (by
            intro se
            simp only [atIndex_map, bind_map, map_bind]
            rfl) ((maskStarts mask).zip (maskEnds mask))
      rw [List.map_id'] at this
      rw [this, bind_map]
      refine bind_congr fun ivs _ => ?_
      simp only [pure, Except.pure, Except.map]
      congr 1
      refine filter_map_iff _ _ _ (fun iv => ?_) _
      simp only [Prod.map, affine_lt ha]

theorem modeBound_affine {a k : K} (ha : 0 < a) (b : K) (hk : 0 < k) (m : Marginal K) (lo hi : K) (iv : K × K) :
    modeBound (rescaleMarginal a b k m) (affine a b lo) (affine a b hi)
      (Prod.map (affine a b) (affine a b) iv) = (modeBound m lo hi iv).map (rescaleBound a b) := by
  have h1 : max (affine a b iv.1) (affine a b lo) = affine a b (max iv.1 lo) := (affine_mono ha).map_max.symm
  have h2 : min (affine a b iv.2) (affine a b hi) = affine a b (min iv.2 hi) := (affine_mono ha).map_min.symm
  have hpts : ((rescaleMarginal a b k m).xs.zip (rescaleMarginal a b k m).ys).filter
      (fun p => decide (affine a b (max iv.1 lo) ≤ p.1) && decide (p.1 ≤ affine a b (min iv.2 hi))) =
      ((m.xs.zip m.ys).filter fun p => decide (max iv.1 lo ≤ p.1) && decide (p.1 ≤ min iv.2 hi)).map
        (Prod.map (affine a b) (k * ·)) := by
    rw [rescaleMarginal, List.zip_map]
    refine filter_map_iff _ _ _ (fun p => ?_) _
    simp only [Prod.map, affine_le ha]
  unfold modeBound
  simp only [Prod.map, h1, h2, hpts, List.isEmpty_map]
  by_cases he : ((m.xs.zip m.ys).filter fun p => decide (max iv.1 lo ≤ p.1) && decide (p.1 ≤ min iv.2 hi)).isEmpty
  · simp only [he, if_true, pure, Except.pure, Except.map, rescaleBound, Option.map_some, affine]
    congr 3
    ring
  · simp only [he, if_false, map_bind, List.map_map]
    have e1 : (Prod.snd ∘ Prod.map (affine a b) fun x => k * x) = (k * ·) ∘ Prod.snd := rfl
    have e2 : (Prod.fst ∘ Prod.map (affine a b) fun x => k * x) = affine a b ∘ Prod.fst := rfl
    rw [e1, e2, ← List.map_map, ← List.map_map, arrArgmax_scale hk]
    refine bind_congr fun i _ => ?_
    rw [atIndex_map, bind_map]
    rfl

theorem multimodalBounds_affine {a k : K} (ha : 0 < a) (b : K) (hk : 0 < k) (m : Marginal K)
    (ivs : List (K × K)) :
    multimodalBounds (rescaleMarginal a b k m) (ivs.map (Prod.map (affine a b) (affine a b))) =
      (multimodalBounds m ivs).map (List.map (rescaleBound a b)) := by
  unfold multimodalBounds
  rw [show (rescaleMarginal a b k m).xs = m.xs.map (affine a b) from rfl, endpoints_map, bind_map, map_bind]
  refine bind_congr fun ab _ => ?_
  exact mapM_map_res _ _ _ _ (fun iv => modeBound_affine ha b hk m _ _ iv) _

theorem summaryHdi_some {m : Marginal K} {area : K} {s : Bound K} (h : summaryHdi m area = .ok s) :
    ∃ l c u, s = ⟨some l, some c, some u⟩ := by
  simp only [summaryHdi, bind_ok_iff, pure_ok_iff] at h
  obtain ⟨ab, -, rfl⟩ := h
  exact ⟨_, _, _, rfl⟩

theorem hdiIntervals_shift (t : K) {m : Marginal K} (hl : m.cs.length = m.xs.length) (h2 : 2 ≤ m.xs.length)
    (area : K) : hdiIntervals (rescaleMarginal 1 t 1 m) area =
      (hdiIntervals m area).map (List.map (Prod.map (affine 1 t) (affine 1 t))) := by
  unfold hdiIntervals
  rw [summaryHdi_shift t hl, hdiCut_shift t h2, bind_map, map_bind]
  refine bind_congr fun s hs => ?_
  rw [map_bind]
  refine bind_congr fun cut _ => ?_
  rw [show (rescaleMarginal 1 t 1 m).xs = m.xs.map (affine 1 t) from rfl, maskToIntervals_affine one_pos,
    bind_map, map_bind]
  refine bind_congr fun ivs _ => ?_
  simp only [pure, Except.pure, Except.map, List.isEmpty_map]
  obtain ⟨l, c, u, rfl⟩ := summaryHdi_some hs
  congr 1
  split
  · rfl
  · rfl

/-- A summary entry in other units. -/
def Spec.rescaleSummary (a b : K) : Summary K → Summary K
  | .single s => .single (rescaleBound a b s)
  | .multi l => .multi (l.map (rescaleBound a b))

end

/-- **C38** (all statistics, change of origin). For an accepted chain without KDE, with any statistic and
with or without multimodal summaries: adding a constant to a parameter adds it to all bounds that
`get_summary` reports for it. (HDI summaries do not follow changes of scale exactly, see C33.) -/
theorem C38_origin (kde : KdeFn) (c : Chain ℝ) (hc : AcceptedNoShift c) (hkde : c.cfg .kde = (0 : ℝ))
    (col : String) (hcol : col ≠ c.weightColumn) (t : ℝ) :
    summaryEntry kde (rescaled c col 1 t) col = (summaryEntry kde c col).map (rescaleSummary 1 t) := by
  obtain ⟨w, hw, hpos, hl, s, hs⟩ := accepted_column hc
  have hu : (none : Option Bool).getD (decide (c.cfg .kde ≠ (0 : ℝ))) = false := by simp [hkde]
  have hmarg := smoothedHistogram_affine kde one_pos t c col hcol true none hu hw (hl col) hpos
  rw [div_one, Real.one_rpow] at hmarg
  have hpar : parameterSummary kde (rescaled c col 1 t) col =
      (parameterSummary kde c col).map (rescaleBound 1 t) := by
    by_cases hst : s = .hdi
    · subst hst
      unfold parameterSummary
      rw [show (rescaled c col 1 t).cfg = c.cfg from rfl, hs]
      simp only [hmarg, map_bind, bind_map]
      exact bind_congr fun m hm => summaryHdi_shift t (marginal_lengths hu hm) _
    · exact C38_units kde c hc hkde (by rw [hs]; simpa using hst) col hcol 1 t one_pos
  unfold summaryEntry
  rw [hpar, bind_map, map_bind, show (rescaled c col 1 t).cfg = c.cfg from rfl, hmarg]
  refine bind_congr fun b _ => ?_
  split
  · rw [bind_map, map_bind]
    refine bind_congr fun m hm => ?_
    have h2 : 2 ≤ m.xs.length := by
      simp only [smoothedHistogram, bind_ok_iff, pure_ok_iff] at hm
      obtain ⟨_, -, _, -, _, -, _, -, _, -, _, -, _, -, _, _, _, _, rfl⟩ := hm
      simpa using two_le_gridSize
    rw [hdiIntervals_shift t (marginal_lengths hu hm) h2, bind_map, map_bind]
    refine bind_congr fun ivs _ => ?_
    rw [List.length_map]
    split
    · rw [multimodalBounds_affine one_pos t one_pos, bind_map, map_bind]
      rfl
    · rfl
  · rfl

/-- The hypotheses of `C38_units` are met by an accepted chain with a marginal, for each statistic. -/
example (kde : KdeFn) (hk : KdeOk kde) (s : Stat) (hs : s ≠ .hdi) : ∃ c m, Chain.make (skewArgs s) = .ok c ∧
    smoothedHistogram kde c "x" false none = .ok m ∧
    parameterSummary kde (rescaled c "x" 1000 (-273)) "x" =
      (parameterSummary kde c "x").map (rescaleBound 1000 (-273)) := by
  obtain ⟨c, m, hc, hst, har, -, hsm, hw, -, hm, -⟩ := skew_chain kde hk s
  have hwf : (skewArgs s).samples.WF := by
    refine ⟨by simp [skewArgs, Frame.toRaw, skewFrame], ?_⟩
    simp [skewArgs, Frame.toRaw, skewFrame]
  have hk0 := (C07_accepted_chain_guarantees (skewArgs s) c hwf rfl hc).2.2.2.2.2.2.2.2 .kde (by simp) (by simp)
  refine ⟨c, m, hc, hm false, C38_units kde c ⟨_, hwf, rfl, hc⟩ hk0 ?_ "x" ?_ _ _ (by norm_num)⟩
  · rw [hst]; simpa using hs
  · obtain ⟨col, raw, f0, f, h1, h2, h3, h4, h5, h6, h7, h8, h9, h10, rfl⟩ := Chain.make_ok_iff.1 hc
    change "x" ≠ "weight"
    decide

end CC
