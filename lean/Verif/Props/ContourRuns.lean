import Verif.Props.ContourLabels
import Verif.Props.Reorder
import Verif.Props.Affine

/-! # C114: contours do not depend on row order, weight normalisation, units or origin -/

namespace CC
open Spec

/-! ### The same samples -/

/-- The same weighted pairs in another order, all weights multiplied by `k`. -/
structure Spec.SamePairs (k : ℝ) (x y w x' y' w' : List ℝ) : Prop where
  lengths : y.length = x.length ∧ w.length = x.length
  lengths' : y'.length = x'.length ∧ w'.length = x'.length
  perm : ((x.zip (y.zip w)).map fun p => (p.1, p.2.1, k * p.2.2)).Perm (x'.zip (y'.zip w'))

theorem zip_first {x y w : List ℝ} (h1 : y.length = x.length) : ((x.zip (y.zip w)).map fun p => (p.1, p.2.2)) = x.zip w := by
  induction x generalizing y w with
  | nil => rfl
  | cons a x ih =>
    cases y with
    | nil => simp at h1
    | cons b y =>
      cases w with
      | nil => rfl
      | cons v w =>
        simp only [List.zip_cons_cons, List.map_cons]
        rw [ih (by simpa using h1)]

theorem zip_second {x y w : List ℝ} (h1 : y.length = x.length) : ((x.zip (y.zip w)).map fun p => (p.2.1, p.2.2)) = y.zip w := by
  induction x generalizing y w with
  | nil => cases y with
    | nil => rfl
    | cons b y => simp at h1
  | cons a x ih =>
    cases y with
    | nil => simp at h1
    | cons b y =>
      cases w with
      | nil => rfl
      | cons v w =>
        simp only [List.zip_cons_cons, List.map_cons]
        rw [ih (by simpa using h1)]

theorem Spec.SamePairs.first {k : ℝ} {x y w x' y' w' : List ℝ} (h : SamePairs k x y w x' y' w') : SameSamples k x w x' w' := by
  refine ⟨h.lengths.2, h.lengths'.2, ?_⟩
  have := h.perm.map fun p => (p.1, p.2.2)
  rw [zip_first h.lengths'.1, List.map_map] at this
  rw [← zip_first (x := x) (y := y) (w := w) h.lengths.1, List.map_map]
  exact this

theorem Spec.SamePairs.second {k : ℝ} {x y w x' y' w' : List ℝ} (h : SamePairs k x y w x' y' w') : SameSamples k y w y' w' := by
  refine ⟨h.lengths.2.trans h.lengths.1.symm, h.lengths'.2.trans h.lengths'.1.symm, ?_⟩
  have := h.perm.map fun p => (p.2.1, p.2.2)
  rw [zip_second h.lengths'.1, List.map_map] at this
  rw [← zip_second (x := x) (y := y) (w := w) h.lengths.1, List.map_map]
  exact this

theorem cellMass_same {k : ℝ} {x y w x' y' w' : List ℝ} (h : SamePairs k x y w x' y' w') (ex ey : List ℝ) (i j : Nat) :
    cellMass ex ey x' y' w' i j = k * cellMass ex ey x y w i j := by
  unfold cellMass
  rw [← (h.perm.map _).sum_eq, List.map_map, ← List.sum_map_mul_left]
  congr 1
  refine List.map_congr_left fun p _ => ?_
  simp only [Function.comp, mul_ite, mul_zero]

/-- An array multiplied by a number. -/
noncomputable def scaleRows (k : ℝ) (h : List (List ℝ)) : List (List ℝ) := h.map (List.map (k * ·))

theorem histogram2d_same {k : ℝ} {x y w x' y' w' : List ℝ} (h : SamePairs k x y w x' y' w') (ex ey : List ℝ) :
    histogram2d ex ey x' y' w' = (histogram2d ex ey x y w).map (scaleRows k) := by
  unfold histogram2d
  rw [map_bind]
  refine bind_congr fun _ _ => ?_
  rw [map_bind]
  refine bind_congr fun _ _ => ?_
  simp only [pure, Except.pure, Except.map, scaleRows, List.map_map, Except.ok.injEq]
  refine List.map_congr_left fun i _ => ?_
  simp only [Function.comp, List.map_map]
  exact List.map_congr_left fun j _ => cellMass_same h ex ey i j

theorem scaleRows_one (h : List (List ℝ)) : scaleRows 1 h = h := by
  unfold scaleRows
  conv_rhs => rw [← List.map_id h]
  refine List.map_congr_left fun r _ => ?_
  simp

theorem powRows_scale {k : ℝ} (hk : 0 < k) {h : List (List ℝ)} (hh : ∀ r ∈ h, ∀ v ∈ r, 0 ≤ v) (p : ℝ) :
    powRows (scaleRows k h) p = (powRows h p).map (scaleRows (k ^ p)) := by
  unfold powRows scaleRows
  induction h with
  | nil => rfl
  | cons r h ih =>
    rw [List.map_cons, List.mapM_cons, List.mapM_cons, powAll_scale hk (hh r List.mem_cons_self), bind_map, map_bind]
    refine bind_congr fun r' _ => ?_
    rw [ih fun r hr => hh r (List.mem_cons_of_mem _ hr), bind_map, map_bind]
    rfl

theorem powRows_scale_one {k : ℝ} (hk : 0 < k) {h : List (List ℝ)} (hh : k = 1 ∨ ∀ r ∈ h, ∀ v ∈ r, 0 ≤ v) (p : ℝ) :
    powRows (scaleRows k h) p = (powRows h p).map (scaleRows (k ^ p)) := by
  rcases hh with rfl | hh
  · rw [scaleRows_one, Real.one_rpow]
    cases powRows h p with
    | error e => rfl
    | ok v => simp only [Except.map, scaleRows_one]
  · exact powRows_scale hk hh p

theorem transpose_scale (k : ℝ) (n : Nat) (h : List (List ℝ)) : transpose n (scaleRows k h) = scaleRows k (transpose n h) := by
  unfold transpose scaleRows
  rw [List.map_map]
  refine List.map_congr_left fun j _ => ?_
  simp only [Function.comp, List.map_map]
  refine List.map_congr_left fun r _ => ?_
  simp only [Function.comp, List.getD_eq_getElem?_getD, List.getElem?_map]
  cases r[j]? <;> simp

theorem filterRows_scale (k : ℝ) (s : Nat) (h : List (List ℝ)) :
    (scaleRows k h).map (gaussianFilter s) = scaleRows k (h.map (gaussianFilter s)) := by
  unfold scaleRows
  rw [List.map_map, List.map_map]
  refine List.map_congr_left fun r _ => ?_
  simp only [Function.comp, gaussianFilter, reflectFilter_scale]

theorem smoothRows_scale (k : ℝ) (s : Int) (n : Nat) (h : List (List ℝ)) :
    smoothRows s n (scaleRows k h) = (smoothRows s n h).map (scaleRows k) := by
  unfold smoothRows
  split_ifs
  · rfl
  · rw [transpose_scale, filterRows_scale, show (scaleRows k h).length = h.length from List.length_map .., transpose_scale,
      filterRows_scale]
    rfl
  · rfl

/-- A histogram whose entries are multiplied by a number. -/
noncomputable def scaleHist (k : ℝ) (r : Hist2d) : Hist2d := { r with hist := scaleRows k r.hist }

theorem histogram2d_nonneg {ex ey x y w : List ℝ} (hw : ∀ v ∈ w, 0 ≤ v) {h : List (List ℝ)} (hh : histogram2d ex ey x y w = .ok h) :
    ∀ r ∈ h, ∀ v ∈ r, 0 ≤ v := by
  simp only [histogram2d, bind_ok_iff, pure_ok_iff] at hh
  obtain ⟨_, -, _, -, rfl⟩ := hh
  intro r hr v hv
  obtain ⟨i, -, rfl⟩ := List.mem_map.1 hr
  obtain ⟨j, -, rfl⟩ := List.mem_map.1 hv
  refine List.sum_nonneg fun z hz => ?_
  obtain ⟨p, hp, rfl⟩ := List.mem_map.1 hz
  split_ifs
  · exact hw _ (List.of_mem_zip (List.of_mem_zip hp).2).2
  · exact le_rfl

/-- The histogram of the same pairs: the same cells, every entry multiplied. -/
theorem smoothedHistogram2d_same (near : NearFn) (c c' : Chain ℝ) (px py : String) (hcfg : c'.cfg = c.cfg) (hgrid : c'.grid = c.grid)
    (hpow : c'.power = c.power) (hbins : getBins c' = getBins c) {k : ℝ} (hk : 0 < k)
    (h : (∃ e, c.samples.get px = .error e ∧ c'.samples.get px = .error e) ∨
      (∃ x x' e, c.samples.get px = .ok x ∧ c'.samples.get px = .ok x' ∧ c.samples.get py = .error e ∧ c'.samples.get py = .error e) ∨
      ∃ x y w x' y' w', c.samples.get px = .ok x ∧ c.samples.get py = .ok y ∧ c.weights = .ok w ∧ c'.samples.get px = .ok x' ∧
        c'.samples.get py = .ok y' ∧ c'.weights = .ok w' ∧ SamePairs k x y w x' y' w' ∧ (k = 1 ∨ ∀ v ∈ w, 0 ≤ v) ∧
        (c.cfg .kde = (0 : ℝ) ∨ ∀ xs ys, megKde2d near x' y' w' (c.cfg .kde) xs ys =
          (megKde2d near x y w (c.cfg .kde) xs ys).map (scaleRows k) ∧
          ∀ h, megKde2d near x y w (c.cfg .kde) xs ys = .ok h → ∀ r ∈ h, ∀ v ∈ r, 0 ≤ v)) :
    smoothedHistogram2d near c' px py = (smoothedHistogram2d near c px py).map (scaleHist (k ^ c.power)) := by
  rcases h with ⟨e, h1, h2⟩ | ⟨x, x', e, h1, h2, h3, h4⟩ | ⟨x, y, w, x', y', w', h1, h2, h3, h4, h5, h6, hs, hnn, hkde⟩
  · simp only [smoothedHistogram2d, h1, h2, bind, Except.bind, Except.map]
  · simp only [smoothedHistogram2d, h1, h2, h3, h4, bind, Except.bind, Except.map]
  · have hsm : c'.smoothValue = c.smoothValue := by
      unfold Chain.smoothValue; rw [hcfg, hgrid]
    have hb : bins2d c' x' y' w' = bins2d c x y w := by
      unfold bins2d getSmoothedBins
      rw [hgrid, getGridBins_perm hs.first.data_perm, getGridBins_perm hs.second.data_perm, hsm, hbins, getExtents_same hk hs.first,
        getExtents_same hk hs.second]
    unfold smoothedHistogram2d
    simp only [h1, h2, h3, h4, h5, h6]
    change (bins2d c' x' y' w' >>= _) = Except.map _ (bins2d c x y w >>= _)
    rw [hb, map_bind]
    refine bind_congr fun b _ => ?_
    obtain ⟨bx, by'⟩ := b
    simp only
    rw [histogram2d_same hs, bind_map, map_bind]
    refine bind_congr fun h hh => ?_
    rw [hpow, powRows_scale_one hk (hnn.imp_right fun h => histogram2d_nonneg h hh), bind_map, map_bind]
    refine bind_congr fun h' _ => ?_
    rw [hcfg, hsm]
    by_cases h0 : c.cfg .kde = (0 : ℝ)
    · simp only [h0, ne_eq, not_true_eq_false, if_false]
      rw [smoothRows_scale, bind_map, map_bind]
      rfl
    · simp only [h0, ne_eq, not_false_eq_true, if_true]
      obtain hkde := hkde.resolve_left h0
      unfold kde2d
      rw [map_bind]
      refine bind_congr fun x0 _ => ?_
      rw [map_bind]
      refine bind_congr fun x1 _ => ?_
      rw [map_bind]
      refine bind_congr fun y0 _ => ?_
      rw [map_bind]
      refine bind_congr fun y1 _ => ?_
      rw [hcfg]
      obtain ⟨e1, e2⟩ := hkde (linspace x0 x1 ((midpoints bx).length * 2)) (linspace y0 y1 ((midpoints bx).length * 2))
      change (megKde2d near x' y' w' (c.cfg .kde) (linspace x0 x1 ((midpoints bx).length * 2))
        (linspace y0 y1 ((midpoints bx).length * 2)) >>= _) = Except.map _ (megKde2d near x y w (c.cfg .kde)
          (linspace x0 x1 ((midpoints bx).length * 2)) (linspace y0 y1 ((midpoints bx).length * 2)) >>= _)
      rw [e1, bind_map, map_bind]
      refine bind_congr fun v hv => ?_
      rw [hpow, powRows_scale hk (e2 v hv), bind_map, map_bind]
      rfl

/-! ### The surface -/

/-- `np.argsort` only compares: multiplying all values by a positive number does not change the order. -/
def Spec.ScaleFree (argsort : List ℝ → List Nat) : Prop := ∀ k, 0 < k → ∀ l, argsort (l.map (k * ·)) = argsort l

theorem gather_map {α β : Type} (f : α → β) (l : List α) (idx : List Nat) : gather (l.map f) idx = (gather l idx).map f := by
  unfold gather
  rw [List.map_filterMap]
  refine List.filterMap_congr fun i _ => ?_
  rw [List.getElem?_map]

theorem stdevFlat_scale {argsort : List ℝ → List Nat} (ha : ScaleFree argsort) {k : ℝ} (hk : 0 < k) (l : List ℝ) :
    stdevFlat argsort (l.map (k * ·)) = stdevFlat argsort l := by
  unfold stdevFlat
  simp only [ha k hk, gather_map, cumsum_scale, List.getLast?_map]
  cases (cumsum (gather l (argsort l).reverse)).getLast? with
  | none => rfl
  | some last =>
    have e : ((fun x => x / (k * last)) ∘ fun x => k * x) = fun x => x / last := by
      funext x
      exact mul_div_mul_left _ _ hk.ne'
    simp only [Option.map_some, ne_eq, mul_eq_zero, hk.ne', false_or, List.map_map, e]

theorem reshapeLike_scale {α : Type} (k : ℝ) (h : List (List ℝ)) (l : List α) : reshapeLike (scaleRows k h) l = reshapeLike h l := by
  induction h generalizing l with
  | nil => rfl
  | cons r h ih =>
    have := ih (l.drop r.length)
    unfold scaleRows at this
    simp only [scaleRows, List.map_cons, reshapeLike, List.length_map, this]

theorem fillZeros_full {h : List (List ℝ)} (hh : ∀ r ∈ h, ∀ v ∈ r, v ≠ 0) : fillZeros h = h := by
  unfold fillZeros
  conv_rhs => rw [← List.map_id h]
  refine List.map_congr_left fun r hr => ?_
  conv_rhs => rw [id, ← List.map_id r]
  refine List.map_congr_left fun v hv => ?_
  rw [if_neg (hh r hr v hv)]
  rfl

theorem contourSurface_scale {argsort : List ℝ → List Nat} (ha : ScaleFree argsort) {k : ℝ} (hk : 0 < k) {h : List (List ℝ)}
    (hh : ∀ r ∈ h, ∀ v ∈ r, v ≠ 0) : contourSurface argsort (scaleRows k h) = contourSurface argsort h := by
  have hh' : ∀ r ∈ scaleRows k h, ∀ v ∈ r, v ≠ 0 := by
    intro r hr v hv
    obtain ⟨r0, hr0, rfl⟩ := List.mem_map.1 hr
    obtain ⟨v0, hv0, rfl⟩ := List.mem_map.1 hv
    exact mul_ne_zero hk.ne' (hh r0 hr0 v0 hv0)
  unfold contourSurface
  rw [fillZeros_full hh', fillZeros_full hh]
  unfold convertToStdev
  have e : (scaleRows k h).flatten = h.flatten.map (k * ·) := by
    unfold scaleRows
    rw [List.map_flatten]
  rw [e, stdevFlat_scale ha hk]
  simp only [reshapeLike_scale]

theorem contourColours_cfg {c c' : Chain ℝ} (h : c'.cfg = c.cfg) (n : Nat) : contourColours c' n = contourColours c n := by
  unfold contourColours
  rw [h]

theorem plotContour_scale {lib : Lib} (cfg : PlotConfig) {c c' : Chain ℝ} (px py : String) (hcfg : c'.cfg = c.cfg)
    (hname : c'.name = c.name) {k : ℝ} (hk : 0 < k)
    (hr : smoothedHistogram2d lib.near c' px py = (smoothedHistogram2d lib.near c px py).map (scaleHist k))
    (hnz : k = 1 ∨ ScaleFree lib.argsort ∧ ∀ r, smoothedHistogram2d lib.near c px py = .ok r → ∀ row ∈ r.hist, ∀ v ∈ row, v ≠ 0) :
    plotContour lib cfg c' px py = plotContour lib cfg c px py := by
  have hfill : ∀ n, c'.fillable n = c.fillable n := by
    intro n
    simp only [Chain.fillable, Chain.filled, hcfg]
  unfold plotContour
  rw [hcfg]
  simp only [contourColours_cfg hcfg, hfill, hname]
  refine bind_congr fun _ _ => ?_
  change (smoothedHistogram2d lib.near c' px py >>= _) = (smoothedHistogram2d lib.near c px py >>= _)
  rw [hr, bind_map]
  refine bind_congr fun r hr => ?_
  have hsurf : contourSurface lib.argsort (scaleHist k r).hist = contourSurface lib.argsort r.hist := by
    rcases hnz with rfl | ⟨ha, hnz⟩
    · rw [show (scaleHist 1 r).hist = r.hist from scaleRows_one _]
    · exact contourSurface_scale ha hk (hnz r hr)
  have hdec : ∀ n, @decide (c'.fillable n) (Classical.propDecidable _) = @decide (c.fillable n) (Classical.propDecidable _) :=
    fun n => by rw [hfill]
  rw [hsurf, hdec]
  rfl

/-! ### Row order -/

theorem reordered_pairs {c : Chain ℝ} (hc : Accepted c) {p : List Nat} (hp : p.Perm (List.range c.samples.index.length))
    {px py : String} {x y w : List ℝ} (hx : c.samples.get px = .ok x) (hy : c.samples.get py = .ok y) (hw : c.weights = .ok w) :
    SamePairs 1 x y w (p.filterMap (x[·]?)) (p.filterMap (y[·]?)) (p.filterMap (w[·]?)) := by
  obtain ⟨w', hw', hwl, hl⟩ := accepted_lengths hc
  rw [hw] at hw'
  cases hw'
  have hxl := hl px x hx
  have hyl := hl py y hy
  have e1 : (p.filterMap (x[·]?)).length = x.length := (filterMap_getElem_perm (by rwa [hxl])).length_eq
  have e2 : (p.filterMap (y[·]?)).length = y.length := (filterMap_getElem_perm (by rwa [hyl])).length_eq
  have e3 : (p.filterMap (w[·]?)).length = w.length := (filterMap_getElem_perm (by rwa [hwl])).length_eq
  refine ⟨⟨by omega, by omega⟩, ⟨by omega, by omega⟩, ?_⟩
  rw [filterMap_zip p y w (by omega), filterMap_zip p x (y.zip w) (by rw [List.length_zip]; omega)]
  have e : (fun q : ℝ × ℝ × ℝ => (q.1, q.2.1, 1 * q.2.2)) = id := by funext q; simp
  rw [e, List.map_id]
  refine (filterMap_getElem_perm ?_).symm
  have : (x.zip (y.zip w)).length = c.samples.index.length := by simp only [List.length_zip]; omega
  rwa [this]

/-- **C114** (row order). Reordering the rows of an accepted chain without KDE does not change its contours: they are drawn at the same
places with the same values and levels, or fail with the same error. -/
theorem C114_rows (lib : Lib) (cfg : PlotConfig) (c : Chain ℝ) (hc : Accepted c) (hkde : c.cfg .kde = (0 : ℝ)) (p : List Nat)
    (hp : p.Perm (List.range c.samples.index.length)) (px py : String) :
    plotContour lib cfg (reordered c p) px py = plotContour lib cfg c px py := by
  refine plotContour_scale cfg px py rfl rfl one_pos ?_ (.inl rfl)
  obtain ⟨w, hw, hwl, hl⟩ := accepted_lengths hc
  have hwt : (reordered c p).weights = .ok (p.filterMap (w[·]?)) := by
    have := reordered_get c p c.weightColumn
    rw [show c.samples.get c.weightColumn = .ok w from hw] at this
    exact this
  have hb : getBins (reordered c p) = getBins c := by
    have : (p.filterMap (c.samples.index[·]?)).length = c.samples.index.length :=
      (filterMap_getElem_perm hp).length_eq
    simp only [getBins, reordered, List.length_map, this]
    rfl
  have := smoothedHistogram2d_same lib.near c (reordered c p) px py rfl rfl rfl hb one_pos ?_
  · rwa [Real.one_rpow] at this
  rw [reordered_get, reordered_get]
  cases hx : c.samples.get px with
  | error e => exact .inl ⟨e, rfl, rfl⟩
  | ok x =>
    cases hy : c.samples.get py with
    | error e => exact .inr (.inl ⟨x, _, e, rfl, rfl, rfl, rfl⟩)
    | ok y => exact .inr (.inr ⟨x, y, w, _, _, _, rfl, rfl, hw, rfl, rfl, hwt, reordered_pairs hc hp hx hy hw, .inl rfl, .inl hkde⟩)

/-! ### Weights -/

theorem megKde2d_eq (near : NearFn) {n : ℕ} (x y w : List ℝ) (hx : x.length = n) (hy : y.length = n) (hw : w.length = n) (t : ℝ)
    (xs ys : List ℝ) : megKde2d near x y w t xs ys = (Kde.make (twoPoints x y hx hy) (entries w hw) t 4 1 >>= fun k =>
      xs.mapM fun a => ys.mapM fun b => k.at near ![a, b]) := by
  subst hx
  unfold megKde2d
  rw [dif_pos ⟨hy, hw⟩]
  rfl

theorem megKde2d_rel (near : NearFn) {n : ℕ} {x y w x' y' w' : List ℝ} (hx : x.length = n) (hy : y.length = n) (hw : w.length = n)
    (hx' : x'.length = n) (hy' : y'.length = n) (hw' : w'.length = n) (t : ℝ)
    (h1 : ∑ i, entries w' hw' i = 0 ↔ ∑ i, entries w hw i = 0)
    (h2 : Trainable (twoPoints x' y' hx' hy') (entries w' hw') ↔ Trainable (twoPoints x y hx hy) (entries w hw))
    (f g φ : ℝ → ℝ) (h3 : ∀ a b, kdeAt near (twoPoints x' y' hx' hy') (entries w' hw') t 4 1 ![f a, g b] =
      (kdeAt near (twoPoints x y hx hy) (entries w hw) t 4 1 ![a, b]).map φ) (xs ys : List ℝ) :
    megKde2d near x' y' w' t (xs.map f) (ys.map g) = (megKde2d near x y w t xs ys).map (List.map (List.map φ)) := by
  rw [megKde2d_eq near x' y' w' hx' hy' hw', megKde2d_eq near x y w hx hy hw]
  have he := make_error_congr t 4 1 h1 h2
  unfold kdeAt at h3
  cases hk : Kde.make (twoPoints x y hx hy) (entries w hw) t 4 1 with
  | error e =>
    cases hk' : Kde.make (twoPoints x' y' hx' hy') (entries w' hw') t 4 1 with
    | error e' =>
      rw [hk, hk'] at he
      simp only [Except.map, Except.error.injEq] at he
      subst he
      rfl
    | ok k' => rw [hk, hk'] at he; simp [Except.map] at he
  | ok k =>
    cases hk' : Kde.make (twoPoints x' y' hx' hy') (entries w' hw') t 4 1 with
    | error e' => rw [hk, hk'] at he; simp [Except.map] at he
    | ok k' =>
      simp only [hk, hk'] at h3
      exact mapM_map_res f (List.map φ) _ _ (fun a => mapM_map_res g φ _ _ (fun b => h3 a b) ys) xs

/-- Multiplying the weights multiplies the values. -/
theorem megKde2d_homogeneous (near : NearFn) {k : ℝ} (hk : 0 < k) {x y w : List ℝ} (hy : y.length = x.length) (hw : w.length = x.length)
    (t : ℝ) (xs ys : List ℝ) :
    megKde2d near x y (w.map (k * ·)) t xs ys = (megKde2d near x y w t xs ys).map (scaleRows k) := by
  have hm : (w.map (k * ·)).length = x.length := by rw [List.length_map, hw]
  have he : entries (w.map (k * ·)) hm = fun i => k * entries w hw i := by
    funext i
    simp [entries]
  have := megKde2d_rel near rfl hy hw rfl hy hm t (by rw [he, ← Finset.mul_sum]; simp [hk.ne']) (by rw [he]; exact trainable_scale hk)
    id id (k * ·) (fun a b => by rw [he]; exact C48_weights near hk t 1 4 _) xs ys
  rwa [List.map_id, List.map_id] at this

theorem megKde2d_pos {near : NearFn} (hn : NearOk near) {x y w xs ys : List ℝ} {t : ℝ} {h : List (List ℝ)} (hw : ∀ v ∈ w, 0 < v)
    (hok : megKde2d near x y w t xs ys = .ok h) : ∀ r ∈ h, ∀ v ∈ r, 0 < v := by
  obtain ⟨hy, hwl, hF⟩ := megKde2d_ok hok
  intro r hr v hv
  obtain ⟨a, _, hr⟩ := forall₂_mem_right hF hr
  obtain ⟨b, _, hv⟩ := forall₂_mem_right hr hv
  exact C48_positive hn (fun i => hw _ (List.getElem_mem _)) (by norm_num) hv

theorem reweighted_pairs {k : ℝ} {x y w : List ℝ} (hy : y.length = x.length) (hw : w.length = x.length) :
    SamePairs k x y w x y (w.map (k * ·)) := by
  refine ⟨⟨hy, hw⟩, ⟨hy, by rw [List.length_map, hw]⟩, ?_⟩
  rw [List.zip_map_right, List.zip_map_right]
  exact .refl _

theorem smoothedHistogram2d_reweighted {near : NearFn} (hn : NearOk near) {c : Chain ℝ} (hc : AcceptedNoShift c) {k : ℝ} (hk : 0 < k)
    {px py : String} (hx : px ≠ c.weightColumn) (hy : py ≠ c.weightColumn) :
    smoothedHistogram2d near (reweighted c k) px py = (smoothedHistogram2d near c px py).map (scaleHist (k ^ c.power)) := by
  obtain ⟨w, hw, hpos, hl, -⟩ := accepted_column hc
  have hwt : (reweighted c k).weights = .ok (w.map (k * ·)) := by
    have := reweighted_get c k c.weightColumn
    rw [if_pos rfl, show c.samples.get c.weightColumn = .ok w from hw] at this
    exact this
  have hb : getBins (reweighted c k) = getBins c := by
    simp only [getBins, reweighted, List.length_map]
    rfl
  refine smoothedHistogram2d_same near c (reweighted c k) px py rfl rfl rfl hb hk ?_
  rw [reweighted_get, reweighted_get, if_neg hx, if_neg hy]
  cases hgx : c.samples.get px with
  | error e => exact .inl ⟨e, rfl, rfl⟩
  | ok x =>
    cases hgy : c.samples.get py with
    | error e => exact .inr (.inl ⟨x, _, e, rfl, rfl, rfl, rfl⟩)
    | ok y =>
      have hxl := (hl px x hgx).1
      have hyl := (hl py y hgy).1
      have hyx : y.length = x.length := by omega
      refine .inr (.inr ⟨x, y, w, x, y, _, rfl, rfl, hw, rfl, rfl, hwt, reweighted_pairs hyx hxl,
        .inr fun v hv => (hpos v hv).le, .inr fun xs ys => ⟨megKde2d_homogeneous near hk hyx hxl _ xs ys, ?_⟩⟩)
      exact fun h hh r hr v hv => (megKde2d_pos hn hpos hh r hr v hv).le

/-- **C114** (weights). Multiplying all weights of an accepted chain by a positive number does not change its contours, if every cell of
its histogram is filled (as with KDE). Missing: empty cells, which the code fills with the fixed number `1e-16` (`C114_violated`). -/
theorem C114_weights_partial {lib : Lib} (hn : NearOk lib.near) (ha : ScaleFree lib.argsort) (cfg : PlotConfig) (c : Chain ℝ)
    (hc : AcceptedNoShift c) (k : ℝ) (hk : 0 < k) (px py : String) (hx : px ≠ c.weightColumn) (hy : py ≠ c.weightColumn)
    (hfull : c.cfg .kde ≠ (0 : ℝ) ∨
      ∀ r, smoothedHistogram2d lib.near c px py = .ok r → ∀ row ∈ r.hist, ∀ v ∈ row, v ≠ 0) :
    plotContour lib cfg (reweighted c k) px py = plotContour lib cfg c px py := by
  obtain ⟨w, hw, hpos, hl, -⟩ := accepted_column hc
  refine plotContour_scale cfg px py rfl rfl (k := k ^ c.power) (by positivity) (smoothedHistogram2d_reweighted hn hc hk hx hy)
    (.inr ⟨ha, ?_⟩)
  rcases hfull with h0 | hfull
  · intro r hr row hrow v hv
    obtain ⟨x, y, w', b, h0', h1, -, -, hw', -, -, -, hk2⟩ := (smoothedHistogram2d_kde_ok_iff h0).1 hr
    rw [hw] at hw'
    cases hw'
    obtain ⟨x0, x1, y0, y1, u, -, -, -, -, hu, u', hu', rfl⟩ := kde2d_ok_iff.1 hk2
    obtain ⟨-, rfl⟩ := powRows_ok_iff.1 hu'
    obtain ⟨row0, hrow0, rfl⟩ := List.mem_map.1 hrow
    obtain ⟨v0, hv0, rfl⟩ := List.mem_map.1 hv
    exact (Real.rpow_pos_of_pos (megKde2d_pos hn hpos hu row0 hrow0 v0 hv0) _).ne'
  · exact hfull

/-! ### Units and origin -/

theorem inBin_affine {a b : ℝ} (ha : 0 < a) (e : List ℝ) {i : Nat} (hi : i + 1 < e.length) (x : ℝ) :
    inBin (e.map (affine a b)) i (affine a b x) = inBin e i x := by
  unfold inBin
  rw [getD_map (by omega), getD_map hi, List.length_map]
  simp only [affine_le ha, affine_lt ha]

theorem histogram2d_affine {a b a' b' : ℝ} (ha : 0 < a) (ha' : 0 < a') (ex ey x y w : List ℝ) :
    histogram2d (ex.map (affine a b)) (ey.map (affine a' b')) (x.map (affine a b)) (y.map (affine a' b')) w =
      histogram2d ex ey x y w := by
  unfold histogram2d
  rw [zipWith_tail_affine, zipWith_tail_affine]
  simp only [affine_le ha, affine_le ha', List.length_map]
  refine bind_congr fun _ _ => bind_congr fun _ _ => ?_
  refine congrArg _ (List.map_congr_left fun i hi => List.map_congr_left fun j hj => ?_)
  have hi := List.mem_range.1 hi
  have hj := List.mem_range.1 hj
  unfold cellMass
  rw [List.zip_map_left (l₁ := y), List.zip_map, List.map_map]
  refine congrArg _ (List.map_congr_left fun p _ => ?_)
  simp only [Function.comp, Prod.map, inBin_affine ha ex (show i + 1 < ex.length by omega),
    inBin_affine ha' ey (show j + 1 < ey.length by omega), id]

theorem arrMin_affine {a b : ℝ} (ha : 0 < a) (l : List ℝ) : arrMin (l.map (affine a b)) = (arrMin l).map (affine a b) := by
  cases h : arrMin l with
  | error e =>
    cases l with
    | nil => exact h
    | cons x l => cases h
  | ok v =>
    obtain ⟨hv, hl⟩ := arrMin_ok_iff.1 h
    refine arrMin_ok_iff.2 ⟨List.mem_map_of_mem hv, fun y hy => ?_⟩
    obtain ⟨x, hx, rfl⟩ := List.mem_map.1 hy
    exact (affine_le ha).2 (hl x hx)

theorem arrMax_affine {a b : ℝ} (ha : 0 < a) (l : List ℝ) : arrMax (l.map (affine a b)) = (arrMax l).map (affine a b) := by
  cases h : arrMax l with
  | error e =>
    cases l with
    | nil => exact h
    | cons x l => cases h
  | ok v =>
    obtain ⟨hv, hl⟩ := arrMax_ok_iff.1 h
    refine arrMax_ok_iff.2 ⟨List.mem_map_of_mem hv, fun y hy => ?_⟩
    obtain ⟨x, hx, rfl⟩ := List.mem_map.1 hy
    exact (affine_le ha).2 (hl x hx)

theorem affine_one_zero : affine (1 : ℝ) 0 = id := by funext y; simp [affine]

theorem getSmoothedBins_affine' {a b : ℝ} (ha : 0 < a) {x : List ℝ} (w : List ℝ)
    (hx : (a = 1 ∧ b = 0) ∨ ∃ u ∈ x, ∃ v ∈ x, u < v) (s n : Int) (plot pad : Bool) :
    getSmoothedBins s n (x.map (affine a b)) w plot pad =
      (getSmoothedBins s n x w plot pad).map (Prod.map (List.map (affine a b)) id) := by
  rcases hx with ⟨rfl, rfl⟩ | hx
  · rw [affine_one_zero, List.map_id, List.map_id_fun]
    cases getSmoothedBins s n x w plot pad <;> rfl
  · exact getSmoothedBins_affine ha w hx s n plot pad

theorem megKde2d_units (near : NearFn) {a b a' b' : ℝ} (ha : 0 < a) (ha' : 0 < a') {x y w : List ℝ} (t : ℝ) (xs ys : List ℝ) :
    megKde2d near (x.map (affine a b)) (y.map (affine a' b')) w t (xs.map (affine a b)) (ys.map (affine a' b')) =
      megKde2d near x y w t xs ys := by
  by_cases hl : y.length = x.length ∧ w.length = x.length
  · obtain ⟨hy, hw⟩ := hl
    have hs : ∀ j, 0 < (![a, a'] : Fin 2 → ℝ) j := by
      intro j
      fin_cases j
      · exact ha
      · exact ha'
    have hv : ∀ u v : ℝ, ![affine a b u, affine a' b' v] = Matrix.mulVec (Matrix.diagonal ![a, a']) ![u, v] + ![b, b'] := by
      intro u v
      funext j
      rw [Pi.add_apply, Matrix.mulVec_diagonal]
      fin_cases j <;> simp [affine]
    have hp : twoPoints (x.map (affine a b)) (y.map (affine a' b')) (by rw [List.length_map]) (by rw [List.length_map, hy]) =
        affineImage (Matrix.diagonal ![a, a']) ![b, b'] (twoPoints x y rfl hy) := by
      funext i
      have := hv (entries x rfl i) (entries y hy i)
      simpa [twoPoints, affineImage, entries] using this
    have hM : (Matrix.diagonal (![a, a'] : Fin 2 → ℝ)).det ≠ 0 := by
      rw [Matrix.det_diagonal]
      exact Finset.prod_ne_zero_iff.2 fun j _ => (hs j).ne'
    have := megKde2d_rel near (x := x) (y := y) (w := w) (x' := x.map (affine a b)) (y' := y.map (affine a' b')) (w' := w) rfl hy hw
      (by rw [List.length_map]) (by rw [List.length_map, hy]) hw t Iff.rfl (by rw [hp]; exact trainable_affine hM _)
      (affine a b) (affine a' b') id (fun u v => by
        rw [hp, hv, C49_units near hs]
        cases kdeAt near (twoPoints x y rfl hy) (entries w hw) t 4 1 ![u, v] <;> rfl) xs ys
    rw [this, List.map_id_fun, List.map_id_fun]
    cases megKde2d near x y w t xs ys <;> rfl
  · unfold megKde2d
    rw [dif_neg hl, dif_neg (by simpa using hl)]

/-- The cells at other places. -/
def moveHist (f g : ℝ → ℝ) (r : Hist2d) : Hist2d := ⟨r.hist, r.xs.map f, r.ys.map g⟩

theorem smoothedHistogram2d_units (near : NearFn) (c c' : Chain ℝ) (px py : String) (hcfg : c'.cfg = c.cfg) (hgrid : c'.grid = c.grid)
    (hpow : c'.power = c.power) (hbins : getBins c' = getBins c) {a b a' b' : ℝ} (ha : 0 < a) (ha' : 0 < a') (hw : c'.weights = c.weights)
    (hx : c'.samples.get px = (c.samples.get px).map (List.map (affine a b)))
    (hy : c'.samples.get py = (c.samples.get py).map (List.map (affine a' b')))
    (hnx : (a = 1 ∧ b = 0) ∨ ∀ x, c.samples.get px = .ok x → ∃ u ∈ x, ∃ v ∈ x, u < v)
    (hny : (a' = 1 ∧ b' = 0) ∨ ∀ y, c.samples.get py = .ok y → ∃ u ∈ y, ∃ v ∈ y, u < v) :
    smoothedHistogram2d near c' px py = (smoothedHistogram2d near c px py).map (moveHist (affine a b) (affine a' b')) := by
  have hsm : c'.smoothValue = c.smoothValue := by
    unfold Chain.smoothValue; rw [hcfg, hgrid]
  unfold smoothedHistogram2d
  rw [hx, hy, hw, bind_map, map_bind]
  refine bind_congr fun x hgx => ?_
  rw [bind_map, map_bind]
  refine bind_congr fun y hgy => ?_
  rw [map_bind]
  refine bind_congr fun w _ => ?_
  have hb : bins2d c' (x.map (affine a b)) (y.map (affine a' b')) w =
      (bins2d c x y w).map (Prod.map (List.map (affine a b)) (List.map (affine a' b'))) := by
    unfold bins2d
    rw [hgrid, hsm, hbins]
    by_cases hg : c.grid = true
    · rw [if_pos hg, if_pos hg, getGridBins_affine ha, getGridBins_affine ha', bind_map, map_bind]
      refine bind_congr fun bx _ => ?_
      rw [bind_map, map_bind]
      rfl
    · rw [if_neg hg, if_neg hg, getSmoothedBins_affine' ha w (hnx.imp_right fun h => h x hgx), bind_map, map_bind]
      refine bind_congr fun bx _ => ?_
      simp only [Prod.map, id]
      rw [getSmoothedBins_affine' ha' w (hny.imp_right fun h => h y hgy), bind_map, map_bind]
      rfl
  rw [hb, bind_map, map_bind]
  refine bind_congr fun bb _ => ?_
  obtain ⟨bx, by'⟩ := bb
  simp only [Prod.map]
  rw [histogram2d_affine ha ha', map_bind]
  refine bind_congr fun h _ => ?_
  rw [hpow, map_bind]
  refine bind_congr fun h' _ => ?_
  rw [hcfg, hsm]
  by_cases h0 : c.cfg .kde = (0 : ℝ)
  · simp only [h0, ne_eq, not_true_eq_false, if_false, List.length_map]
    rw [map_bind]
    simp only [midpoints_affine]
    rfl
  · simp only [h0, ne_eq, not_false_eq_true, if_true]
    unfold kde2d
    rw [arrMin_affine ha, bind_map, map_bind]
    refine bind_congr fun x0 _ => ?_
    rw [arrMax_affine ha, bind_map, map_bind]
    refine bind_congr fun x1 _ => ?_
    rw [arrMin_affine ha', bind_map, map_bind]
    refine bind_congr fun y0 _ => ?_
    rw [arrMax_affine ha', bind_map, map_bind]
    refine bind_congr fun y1 _ => ?_
    simp only [midpoints_affine, List.length_map, linspace_affine]
    rw [hcfg, hpow]
    change (megKde2d near (x.map (affine a b)) (y.map (affine a' b')) w (c.cfg .kde)
      ((linspace x0 x1 ((midpoints bx).length * 2)).map (affine a b))
      ((linspace y0 y1 ((midpoints bx).length * 2)).map (affine a' b')) >>= _) = Except.map _ (megKde2d near x y w (c.cfg .kde)
        (linspace x0 x1 ((midpoints bx).length * 2)) (linspace y0 y1 ((midpoints bx).length * 2)) >>= _)
    rw [megKde2d_units near ha ha', map_bind]
    refine bind_congr fun v _ => ?_
    rw [map_bind]
    rfl

/-- The same contours at other places. -/
def Spec.moveCall (f g : ℝ → ℝ) : Call → Call
  | .contour n px py xs ys v l => .contour n px py (xs.map f) (ys.map g) v l
  | call => call

/-- **C114** (units and origin). Measuring a parameter that is not constant in another unit and from another origin moves the contours
accordingly and leaves their values and levels as they are, with KDE or without. -/
theorem C114_units (lib : Lib) (cfg : PlotConfig) (c : Chain ℝ) (col : String) (hcol : col ≠ c.weightColumn)
    (hne : ∀ x, c.samples.get col = .ok x → ∃ u ∈ x, ∃ v ∈ x, u < v) (a b : ℝ) (ha : 0 < a) (px py : String) :
    plotContour lib cfg (rescaled c col a b) px py = (plotContour lib cfg c px py).map
      (moveCall (if px = col then fun t => a * t + b else id) (if py = col then fun t => a * t + b else id)) := by
  have key : ∀ n, ∃ s o, 0 < s ∧ (if n = col then fun t => a * t + b else id) = affine s o ∧
      (rescaled c col a b).samples.get n = (c.samples.get n).map (List.map (affine s o)) ∧
      ((s = 1 ∧ o = 0) ∨ ∀ x, c.samples.get n = .ok x → ∃ u ∈ x, ∃ v ∈ x, u < v) := by
    intro n
    rw [rescaled_get]
    by_cases hn : n = col
    · subst hn
      exact ⟨a, b, ha, by rw [if_pos rfl]; rfl, by rw [if_pos rfl], .inr hne⟩
    · refine ⟨1, 0, one_pos, by rw [if_neg hn, affine_one_zero], ?_, .inl ⟨rfl, rfl⟩⟩
      rw [if_neg hn, affine_one_zero, List.map_id_fun]
      cases c.samples.get n <;> rfl
  obtain ⟨s, o, hs, e1, hgx, hnx⟩ := key px
  obtain ⟨s', o', hs', e2, hgy, hny⟩ := key py
  rw [e1, e2]
  have hwt : (rescaled c col a b).weights = c.weights := by
    have := rescaled_get c col c.weightColumn a b
    rw [if_neg hcol.symm] at this
    exact this
  have hbins : getBins (rescaled c col a b) = getBins c := by
    simp only [getBins, rescaled, List.length_map]
    rfl
  have hr := smoothedHistogram2d_units lib.near c (rescaled c col a b) px py rfl rfl rfl hbins hs hs' hwt hgx hgy hnx hny
  unfold plotContour
  rw [map_bind]
  refine bind_congr fun _ _ => ?_
  change (smoothedHistogram2d lib.near (rescaled c col a b) px py >>= _) = Except.map _ (smoothedHistogram2d lib.near c px py >>= _)
  rw [hr, bind_map, map_bind]
  refine bind_congr fun r _ => ?_
  simp only [moveHist, List.length_map, map_bind]
  rfl

/-! ### Empty cells -/

/-- Where every filled cell holds more than `1e-16`, the empty cells lie outside of the filled ones: each has a larger value on the
surface than every filled cell, so that a contour encloses empty cells only after all filled ones. -/
theorem C114_empty_last {lib : Lib} (hn : NearOk lib.near) (ha : ArgsortOk lib.argsort) {cfg : PlotConfig} {c : Chain ℝ}
    (hc : AcceptedNoShift c) {px py : String} {r : Hist2d} (hr : smoothedHistogram2d lib.near c px py = .ok r)
    (hbig : ∀ row ∈ r.hist, ∀ v ∈ row, v ≠ 0 → 1 / 10 ^ 16 < v) {name : String} {xs ys : List ℝ} {vals : List (List ℝ)} {levels : List ℝ}
    (h : plotContour lib cfg c px py = .ok (.contour name px py xs ys vals levels)) {i j i' j' : Nat} (hi : i < xs.length)
    (hj : j < ys.length) (hi' : i' < xs.length) (hj' : j' < ys.length) (hfull : cell r.hist i j ≠ 0) (hempty : cell r.hist i' j' = 0) :
    cell vals j i < cell vals j' i' := by
  obtain ⟨args, hwf0, hsh, hmk⟩ := hc
  obtain ⟨hwf, -, -, -, ⟨w, hw, -, hpos⟩, -⟩ := C07_accepted_chain_guarantees args c hwf0 hsh hmk
  obtain ⟨r', vals', levels', hr', hcall, -, hd, -⟩ := C79_contour hn ha hwf hw hpos h
  rw [hr] at hr'
  cases hr'
  cases hcall
  have hrect := (smoothedHistogram2d_valid hn hwf hw hpos hr).1
  have hm : ∀ i j, i < r.xs.length → j < r.ys.length →
      (if cell r.hist i j = 0 then 1 / 10 ^ 16 else cell r.hist i j, cell vals j i) ∈ surfaceCells r.xs.length r.ys.length r.hist vals := by
    intro i j hi hj
    exact List.mem_flatMap.2 ⟨i, List.mem_range.2 hi, List.mem_map.2 ⟨j, List.mem_range.2 hj, rfl⟩⟩
  refine hd.denser _ (hm i j hi hj) _ (hm i' j' hi' hj') ?_
  simp only [hempty, hfull, if_true, if_false]
  have hi0 : i < r.hist.length := by rw [hrect.rows]; exact hi
  have hj0 : j < r.hist[i].length := by rw [hrect.cols _ (List.getElem_mem hi0)]; exact hj
  have hcell : cell r.hist i j = r.hist[i][j] := by
    rw [cell, List.getD_eq_getElem?_getD (l := r.hist), List.getElem?_eq_getElem hi0, Option.getD_some,
      List.getD_eq_getElem?_getD, List.getElem?_eq_getElem hj0, Option.getD_some]
  rw [hcell] at hfull ⊢
  exact hbig _ (List.getElem_mem hi0) _ (List.getElem_mem hj0) hfull

/-- The grid chain of four points in two by three cells. -/
theorem step_chain (lib : Lib) : ∃ c : Chain ℝ, Chain.make (stepArgs []) = .ok c ∧ AcceptedNoShift c ∧ c.weightColumn = "weight" ∧
    c.power = 1 ∧ c.cfg .kde = (0 : ℝ) ∧ (c.cfg .sigmas : List ℝ) = [0, 1, 2] ∧ (c.cfg .shadeAlpha : Flt ℝ) = .fin (1 / 2) ∧
    (c.cfg .shadeGradient : ℝ) = 1 ∧ (c.cfg .color : Option String) = none ∧ c.samples.WF ∧ c.weights = .ok [1, 1, 1, 1] ∧
    c.name = "step" ∧ smoothedHistogram2d lib.near c "x" "y" = .ok ⟨[[1, 1, 0], [1, 0, 1]], midpoints [-1 / 2, 1 / 2, 3 / 2],
      midpoints [-1 / 2, 1 / 2, 3 / 2, 5 / 2]⟩ ∧ c.samples = stepFrame := by
  obtain ⟨c, hc, hcs, hw, -, hp, hg, -, hname, hcfg⟩ :=
    plain_chain_cfg (K := ℝ) true [] rfl
      (by change (0 : ℝ) ≤ 6827 / 10000 ∧ (6827 / 10000 : ℝ) ≤ 1; constructor <;> norm_num)
      (by change (1 : ℝ) ≤ 10; norm_num) rfl rfl (by intro h; cases h) stepFrame stepFrame_wf
      (by simp [stepFrame]) (w := [1, 1, 1, 1]) rfl (by simp) "step" 1 le_rfl (one_dvd _)
  have hk : c.cfg .kde = (0 : ℝ) := by rw [hcfg]; rfl
  have hwt : c.weights = .ok [1, 1, 1, 1] := by unfold Chain.weights; rw [hcs, hw]; rfl
  have hx : c.samples.get "x" = .ok [0, 0, 1, 1] := by rw [hcs]; rfl
  have hy : c.samples.get "y" = .ok [0, 1, 0, 2] := by rw [hcs]; rfl
  have hs : c.smoothValue = 0 := by unfold Chain.smoothValue; rw [hcfg, hg]; rfl
  refine ⟨c, hc, ⟨_, ?_, rfl, hc⟩, hw, hp, hk, by rw [hcfg]; rfl, by rw [hcfg]; rfl, by rw [hcfg]; rfl, by rw [hcfg]; rfl,
    by rw [hcs]; exact stepFrame_wf, hwt, hname, (smoothedHistogram2d_ok_iff hk).2 ⟨_, _, _, _, _, _, _, hx, hy, hwt, step_bins hg,
      step_counts, powRows_ok_iff.2 ⟨.inl (by rw [hp]; norm_num), rfl⟩, by rw [hs]; exact if_pos rfl, by rw [hp]; simp⟩, hcs⟩
  exact ⟨by simp [stepFrame, Frame.toRaw], by simp [stepFrame, Frame.toRaw]⟩

/-- **C114** (violation). Two chains with the same samples, one with all weights 1 and one with all weights `1e-17` (importance weights
are often that small): with the first the contours enclose the filled cells before the empty ones, with the second the empty cells
before the filled ones. -/
theorem C114_violated {lib : Lib} (hn : NearOk lib.near) (ha : ArgsortOk lib.argsort) (cfg : PlotConfig) :
    ∃ c : Chain ℝ, AcceptedNoShift c ∧ c.weights = .ok [1, 1, 1, 1] ∧ (∃ args, Chain.make args = .ok (reweighted c (1 / 10 ^ 17))) ∧
      ∃ xs ys hist vals vals' levels levels', smoothedHistogram2d lib.near c "x" "y" = .ok ⟨hist, xs, ys⟩ ∧
        plotContour lib cfg c "x" "y" = .ok (.contour "step" "x" "y" xs ys vals levels) ∧
        plotContour lib cfg (reweighted c (1 / 10 ^ 17)) "x" "y" = .ok (.contour "step" "x" "y" xs ys vals' levels') ∧
        cell hist 0 0 = 1 ∧ cell hist 0 2 = 0 ∧ cell vals 0 0 < cell vals 2 0 ∧ cell vals' 2 0 < cell vals' 0 0 := by
  obtain ⟨c, hc, hacc, hwc, hp, hk, hsig, hal, hgr, hco, hwf, hwt, hname, hr, -⟩ := step_chain lib
  have hr' := smoothedHistogram2d_reweighted hn hacc (k := 1 / 10 ^ 17) (by positivity) (px := "x") (py := "y")
    (by rw [hwc]; decide) (by rw [hwc]; decide)
  rw [hr, hp, Real.rpow_one] at hr'
  have hmk' : ∃ args, Chain.make args = .ok (reweighted c (1 / 10 ^ 17)) := by
    refine ⟨_, (make_reweighted (stepArgs []) (k := 1 / 10 ^ 17) (by positivity) ?_).trans (by rw [hc]; rfl)⟩
    simp [stepArgs, stepFrame, Frame.toRaw]
  have hwt' : (reweighted c (1 / 10 ^ 17)).weights = .ok (List.map ((1 / 10 ^ 17 : ℝ) * ·) [1, 1, 1, 1]) := by
    have := reweighted_get c (1 / 10 ^ 17) c.weightColumn
    rw [if_pos rfl, show c.samples.get c.weightColumn = .ok [1, 1, 1, 1] from hwt] at this
    exact this
  have hwf' : (reweighted c (1 / 10 ^ 17)).samples.WF := by
    rw [reweighted_samples]
    refine ⟨by
      change (frameScale c.weightColumn (1 / 10 ^ 17) c.samples).columns.Nodup
      rw [frameScale_columns]
      exact hwf.1, fun e he => ?_⟩
    obtain ⟨e0, he0, rfl⟩ := List.mem_map.1 he
    have := hwf.2 _ he0
    split
    · change (List.map _ _).length = _
      rw [List.length_map]; exact this
    · exact this
  have draw : ∀ c' : Chain ℝ, c'.cfg = c.cfg → ∀ w, c'.weights = .ok w → (∀ v ∈ w, 0 < v) → c'.samples.WF →
      ∀ r, smoothedHistogram2d lib.near c' "x" "y" = .ok r → 2 ≤ r.xs.length → 2 ≤ r.ys.length →
      ∃ call, plotContour lib cfg c' "x" "y" = .ok call := by
    intro c' hcfg w hw hpos hwf r hr hx2 hy2
    exact C88_drawn_partial hn ha hwf hw hpos hr hx2 hy2 (by rw [hcfg, hsig]; simp) (by rw [hcfg, hsig]; norm_num)
      (by rw [hcfg, hsig]; simp) (.inr ⟨by rw [hcfg, hsig]; simp, 1 / 2, by norm_num, by rw [hcfg, hal]⟩)
      (by rw [hcfg, hco]; simp) (by rw [hcfg, hgr]; norm_num) (by rw [hcfg, hgr]; norm_num)
  have hpos' : ∀ v ∈ List.map ((1 / 10 ^ 17 : ℝ) * ·) [1, 1, 1, 1], 0 < v := by
    intro v hv
    simp only [List.map_cons, List.map_nil, List.mem_cons, List.not_mem_nil, or_false] at hv
    rcases hv with rfl | rfl | rfl | rfl <;> positivity
  obtain ⟨call, hcall⟩ := draw c rfl _ hwt (by simp) hwf _ hr (by simp [midpoints_length]) (by simp [midpoints_length])
  obtain ⟨call', hcall'⟩ := draw (reweighted c (1 / 10 ^ 17)) rfl _ hwt' hpos' hwf' _ hr' (by simp [scaleHist, midpoints_length])
    (by simp [scaleHist, midpoints_length])
  obtain ⟨r, vals, levels, h1, rfl, -, hd, -, -⟩ := C79_contour hn ha hwf hwt (by simp) hcall
  rw [hr] at h1
  cases h1
  obtain ⟨r', vals', levels', h2, rfl, -, hd', -, -⟩ := C79_contour hn ha hwf' hwt' hpos' hcall'
  rw [hr'] at h2
  cases h2
  rw [hname] at hcall
  rw [show (reweighted c (1 / 10 ^ 17)).name = "step" from hname] at hcall'
  refine ⟨c, hacc, hwt, hmk', _, _, _, vals, vals', levels, levels', hr, hcall, hcall', rfl, rfl, ?_, ?_⟩
  · simp only [midpoints_length] at hd
    change HighestDensity (surfaceCells 2 3 _ _) at hd
    refine hd.denser (1, cell vals 0 0) ?_ (1 / 10 ^ 16, cell vals 2 0) ?_ (by norm_num)
    · simp [surfaceCells, List.range_succ, cell]
    · simp [surfaceCells, List.range_succ, cell]
  · simp only [scaleHist, scaleRows, midpoints_length] at hd'
    change HighestDensity (surfaceCells 2 3 _ _) at hd'
    refine hd'.denser (1 / 10 ^ 16, cell vals' 2 0) ?_ (1 / 10 ^ 17, cell vals' 0 0) ?_ (by norm_num)
    · simp [surfaceCells, List.range_succ, cell]
    · simp [surfaceCells, List.range_succ, cell]

/-! ### Row order with KDE -/

/-- **C114** (row order, KDE). Reordering the rows of an accepted chain with equal weights does not change its contours, with KDE or
without. Missing: KDE with unequal weights, for which the choice among samples at the same distance may depend on the order
(`C48_order_violated`). -/
theorem C114_rows_kde_partial {lib : Lib} (hn : NearOk lib.near) (cfg : PlotConfig) (c : Chain ℝ) (hc : AcceptedNoShift c)
    (heq : ∃ v n, c.weights = .ok (List.replicate n v)) (p : List Nat) (hp : p.Perm (List.range c.samples.index.length))
    (px py : String) : plotContour lib cfg (reordered c p) px py = plotContour lib cfg c px py := by
  have hnn : ∀ w, c.weights = .ok w → ∀ v ∈ w, 0 < v := by
    obtain ⟨w, hw, hpos, -⟩ := accepted_column hc
    intro w' hw'
    rw [hw] at hw'
    cases hw'
    exact hpos
  replace hc : Accepted c := by
    obtain ⟨args, h1, -, h2⟩ := hc
    exact ⟨args, h1, h2⟩
  refine plotContour_scale cfg px py rfl rfl one_pos ?_ (.inl rfl)
  obtain ⟨w, hw, hwl, hl⟩ := accepted_lengths hc
  have hwt : (reordered c p).weights = .ok (p.filterMap (w[·]?)) := by
    have := reordered_get c p c.weightColumn
    rw [show c.samples.get c.weightColumn = .ok w from hw] at this
    exact this
  have hb : getBins (reordered c p) = getBins c := by
    have : (p.filterMap (c.samples.index[·]?)).length = c.samples.index.length :=
      (filterMap_getElem_perm hp).length_eq
    simp only [getBins, reordered, List.length_map, this]
    rfl
  have := smoothedHistogram2d_same lib.near c (reordered c p) px py rfl rfl rfl hb one_pos ?_
  · rwa [Real.one_rpow] at this
  rw [reordered_get, reordered_get]
  cases hx : c.samples.get px with
  | error e => exact .inl ⟨e, rfl, rfl⟩
  | ok x =>
    cases hy : c.samples.get py with
    | error e => exact .inr (.inl ⟨x, _, e, rfl, rfl, rfl, rfl⟩)
    | ok y =>
      have hs := reordered_pairs hc hp hx hy hw
      refine .inr (.inr ⟨x, y, w, _, _, _, rfl, rfl, hw, rfl, rfl, hwt, hs, .inl rfl, .inr fun xs ys => ⟨?_, fun h hh r hr v hv =>
        (megKde2d_pos hn (hnn w hw) hh r hr v hv).le⟩⟩)
      obtain ⟨v, n, hv⟩ := heq
      rw [hw] at hv
      obtain rfl := Except.ok.inj hv
      have hpm : (x.zip (y.zip (List.replicate n v))).Perm ((p.filterMap (x[·]?)).zip ((p.filterMap (y[·]?)).zip
          (p.filterMap ((List.replicate n v)[·]?)))) := by
        have := hs.perm
        simpa using this
      obtain ⟨e, he⟩ := perm_equiv hpm
      obtain ⟨⟨l1, l2⟩, ⟨l3, l4⟩, -⟩ := hs
      have l0 : (x.zip (y.zip (List.replicate n v))).length = x.length := by
        rw [List.length_zip, List.length_zip, l1, l2]; simp
      have l5 : ((p.filterMap (x[·]?)).zip ((p.filterMap (y[·]?)).zip (p.filterMap ((List.replicate n v)[·]?)))).length =
          (p.filterMap (x[·]?)).length := by
        rw [List.length_zip, List.length_zip, l3, l4]; simp
      have l6 : (p.filterMap (x[·]?)).length = x.length := by rw [← l5, ← l0]; exact hpm.length_eq.symm
      change megKde2d lib.near (p.filterMap (x[·]?)) (p.filterMap (y[·]?)) (p.filterMap ((List.replicate n v)[·]?)) (c.cfg .kde) xs ys =
        _
      generalize p.filterMap (x[·]?) = x' at *
      generalize p.filterMap (y[·]?) = y' at *
      generalize p.filterMap ((List.replicate n v)[·]?) = w' at *
      have hy' : y'.length = x.length := by omega
      have hw' : w'.length = x.length := by omega
      let e' : Fin x.length ≃ Fin x.length := ((finCongr (by omega)).trans e).trans (finCongr l0)
      have e1 : twoPoints x' y' l6 hy' = twoPoints x y rfl l1 ∘ e' := by
        funext i
        have := he (Fin.cast (by omega) i)
        have h1 := congrArg Prod.fst this
        have h2 := congrArg (fun q => q.2.1) this
        simp only [List.get_eq_getElem, List.getElem_zip] at h1 h2
        simp only [twoPoints, Function.comp_apply, entries, e', Equiv.trans_apply, finCongr_apply, Fin.val_cast]
        rw [← h1, ← h2]
        rfl
      have e2 : entries w' hw' = entries (List.replicate n v) l2 ∘ e' := by
        funext i
        have := he (Fin.cast (by omega) i)
        have h1 := congrArg (fun q => q.2.2) this
        simp only [List.get_eq_getElem, List.getElem_zip] at h1
        simp only [Function.comp_apply, entries, e', Equiv.trans_apply, finCongr_apply, Fin.val_cast]
        rw [← h1]
        rfl
      have key := megKde2d_rel lib.near (x := x) (y := y) (w := List.replicate n v) rfl l1 l2 l6 hy' hw' (c.cfg .kde)
        (by rw [e2]; rw [show ∑ i, (entries (List.replicate n v) l2 ∘ e') i = ∑ i, entries (List.replicate n v) l2 i from
          Equiv.sum_comp e' _])
        (by rw [e1, e2]; exact trainable_perm e') id id id (fun a b => by
          rw [e1, e2]
          refine (C48_order_partial hn (noTies_equal (fun i j => by simp [entries]) _ _ _ _) e').trans ?_
          simp only [id]
          cases kdeAt lib.near (twoPoints x y rfl l1) (entries (List.replicate n v) l2) (c.cfg .kde) 4 1 ![a, b] <;> rfl) xs ys
      rw [List.map_id, List.map_id] at key
      rw [key]
      cases megKde2d lib.near x y (List.replicate n v) (c.cfg .kde) xs ys with
      | error e => rfl
      | ok h => simp only [Except.map, scaleRows_one, List.map_id_fun, List.map_id]

/-! ### Instances -/

/-- There is a conforming `argsort` that only compares. -/
theorem scaleFree_exists : ∃ argsort : List ℝ → List Nat, ArgsortOk argsort ∧ ScaleFree argsort := by
  refine ⟨fun l => (List.range l.length).mergeSort fun i j => decide (l.getD i 0 ≤ l.getD j 0), fun l => ?_, fun k hk l => ?_⟩
  · have hp : ((List.range l.length).mergeSort fun i j => decide (l.getD i 0 ≤ l.getD j 0)).Perm
        (List.range l.length) := List.mergeSort_perm _ _
    refine ⟨hp, ?_⟩
    rw [gather_eq_map (fun i hi => List.mem_range.1 (hp.mem_iff.1 hi)) 0]
    refine List.pairwise_map.2 ?_
    have := List.pairwise_mergeSort (le := fun i j => decide (l.getD i 0 ≤ l.getD j 0))
      (fun a b c h1 h2 => by
        simp only [decide_eq_true_eq] at *
        exact h1.trans h2)
      (fun a b => by
        simp only [Bool.or_eq_true, decide_eq_true_eq]
        exact le_total _ _) (List.range l.length)
    exact this.imp fun h => of_decide_eq_true h
  · have e : ∀ i, (l.map (k * ·)).getD i 0 = k * l.getD i 0 := by
      intro i
      simp only [List.getD_eq_getElem?_getD, List.getElem?_map]
      cases l[i]? <;> simp
    simp only [e, mul_le_mul_iff_right₀ hk, List.length_map]

/-- The contours of four points in two by three cells, which are drawn. -/
example : ∃ (lib : Lib) (c : Chain ℝ) (call : Call), NearOk lib.near ∧ AcceptedNoShift c ∧ c.cfg .kde = (0 : ℝ) ∧
    [3, 2, 1, 0].Perm (List.range c.samples.index.length) ∧ (∃ v n, c.weights = .ok (List.replicate n v)) ∧ "x" ≠ c.weightColumn ∧
    (∀ x, c.samples.get "x" = .ok x → ∃ u ∈ x, ∃ v ∈ x, u < v) ∧ plotContour lib {} c "x" "y" = .ok call := by
  obtain ⟨near, hn⟩ := nearOk_exists
  obtain ⟨argsort, ha, -⟩ := scaleFree_exists
  obtain ⟨c, hc, hacc, hwc, hp, hk, hsig, hal, hgr, hco, hwf, hwt, hname, hr, hcs⟩ :=
    step_chain { near := near, argsort := argsort, filled := [] }
  obtain ⟨call, hcall⟩ := C88_drawn_partial (lib := { near := near, argsort := argsort, filled := [] }) (cfg := {}) hn ha hwf hwt
    (by simp) hr (by simp [midpoints_length]) (by simp [midpoints_length]) (by rw [hsig]; simp) (by rw [hsig]; norm_num)
    (by rw [hsig]; simp) (.inr ⟨by rw [hsig]; simp, 1 / 2, by norm_num, hal⟩) (by rw [hco]; simp) (by rw [hgr]; norm_num)
    (by rw [hgr]; norm_num)
  refine ⟨_, c, call, hn, hacc, hk, ?_, ⟨1, 4, hwt⟩, by rw [hwc]; decide, ?_, hcall⟩
  · rw [hcs]
    exact (by decide : [3, 2, 1, 0].Perm [0, 1, 2, 3])
  · intro x hx
    rw [hcs] at hx
    cases hx
    exact ⟨0, by simp, 1, by simp, one_pos⟩

/-- Contours with KDE, for which the weights may be rescaled. -/
example : ∃ (lib : Lib) (c : Chain ℝ) (r : Hist2d), NearOk lib.near ∧ ScaleFree lib.argsort ∧ AcceptedNoShift c ∧
    "x" ≠ c.weightColumn ∧ "y" ≠ c.weightColumn ∧ c.cfg .kde ≠ (0 : ℝ) ∧ smoothedHistogram2d lib.near c "x" "y" = .ok r := by
  obtain ⟨near, hn⟩ := nearOk_exists
  obtain ⟨argsort, -, ha⟩ := scaleFree_exists
  obtain ⟨c, r, hc, hr, -⟩ := C50_violated hn
  have hf : squareFrame.WF := ⟨by simp [squareFrame], by simp [squareFrame]⟩
  obtain ⟨c', hc', hcs, hw, -, hp, hg, -, -, hcfg⟩ :=
    plain_chain_cfg true [⟨.kde, (10 : ℝ)⟩] rfl
      (by change (0 : ℝ) ≤ 6827 / 10000 ∧ (6827 / 10000 : ℝ) ≤ 1; constructor <;> norm_num)
      (by change (1 : ℝ) ≤ 10; norm_num) rfl rfl (by intro h; cases h) squareFrame hf
      (by simp [squareFrame]) (w := [1, 1, 1, 1]) rfl (by simp) "square" 1 le_rfl (one_dvd _)
  obtain rfl : c' = c := Except.ok.inj (hc'.symm.trans hc)
  exact ⟨{ near := near, argsort := argsort, filled := [] }, c', r, hn, ha, ⟨_, ⟨by simp [squareFrame, Frame.toRaw],
    by simp [squareFrame, Frame.toRaw]⟩, rfl, hc'⟩, by rw [hw]; decide, by rw [hw]; decide,
    by rw [hcfg]; change (10 : ℝ) ≠ 0; norm_num, hr⟩

end CC
