import Verif.Props.Reorder
import Verif.Props.Comparison
import Verif.Props.Covariance

/-! # C102: comparison statistics and covariances under reordered rows and rescaled weights -/

set_option linter.unusedSectionVars false

namespace CC
open Spec

/-! ## Lists -/

section
variable {α : Type}

theorem rows_getElem? {p : List Nat} {v : List α} (hp : ∀ i ∈ p, i < v.length) (k : Nat) :
    (p.filterMap (v[·]?))[k]? = p[k]?.bind (v[·]?) := by
  induction p generalizing k with
  | nil => simp
  | cons i p ih =>
    have hi : i < v.length := hp i List.mem_cons_self
    rw [List.filterMap_cons, List.getElem?_eq_getElem hi]
    cases k with
    | zero => simp [hi]
    | succ k => simpa using ih (fun j hj => hp j (List.mem_cons_of_mem _ hj)) k

/-- The permutation of positions a reordering is. -/
theorem rows_equiv {n : Nat} {p : List Nat} (hp : p.Perm (List.range n)) :
    ∃ σ : Fin n ≃ Fin n, ∀ v : List α, v.length = n →
      ∀ i : Fin n, (p.filterMap (v[·]?))[i.1]? = v[(σ i).1]? := by
  have hl : p.length = n := by simpa using hp.length_eq
  have hlt : ∀ i ∈ p, i < n := fun i hi => by simpa using hp.mem_iff.1 hi
  let f : Fin n → Fin n := fun i => ⟨p[i.1]'(by omega), hlt _ (List.getElem_mem _)⟩
  have hnd : p.Nodup := hp.nodup_iff.2 List.nodup_range
  have hinj : Function.Injective f := by
    intro i j hij
    have : p[i.1]'(by omega) = p[j.1]'(by omega) := by simpa [f] using hij
    exact Fin.ext ((hnd.getElem_inj_iff).1 this)
  refine ⟨Equiv.ofBijective f (Finite.injective_iff_bijective.1 hinj), fun v hv i => ?_⟩
  rw [rows_getElem? (fun j hj => by rw [hv]; exact hlt j hj), List.getElem?_eq_getElem (by omega)]
  rfl

theorem rows_ofFn {n : Nat} {p : List Nat} {σ : Fin n ≃ Fin n}
    (hσ : ∀ v : List α, v.length = n → ∀ i : Fin n, (p.filterMap (v[·]?))[i.1]? = v[(σ i).1]?)
    {v : List α} (hv : v.length = n) {g : Fin n → α} (h : p.filterMap (v[·]?) = List.ofFn g) :
    v = List.ofFn fun i => g (σ.symm i) := by
  apply List.ext_getElem?
  intro k
  by_cases hk : k < n
  · have := hσ v hv (σ.symm ⟨k, hk⟩)
    rw [h, Equiv.apply_symm_apply] at this
    rw [← this]
    simp [hk]
  · simp [hk, hv]

end

section
variable {K : Type} [Field K] [LinearOrder K] [IsStrictOrderedRing K]

theorem npMax_perm {l l' : List K} (h : l.Perm l') : npMax l = npMax l' := by
  by_cases hne : l = []
  · subst hne; rw [h.nil_eq]
  · obtain ⟨M, h1, h2, h3⟩ := npMax_spec hne
    obtain ⟨M', h1', h2', h3'⟩ := npMax_spec (p := l') (fun hn => hne (by subst hn; exact h.eq_nil))
    rw [h1, h1']
    exact congrArg _ (le_antisymm (h3' _ (h.mem_iff.1 h2)) (h3 _ (h.mem_iff.2 h2')))

theorem zipWith_rows {α β γ : Type} (f : α → β → γ) (p : List Nat) (v : List α) (w : List β)
    (h : w.length = v.length) :
    List.zipWith f (p.filterMap (v[·]?)) (p.filterMap (w[·]?)) = p.filterMap ((List.zipWith f v w)[·]?) := by
  rw [← List.map_uncurry_zip_eq_zipWith, ← List.map_uncurry_zip_eq_zipWith, filterMap_zip p v w h,
    filterMap_map_get]

theorem dot_rows {n : Nat} {x w : List K} (hx : x.length = n) (hw : w.length = n) {p : List Nat}
    (hp : p.Perm (List.range n)) : dot (p.filterMap (x[·]?)) (p.filterMap (w[·]?)) = dot x w := by
  rw [dot, zipWith_rows _ _ _ _ (by omega)]
  exact (filterMap_getElem_perm (by simpa [hx, hw] using hp)).sum_eq

theorem getMany_rows (p : List Nat) (f : Frame K) (ns : List String) :
    (frameRows p f).getMany ns = (f.getMany ns).map (List.map fun v => p.filterMap (v[·]?)) := by
  induction ns with
  | nil => rfl
  | cons n ns ih =>
    simp only [Frame.getMany, frameRows_get, ih]
    cases f.get n with
    | error e => rfl
    | ok v => cases f.getMany ns <;> rfl

theorem getMany_column_length {f : Frame K} (hf : f.WF) {ns : List String} {X : List (List K)}
    (h : f.getMany ns = .ok X) : ∀ x ∈ X, x.length = f.index.length := by
  induction ns generalizing X with
  | nil => cases h; simp
  | cons n ns ih =>
    simp only [Frame.getMany, bind_ok_iff, pure_ok_iff] at h
    obtain ⟨v, hv, vs, hvs, rfl⟩ := h
    intro x hx
    rcases List.mem_cons.1 hx with rfl | hx
    · exact hf.2 _ (get_mem hv)
    · exact ih hvs x hx

/-- One entry of `np.cov`. -/
def covEntry (w a b : List K) : Flt K :=
  covScale (if w.sum - dot w w / w.sum ≤ 0 then 0 else w.sum - dot w w / w.sum)
    (dot (a.map (· - dot a w / w.sum)) (List.zipWith (· * ·) (b.map (· - dot b w / w.sum)) w))

theorem npCov_congr {X : List (List K)} {w w' : List K} (φ : List K → List K)
    (h1 : w'.any (fun v => decide (v < 0)) = w.any (fun v => decide (v < 0)))
    (h2 : w'.sum = 0 ↔ w.sum = 0)
    (h3 : w.sum ≠ 0 → ∀ a ∈ X, ∀ b ∈ X, covEntry w' (φ a) (φ b) = covEntry w a b) :
    npCov (X.map φ) w' = npCov X w := by
  unfold npCov
  by_cases hX : X = []
  · subst hX; rfl
  rw [if_neg hX, if_neg (by simpa using hX), h1]
  by_cases hn : w.any (fun v => decide (v < 0)) = true
  · rw [if_pos hn, if_pos hn]
  rw [if_neg hn, if_neg hn]
  by_cases hs : w.sum = 0
  · rw [if_pos hs, if_pos (h2.2 hs)]
  rw [if_neg hs, if_neg (fun h => hs (h2.1 h))]
  have h3 := h3 hs
  match X, h3 with
  | [], _ => exact absurd rfl hX
  | [x], h3 =>
    have := h3 x (by simp) x (by simp)
    simpa [covEntry] using this
  | x :: y :: t, h3 =>
    simp only [List.map_cons, Except.ok.injEq, CovArray.matrix.injEq]
    have hrow : ∀ a ∈ x :: y :: t, ((x :: y :: t).map fun b => covEntry w' (φ a) (φ b)) =
        (x :: y :: t).map fun b => covEntry w a b := fun a ha => List.map_congr_left fun b hb => h3 a ha b hb
    have := List.map_congr_left (l := x :: y :: t) hrow
    simpa [covEntry, Function.comp_def] using this

theorem npCov_rowOrder {n : Nat} {X : List (List K)} {w : List K} (hX : ∀ x ∈ X, x.length = n)
    (hw : w.length = n) {p : List Nat} (hp : p.Perm (List.range n)) :
    npCov (X.map fun v => p.filterMap (v[·]?)) (p.filterMap (w[·]?)) = npCov X w := by
  have hpw := filterMap_getElem_perm (v := w) (p := p) (by rw [hw]; exact hp)
  refine npCov_congr _ ?_ (by rw [hpw.sum_eq]) ?_
  · rw [Bool.eq_iff_iff, List.any_eq_true, List.any_eq_true]
    exact ⟨fun ⟨x, hx, h⟩ => ⟨x, hpw.mem_iff.1 hx, h⟩, fun ⟨x, hx, h⟩ => ⟨x, hpw.mem_iff.2 hx, h⟩⟩
  · intro _ a ha b hb
    unfold covEntry
    rw [hpw.sum_eq, dot_rows hw hw hp, dot_rows (hX a ha) hw hp, dot_rows (hX b hb) hw hp,
      ← filterMap_map_get, ← filterMap_map_get, zipWith_rows _ _ _ _ (by simp [hX b hb, hw]),
      dot_rows (n := n) (by simp [hX a ha]) (by simp [hX b hb, hw]) hp]

theorem covScale_scale {k : K} (hk : 0 < k) (f c : K) : covScale (k * f) (k * c) = covScale f c := by
  unfold covScale
  by_cases hf : f = 0
  · subst hf
    simp [mul_pos_iff_of_pos_left hk, mul_neg_iff, hk, not_lt.2 hk.le]
  · rw [if_neg (mul_ne_zero hk.ne' hf), if_neg hf]
    congr 1
    field_simp

theorem npCov_scale {k : K} (hk : 0 < k) (X : List (List K)) (w : List K) :
    npCov X (w.map (k * ·)) = npCov X w := by
  have hdot : ∀ x : List K, dot x (w.map (k * ·)) = k * dot x w := fun x => dot_scale_right x w k
  have hsum : (w.map (k * ·)).sum = k * w.sum := sum_scale w k
  have h := npCov_congr (X := X) (w := w) (w' := w.map (k * ·)) id ?_ ?_ ?_
  · simpa using h
  · rw [Bool.eq_iff_iff, List.any_eq_true, List.any_eq_true]
    simp [mul_neg_iff, hk, not_lt.2 hk.le]
  · rw [hsum]; simp [hk.ne']
  · intro hs a _ b _
    have hww : dot (w.map (k * ·)) (w.map (k * ·)) = k * (k * dot w w) := by
      rw [hdot, dot_comm (w.map _), hdot]
    have hf : k * w.sum - k * (k * dot w w) / (k * w.sum) = k * (w.sum - dot w w / w.sum) := by
      have := hk.ne'
      field_simp
    have hmean : ∀ x : List K, k * dot x w / (k * w.sum) = dot x w / w.sum :=
      fun x => mul_div_mul_left _ _ hk.ne'
    have hz : ∀ x : List K, List.zipWith (· * ·) x (w.map (k * ·)) = (List.zipWith (· * ·) x w).map (k * ·) := by
      intro x
      rw [List.zipWith_map_right, List.map_zipWith]
      congr 1
      funext u v
      ring
    simp only [covEntry, id, hsum, hww, hdot, hf, hmean, hz, dot_scale_right]
    conv_rhs => rw [← covScale_scale hk]
    congr 1
    by_cases h0 : w.sum - dot w w / w.sum ≤ 0
    · rw [if_pos h0, if_pos (mul_nonpos_of_nonneg_of_nonpos hk.le h0), mul_zero]
    · rw [if_neg h0, if_neg (fun h => h0 (nonpos_of_mul_nonpos_right h hk))]

end

/-! ## Covariances and correlations -/

section
variable {K : Type} [Field K] [LinearOrder K] [IsStrictOrderedRing K]

theorem reordered_dataColumns (c : Chain K) (p : List Nat) : (reordered c p).dataColumns = c.dataColumns := by
  simp only [Chain.dataColumns, reordered_samples, frameRows_columns]; rfl

theorem reweighted_dataColumns (c : Chain K) (k : K) : (reweighted c k).dataColumns = c.dataColumns := by
  simp only [Chain.dataColumns, reweighted_samples, frameScale_columns]; rfl

theorem weight_not_data (c : Chain K) : c.weightColumn ∉ c.dataColumns := by
  simp [Chain.dataColumns]

theorem getMany_scale {f : Frame K} {wc : String} {k : K} {ns : List String} (h : wc ∉ ns) :
    (frameScale wc k f).getMany ns = f.getMany ns := by
  induction ns with
  | nil => rfl
  | cons n ns ih =>
    rw [List.mem_cons, not_or] at h
    simp only [Frame.getMany, frameScale_get, if_neg (Ne.symm h.1), ih h.2]

/-- **C102** (covariances, row order). Reordering the rows of an accepted chain, shifted or not, changes no
covariance matrix and no error of `get_covariance`, whatever columns are asked for. -/
theorem C102_covariance_rows {c : Chain K} (hc : Accepted c) {p : List Nat}
    (hp : p.Perm (List.range c.samples.index.length)) (columns : Option (List String)) :
    (reordered c p).getCovariance columns = c.getCovariance columns := by
  obtain ⟨a, hwf, hmk⟩ := hc
  obtain ⟨hWF, -⟩ := make_WF hwf hmk
  have hd := reordered_dataColumns c p
  unfold Chain.getCovariance Chain.weights
  simp only [hd, reordered_samples, getMany_rows, frameRows_get]
  cases hX : c.samples.getMany (columns.getD c.dataColumns) with
  | error e => rfl
  | ok X =>
    change ((c.samples.get c.weightColumn).map _ >>= _) = (c.samples.get c.weightColumn >>= _)
    cases hw : c.samples.get c.weightColumn with
    | error e => rfl
    | ok w =>
      change (npCov (X.map _) (p.filterMap (w[·]?)) >>= _) = (npCov X w >>= _)
      rw [npCov_rowOrder (getMany_column_length hWF hX) (hWF.2 _ (get_mem hw)) hp]

/-- **C102** (covariances, weights). Multiplying the weights by a positive constant changes no covariance
matrix and no error of `get_covariance`, for any columns but the weights themselves. -/
theorem C102_covariance_weights (c : Chain K) {k : K} (hk : 0 < k) (columns : Option (List String))
    (hcols : c.weightColumn ∉ columns.getD []) :
    (reweighted c k).getCovariance columns = c.getCovariance columns := by
  have hd := reweighted_dataColumns c k
  have hn : c.weightColumn ∉ columns.getD c.dataColumns := by
    cases columns with
    | none => exact weight_not_data c
    | some l => exact hcols
  unfold Chain.getCovariance Chain.weights
  have hwc : (reweighted c k).weightColumn = c.weightColumn := rfl
  simp only [hd, reweighted_samples, getMany_scale hn, frameScale_get, hwc, if_true]
  cases hX : c.samples.getMany (columns.getD c.dataColumns) with
  | error e => rfl
  | ok X =>
    change ((c.samples.get c.weightColumn).map _ >>= _) = (c.samples.get c.weightColumn >>= _)
    cases hw : c.samples.get c.weightColumn with
    | error e => rfl
    | ok w =>
      change (npCov X (w.map (k * ·)) >>= _) = (npCov X w >>= _)
      rw [npCov_scale hk]

end

/-- **C102** (correlations). Neither changes a correlation matrix. -/
theorem C102_correlation {c : Chain ℝ} (hc : Accepted c) (columns : Option (List String)) :
    (∀ p : List Nat, p.Perm (List.range c.samples.index.length) →
      (reordered c p).getCorrelation columns = c.getCorrelation columns) ∧
    (∀ k : ℝ, 0 < k → c.weightColumn ∉ columns.getD [] →
      (reweighted c k).getCorrelation columns = c.getCorrelation columns) := by
  constructor
  · intro p hp
    unfold Chain.getCorrelation
    rw [C102_covariance_rows hc hp]
  · intro k hk h
    unfold Chain.getCorrelation
    rw [C102_covariance_weights c hk columns h]

/-! ## AIC, BIC and DIC -/

section
variable {K : Type} [Field K] [LinearOrder K] [IsStrictOrderedRing K]

theorem reordered_logPosterior (c : Chain K) (p : List Nat) :
    (reordered c p).logPosterior = c.logPosterior.map fun v => p.filterMap (v[·]?) :=
  lookup_map_snd (fun v : List K => p.filterMap (v[·]?)) _ _

theorem reweighted_logPosterior (c : Chain K) (k : K) (h : c.posteriorColumn ≠ c.weightColumn) :
    (reweighted c k).logPosterior = c.logPosterior := by
  have := reweighted_get c k c.posteriorColumn
  rw [if_neg h] at this
  simp only [Frame.get] at this
  change (reweighted c k).samples.cols.lookup c.posteriorColumn = c.samples.cols.lookup c.posteriorColumn
  cases h1 : (reweighted c k).samples.cols.lookup c.posteriorColumn <;>
    cases h2 : c.samples.cols.lookup c.posteriorColumn <;> rw [h1, h2] at this <;> simp_all

theorem aicValue_rows {c : Chain K} (hc : Accepted c) {p : List Nat}
    (hp : p.Perm (List.range c.samples.index.length)) : (reordered c p).aicValue = c.aicValue := by
  unfold Chain.aicValue
  have h1 : (reordered c p).numEffDataPoints = c.numEffDataPoints := rfl
  have h2 : (reordered c p).numFreeParams = c.numFreeParams := rfl
  rw [reordered_logPosterior, h1, h2]
  cases hq : c.logPosterior with
  | none => rfl
  | some q =>
    cases c.numEffDataPoints with
    | none => rfl
    | some N =>
      cases c.numFreeParams with
      | none => rfl
      | some k =>
        simp only [Option.map_some]
        rw [npMax_perm (filterMap_getElem_perm (by rw [(posterior_length hc hq).1]; exact hp))]

theorem aicValue_weights (c : Chain K) (k : K) (h : c.posteriorColumn ≠ c.weightColumn) :
    (reweighted c k).aicValue = c.aicValue := by
  unfold Chain.aicValue
  rw [reweighted_logPosterior c k h]
  rfl

theorem averages_scale {k : K} (hk : k ≠ 0) (w : List K) (X : List (List K)) :
    averages (w.map (k * ·)) X = averages w X := by
  induction X with
  | nil => rfl
  | cons x X ih => simp only [averages, average_scale_weights hk, ih]

theorem dicValue_weights (tie : List (List K) → List K → Nat) (c : Chain K) {k : K} (hk : 0 < k)
    (h : c.posteriorColumn ≠ c.weightColumn) : (reweighted c k).dicValue tie = c.dicValue tie := by
  unfold Chain.dicValue Chain.weights
  rw [reweighted_logPosterior c k h, reweighted_dataColumns, reweighted_samples,
    getMany_scale (weight_not_data c), frameScale_get]
  cases c.logPosterior with
  | none => rfl
  | some q =>
    change (_ >>= fun X => ((if c.weightColumn = c.weightColumn then _ else _) >>= _)) = _
    rw [if_pos rfl]
    cases hX : c.samples.getMany c.dataColumns with
    | error e => rfl
    | ok X =>
      change ((c.samples.get c.weightColumn).map _ >>= _) = (c.samples.get c.weightColumn >>= _)
      cases hw : c.samples.get c.weightColumn with
      | error e => rfl
      | ok w =>
        change (averages (w.map (k * ·)) X >>= fun means => _) = (averages w X >>= fun means => _)
        simp only [averages_scale hk.ne', average_scale_weights hk.ne']
        rfl

theorem reordered_accepted {c : Chain K} (hc : AcceptedNoShift c) {p : List Nat}
    (hp : p.Perm (List.range c.samples.index.length)) : AcceptedNoShift (reordered c p) := by
  obtain ⟨a, hwf, hs, hmk⟩ := hc
  obtain ⟨-, hi, -⟩ := make_WF hwf hmk
  have hp' : p.Perm (List.range a.samples.index.length) := by rw [← hi]; exact hp
  refine ⟨{ a with samples := rawRows p a.samples }, ?_, hs, ?_⟩
  · refine ⟨?_, ?_⟩
    · have := hwf.1
      simpa [rawRows, List.map_map, Function.comp_def] using this
    · intro e he
      obtain ⟨e', he', rfl⟩ := List.mem_map.1 he
      have h1 := (filterMap_getElem_perm (v := e'.2) (p := p) (by rw [hwf.2 _ he']; exact hp')).length_eq
      have h2 := (filterMap_getElem_perm (v := a.samples.index) (p := p) hp').length_eq
      change (p.filterMap (e'.2[·]?)).length = (p.filterMap (a.samples.index[·]?)).length
      rw [h1, h2, hwf.2 _ he']
  · rw [make_reordered a hwf p hp', hmk]; rfl

theorem sum_symm {n : Nat} (σ : Fin n ≃ Fin n) (f : Fin n → K) : ∑ i, f (σ.symm i) = ∑ i, f i :=
  Equiv.sum_comp σ.symm f

/-- The criterion of the documentation does not depend on the order of the rows. -/
theorem DIC_rows {c : Chain K} (hc : Accepted c) {p : List Nat}
    (hp : p.Perm (List.range c.samples.index.length)) {v : K} (h : DIC (reordered c p) v) : DIC c v := by
  obtain ⟨a, hwf, hmk⟩ := hc
  obtain ⟨hWF, -⟩ := make_WF hwf hmk
  obtain ⟨n, w, q, x, i, hw, hq, hx, hmin, hv⟩ := h
  have hdc : (reordered c p).dataColumns = c.dataColumns := reordered_dataColumns c p
  have hmem : ∀ {s : String} {l : List K}, (s, l) ∈ (reordered c p).samples.cols →
      ∃ l', (s, l') ∈ c.samples.cols ∧ l'.length = c.samples.index.length ∧ p.filterMap (l'[·]?) = l := by
    intro s l hm
    obtain ⟨e, he, heq⟩ := List.mem_map.1 hm
    cases heq
    exact ⟨e.2, he, hWF.2 _ he, rfl⟩
  obtain ⟨w', hw1, hw2, hw3⟩ := hmem hw
  obtain ⟨q', hq1, hq2, hq3⟩ := hmem hq
  have hn : n = c.samples.index.length := by
    have := (filterMap_getElem_perm (v := w') (p := p) (by rw [hw2]; exact hp)).length_eq
    rw [hw3, hw2] at this
    simpa using this
  subst hn
  obtain ⟨σ, hσ⟩ := rows_equiv (α := K) hp
  have hwm : ∀ f : Fin c.samples.index.length → K,
      wmean (fun i => w (σ.symm i)) (fun i => f (σ.symm i)) = wmean w f := by
    intro f
    simp only [wmean]
    rw [sum_symm σ w, sum_symm σ (fun i => w i * f i)]
  refine ⟨_, fun i => w (σ.symm i), fun i => q (σ.symm i), fun j i => x (j.cast (by rw [hdc])) (σ.symm i), σ i, ?_, ?_, ?_, ?_, ?_⟩
  · rw [← rows_ofFn hσ hw2 hw3]; exact hw1
  · rw [← rows_ofFn hσ hq2 hq3]; exact hq1
  · intro j
    obtain ⟨x', hx1, hx2, hx3⟩ := hmem (hx (j.cast (by rw [hdc])))
    rw [← rows_ofFn hσ hx2 hx3]
    simpa [hdc] using hx1
  · intro i'
    have hs : ∀ i'', (∑ j : Fin c.dataColumns.length, (x (j.cast (by rw [hdc])) (σ.symm i'') -
        wmean (fun i => w (σ.symm i)) (fun i => x (j.cast (by rw [hdc])) (σ.symm i))) ^ 2) =
        ∑ j, (x j (σ.symm i'') - wmean w (x j)) ^ 2 := by
      intro i''
      refine Fintype.sum_equiv (finCongr (by rw [hdc])) _ _ fun j => ?_
      rw [hwm (x (j.cast (by rw [hdc])))]
      rfl
    rw [hs, hs, Equiv.symm_apply_apply]
    exact hmin (σ.symm i')
  · simp only [hv, Equiv.symm_apply_apply]
    rw [hwm (fun i => -2 * q i)]

theorem dicValue_rows (tie : List (List K) → List K → Nat) {c : Chain K} (hc : AcceptedNoShift c)
    (hone : ∀ v v', DIC c v → DIC c v' → v = v') {p : List Nat}
    (hp : p.Perm (List.range c.samples.index.length)) : (reordered c p).dicValue tie = c.dicValue tie := by
  by_cases hm : c.posteriorColumn ∈ c.samples.columns
  · obtain ⟨v, h1, h2⟩ := dicValue_spec tie hc hm
    obtain ⟨v', h1', h2'⟩ := dicValue_spec tie (reordered_accepted hc hp)
      (by rw [reordered_samples, frameRows_columns]; exact hm)
    rw [h1, h1', hone v v' h2 (DIC_rows (AcceptedNoShift.accepted hc) hp h2')]
  · have h1 : c.logPosterior = none := by
      rw [← Option.not_isSome_iff_eq_none]
      exact fun h => hm (logPosterior_isSome.1 h)
    unfold Chain.dicValue
    rw [reordered_logPosterior, h1]
    rfl

theorem criterionLoop_congr {f : Chain K → Res (Option (Flt K))} {cs cs' : List (String × Chain K)}
    (h : List.Forall₂ (fun e e' => e'.1 = e.1 ∧ f e'.2 = f e.2) cs cs') : criterionLoop f cs' = criterionLoop f cs := by
  induction h with
  | nil => rfl
  | cons hd _ ih => simp only [criterionLoop, hd.1, hd.2, ih]

/-- The same samples: the rows in another order, or the weights in another normalisation (the log posterior
not being the weights). -/
def Spec.SameRun (c c' : Chain K) : Prop :=
  (∃ p : List Nat, p.Perm (List.range c.samples.index.length) ∧ c' = reordered c p) ∨
  (∃ k : K, 0 < k ∧ c.posteriorColumn ≠ c.weightColumn ∧ c' = reweighted c k)

theorem forall₂_of_left {α β : Type} {P : α → Prop} {R S : α → β → Prop} {l : List α} {l' : List β}
    (h : List.Forall₂ R l l') (hP : ∀ x ∈ l, P x) (H : ∀ x y, P x → R x y → S x y) : List.Forall₂ S l l' := by
  induction h with
  | nil => exact .nil
  | cons hd _ ih =>
    exact .cons (H _ _ (hP _ List.mem_cons_self) hd) (ih fun x hx => hP x (List.mem_cons_of_mem _ hx))

/-- **C102** (AIC). Giving any of the chains its rows in another order, or its weights in another
normalisation, changes neither the result nor the error of `aic()`. -/
theorem C102_aic {cs cs' : List (String × Chain K)} (hcs : ∀ e ∈ cs, Accepted e.2)
    (h : List.Forall₂ (fun e e' => e'.1 = e.1 ∧ SameRun e.2 e'.2) cs cs') : aic cs' = aic cs := by
  have h' : List.Forall₂ (fun e e' => e'.1 = e.1 ∧ Chain.aicValue e'.2 = Chain.aicValue e.2) cs cs' := by
    refine forall₂_of_left h hcs ?_
    rintro e e' he ⟨h1, ⟨p, hp, h2⟩ | ⟨k, -, hne, h2⟩⟩
    · exact ⟨h1, h2 ▸ aicValue_rows he hp⟩
    · exact ⟨h1, h2 ▸ aicValue_weights e.2 k hne⟩
  simp only [aic, criterionLoop_congr h']

/-- **C102** (DIC, partial). The same for `dic()`, for chains without `shift_params` whose criterion is
unambiguous: all samples nearest to the mean give the same value. Missing: chains with several nearest samples
of different posteriors, where it is false (`C102_violated`). -/
theorem C102_dic_partial (tie : List (List K) → List K → Nat) {cs cs' : List (String × Chain K)}
    (hcs : ∀ e ∈ cs, AcceptedNoShift e.2 ∧ ∀ v v', DIC e.2 v → DIC e.2 v' → v = v')
    (h : List.Forall₂ (fun e e' => e'.1 = e.1 ∧ SameRun e.2 e'.2) cs cs') : dic tie cs' = dic tie cs := by
  have h' : List.Forall₂ (fun e e' => e'.1 = e.1 ∧ Chain.dicValue tie e'.2 = Chain.dicValue tie e.2) cs cs' := by
    refine forall₂_of_left h hcs ?_
    rintro e e' he ⟨h1, ⟨p, hp, h2⟩ | ⟨k, hk, hne, h2⟩⟩
    · exact ⟨h1, h2 ▸ dicValue_rows tie he.1 he.2 hp⟩
    · exact ⟨h1, h2 ▸ dicValue_weights tie e.2 hk hne⟩
  simp only [dic, criterionLoop_congr h']

/-- **C102** (DIC, weights). The normalisation of the weights never matters for `dic()`. -/
theorem C102_dic_weights (tie : List (List K) → List K → Nat) {cs cs' : List (String × Chain K)}
    (h : List.Forall₂ (fun e e' => e'.1 = e.1 ∧ ∃ k : K, 0 < k ∧ e.2.posteriorColumn ≠ e.2.weightColumn ∧
      e'.2 = reweighted e.2 k) cs cs') : dic tie cs' = dic tie cs := by
  have h' : List.Forall₂ (fun e e' => e'.1 = e.1 ∧ Chain.dicValue tie e'.2 = Chain.dicValue tie e.2) cs cs' := by
    refine h.imp ?_
    rintro e e' ⟨h1, k, hk, hne, h2⟩
    exact ⟨h1, h2 ▸ dicValue_weights tie e.2 hk hne⟩
  simp only [dic, criterionLoop_congr h']

end

theorem bicValue_rows {c : Chain ℝ} (hc : Accepted c) {p : List Nat}
    (hp : p.Perm (List.range c.samples.index.length)) : (reordered c p).bicValue = c.bicValue := by
  unfold Chain.bicValue
  have h1 : (reordered c p).numEffDataPoints = c.numEffDataPoints := rfl
  have h2 : (reordered c p).numFreeParams = c.numFreeParams := rfl
  rw [reordered_logPosterior, h1, h2]
  cases hq : c.logPosterior with
  | none => rfl
  | some q =>
    cases c.numEffDataPoints with
    | none => rfl
    | some N =>
      cases c.numFreeParams with
      | none => rfl
      | some k =>
        simp only [Option.map_some]
        rw [npMax_perm (filterMap_getElem_perm (by rw [(posterior_length hc hq).1]; exact hp))]

/-- **C102** (BIC). The same for `bic()`. -/
theorem C102_bic {cs cs' : List (String × Chain ℝ)} (hcs : ∀ e ∈ cs, Accepted e.2)
    (h : List.Forall₂ (fun e e' => e'.1 = e.1 ∧ SameRun e.2 e'.2) cs cs') : bic cs' = bic cs := by
  have h' : List.Forall₂ (fun e e' => e'.1 = e.1 ∧ Chain.bicValue e'.2 = Chain.bicValue e.2) cs cs' := by
    refine forall₂_of_left h hcs ?_
    rintro e e' he ⟨h1, ⟨p, hp, h2⟩ | ⟨k, -, hne, h2⟩⟩
    · exact ⟨h1, h2 ▸ bicValue_rows he hp⟩
    · refine ⟨h1, h2 ▸ ?_⟩
      unfold Chain.bicValue
      rw [reweighted_logPosterior e.2 k hne]
      rfl
  simp only [bic, criterionLoop_congr h']

/-! ## Witnesses -/

/-- A chain with one parameter. -/
def rowsArgs (xs ps : List (Flt ℚ)) : Args ℚ :=
  { samples := { index := [.int 0, .int 1], cols := [(.str "a", xs), (.str "log_posterior", ps)] }
    name := "one", numFreeParams := some 1, numEffDataPoints := some (.fin 7) }

/-- The columns of such a chain. -/
theorem rowsChain (xs ps : List (Flt ℚ)) (x q : List ℚ)
    (h : (match Chain.make (rowsArgs xs ps) with
      | .ok c => decide (c.logPosterior = some q ∧ c.dataColumns = ["a"] ∧
          c.samples.getMany ["a"] = .ok [x] ∧ c.weights = .ok [1, 1] ∧ c.samples.index.length = 2 ∧
          c.posteriorColumn = "log_posterior" ∧ c.weightColumn = "weight")
      | .error _ => false) = true) :
    ∃ c, Chain.make (rowsArgs xs ps) = .ok c ∧ (c.logPosterior = some q ∧ c.dataColumns = ["a"] ∧
          c.samples.getMany ["a"] = .ok [x] ∧ c.weights = .ok [1, 1] ∧ c.samples.index.length = 2 ∧
          c.posteriorColumn = "log_posterior" ∧ c.weightColumn = "weight") := by
  cases hm : Chain.make (rowsArgs xs ps) with
  | error e => rw [hm] at h; cases h
  | ok c => rw [hm] at h; exact ⟨c, rfl, of_decide_eq_true h⟩

/-- **C102** (violation). Two samples at the same place with different log posteriors: whichever way scipy
breaks ties between points, exchanging the two rows of one of two identical chains changes `dic()`. -/
theorem C102_violated (tie : List (List ℚ) → List ℚ → Nat) : ∃ (c : Chain ℚ) (p : List Nat),
    AcceptedNoShift c ∧ p.Perm (List.range c.samples.index.length) ∧
    dic tie [("one", c), ("two", reordered c p)] ≠ dic tie [("one", c), ("two", c)] := by
  obtain ⟨c, hm, h1, h2, h3, h4, h5, h6, h7⟩ := rowsChain [.fin 1, .fin 1] [.fin 0, .fin (-1)] [1, 1] [0, -1] (by decide +kernel)
  refine ⟨c, [1, 0], ⟨_, ⟨by decide, by simp [rowsArgs]⟩, by decide +kernel, hm⟩, by rw [h5]; decide, ?_⟩
  have hv : ∀ (q : List ℚ) (d : Chain ℚ), d.logPosterior = some q → d.dataColumns = ["a"] →
      d.samples.getMany ["a"] = .ok [[1, 1]] → d.weights = .ok [1, 1] → d.samples.index.length = 2 →
      d.dicValue tie = (do
        let m ← nearestValue (fun _ _ => tie [[1], [1]] [1]) [[1], [1]] (q.map (-2 * ·)) [1]
        let a ← average (q.map (-2 * ·)) [1, 1]
        return some (.fin (a + (a - m)))) := by
    intro q d e1 e2 e3 e4 e5
    unfold Chain.dicValue
    rw [e1, e2, e3, e4, e5]
    have hr : rowsOf 2 [[(1 : ℚ), 1]] = [[1], [1]] := by decide +kernel
    have ha : averages [(1 : ℚ), 1] [[1, 1]] = .ok [1] := by decide +kernel
    change (averages [(1 : ℚ), 1] [[1, 1]] >>= fun means => _) = _
    rw [ha]
    change (nearestValue tie (rowsOf 2 [[(1 : ℚ), 1]]) _ [1] >>= _) = _
    rw [hr]
    rfl
  have r1 : (reordered c [1, 0]).logPosterior = some [-1, 0] := by rw [reordered_logPosterior, h1]; rfl
  have r2 : (reordered c [1, 0]).dataColumns = ["a"] := by rw [reordered_dataColumns, h2]
  have r3 : (reordered c [1, 0]).samples.getMany ["a"] = .ok [[1, 1]] := by
    rw [reordered_samples, getMany_rows, h3]; rfl
  have r4 : (reordered c [1, 0]).weights = .ok [1, 1] := by
    have := reordered_get c [1, 0] c.weightColumn
    change (reordered c [1, 0]).samples.get c.weightColumn = _
    rw [this]
    change (c.weights).map _ = _
    rw [h4]; rfl
  have r5 : (reordered c [1, 0]).samples.index.length = 2 := by
    have := (filterMap_getElem_perm (v := c.samples.index) (p := [1, 0]) (by rw [h5]; decide)).length_eq
    rw [h5] at this
    exact this
  simp only [dic, criterionLoop, hv _ _ h1 h2 h3 h4 h5, hv _ _ r1 r2 r3 r4 r5]
  rcases ht : tie [[1], [1]] [1] with _ | _ | i
  · decide +kernel
  · decide +kernel
  · have : ∀ vals : List ℚ, nearestValue (fun _ _ => i + 2) [[(1 : ℚ)], [1]] vals [1] =
        nearestValue (fun _ _ => 0) [[(1 : ℚ)], [1]] vals [1] := by
      intro vals
      have ha : argminBy (fun p => sqDist p [(1 : ℚ)]) [[1], [1]] = some 0 := by decide +kernel
      simp [nearestValue, ha]
    simp only [this]
    decide +kernel

/-- Three samples, the mean at the second. -/
def threeArgs : Args ℚ :=
  { samples := { index := [.int 0, .int 1, .int 2], cols := [(.str "a", [.fin 0, .fin 1, .fin 2]),
      (.str "log_posterior", [.fin (-3), .fin 0, .fin (-1)])] }
    name := "one", numFreeParams := some 1, numEffDataPoints := some (.fin 7) }

/-- The hypotheses of the theorems above hold of that chain. -/
example : ∃ c : Chain ℚ, AcceptedNoShift c ∧ Accepted c ∧ (∀ v v', DIC c v → DIC c v' → v = v') ∧
    SameRun c (reordered c [2, 0, 1]) ∧ SameRun c (reweighted c 3) ∧
    c.weightColumn ∉ (none : Option (List String)).getD [] := by
  have h : (match Chain.make threeArgs with
      | .ok c => decide (c.samples.cols = [("a", [0, 1, 2]), ("log_posterior", [-3, 0, -1]), ("weight", [1, 1, 1])] ∧
          c.dataColumns = ["a"] ∧ c.samples.index.length = 3 ∧
          c.posteriorColumn = "log_posterior" ∧ c.weightColumn = "weight")
      | .error _ => false) = true := by decide +kernel
  cases hm : Chain.make threeArgs with
  | error e => rw [hm] at h; cases h
  | ok c =>
    rw [hm] at h
    obtain ⟨h1, h2, h3, h4, h5⟩ := of_decide_eq_true h
    have hp : [2, 0, 1].Perm (List.range c.samples.index.length) := by rw [h3]; decide
    have hacc : AcceptedNoShift c := ⟨_, ⟨by decide, by simp [threeArgs]⟩, by decide +kernel, hm⟩
    refine ⟨c, hacc, AcceptedNoShift.accepted hacc, ?_, .inl ⟨_, hp, rfl⟩,
      .inr ⟨3, by norm_num, by rw [h4, h5]; decide, rfl⟩, by simp⟩
    have key : ∀ v, DIC c v → v = 16 / 3 := by
      rintro v ⟨n, w, q, x, i, hw, hq, hx, hmin, hv⟩
      rw [h1, h5] at hw
      rw [h1, h4] at hq
      have hw' : List.ofFn w = [1, 1, 1] := by simpa using hw
      have hq' : List.ofFn q = [-3, 0, -1] := by simpa using hq
      have hn : n = 3 := by simpa using congrArg List.length hw'
      subst hn
      have hl : 0 < c.dataColumns.length := by rw [h2]; decide
      have hx' : List.ofFn (x ⟨0, hl⟩) = [0, 1, 2] := by
        have := hx ⟨0, hl⟩
        rw [h1] at this
        have hn : c.dataColumns[(⟨0, hl⟩ : Fin c.dataColumns.length)] = "a" := by simp [h2]
        rw [hn] at this
        simpa using this
      have hone : ∀ f : Fin c.dataColumns.length → ℚ, ∑ j, f j = f ⟨0, hl⟩ := by
        intro f
        refine Fintype.sum_eq_single _ fun j hj => absurd ?_ hj
        have := j.2
        simp only [h2, List.length_singleton] at this
        exact Fin.ext (by simp; omega)
      simp only [List.ofFn_succ, List.ofFn_zero, List.cons.injEq] at hw' hq' hx'
      have hmin1 := hmin 1
      simp only [hone, wmean, Fin.sum_univ_three] at hmin1 hv
      obtain ⟨w0, w1, w2, -⟩ := hw'
      obtain ⟨q0, q1, q2, -⟩ := hq'
      obtain ⟨x0, x1, x2, -⟩ := hx'
      have w0' : w 0 = 1 := w0
      have w1' : w 1 = 1 := w1
      have w2' : w 2 = 1 := w2
      have q0' : q 0 = -3 := q0
      have q1' : q 1 = 0 := q1
      have q2' : q 2 = -1 := q2
      have x0' : x ⟨0, hl⟩ 0 = 0 := x0
      have x1' : x ⟨0, hl⟩ 1 = 1 := x1
      have x2' : x ⟨0, hl⟩ 2 = 2 := x2
      rw [w0', w1', w2', x0', x1', x2'] at hmin1
      rw [w0', w1', w2', q0', q1', q2'] at hv
      fin_cases i
      · exfalso; norm_num [x0'] at hmin1
      · norm_num [q1'] at hv; exact hv
      · exfalso
        change (x ⟨0, hl⟩ 2 - _) ^ 2 ≤ _ at hmin1
        norm_num [x2'] at hmin1
    intro v v' hv hv'
    rw [key v hv, key v' hv']

end CC
