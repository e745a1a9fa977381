import Verif.Props.Kde
import Verif.Props.Invariance
import Verif.Props.Diagnostic

/-! # The kernel density estimator inside the marginals: C25, C39 with KDE -/

set_option linter.unusedSectionVars false

namespace CC
open Matrix Spec

/-- A permutation of lists is a renumbering. -/
theorem perm_equiv {α : Type} {l l' : List α} (h : l.Perm l') :
    ∃ e : Fin l'.length ≃ Fin l.length, ∀ i, l'.get i = l.get (e i) := by
  induction h with
  | nil => exact ⟨Equiv.refl _, fun i => i.elim0⟩
  | cons a _ ih =>
    obtain ⟨e, he⟩ := ih
    refine ⟨((finSuccEquiv _).trans (Equiv.optionCongr e)).trans (finSuccEquiv _).symm, fun i => ?_⟩
    refine Fin.cases ?_ (fun i => ?_) i
    · rfl
    · have : (((finSuccEquiv _).trans (Equiv.optionCongr e)).trans (finSuccEquiv _).symm) i.succ = (e i).succ := by
        simp
      rw [this]
      exact he i
  | swap a b l =>
    refine ⟨Equiv.swap (0 : Fin (l.length + 2)) 1, fun i => ?_⟩
    refine Fin.cases ?_ (fun i => Fin.cases ?_ (fun i => ?_) i) i
    · rw [Equiv.swap_apply_left]; rfl
    · have : (Fin.succ (0 : Fin (l.length + 1))) = (1 : Fin (l.length + 2)) := rfl
      rw [this, Equiv.swap_apply_right]; rfl
    · rw [Equiv.swap_apply_of_ne_of_ne]
      · rfl
      · exact Fin.succ_ne_zero _
      · intro h
        have := congrArg Fin.val h
        simp at this
  | trans _ _ ih1 ih2 =>
    obtain ⟨e1, h1⟩ := ih1
    obtain ⟨e2, h2⟩ := ih2
    exact ⟨e2.trans e1, fun i => by rw [h2, h1]; rfl⟩

/-- The entries of a list of known length. -/
def entries {n : ℕ} (l : List ℝ) (h : l.length = n) : Fin n → ℝ := fun i => l[i.val]'(by omega)

/-- One-dimensional points. -/
def onePoints {n : ℕ} (l : List ℝ) (h : l.length = n) : Fin n → Fin 1 → ℝ := fun i _ => entries l h i

theorem megKde_eq (near : NearFn) {n : ℕ} (data w : List ℝ) (h : data.length = n) (h' : w.length = n) (f : ℝ)
    (ts : List ℝ) : megKde near data w f ts =
      (Kde.make (onePoints data h) (entries w h') 3 4 f >>= fun k => ts.mapM fun t => k.at near fun _ => t) := by
  subst h
  unfold megKde
  rw [dif_pos h']
  refine bind_congr fun k _ => ?_
  unfold Kde.evaluate
  rw [List.mapM_map]
  rfl

/-- Evaluation target by target, for a nonempty list of targets. -/
theorem megKde_mapM (near : NearFn) {n : ℕ} (data w : List ℝ) (h : data.length = n) (h' : w.length = n) (f : ℝ)
    {ts : List ℝ} (hts : ts ≠ []) : megKde near data w f ts =
      ts.mapM fun t => kdeAt near (onePoints data h) (entries w h') 3 4 f fun _ => t := by
  rw [megKde_eq near data w h h']
  cases hk : Kde.make (onePoints data h) (entries w h') 3 4 f with
  | error e =>
    cases ts with
    | nil => exact absurd rfl hts
    | cons t ts =>
      rw [List.mapM_cons]
      unfold kdeAt
      rw [hk]
      rfl
  | ok k =>
    unfold kdeAt
    rw [hk]
    rfl

theorem megKde_ok {near : NearFn} {data w ts ys : List ℝ} {f : ℝ} (h : megKde near data w f ts = .ok ys) :
    ∃ h' : w.length = data.length, List.Forall₂ (fun t y => kdeAt near (onePoints data rfl) (entries w h') 3 4 f
      (fun _ => t) = .ok y) ts ys := by
  by_cases h' : w.length = data.length
  · refine ⟨h', ?_⟩
    by_cases hts : ts = []
    · subst hts
      rw [megKde_eq near data w rfl h'] at h
      obtain ⟨k, _, h⟩ := (bind_ok_iff ..).1 h
      obtain rfl := Except.ok.inj h
      exact .nil
    · rw [megKde_mapM near data w rfl h' f hts] at h
      exact mapM_ok_iff.1 h
  · unfold megKde at h
    rw [dif_neg h'] at h
    cases h

/-- The estimator meets what the marginals assume of it. -/
theorem megKde_kdeOk {near : NearFn} (hn : NearOk near) : KdeOk (megKde near) := by
  intro data w f ts ys h
  obtain ⟨h', hf⟩ := megKde_ok h
  refine ⟨hf.length_eq.symm, fun y hy => ?_⟩
  obtain ⟨t, _, ht⟩ := forall₂_mem_right hf hy
  obtain ⟨_, htr, _, s, _, rfl⟩ := kdeAt_spec hn ht
  exact Finset.sum_nonneg fun i _ => mul_nonneg (htr.nonneg i) (Real.exp_pos _).le

/-- With positive weights the values are positive. -/
theorem megKde_pos {near : NearFn} (hn : NearOk near) {data w ts ys : List ℝ} {f : ℝ} (hw : ∀ v ∈ w, 0 < v)
    (h : megKde near data w f ts = .ok ys) : ∀ y ∈ ys, 0 < y := by
  obtain ⟨h', hf⟩ := megKde_ok h
  intro y hy
  obtain ⟨t, _, ht⟩ := forall₂_mem_right hf hy
  exact C48_positive hn (fun i => hw _ (List.getElem_mem _)) (by norm_num) ht

/-- It succeeds for at least four samples that are not all equal, positive weights and a nonzero bandwidth
factor. -/
theorem megKde_exists (near : NearFn) {data w : List ℝ} (hl : w.length = data.length) (hw : ∀ v ∈ w, 0 < v)
    (h4 : 4 ≤ data.length) {a b : ℝ} (ha : a ∈ data) (hb : b ∈ data) (hab : a ≠ b) {f : ℝ} (hf : f ≠ 0)
    (ts : List ℝ) : ∃ ys, megKde near data w f ts = .ok ys := by
  have ht : Trainable (onePoints data rfl) (entries w hl) := by
    refine (trainable_iff fun i => hw _ (List.getElem_mem _)).2 ⟨by omega, fun v hv => ?_⟩
    obtain ⟨i, hi, rfl⟩ := List.getElem_of_mem ha
    obtain ⟨j, hj, rfl⟩ := List.getElem_of_mem hb
    have := hv ⟨i, hi⟩ ⟨j, hj⟩
    simp only [dotProduct, Fin.sum_univ_one, onePoints, entries] at this
    have h0 : v 0 = 0 := by
      by_contra h0
      exact hab (mul_left_cancel₀ h0 this)
    funext k
    rw [Fin.fin_one_eq_zero k, h0]
    rfl
  obtain ⟨k, hk⟩ := (Kde.make_exists_iff (tr := 3) (m := 4)).2 ⟨hf, ht⟩
  rw [megKde_eq near data w rfl hl, hk]
  refine mapM_ok_of_forall fun t _ => ?_
  have := kdeAt_exists near (tr := 3) (m := 4) hf ht h4 fun _ => t
  unfold kdeAt at this
  rwa [hk] at this

theorem make_error_congr {n p : ℕ} {x x' : Fin n → Fin p → ℝ} {w w' : Fin n → ℝ} (tr : ℝ) (m : ℕ) (f : ℝ)
    (h1 : ∑ i, w' i = 0 ↔ ∑ i, w i = 0) (h2 : Trainable x' w' ↔ Trainable x w) :
    (Kde.make x' w' tr m f).map (fun _ => ([] : List ℝ)) = (Kde.make x w tr m f).map fun _ => [] := by
  by_cases hf : f = 0
  · unfold Kde.make
    simp [hf, ensure, bind, Except.bind, Except.map]
  by_cases hs : ∑ i, w i = 0
  · have hs' := h1.2 hs
    unfold Kde.make
    simp [hf, hs, hs', ensure, bind, Except.bind, Except.map]
  by_cases ht : Trainable x w
  · obtain ⟨k, hk⟩ := (Kde.make_exists_iff (tr := tr) (m := m)).2 ⟨hf, ht⟩
    obtain ⟨k', hk'⟩ := (Kde.make_exists_iff (tr := tr) (m := m)).2 ⟨hf, h2.2 ht⟩
    rw [hk, hk']
    rfl
  · have e : ∀ {x : Fin n → Fin p → ℝ} {w : Fin n → ℝ}, ∑ i, w i ≠ 0 → ¬Trainable x w →
        Kde.make x w tr m f = .error .value := by
      intro x w hs ht
      rcases kdeAt_cases (x := x) (w := w) signNear tr f m 0 with h | h | h | h | h
      · exact absurd h.1 hf
      · exact absurd h.2.1 hs
      · have := h.2.2.2
        unfold kdeAt at this
        cases hk : Kde.make x w tr m f with
        | error e => rw [hk] at this; simpa [bind, Except.bind] using this
        | ok k => exact absurd (Kde.make_ok_iff.1 hk).2.1 ht
      · exact absurd h.2.1 ht
      · exact absurd h.2.1 ht
    rw [e hs ht, e (fun h => hs (h1.1 h)) fun h => ht (h2.1 h)]

/-- The estimator fails or not independently of the targets when there are none. -/
theorem megKde_nil (near : NearFn) {n : ℕ} (data w : List ℝ) (h : data.length = n) (h' : w.length = n) (f : ℝ) :
    megKde near data w f [] = (Kde.make (onePoints data h) (entries w h') 3 4 f).map fun _ => [] := by
  rw [megKde_eq near data w h h']
  cases Kde.make (onePoints data h) (entries w h') 3 4 f <;> rfl

/-- Multiplying the weights multiplies the values. -/
theorem megKde_homogeneous (near : NearFn) : KdeHomogeneous (megKde near) := by
  intro k hk data w f ts
  by_cases h : w.length = data.length
  · have hm : (w.map (k * ·)).length = data.length := by rw [List.length_map, h]
    have he : entries (w.map (k * ·)) hm = fun i => k * entries w h i := by
      funext i
      simp [entries]
    by_cases hts : ts = []
    · subst hts
      rw [megKde_nil near data w rfl h, megKde_nil near data _ rfl hm, he]
      have := make_error_congr (x := onePoints data rfl) (x' := onePoints data rfl) (w := entries w h)
        (w' := fun i => k * entries w h i) 3 4 f (by rw [← Finset.mul_sum]; simp [hk.ne']) (trainable_scale hk)
      rw [this]
      cases Kde.make (onePoints data rfl) (entries w h) 3 4 f <;> rfl
    · rw [megKde_mapM near data w rfl h f hts, megKde_mapM near data _ rfl hm f hts, he]
      have := mapM_map_res id (k * ·) (fun t => kdeAt near (onePoints data rfl) (fun i => k * entries w h i) 3 4 f
        fun _ => t) (fun t => kdeAt near (onePoints data rfl) (entries w h) 3 4 f fun _ => t)
        (fun t => C48_weights near hk 3 f 4 _) ts
      rwa [List.map_id] at this
  · unfold megKde
    rw [dif_neg h, dif_neg (by rw [List.length_map]; exact h)]
    rfl

/-- The two coordinates of permuted pairs are renumbered together. -/
theorem sameSamples_equiv {data w data' w' : List ℝ} (h : SameSamples 1 data w data' w') :
    ∃ (h1 : data'.length = data.length) (h2 : w'.length = data.length) (e : Fin data.length ≃ Fin data.length),
      onePoints data' h1 = onePoints data rfl ∘ e ∧ entries w' h2 = entries w h.lengths ∘ e := by
  have hp : (data.zip w).Perm (data'.zip w') := by
    have := h.perm
    simpa using this
  obtain ⟨e, he⟩ := perm_equiv hp
  have l0 : (data.zip w).length = data.length := by simp [h.lengths]
  have l1 : (data'.zip w').length = data'.length := by simp [h.lengths']
  have h1 : data'.length = data.length := h.data_perm.length_eq.symm
  refine ⟨h1, h.lengths'.trans h1, ((finCongr (by omega)).trans e).trans (finCongr l0), ?_, ?_⟩
  · funext i _
    have := congrArg Prod.fst (he (Fin.cast (by omega) i))
    simpa [onePoints, entries] using this
  · funext i
    have := congrArg Prod.snd (he (Fin.cast (by omega) i))
    simpa [onePoints, entries] using this

/-- Where the value at every target is determined, it does not depend on the order of the samples. -/
theorem megKde_orderFree {near : NearFn} (hn : NearOk near) {data w : List ℝ} {f : ℝ} (hl : w.length = data.length)
    (h : ∀ t, NoTies (onePoints data rfl) (entries w hl) 3 4 f fun _ => t) :
    KdeOrderFree (megKde near) data w f := by
  intro data' w' hs ts
  obtain ⟨h1, h2, e, hd, hw⟩ := sameSamples_equiv hs
  by_cases hts : ts = []
  · subst hts
    rw [megKde_nil near data w rfl hl, megKde_nil near data' w' h1 h2, hd, hw]
    refine make_error_congr 3 4 f ?_ (trainable_perm e)
    rw [show ∑ i, (entries w hs.lengths ∘ e) i = ∑ i, entries w hs.lengths i from Equiv.sum_comp e _]
  · rw [megKde_mapM near data w rfl hl f hts, megKde_mapM near data' w' h1 h2 f hts, hd, hw]
    congr 1
    funext t
    exact C48_order_partial hn (h t) e

/-- Equal weights leave no ties to break. -/
theorem noTies_equal {n p : ℕ} {x : Fin n → Fin p → ℝ} {w : Fin n → ℝ} (h : ∀ i j, w i = w j) (tr f : ℝ) (m : ℕ)
    (t : Fin p → ℝ) : NoTies x w tr m f t := Or.inr fun i j _ => h i j

/-- **C39** with the kernel density estimator (row order). Reordering the rows of an accepted chain with
equal weights changes nothing that `get_summary` reports. Missing: unequal weights, for which the choice
among samples at the same distance may depend on the order (`C48_order_violated`). -/
theorem C39_row_order_kde_partial {near : NearFn} (hn : NearOk near) (c : Chain ℝ) (hc : Accepted c)
    (col : String) (hw : ∃ v n, c.weights = .ok (List.replicate n v)) (p : List Nat)
    (hp : p.Perm (List.range c.samples.index.length)) :
    summaryEntry (megKde near) (reordered c p) col = summaryEntry (megKde near) c col := by
  refine C39_row_order (megKde near) c hc col (Or.inr fun data w hd hw' => ?_) p hp
  obtain ⟨w0, hw0, hwl, hl⟩ := accepted_lengths hc
  rw [hw'] at hw0
  obtain rfl := Except.ok.inj hw0
  obtain ⟨v, n, hv⟩ := hw
  rw [hw'] at hv
  obtain rfl := Except.ok.inj hv
  refine megKde_orderFree hn (hwl.trans (hl col data hd).symm) fun t => noTies_equal (fun i j => ?_) _ _ _ _
  simp [entries]

/-- **C39** with the kernel density estimator (weights). Multiplying all weights of an accepted chain by
the same positive number changes nothing that `get_summary` reports, KDE or not. -/
theorem C39_weight_scale_kde (near : NearFn) (c : Chain ℝ) (hc : Accepted c) (k : ℝ) (hk : 0 < k)
    (col : String) (hcol : col ≠ c.weightColumn) :
    summaryEntry (megKde near) (reweighted c k) col = summaryEntry (megKde near) c col :=
  C39_weight_scale (megKde near) c hc (Or.inr (megKde_homogeneous near)) k hk col hcol

/-! ## The marginal exists -/

theorem simpson_pos {ys xs : List ℝ} (hx : 0 < xs.getD 1 0 - xs.getD 0 0) (hl : 3 ≤ ys.length)
    (hy : ∀ y ∈ ys, 0 < y) : 0 < simpson ys xs := by
  have hg : ∀ i, i < ys.length → 0 < ys.getD i 0 := by
    intro i hi
    rw [List.getD_eq_getElem?_getD, List.getElem?_eq_getElem hi]
    exact hy _ (List.getElem_mem _)
  unfold simpson
  simp only
  generalize xs.getD 1 0 - xs.getD 0 0 = h at hx
  by_cases h1 : ys.length % 2 = 1
  · rw [if_pos h1]
    have := simpsonOdd_ge hx.le ys (fun y h => (hy y h).le) hl h1
    have g := hg (ys.length - 2) (by omega)
    have : 0 < h / 3 * (4 * ys.getD (ys.length - 2) 0) := by positivity
    linarith
  · rw [if_neg h1, if_neg (by omega)]
    have hlen : (ys.take (ys.length - 1)).length = ys.length - 1 := by simp
    have := simpsonOdd_ge hx.le (ys.take (ys.length - 1)) (fun y h => (hy y (List.mem_of_mem_take h)).le)
      (by omega) (by omega)
    have e1 : (ys.take (ys.length - 1)).getD ((ys.take (ys.length - 1)).length - 2) 0 =
        ys.getD (ys.length - 3) 0 := by
      rw [hlen, List.getD_eq_getElem?_getD, List.getD_eq_getElem?_getD, List.getElem?_take_of_lt (by omega)]
      congr 2
    rw [e1] at this
    nlinarith [mul_pos hx (hg (ys.length - 1) (by omega)), mul_pos hx (hg (ys.length - 2) (by omega)),
      mul_pos hx (hg (ys.length - 3) (by omega))]

theorem exists_lower {l : List ℝ} (h : ∀ y ∈ l, 0 < y) : ∃ lo, 0 < lo ∧ ∀ y ∈ l, lo ≤ y := by
  induction l with
  | nil => exact ⟨1, one_pos, by simp⟩
  | cons a l ih =>
    obtain ⟨lo, h0, h1⟩ := ih fun y hy => h y (List.mem_cons_of_mem _ hy)
    refine ⟨min a lo, lt_min (h a (by simp)) h0, fun y hy => ?_⟩
    rcases List.mem_cons.1 hy with rfl | hy
    · exact min_le_left _ _
    · exact (min_le_right _ _).trans (h1 y hy)

/-- **C25** (existence with KDE). If the marginal without KDE exists, and there are at least four samples
that are not all equal, then the marginal with KDE exists too. -/
theorem C25_kde_exists {near : NearFn} (hn : NearOk near) (kde : KdeFn) (c : Chain ℝ) (w data : List ℝ)
    (hw : c.weights = .ok w) (hpos : ∀ v ∈ w, 0 < v) (hlen : w.length = data.length) (col : String)
    (hdata : c.samples.get col = .ok data) (pad : Bool) (m : Marginal ℝ)
    (hm : smoothedHistogram kde c col pad (some false) = .ok m) (hinc : m.xs.Pairwise (· < ·))
    (h4 : 4 ≤ data.length) {u v : ℝ} (hu : u ∈ data) (hv : v ∈ data) (huv : u ≠ v) (hf : c.cfg .kde ≠ (0 : ℝ)) :
    ∃ m', smoothedHistogram (megKde near) c col pad none = .ok m' ∧ m'.xs = m.xs ∧ ∀ y ∈ m'.ys, 0 < y := by
  simp only [smoothedHistogram, hw, hdata, bind_ok_iff, pure_ok_iff] at hm
  obtain ⟨d0, hd0, w0, hw0, bins, hbins, h0, hh0, h1, hh1, ab, hab, _, h2, ys, hys, cs, hcs, rfl⟩ := hm
  obtain rfl := Except.ok.inj hd0
  obtain rfl := Except.ok.inj hw0
  simp only at hinc
  have hablt : ab.1 < ab.2 := by
    have hl : (linspace ab.1 ab.2 gridSize).length = gridSize := by simp
    have := List.pairwise_iff_getElem.1 hinc 0 1 (by rw [hl]; have := two_le_gridSize; omega)
      (by rw [hl]; exact two_le_gridSize) (by omega)
    rw [linspace_getElem, linspace_getElem, gridSize_eq] at this
    norm_num at this
    linarith
  obtain ⟨sm, hsm, _⟩ := (bind_ok_iff ..).1 hys
  obtain ⟨mx, hmx⟩ : ∃ mx, arrMax bins = .ok mx := by
    cases bins with
    | nil =>
      simp only [midpoints, endpoints] at hab
      cases hab
    | cons b bs => exact ⟨_, rfl⟩
  obtain ⟨g, hg, hg200⟩ : ∃ g, kdeGridSize bins = .ok g ∧ 200 ≤ g :=
    ⟨max 200 (if 0 ≤ mx then ⌊mx⌋.toNat else 0), by unfold kdeGridSize; rw [hmx]; rfl, le_max_left _ _⟩
  obtain ⟨ks, hks⟩ := megKde_exists near hlen hpos h4 hu hv huv hf (linspace ab.1 ab.2 g)
  have hkl := (megKde_kdeOk hn _ _ _ _ _ hks).1
  rw [linspace_length] at hkl
  have hkp := megKde_pos hn hpos hks
  have hkinc := linspace_increasing hablt (n := g) (by omega)
  have harea : 0 < simpson ks (linspace ab.1 ab.2 g) := by
    refine simpson_pos ?_ (by omega) hkp
    have := List.pairwise_iff_getElem.1 hkinc 0 1 (by simp; omega) (by simp; omega) (by omega)
    rw [List.getD_eq_getElem?_getD, List.getD_eq_getElem?_getD, List.getElem?_eq_getElem (by simp; omega),
      List.getElem?_eq_getElem (by simp; omega)]
    simp only [Option.getD_some]
    linarith
  set area := simpson ks (linspace ab.1 ab.2 g) with hareadef
  have hval : ∀ x ∈ linspace ab.1 ab.2 gridSize, interp1d (linspace ab.1 ab.2 g) (ks.map (· / area)) x =
      .ok (polyline ((linspace ab.1 ab.2 g).zip (ks.map (· / area))) x) := fun x hx =>
    interp1d_ok_iff.2 ⟨ab.1, ab.2, linspace_head (by omega), linspace_last (by omega),
      (linspace_mem hablt.le two_le_gridSize hx).1, (linspace_mem hablt.le two_le_gridSize hx).2, rfl⟩
  obtain ⟨zs, hzs⟩ := mapM_ok_of_forall (f := interp1d (linspace ab.1 ab.2 g) (ks.map (· / area)))
    (l := linspace ab.1 ab.2 gridSize) fun x hx => ⟨_, hval x hx⟩
  have hzpos : ∀ z ∈ zs, 0 < z := by
    intro z hz
    obtain ⟨x, hx, hxz⟩ := forall₂_mem_right (mapM_ok_iff.1 hzs) hz
    rw [hval x hx] at hxz
    obtain rfl := Except.ok.inj hxz
    obtain ⟨lo, hlo, hle⟩ := exists_lower (l := ks.map (· / area)) (by
      intro y hy
      obtain ⟨k, hk, rfl⟩ := List.mem_map.1 hy
      exact div_pos (hkp k hk) harea)
    obtain ⟨k0, ks', hk0⟩ : ∃ k0 ks', ks.map (· / area) = k0 :: ks' := by
      cases hk : ks.map (· / area) with
      | nil => rw [List.map_eq_nil_iff] at hk; subst hk; simp at hkl; omega
      | cons a l => exact ⟨a, l, rfl⟩
    have hhead : ((linspace ab.1 ab.2 g).zip (ks.map (· / area))).head? = some (ab.1, k0) := by
      have := linspace_head (a := ab.1) (b := ab.2) (n := g) (by omega)
      cases hL : linspace ab.1 ab.2 g with
      | nil => rw [hL] at this; cases this
      | cons a l =>
        rw [hL] at this
        cases this
        rw [hk0]
        rfl
    refine lt_of_lt_of_le hlo (polyline_ge (sorted1_zip (hkinc.imp fun h => h.le)) (fun p hp => ?_) hhead
      (linspace_mem hablt.le two_le_gridSize hx).1)
    exact hle _ (List.of_mem_zip hp).2
  have hzl : zs.length = gridSize := by
    rw [← (mapM_ok_iff.1 hzs).length_eq, linspace_length]
  have hzne : zs ≠ [] := by
    rintro rfl
    have := two_le_gridSize
    simp at hzl
    omega
  have hzsum : zs.sum ≠ 0 := (List.sum_pos zs hzpos hzne).ne'
  refine ⟨⟨linspace ab.1 ab.2 gridSize, zs, (cumsum zs).map (· / zs.sum)⟩, ?_, rfl, hzpos⟩
  simp only [smoothedHistogram, hw, hdata, bind_ok_iff, pure_ok_iff]
  refine ⟨_, rfl, _, rfl, bins, hbins, h0, hh0, h1, hh1, ab, hab, (), h2, zs, ?_, _, ?_, rfl⟩
  · unfold marginalYs
    rw [hsm]
    simp only [Option.getD_none, hf, ne_eq, not_false_eq_true, decide_true, if_true, bind, Except.bind]
    unfold kdeDensity
    simp only [hg, hks, bind, Except.bind, ← hareadef, ensure, harea.ne', ne_eq, not_false_eq_true, decide_true,
      if_true]
    exact hzs
  · unfold normCumsum
    rw [arrMax, npMax_cumsum (fun z hz => (hzpos z hz).le) hzne]
    simp [bind, Except.bind, ensure, hzsum, pure, Except.pure]

/-- Four samples of equal weight. -/
def fourFrame : Frame ℝ :=
  ⟨[.int 0, .int 1, .int 2, .int 3], [("x", [0, 0, 1, 1]), ("weight", [1, 1, 1, 1])]⟩

/-- A grid chain of them with KDE. -/
noncomputable def fourArgs : Args ℝ where
  samples := fourFrame.toRaw
  name := "four"
  grid := true
  config := [⟨.kde, (1 : ℝ)⟩]

/-- It is accepted, and its marginal with KDE exists. -/
theorem four_chain {near : NearFn} (hn : NearOk near) : ∃ c m, Chain.make fourArgs = .ok c ∧
    AcceptedNoShift c ∧ c.cfg .kde = (1 : ℝ) ∧ c.weights = .ok (List.replicate 4 1) ∧ c.weightColumn = "weight" ∧
    c.samples = fourFrame ∧
    smoothedHistogram (megKde near) c "x" false none = .ok m ∧ ValidMarginal m := by
  have hf : fourFrame.WF := by
    refine ⟨by simp [fourFrame], by simp [fourFrame]⟩
  obtain ⟨c, hc, hcs, hw, -, hp, hg, -, hnm, hcfg⟩ :=
    plain_chain_cfg true [⟨.kde, (1 : ℝ)⟩] rfl
      (by change (0 : ℝ) ≤ 6827 / 10000 ∧ (6827 / 10000 : ℝ) ≤ 1; constructor <;> norm_num)
      (by change (1 : ℝ) ≤ 10; norm_num) rfl rfl (by intro h; cases h) fourFrame hf
      (by simp [fourFrame]) (w := [1, 1, 1, 1]) rfl (by simp) "four" 1 le_rfl (one_dvd _)
  have hs : c.cfg .smooth = none := by rw [hcfg]; rfl
  have hk : c.cfg .kde = (1 : ℝ) := by rw [hcfg]; rfl
  have hwt : c.weights = .ok [1, 1, 1, 1] := by unfold Chain.weights; rw [hcs, hw]; rfl
  have hdata : c.samples.get "x" = .ok [0, 0, 1, 1] := by rw [hcs]; rfl
  have hbins : marginalBins c [0, 0, 1, 1] [1, 1, 1, 1] false = .ok [-1 / 2, 1 / 2, 3 / 2] := by
    have : sortUnique ([0, 0, 1, 1] : List ℝ) = [0, 1] :=
      increasing_unique (sortUnique_increasing _) (by simp) fun x => by rw [mem_sortUnique]; simp
    simp only [marginalBins, hg, if_true, getGridBins, this]
    norm_num [pure, Except.pure, bind, Except.bind]
  have hsm : c.smoothValue = 0 := by
    unfold Chain.smoothValue
    rw [hs, hg]
    rfl
  obtain ⟨m, hm⟩ := C25_marginal_exists (megKde near) c [1, 1, 1, 1] [0, 0, 1, 1] [-1 / 2, 1 / 2, 3 / 2]
    hwt (by simp) rfl "x" hdata false hbins
    (by norm_num) (by simp) (by
      intro i hi
      have hi' : i = 0 := by simp [midpoints] at hi; omega
      subst hi'
      rw [gridSize_eq]
      norm_num [midpoints]) 0 (by simp) (by norm_num) (by norm_num) hsm.ge (by rw [hp]; norm_num)
  have hok := megKde_kdeOk hn
  have hv := C25_marginal_valid _ hok c _ hwt (by simp) "x" false _ _ hm
  obtain ⟨m', hm', -, -⟩ := C25_kde_exists hn (megKde near) c [1, 1, 1, 1] [0, 0, 1, 1]
    hwt (by simp) rfl "x" hdata false m hm
    hv.increasing (by simp) (u := 0) (v := 1) (by simp) (by simp) (by norm_num) (by rw [hk]; norm_num)
  exact ⟨c, m', hc, ⟨_, toRaw_WF.2 hf, rfl, hc⟩, hk, hwt, hw, hcs, hm',
    C25_marginal_valid _ hok c _ hwt (by simp) "x" false _ _ hm'⟩

/-- The hypotheses of the two C39 statements with KDE are met by that chain. -/
example : ∃ near : NearFn, NearOk near ∧ ∃ c m, Chain.make fourArgs = .ok c ∧
    smoothedHistogram (megKde near) c "x" false none = .ok m ∧
    summaryEntry (megKde near) (reordered c [2, 0, 3, 1]) "x" = summaryEntry (megKde near) c "x" ∧
    summaryEntry (megKde near) (reweighted c 5) "x" = summaryEntry (megKde near) c "x" := by
  obtain ⟨near, hn⟩ := nearOk_exists
  obtain ⟨c, m, hc, ha, -, hw, hwc, hs, hm, -⟩ := four_chain hn
  refine ⟨near, hn, c, m, hc, hm, C39_row_order_kde_partial hn c (by obtain ⟨a, h1, -, h2⟩ := ha; exact ⟨a, h1, h2⟩) "x" ⟨1, 4, hw⟩ _ ?_,
    C39_weight_scale_kde near c (by obtain ⟨a, h1, -, h2⟩ := ha; exact ⟨a, h1, h2⟩) 5 (by norm_num) "x" (by rw [hwc]; decide)⟩
  rw [hs]
  decide

end CC
