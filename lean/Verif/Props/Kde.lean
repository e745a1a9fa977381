import Verif.Lemmas.Kde

/-! # C48, C49: the kernel density estimator -/

set_option linter.unusedSectionVars false

namespace CC
open Matrix Spec

section
variable {n p : ℕ} {x : Fin n → Fin p → ℝ} {w : Fin n → ℝ}

/-! ## Comparing two estimates -/

theorem kdeAt_cases (near : NearFn) (tr f : ℝ) (m : ℕ) (t : Fin p → ℝ) :
    (f = 0 ∧ kdeAt near x w tr m f t = .error .unmodelled) ∨
    (f ≠ 0 ∧ ∑ i, w i = 0 ∧ kdeAt near x w tr m f t = .error .zeroDivision) ∨
    (f ≠ 0 ∧ ∑ i, w i ≠ 0 ∧ ¬Trainable x w ∧ kdeAt near x w tr m f t = .error .value) ∨
    (f ≠ 0 ∧ Trainable x w ∧ n < m ∧ kdeAt near x w tr m f t = .error .index) ∨
    (f ≠ 0 ∧ Trainable x w ∧ m ≤ n ∧ ∃ v, kdeAt near x w tr m f t = .ok v) := by
  by_cases hf : f = 0
  · refine .inl ⟨hf, ?_⟩
    unfold kdeAt Kde.make
    simp [hf, ensure, bind, Except.bind]
  refine .inr ?_
  by_cases hw : ∑ i, w i = 0
  · refine .inl ⟨hf, hw, ?_⟩
    unfold kdeAt Kde.make
    simp [hf, hw, ensure, bind, Except.bind]
  refine .inr ?_
  by_cases ht : Trainable x w
  · refine .inr ?_
    by_cases hm : m ≤ n
    · exact .inr ⟨hf, ht, hm, kdeAt_exists near hf ht hm t⟩
    · refine .inl ⟨hf, ht, not_le.1 hm, ?_⟩
      obtain ⟨k, hk⟩ := (Kde.make_exists_iff (tr := tr) (m := m)).2 ⟨hf, ht⟩
      obtain ⟨_, _, A, hA, e⟩ := Kde.make_ok_iff.1 hk
      have em : k.nmin = m := by rw [e]
      unfold kdeAt
      rw [hk]
      change k.at near t = .error .index
      unfold Kde.at
      simp only [em]
      rw [if_neg, if_pos (not_le.1 hm)]
      have := (Finset.card_le_univ (k.ball (vecMul (t - k.mean) k.A)))
      simp only [Fintype.card_fin] at this
      omega
  · refine .inl ⟨hf, hw, ht, ?_⟩
    unfold kdeAt Kde.make
    simp only [ne_eq, hf, hw, not_false_eq_true, decide_true, ensure, if_true, bind, Except.bind]
    by_cases h1 : ∀ i, 0 ≤ w i
    · by_cases h2 : 0 < kdeFact w
      · have h3 : (kdeCov (fun i => x i - kdeMean x w) w).det = 0 := by
          by_contra h3
          rw [kdeCov_eq hw] at h3
          exact ht ⟨hw, h1, by rw [← kdeFact_eq]; exact h2, h3⟩
        simp [h1, h2, h3]
      · simp [h1, h2]
    · simp [h1]

/-- Estimates from related data agree up to a factor if they are defined for the same reasons and their
values are related. -/
theorem kdeAt_transport (near near' : NearFn) (hn : NearOk near) (hn' : NearOk near') {x' : Fin n → Fin p → ℝ}
    {w' : Fin n → ℝ} {tr f c : ℝ} {m : ℕ} {t t' : Fin p → ℝ} (h1 : ∑ i, w' i = 0 ↔ ∑ i, w i = 0)
    (h2 : Trainable x' w' ↔ Trainable x w)
    (h3 : ∀ v v', IsKdeValue x w tr m f t v → IsKdeValue x' w' tr m f t' v' → v' = c * v) :
    kdeAt near' x' w' tr m f t' = (kdeAt near x w tr m f t).map (c * ·) := by
  rcases kdeAt_cases (x := x) (w := w) near tr f m t with
    ⟨a, e⟩ | ⟨a, b, e⟩ | ⟨a, b, d, e⟩ | ⟨a, b, d, e⟩ | ⟨a, b, d, v, e⟩ <;>
  rcases kdeAt_cases (x := x') (w := w') near' tr f m t' with
    ⟨a', e'⟩ | ⟨a', b', e'⟩ | ⟨a', b', d', e'⟩ | ⟨a', b', d', e'⟩ | ⟨a', b', d', v', e'⟩ <;>
  first
  | exact absurd a' a
  | exact absurd a a'
  | exact absurd (h1.1 b') b
  | exact absurd (h1.2 b) b'
  | exact absurd (h2.1 b') d
  | exact absurd (h2.2 b) d'
  | exact absurd (h1.1 b') b.mass
  | exact absurd (h1.2 b) b'.mass
  | (exfalso; omega)
  | (rw [e, e']; rfl)
  | (rw [e, e', h3 v v' (kdeAt_spec hn e).2.2.2 (kdeAt_spec hn' e').2.2.2]; rfl)

/-- Admissible values correspond under renumbering of rows, scaling of weights and any change of
coordinates that keeps the distances. -/
theorem isKdeValue_transport {x' : Fin n → Fin p → ℝ} {w' : Fin n → ℝ} {tr f c v : ℝ} {m : ℕ}
    {t t' : Fin p → ℝ} (e : Fin n ≃ Fin n) (hw : ∀ i, w' i = c * w (e i))
    (hd : ∀ i, mahaSq (ellCov x' w') (x' i) t' = mahaSq (ellCov x w) (x (e i)) t)
    (h : IsKdeValue x w tr m f t v) : IsKdeValue x' w' tr m f t' (c * v) := by
  have hwithin : inRadius x' w' tr f t' = (inRadius x w tr f t).map e.symm.toEmbedding := by
    ext i
    rw [Finset.mem_map_equiv, Equiv.symm_symm]
    unfold inRadius
    simp only [Finset.mem_filter, Finset.mem_univ, true_and, hd]
  obtain ⟨s, hs, rfl⟩ := h
  refine ⟨s.map e.symm.toEmbedding, ?_, ?_⟩
  · rcases hs with ⟨h1, rfl⟩ | ⟨h1, h2, h3⟩
    · exact .inl ⟨by rw [hwithin, Finset.card_map]; exact h1, hwithin.symm⟩
    · refine .inr ⟨by rw [hwithin, Finset.card_map]; exact h1, by rw [Finset.card_map]; exact h2, ?_⟩
      intro i hi j hj
      rw [Finset.mem_map_equiv, Equiv.symm_symm] at hi hj
      rw [hd, hd]
      exact h3 _ hi _ hj
  · unfold gaussSum
    rw [Finset.sum_map, Finset.mul_sum]
    refine Finset.sum_congr rfl fun i _ => ?_
    rw [Equiv.coe_toEmbedding, hw, hd, Equiv.apply_symm_apply, mul_assoc]

theorem noTies_transport {x' : Fin n → Fin p → ℝ} {w' : Fin n → ℝ} {tr f c : ℝ} {m : ℕ}
    {t t' : Fin p → ℝ} (e : Fin n ≃ Fin n) (hw : ∀ i, w' i = c * w (e i))
    (hd : ∀ i, mahaSq (ellCov x' w') (x' i) t' = mahaSq (ellCov x w) (x (e i)) t)
    (h : NoTies x w tr m f t) : NoTies x' w' tr m f t' := by
  have hwithin : inRadius x' w' tr f t' = (inRadius x w tr f t).map e.symm.toEmbedding := by
    ext i
    rw [Finset.mem_map_equiv, Equiv.symm_symm]
    unfold inRadius
    simp only [Finset.mem_filter, Finset.mem_univ, true_and, hd]
  rcases h with h | h
  · exact .inl (by rw [hwithin, Finset.card_map]; exact h)
  · refine .inr fun i j hij => ?_
    rw [hd, hd] at hij
    rw [hw, hw, h _ _ hij]

/-! ## Renumbering -/

theorem ellMean_perm (e : Fin n ≃ Fin n) : ellMean (x ∘ e) (w ∘ e) = ellMean x w := by
  funext j
  simp only [ellMean, Function.comp]
  rw [Equiv.sum_comp e fun i => w i * x i j, Equiv.sum_comp e w]

theorem ellCov_perm (e : Fin n ≃ Fin n) : ellCov (x ∘ e) (w ∘ e) = ellCov x w := by
  funext j k
  simp only [ellCov, ellMean_perm]
  simp only [Function.comp]
  rw [Equiv.sum_comp e fun i => w i * (x i j - ellMean x w j) * (x i k - ellMean x w k), Equiv.sum_comp e w,
    Equiv.sum_comp e fun i => w i ^ 2]

theorem trainable_perm (e : Fin n ≃ Fin n) : Trainable (x ∘ e) (w ∘ e) ↔ Trainable x w := by
  have e1 : ∑ i, (w ∘ e) i = ∑ i, w i := Equiv.sum_comp e w
  have e2 : ∑ i, (w ∘ e) i ^ 2 = ∑ i, w i ^ 2 := Equiv.sum_comp e fun i => w i ^ 2
  constructor
  · rintro ⟨h1, h2, h3, h4⟩
    rw [ellCov_perm] at h4
    rw [e1, e2] at h3
    refine ⟨by rwa [e1] at h1, fun i => ?_, h3, h4⟩
    have := h2 (e.symm i)
    rwa [Function.comp, Equiv.apply_symm_apply] at this
  · rintro ⟨h1, h2, h3, h4⟩
    exact ⟨by rwa [e1], fun i => h2 _, by rwa [e1, e2], by rwa [ellCov_perm]⟩

/-- Which values are admissible does not depend on the order of the training set. -/
theorem isKdeValue_perm {tr f v : ℝ} {m : ℕ} {t : Fin p → ℝ} (e : Fin n ≃ Fin n) :
    IsKdeValue (x ∘ e) (w ∘ e) tr m f t v ↔ IsKdeValue x w tr m f t v := by
  constructor
  · intro h
    have := isKdeValue_transport (x' := x) (w' := w) (c := 1) (t' := t) e.symm (by intro i; simp)
      (by intro i; rw [ellCov_perm]; simp) h
    rwa [one_mul] at this
  · intro h
    have := isKdeValue_transport (x' := x ∘ e) (w' := w ∘ e) (c := 1) (t' := t) e (by intro i; simp)
      (by intro i; rw [ellCov_perm]; rfl) h
    rwa [one_mul] at this

/-- **C48**, order of the training set: the value does not depend on it, provided that rows equally far
from the target have equal weights (or that at least `nmin` rows are within the truncation radius). -/
theorem C48_order_partial {near : NearFn} (hn : NearOk near) {tr f : ℝ} {m : ℕ} {t : Fin p → ℝ}
    (hties : NoTies x w tr m f t) (e : Fin n ≃ Fin n) :
    kdeAt near (x ∘ e) (w ∘ e) tr m f t = kdeAt near x w tr m f t := by
  have h := kdeAt_transport (x := x) (w := w) (x' := x ∘ e) (w' := w ∘ e) (tr := tr) (f := f) (c := 1) (m := m)
    (t := t) (t' := t) near near hn hn (by rw [show ∑ i, (w ∘ e) i = ∑ i, w i from Equiv.sum_comp e w])
    (trainable_perm e) (fun v v' h h' => by
      rw [one_mul]
      exact kdeValue_unique hties ((isKdeValue_perm e).1 h') h)
  rw [h]
  simp only [one_mul]
  cases kdeAt near x w tr m f t <;> rfl

/-! ## Scaling the weights -/

theorem ellMean_scale {c : ℝ} (hc : c ≠ 0) : ellMean x (fun i => c * w i) = ellMean x w := by
  funext j
  simp only [ellMean, mul_assoc, ← Finset.mul_sum]
  rw [mul_div_mul_left _ _ hc]

theorem fact_scale {c : ℝ} (hc : c ≠ 0) : (∑ i, c * w i) - (∑ i, (c * w i) ^ 2) / ∑ i, c * w i =
    c * ((∑ i, w i) - (∑ i, w i ^ 2) / ∑ i, w i) := by
  simp only [mul_pow, ← Finset.mul_sum]
  rw [sq c, mul_assoc, mul_div_mul_left _ _ hc, mul_sub, mul_div_assoc]

theorem ellCov_scale {c : ℝ} (hc : c ≠ 0) : ellCov x (fun i => c * w i) = ellCov x w := by
  funext j k
  simp only [ellCov, ellMean_scale hc, fact_scale hc]
  simp only [mul_assoc, ← Finset.mul_sum]
  rw [mul_div_mul_left _ _ hc]

theorem trainable_scale {c : ℝ} (hc : 0 < c) : Trainable x (fun i => c * w i) ↔ Trainable x w := by
  constructor
  · rintro ⟨h1, h2, h3, h4⟩
    refine ⟨?_, fun i => ?_, ?_, by rwa [ellCov_scale hc.ne'] at h4⟩
    · rw [← Finset.mul_sum] at h1
      exact (mul_ne_zero_iff.1 h1).2
    · exact nonneg_of_mul_nonneg_right (h2 i) hc
    · rw [fact_scale hc.ne'] at h3
      exact pos_of_mul_pos_right h3 hc.le
  · rintro ⟨h1, h2, h3, h4⟩
    refine ⟨?_, fun i => mul_nonneg hc.le (h2 i), ?_, by rwa [ellCov_scale hc.ne']⟩
    · rw [← Finset.mul_sum]
      exact mul_ne_zero hc.ne' h1
    · rw [fact_scale hc.ne']
      exact mul_pos hc h3

/-- **C48**, weights: multiplying all weights by a positive constant multiplies every value by it. -/
theorem C48_weights (near : NearFn) {c : ℝ} (hc : 0 < c) (tr f : ℝ) (m : ℕ) (t : Fin p → ℝ) :
    kdeAt near x (fun i => c * w i) tr m f t = (kdeAt near x w tr m f t).map (c * ·) := by
  rcases kdeAt_cases (x := x) (w := w) near tr f m t with
    ⟨a, e⟩ | ⟨a, b, e⟩ | ⟨a, b, d, e⟩ | ⟨a, b, d, e⟩ | ⟨a, b, d, v, e⟩
  · rcases kdeAt_cases (x := x) (w := fun i => c * w i) near tr f m t with h | h | h | h | h
    · rw [e, h.2]; rfl
    all_goals exact absurd a h.1
  · rcases kdeAt_cases (x := x) (w := fun i => c * w i) near tr f m t with h | h | h | h | h
    · exact absurd h.1 a
    · rw [e, h.2.2]; rfl
    · exact absurd (by rw [← Finset.mul_sum, b, mul_zero]) h.2.1
    · exact absurd (by rw [← Finset.mul_sum, b, mul_zero]) h.2.1.mass
    · exact absurd (by rw [← Finset.mul_sum, b, mul_zero]) h.2.1.mass
  · rcases kdeAt_cases (x := x) (w := fun i => c * w i) near tr f m t with h | h | h | h | h
    · exact absurd h.1 a
    · rw [← Finset.mul_sum] at h
      exact absurd ((mul_eq_zero.1 h.2.1).resolve_left hc.ne') b
    · rw [e, h.2.2.2]; rfl
    · exact absurd ((trainable_scale hc).1 h.2.1) d
    · exact absurd ((trainable_scale hc).1 h.2.1) d
  · rcases kdeAt_cases (x := x) (w := fun i => c * w i) near tr f m t with h | h | h | h | h
    · exact absurd h.1 a
    · exact absurd h.2.1 ((trainable_scale hc).2 b).mass
    · exact absurd ((trainable_scale hc).2 b) h.2.2.1
    · rw [e, h.2.2.2]; rfl
    · omega
  · obtain ⟨k, hk⟩ := (Kde.make_exists_iff (tr := tr) (m := m)).2 ⟨a, b⟩
    obtain ⟨_, _, A, hA, hke⟩ := Kde.make_ok_iff.1 hk
    have hk' : Kde.make x (fun i => c * w i) tr m f = .ok { k with weights := fun i => c * w i } := by
      refine Kde.make_ok_iff.2 ⟨a, (trainable_scale hc).2 b, A, by rw [ellCov_scale hc.ne']; exact hA, ?_⟩
      rw [hke, ellMean_scale hc.ne']
    have hkw : k.weights = w := by rw [hke]
    unfold kdeAt
    rw [hk, hk']
    change Kde.at near _ t = (k.at near t).map (c * ·)
    unfold Kde.at Kde.ball Kde.kernelSum
    simp only [mul_assoc, ← Finset.mul_sum, hkw]
    split_ifs <;> rfl

/-! ## Positivity -/

/-- **C48**, positivity: with positive weights every returned value is positive. -/
theorem C48_positive {near : NearFn} (hn : NearOk near) (hw : ∀ i, 0 < w i) {tr f v : ℝ} {m : ℕ} (hm : 1 ≤ m)
    {t : Fin p → ℝ} (h : kdeAt near x w tr m f t = .ok v) : 0 < v := by
  obtain ⟨_, _, _, s, hs, rfl⟩ := kdeAt_spec hn h
  refine Finset.sum_pos (fun i _ => mul_pos (hw i) (Real.exp_pos _)) (Finset.card_pos.1 ?_)
  rcases hs with ⟨h1, rfl⟩ | ⟨_, h2, _⟩
  · omega
  · omega

/-- **C48**, number of points: a value is returned exactly when the bandwidth factor is not zero, the data
have a regular covariance, and there are at least `nmin` of them. -/
theorem C48_defined {near : NearFn} (hn : NearOk near) (tr f : ℝ) (m : ℕ) (t : Fin p → ℝ) :
    (∃ v, kdeAt near x w tr m f t = .ok v) ↔ f ≠ 0 ∧ Trainable x w ∧ m ≤ n := kdeAt_exists_iff hn

/-- **C48**, too few points: evaluation at any target fails with an IndexError. -/
theorem C48_too_few (near : NearFn) {tr f : ℝ} {m : ℕ} (hf : f ≠ 0) (ht : Trainable x w) (hm : n < m)
    (t : Fin p → ℝ) : kdeAt near x w tr m f t = .error .index := by
  rcases kdeAt_cases (x := x) (w := w) near tr f m t with h | h | h | h | h
  · exact absurd h.1 hf
  · exact absurd h.2.1 ht.mass
  · exact absurd ht h.2.2.1
  · exact h.2.2.2
  · omega

/-! ## Affine maps -/

/-- The image of points under an affine map. -/
def affineImage (M : Matrix (Fin p) (Fin p) ℝ) (b : Fin p → ℝ) (x : Fin n → Fin p → ℝ) : Fin n → Fin p → ℝ :=
  fun i => M *ᵥ x i + b

theorem ellMean_affine (M : Matrix (Fin p) (Fin p) ℝ) (b : Fin p → ℝ) (hw : ∑ i, w i ≠ 0) :
    ellMean (affineImage M b x) w = M *ᵥ ellMean x w + b := by
  funext j
  simp only [ellMean, affineImage, Pi.add_apply, mulVec, dotProduct, mul_add, Finset.sum_add_distrib, ← Finset.sum_mul,
    add_div]
  rw [mul_div_cancel_left₀ _ hw]
  congr 1
  simp only [Finset.mul_sum, Finset.sum_div]
  rw [Finset.sum_comm]
  refine Finset.sum_congr rfl fun k _ => Finset.sum_congr rfl fun i _ => ?_
  ring

theorem ellCov_affine (M : Matrix (Fin p) (Fin p) ℝ) (b : Fin p → ℝ) (hw : ∑ i, w i ≠ 0) :
    ellCov (affineImage M b x) w = M * ellCov x w * Mᵀ := by
  funext j k
  simp only [ellCov, ellMean_affine M b hw]
  have e : ∀ i j, affineImage M b x i j - (M *ᵥ ellMean x w + b) j = ∑ l, M j l * (x i l - ellMean x w l) := by
    intro i j
    simp only [affineImage, Pi.add_apply, mulVec, dotProduct, mul_sub, Finset.sum_sub_distrib]
    ring
  simp only [e]
  simp only [Matrix.mul_apply, transpose_apply, ellCov, Finset.sum_mul, Finset.mul_sum, Finset.sum_div]
  rw [Finset.sum_comm]
  refine Finset.sum_congr rfl fun l _ => ?_
  rw [Finset.sum_comm]
  refine Finset.sum_congr rfl fun l' _ => Finset.sum_congr rfl fun i _ => ?_
  ring

theorem mahaSq_affine {M : Matrix (Fin p) (Fin p) ℝ} (hM : M.det ≠ 0) (b : Fin p → ℝ) (hw : ∑ i, w i ≠ 0)
    (u v : Fin p → ℝ) :
    mahaSq (ellCov (affineImage M b x) w) (M *ᵥ u + b) (M *ᵥ v + b) = mahaSq (ellCov x w) u v := by
  have hu : IsUnit M.det := isUnit_iff_ne_zero.2 hM
  unfold mahaSq
  rw [add_sub_add_right_eq_sub, ← mulVec_sub, ellCov_affine M b hw, Matrix.mul_inv_rev, Matrix.mul_inv_rev]
  rw [← mulVec_mulVec, ← mulVec_mulVec, mulVec_mulVec _ M⁻¹ M, Matrix.nonsing_inv_mul _ hu, one_mulVec]
  rw [← transpose_nonsing_inv, mulVec_transpose, dotProduct_comm, ← dotProduct_mulVec,
    mulVec_mulVec, Matrix.nonsing_inv_mul _ hu, one_mulVec, dotProduct_comm]

theorem trainable_affine {M : Matrix (Fin p) (Fin p) ℝ} (hM : M.det ≠ 0) (b : Fin p → ℝ) :
    Trainable (affineImage M b x) w ↔ Trainable x w := by
  have key : ∑ i, w i ≠ 0 → ((ellCov (affineImage M b x) w).det ≠ 0 ↔ (ellCov x w).det ≠ 0) := by
    intro hw
    rw [ellCov_affine M b hw, det_mul, det_mul, det_transpose, mul_ne_zero_iff, mul_ne_zero_iff]
    exact ⟨fun h => h.1.2, fun h => ⟨⟨hM, h⟩, hM⟩⟩
  exact ⟨fun h => ⟨h.mass, h.nonneg, h.spread, (key h.mass).1 h.regular⟩,
    fun h => ⟨h.mass, h.nonneg, h.spread, (key h.mass).2 h.regular⟩⟩

/-- Which values are admissible does not depend on the coordinates. -/
theorem isKdeValue_affine {M : Matrix (Fin p) (Fin p) ℝ} (hM : M.det ≠ 0) (b : Fin p → ℝ) (hw : ∑ i, w i ≠ 0)
    {tr f v : ℝ} {m : ℕ} {t : Fin p → ℝ} :
    IsKdeValue (affineImage M b x) w tr m f (M *ᵥ t + b) v ↔ IsKdeValue x w tr m f t v := by
  constructor
  · intro h
    have := isKdeValue_transport (x' := x) (w' := w) (c := 1) (t' := t) (Equiv.refl _) (by intro i; simp)
      (by intro i; exact (mahaSq_affine hM b hw _ _).symm) h
    rwa [one_mul] at this
  · intro h
    have := isKdeValue_transport (x' := affineImage M b x) (w' := w) (c := 1) (t' := M *ᵥ t + b) (Equiv.refl _)
      (by intro i; simp) (by intro i; exact mahaSq_affine hM b hw _ _) h
    rwa [one_mul] at this

/-- **C49**: the estimate is invariant under invertible affine maps of points and target, provided that
rows equally far from the target have equal weights (or that at least `nmin` rows are within the
truncation radius). -/
theorem C49_affine_partial {near : NearFn} (hn : NearOk near) {M : Matrix (Fin p) (Fin p) ℝ} (hM : M.det ≠ 0)
    (b : Fin p → ℝ) {tr f : ℝ} {m : ℕ} {t : Fin p → ℝ} (hties : NoTies x w tr m f t) :
    kdeAt near (affineImage M b x) w tr m f (M *ᵥ t + b) = kdeAt near x w tr m f t := by
  by_cases hw : ∑ i, w i = 0
  · rcases kdeAt_cases (x := x) (w := w) near tr f m t with h | h | h | h | h
    · rcases kdeAt_cases (x := affineImage M b x) (w := w) near tr f m (M *ᵥ t + b) with h' | h' | h' | h' | h'
      · rw [h.2, h'.2]
      all_goals exact absurd h.1 h'.1
    · rcases kdeAt_cases (x := affineImage M b x) (w := w) near tr f m (M *ᵥ t + b) with h' | h' | h' | h' | h'
      · exact absurd h'.1 h.1
      · rw [h.2.2, h'.2.2]
      · exact absurd hw h'.2.1
      · exact absurd hw h'.2.1.mass
      · exact absurd hw h'.2.1.mass
    · exact absurd hw h.2.1
    · exact absurd hw h.2.1.mass
    · exact absurd hw h.2.1.mass
  · have h := kdeAt_transport (x := x) (w := w) (x' := affineImage M b x) (w' := w) (tr := tr) (f := f) (c := 1)
      (m := m) (t := t) (t' := M *ᵥ t + b) near near hn hn Iff.rfl (trainable_affine hM b) (fun v v' h h' => by
        rw [one_mul]
        exact kdeValue_unique hties ((isKdeValue_affine hM b hw).1 h') h)
    rw [h]
    simp only [one_mul]
    cases kdeAt near x w tr m f t <;> rfl

/-! ## Change of units -/

/-- **C49**, units: rescaling every coordinate by a positive factor and moving the origin changes no value,
also when equally distant rows have different weights. -/
theorem C49_units (near : NearFn) {s : Fin p → ℝ} (hs : ∀ j, 0 < s j) (b : Fin p → ℝ) (tr f : ℝ) (m : ℕ)
    (t : Fin p → ℝ) :
    kdeAt near (affineImage (diagonal s) b x) w tr m f (diagonal s *ᵥ t + b) = kdeAt near x w tr m f t := by
  have hM : (diagonal s).det ≠ 0 := by
    rw [det_diagonal]
    exact Finset.prod_ne_zero_iff.2 fun j _ => (hs j).ne'
  by_cases hft : f ≠ 0 ∧ Trainable x w
  · obtain ⟨hf, ht⟩ := hft
    obtain ⟨k, hk⟩ := (Kde.make_exists_iff (tr := tr) (m := m)).2 ⟨hf, ht⟩
    obtain ⟨_, _, A, hA, hke⟩ := Kde.make_ok_iff.1 hk
    have hch := cholesky_spec hA
    have hinv : (diagonal s)⁻¹ = diagonal fun j => (s j)⁻¹ := by
      refine Matrix.inv_eq_right_inv ?_
      rw [diagonal_mul_diagonal]
      simp only [mul_inv_cancel₀ (hs _).ne']
      exact diagonal_one
    have hch' : IsCholesky (ellCov (affineImage (diagonal s) b x) w)⁻¹ ((diagonal fun j => (s j)⁻¹) * A) := by
      refine ⟨?_, fun i j hij => ?_, fun i => ?_⟩
      · rw [ellCov_affine _ _ ht.mass, Matrix.mul_inv_rev, Matrix.mul_inv_rev, ← transpose_nonsing_inv, hinv,
          ← hch.1, transpose_mul, diagonal_transpose]
        simp only [Matrix.mul_assoc]
      · rw [diagonal_mul, hch.2.1 i j hij, mul_zero]
      · rw [diagonal_mul]
        exact mul_pos (inv_pos.2 (hs i)) (hch.2.2 i)
    obtain ⟨A', hA', hc'⟩ := cholesky_ok ((trainable_affine hM b).2 ht).posDef.inv
    obtain rfl := isCholesky_unique hc' hch'
    have hk' := (Kde.make_ok_iff (tr := tr) (f := f) (m := m)).2 ⟨hf, (trainable_affine hM b).2 ht, _, hA', rfl⟩
    have hvec : ∀ u, vecMul (diagonal s *ᵥ u) ((diagonal fun j => (s j)⁻¹) * A) = vecMul u A := by
      intro u
      rw [← vecMul_vecMul]
      congr 1
      funext j
      rw [vecMul_diagonal, mulVec_diagonal, mul_comm (s j), mul_inv_cancel_right₀ (hs j).ne']
    unfold kdeAt
    rw [hk, hk']
    change Kde.at near _ _ = k.at near t
    have hd : ∀ u, diagonal s *ᵥ u + b - ellMean (affineImage (diagonal s) b x) w = diagonal s *ᵥ (u - ellMean x w) := by
      intro u
      rw [ellMean_affine _ _ ht.mass, mulVec_sub]
      abel
    have e1 : (fun i => vecMul (affineImage (diagonal s) b x i - ellMean (affineImage (diagonal s) b x) w)
        ((diagonal fun j => (s j)⁻¹) * A)) = fun i => vecMul (x i - ellMean x w) A := by
      funext i
      rw [affineImage, hd, hvec]
    rw [hke]
    have e2 := fun i => congrFun e1 i
    unfold Kde.at Kde.ball Kde.kernelSum
    simp only [e2, hd, hvec]
  · rcases kdeAt_cases (x := x) (w := w) near tr f m t with h | h | h | h | h
    · rcases kdeAt_cases (x := affineImage (diagonal s) b x) (w := w) near tr f m (diagonal s *ᵥ t + b) with
        h' | h' | h' | h' | h'
      · rw [h.2, h'.2]
      all_goals exact absurd h.1 h'.1
    · rcases kdeAt_cases (x := affineImage (diagonal s) b x) (w := w) near tr f m (diagonal s *ᵥ t + b) with
        h' | h' | h' | h' | h'
      · exact absurd h'.1 h.1
      · rw [h.2.2, h'.2.2]
      · exact absurd h.2.1 h'.2.1
      · exact absurd h.2.1 h'.2.1.mass
      · exact absurd h.2.1 h'.2.1.mass
    · rcases kdeAt_cases (x := affineImage (diagonal s) b x) (w := w) near tr f m (diagonal s *ᵥ t + b) with
        h' | h' | h' | h' | h'
      · exact absurd h'.1 h.1
      · exact absurd h'.2.1 h.2.1
      · rw [h.2.2.2, h'.2.2.2]
      · exact absurd ((trainable_affine hM b).1 h'.2.1) h.2.2.1
      · exact absurd ((trainable_affine hM b).1 h'.2.1) h.2.2.1
    · exact absurd ⟨h.1, h.2.1⟩ hft
    · exact absurd ⟨h.1, h.2.1⟩ hft

/-! ## Ties -/

/-- With the same points and covariance but other weights, the same rows contribute. -/
theorem kdeAt_same_rows {near : NearFn} (hn : NearOk near) {tr f : ℝ} {m : ℕ} (hf : f ≠ 0) (ht : Trainable x w)
    (hm : m ≤ n) (t : Fin p → ℝ) : ∃ s, Contributing x w tr m f t s ∧
      ∀ w', ellMean x w' = ellMean x w → ellCov x w' = ellCov x w → Trainable x w' →
      kdeAt near x w' tr m f t = .ok (gaussSum x w' f t s) := by
  obtain ⟨k, hk⟩ := (Kde.make_exists_iff (tr := tr) (m := m)).2 ⟨hf, ht⟩
  obtain ⟨_, _, A, hA, hke⟩ := Kde.make_ok_iff.1 hk
  have hk' : ∀ w', ellMean x w' = ellMean x w → ellCov x w' = ellCov x w → Trainable x w' →
      Kde.make x w' tr m f = .ok { k with weights := w' } := by
    intro w' hmean hcov ht'
    refine Kde.make_ok_iff.2 ⟨hf, ht', A, by rw [hcov]; exact hA, ?_⟩
    rw [hke, hmean]
  have em : k.nmin = m := by rw [hke]
  have eb := Kde.ball_eq hk t
  by_cases h1 : m ≤ (inRadius x w tr f t).card
  · refine ⟨inRadius x w tr f t, .inl ⟨h1, rfl⟩, fun w' a b c => ?_⟩
    rw [← Kde.kernelSum_eq (hk' w' a b c)]
    unfold kdeAt
    rw [hk' w' a b c]
    change Kde.at near _ t = _
    unfold Kde.at
    have eb' : Kde.ball { k with weights := w' } (vecMul (t - k.mean) k.A) = inRadius x w tr f t := eb
    dsimp only
    rw [eb', em, if_pos h1]
  · refine ⟨near k.d (vecMul (t - k.mean) k.A) m, .inr ⟨not_le.1 h1, Kde.near_nearest hn hk t hm⟩,
      fun w' a b c => ?_⟩
    rw [← Kde.kernelSum_eq (hk' w' a b c)]
    unfold kdeAt
    rw [hk' w' a b c]
    change Kde.at near _ t = _
    unfold Kde.at
    have eb' : Kde.ball { k with weights := w' } (vecMul (t - k.mean) k.A) = inRadius x w tr f t := eb
    dsimp only
    rw [eb', em, if_neg h1, if_neg (not_lt.2 hm)]

end

/-- Five points on a line, four of them equal. -/
def tiePoints : Fin 5 → Fin 1 → ℝ := fun i _ => if i = 0 then 0 else 1

/-- Their weights. -/
def tieWeights : Fin 5 → ℝ := ![1, 1, 2, 3, 4]

theorem tieWeights_pos : ∀ i, 0 < tieWeights i := by
  intro i
  fin_cases i <;> norm_num [tieWeights]

theorem tie_trainable : Trainable tiePoints tieWeights := by
  refine (trainable_iff tieWeights_pos).2 ⟨by norm_num, fun v hv => ?_⟩
  have := hv 1 0
  simp [tiePoints, dotProduct] at this
  funext j
  rw [Fin.fin_one_eq_zero j, this]
  rfl

theorem tie_ellMean : ellMean tiePoints tieWeights = fun _ => 10 / 11 := by
  funext j
  simp [ellMean, tiePoints, tieWeights, Fin.sum_univ_five]
  norm_num

theorem tie_ellCov : ellCov tiePoints tieWeights = Matrix.of fun _ _ => 1 / 9 := by
  funext j k
  simp only [ellCov, tie_ellMean, Matrix.of_apply]
  simp [tiePoints, tieWeights, Fin.sum_univ_five]
  norm_num

theorem tie_maha (u v : Fin 1 → ℝ) : mahaSq (ellCov tiePoints tieWeights) u v = 9 * (u 0 - v 0) ^ 2 := by
  have hinv : (ellCov tiePoints tieWeights)⁻¹ = Matrix.of fun _ _ => 9 := by
    refine Matrix.inv_eq_right_inv ?_
    ext i j
    rw [tie_ellCov, Matrix.mul_apply, Fin.fin_one_eq_zero i, Fin.fin_one_eq_zero j]
    simp
  unfold mahaSq
  rw [hinv]
  simp [dotProduct, mulVec]
  ring

/-- A target far to the left of all points. -/
def tieTarget : Fin 1 → ℝ := fun _ => -100

theorem tie_within : (inRadius tiePoints tieWeights 3 1 tieTarget).card < 4 := by
  have : inRadius tiePoints tieWeights 3 1 tieTarget = ∅ := by
    refine Finset.filter_eq_empty_iff.2 fun i _ h => ?_
    have h2 := h.2
    rw [tie_maha] at h2
    have hb : bandwidth 5 1 1 ≤ 2 := by
      unfold bandwidth
      have : ((5 : ℕ) : ℝ) ^ (-1 / (4 + ((1 : ℕ) : ℝ))) ≤ 1 :=
        Real.rpow_le_one_of_one_le_of_nonpos (by norm_num) (by norm_num)
      linarith
    have hb0 : 0 ≤ bandwidth 5 1 1 := by
      unfold bandwidth
      have := Real.rpow_nonneg (x := ((5 : ℕ) : ℝ)) (by norm_num) (-1 / (4 + ((1 : ℕ) : ℝ)))
      linarith
    have h3 : (bandwidth 5 1 1 * 3) ^ 2 ≤ 36 := by nlinarith
    have h4 : (0 : ℝ) ≤ tiePoints i 0 := by
      unfold tiePoints
      split_ifs <;> norm_num
    have h5 : tieTarget 0 = -100 := rfl
    rw [h5] at h2
    nlinarith
  rw [this]
  norm_num

/-- The four nearest points: the first and all but one of the others. -/
theorem tie_rows {s : Finset (Fin 5)} (h : Contributing tiePoints tieWeights 3 4 1 tieTarget s) :
    ∃ j, j ≠ 0 ∧ s = Finset.univ.erase j := by
  obtain ⟨h1, h2⟩ := (h.resolve_left (fun h => absurd h.1 (not_le.2 tie_within))).2
  have hc : sᶜ.card = 1 := by rw [Finset.card_compl, h1]; rfl
  obtain ⟨j, hj⟩ := Finset.card_eq_one.1 hc
  have hs : s = Finset.univ.erase j := by
    rw [← compl_compl s, hj, Finset.compl_singleton]
  refine ⟨j, ?_, hs⟩
  rintro rfl
  have := h2 1 (by rw [hs]; decide) 0 (by rw [hs]; decide)
  rw [tie_maha, tie_maha] at this
  norm_num [tiePoints, tieTarget] at this

theorem tie_gauss (w : Fin 5 → ℝ) (hw : ellCov tiePoints w = ellCov tiePoints tieWeights) (j : Fin 5) :
    gaussSum tiePoints w 1 tieTarget (Finset.univ.erase j) =
      (∑ i, w i * Real.exp (-(mahaSq (ellCov tiePoints tieWeights) (tiePoints i) tieTarget / (2 * bandwidth 5 1 1 ^ 2)))) -
        w j * Real.exp (-(mahaSq (ellCov tiePoints tieWeights) (tiePoints j) tieTarget / (2 * bandwidth 5 1 1 ^ 2))) := by
  unfold gaussSum
  rw [hw, eq_sub_iff_add_eq, Finset.sum_erase_add _ _ (Finset.mem_univ j)]

/-- **C48** is violated for equally distant points of different weights: whichever of them the tree
returns, swapping two equal training points (with their weights) changes the value. -/
theorem C48_order_violated (near : NearFn) (hn : NearOk near) : ∃ (e : Fin 5 ≃ Fin 5) (v v' : ℝ),
    kdeAt near tiePoints tieWeights 3 4 1 tieTarget = .ok v ∧
    kdeAt near (tiePoints ∘ e) (tieWeights ∘ e) 3 4 1 tieTarget = .ok v' ∧ v ≠ v' := by
  have hx : ∀ j j' : Fin 5, j ≠ 0 → j' ≠ 0 → tiePoints ∘ Equiv.swap j j' = tiePoints := by
    intro j j' h h'
    funext i k
    simp only [Function.comp, tiePoints]
    by_cases hi : i = 0
    · rw [hi, Equiv.swap_apply_of_ne_of_ne h.symm h'.symm]
    · have : Equiv.swap j j' i ≠ 0 := by
        rw [Equiv.swap_apply_def]
        split_ifs <;> assumption
      rw [if_neg hi, if_neg this]
  obtain ⟨s, hs, hval⟩ := kdeAt_same_rows hn (x := tiePoints) (w := tieWeights) (tr := 3) (f := 1) (m := 4)
    one_ne_zero tie_trainable (by norm_num) tieTarget
  obtain ⟨j, hj, rfl⟩ := tie_rows hs
  obtain ⟨j', hj', hne, hwne⟩ : ∃ j' : Fin 5, j' ≠ 0 ∧ j' ≠ j ∧ tieWeights j' ≠ tieWeights j := by
    by_cases h1 : j = 1
    · exact ⟨2, by decide, by rw [h1]; decide, by rw [h1]; change (2 : ℝ) ≠ 1; norm_num⟩
    · refine ⟨1, by decide, Ne.symm h1, ?_⟩
      fin_cases j <;> first | exact absurd rfl hj | exact absurd rfl h1 | norm_num [tieWeights]
  have hperm := hx j j' hj hj'
  have hmean : ellMean tiePoints (tieWeights ∘ Equiv.swap j j') = ellMean tiePoints tieWeights := by
    conv_lhs => rw [← hperm]
    exact ellMean_perm _
  have hcov : ellCov tiePoints (tieWeights ∘ Equiv.swap j j') = ellCov tiePoints tieWeights := by
    conv_lhs => rw [← hperm]
    exact ellCov_perm _
  have htr : Trainable tiePoints (tieWeights ∘ Equiv.swap j j') := by
    have := (trainable_perm (x := tiePoints) (w := tieWeights) (Equiv.swap j j')).2 tie_trainable
    rwa [hperm] at this
  refine ⟨Equiv.swap j j', _, gaussSum tiePoints (tieWeights ∘ Equiv.swap j j') 1 tieTarget (Finset.univ.erase j),
    hval tieWeights rfl rfl tie_trainable, ?_, ?_⟩
  · rw [hperm]
    exact hval _ hmean hcov htr
  · rw [tie_gauss _ rfl, tie_gauss _ hcov]
    have hsum : ∀ g : Fin 5 → ℝ, (∀ i i', i ≠ 0 → i' ≠ 0 → g i = g i') →
        ∑ i, (tieWeights ∘ Equiv.swap j j') i * g i = ∑ i, tieWeights i * g i := by
      intro g hg
      rw [← Equiv.sum_comp (Equiv.swap j j') fun i => tieWeights i * g i]
      refine Finset.sum_congr rfl fun i _ => ?_
      rw [Function.comp]
      congr 1
      by_cases hi : i = 0
      · rw [hi, Equiv.swap_apply_of_ne_of_ne hj.symm hj'.symm]
      · refine hg _ _ hi ?_
        rw [Equiv.swap_apply_def]
        split_ifs <;> assumption
    rw [hsum]
    · intro h
      have h2 := sub_right_injective h
      rw [Function.comp, Equiv.swap_apply_left] at h2
      exact hwne (mul_right_cancel₀ (Real.exp_ne_zero _) h2).symm
    · intro i i' hi hi'
      have : tiePoints i = tiePoints i' := by
        funext k
        simp [tiePoints, hi, hi']
      rw [this]

/-! ## Reflection with ties -/

/-- The nearest rows; among equally distant ones, those with low numbers if the target has a positive
coordinate and those with high numbers otherwise. -/
noncomputable def signNear : NearFn := fun {n p} d t k => by
  classical
  exact if h : k ≤ n then
    (nearest_exists (fun i => toLex (distSq (d i) t, if ∃ j, 0 < t j then i else Fin.rev i)) k h).choose else ∅

theorem signNear_spec {n p k : ℕ} (d : Fin n → Fin p → ℝ) (t : Fin p → ℝ) (hk : k ≤ n) : by
    classical
    exact (signNear d t k).card = k ∧ ∀ i ∈ signNear d t k, ∀ j, j ∉ signNear d t k →
      toLex (distSq (d i) t, if ∃ j, 0 < t j then i else Fin.rev i) ≤
        toLex (distSq (d j) t, if ∃ j, 0 < t j then j else Fin.rev j) := by
  classical
  have := (nearest_exists (fun i => toLex (distSq (d i) t, if ∃ j, 0 < t j then i else Fin.rev i)) k hk).choose_spec
  unfold signNear
  rw [dif_pos hk]
  exact this

theorem signNear_ok : NearOk signNear := by
  intro n p d t k hk
  obtain ⟨h1, h2⟩ := signNear_spec d t hk
  refine ⟨h1, fun i hi j hj => ?_⟩
  have := (Prod.Lex.le_iff.1 (h2 i hi j hj))
  rcases this with h | h
  · exact h.le
  · exact h.1.le

theorem kdeAt_fallback (near : NearFn) {n p : ℕ} {x : Fin n → Fin p → ℝ} {w : Fin n → ℝ} {tr f : ℝ} {m : ℕ}
    (hf : f ≠ 0) (ht : Trainable x w) (hm : m ≤ n) {t : Fin p → ℝ} (h : (inRadius x w tr f t).card < m) :
    ∃ A, IsCholesky (ellCov x w)⁻¹ A ∧ kdeAt near x w tr m f t = .ok (gaussSum x w f t
      (near (fun i => vecMul (x i - ellMean x w) A) (vecMul (t - ellMean x w) A) m)) := by
  obtain ⟨k, hk⟩ := (Kde.make_exists_iff (tr := tr) (m := m)).2 ⟨hf, ht⟩
  obtain ⟨_, _, A, hA, hke⟩ := Kde.make_ok_iff.1 hk
  refine ⟨A, cholesky_spec hA, ?_⟩
  have eb := Kde.ball_eq hk t
  rw [← Kde.kernelSum_eq hk]
  unfold kdeAt
  rw [hk]
  change k.at near t = _
  unfold Kde.at
  have em : k.nmin = m := by rw [hke]
  dsimp only
  rw [eb, em, if_neg (not_le.2 h), if_neg (not_lt.2 hm), hke]

/-- **C49** is violated for equally distant points of different weights: there is a conforming choice of
nearest points with which reflecting points and target changes the value. -/
theorem C49_violated : ∃ near : NearFn, NearOk near ∧ ∃ v v',
    kdeAt near tiePoints tieWeights 3 4 1 tieTarget = .ok v ∧
    kdeAt near (affineImage (diagonal fun _ => -1) 0 tiePoints) tieWeights 3 4 1
      (diagonal (fun _ => -1) *ᵥ tieTarget + 0) = .ok v' ∧ v ≠ v' := by
  have hM : (diagonal fun _ : Fin 1 => (-1 : ℝ)).det ≠ 0 := by
    rw [det_diagonal]
    simp
  have hmass : ∑ i, tieWeights i ≠ 0 := tie_trainable.mass
  have hmaha := mahaSq_affine (x := tiePoints) (w := tieWeights) hM 0 hmass
  have ht' : Trainable (affineImage (diagonal fun _ => -1) 0 tiePoints) tieWeights :=
    (trainable_affine hM 0).2 tie_trainable
  have hwithin : inRadius (affineImage (diagonal fun _ => -1) 0 tiePoints) tieWeights 3 1
      (diagonal (fun _ => -1) *ᵥ tieTarget + 0) = inRadius tiePoints tieWeights 3 1 tieTarget := by
    unfold inRadius
    simp only [affineImage, hmaha]
  obtain ⟨A, hA, h⟩ := kdeAt_fallback signNear (f := 1) one_ne_zero tie_trainable (by norm_num) tie_within
  obtain ⟨A', hA', h'⟩ := kdeAt_fallback signNear (f := 1) one_ne_zero ht' (by norm_num) (hwithin ▸ tie_within)
  refine ⟨signNear, signNear_ok, _, _, h, h', ?_⟩
  set S := signNear (fun i => vecMul (tiePoints i - ellMean tiePoints tieWeights) A)
    (vecMul (tieTarget - ellMean tiePoints tieWeights) A) 4 with hS
  set S' := signNear (fun i => vecMul (affineImage (diagonal fun _ => -1) 0 tiePoints i -
      ellMean (affineImage (diagonal fun _ => -1) 0 tiePoints) tieWeights) A')
    (vecMul (diagonal (fun _ => -1) *ᵥ tieTarget + 0 -
      ellMean (affineImage (diagonal fun _ => -1) 0 tiePoints) tieWeights) A') 4 with hS'
  have hg : gaussSum (affineImage (diagonal fun _ => -1) 0 tiePoints) tieWeights 1
      (diagonal (fun _ => -1) *ᵥ tieTarget + 0) S' = gaussSum tiePoints tieWeights 1 tieTarget S' := by
    unfold gaussSum
    refine Finset.sum_congr rfl fun i _ => ?_
    rw [affineImage, hmaha]
  obtain ⟨c1, c2⟩ := signNear_spec (fun i => vecMul (tiePoints i - ellMean tiePoints tieWeights) A)
    (vecMul (tieTarget - ellMean tiePoints tieWeights) A) (k := 4) (by norm_num)
  obtain ⟨c1', c2'⟩ := signNear_spec (fun i => vecMul (affineImage (diagonal fun _ => -1) 0 tiePoints i -
      ellMean (affineImage (diagonal fun _ => -1) 0 tiePoints) tieWeights) A')
    (vecMul (diagonal (fun _ => -1) *ᵥ tieTarget + 0 -
      ellMean (affineImage (diagonal fun _ => -1) 0 tiePoints) tieWeights) A') (k := 4) (by norm_num)
  rw [← hS] at c1 c2
  rw [← hS'] at c1' c2'
  have hneg : ¬∃ j, 0 < (vecMul (tieTarget - ellMean tiePoints tieWeights) A) j := by
    rintro ⟨j, hj⟩
    have hp := hA.2.2 0
    rw [Fin.fin_one_eq_zero j, tie_ellMean] at hj
    simp [vecMul, dotProduct, tieTarget] at hj
    nlinarith
  have hpos : ∃ j, 0 < (vecMul (diagonal (fun _ => -1) *ᵥ tieTarget + 0 -
      ellMean (affineImage (diagonal fun _ => -1) 0 tiePoints) tieWeights) A') j := by
    refine ⟨0, ?_⟩
    have hp := hA'.2.2 0
    rw [ellMean_affine _ _ hmass, tie_ellMean]
    simp [vecMul, dotProduct, tieTarget]
    nlinarith
  simp only [if_neg hneg, distSq_vecMul hA] at c2
  simp only [if_pos hpos, distSq_vecMul hA', affineImage, hmaha] at c2'
  have heq : ∀ i j : Fin 5, i ≠ 0 → j ≠ 0 → mahaSq (ellCov tiePoints tieWeights) (tiePoints i) tieTarget =
      mahaSq (ellCov tiePoints tieWeights) (tiePoints j) tieTarget := by
    intro i j hi hj
    have : tiePoints i = tiePoints j := by
      funext k
      simp [tiePoints, hi, hj]
    rw [this]
  obtain ⟨j, hj, hSj⟩ := tie_rows (s := S) (.inr ⟨tie_within, c1, fun i hi j hj => by
    rcases Prod.Lex.le_iff.1 (c2 i hi j hj) with h | h
    · exact h.le
    · exact h.1.le⟩)
  obtain ⟨j', hj', hSj'⟩ := tie_rows (s := S') (.inr ⟨tie_within, c1', fun i hi j hj => by
    rcases Prod.Lex.le_iff.1 (c2' i hi j hj) with h | h
    · exact h.le
    · exact h.1.le⟩)
  obtain rfl : j = 1 := by
    by_contra hne
    have h1 : (1 : Fin 5) ∈ S := by rw [hSj]; exact Finset.mem_erase.2 ⟨Ne.symm hne, Finset.mem_univ _⟩
    have h2 : j ∉ S := by rw [hSj]; exact Finset.notMem_erase _ _
    rcases Prod.Lex.le_iff.1 (c2 1 h1 j h2) with h | h
    · exact absurd h (not_lt.2 (heq j 1 hj (by decide)).le)
    · have := Fin.rev_le_rev.1 h.2
      omega
  obtain rfl : j' = 4 := by
    by_contra hne
    have h1 : (4 : Fin 5) ∈ S' := by rw [hSj']; exact Finset.mem_erase.2 ⟨Ne.symm hne, Finset.mem_univ _⟩
    have h2 : j' ∉ S' := by rw [hSj']; exact Finset.notMem_erase _ _
    rcases Prod.Lex.le_iff.1 (c2' 4 h1 j' h2) with h | h
    · exact absurd h (not_lt.2 (heq j' 4 hj' (by decide)).le)
    · have : (4 : Fin 5) ≤ j' := h.2
      omega
  rw [hg, hSj, hSj', tie_gauss _ rfl, tie_gauss _ rfl, heq 1 4 (by decide) (by decide)]
  intro h
  have h2 := mul_right_cancel₀ (Real.exp_ne_zero _) (sub_right_injective h)
  have h3 : (1 : ℝ) = 4 := h2
  norm_num at h3

/-! ## The hypotheses are met -/

/-- Enough rows in the radius: the estimate at a sample is the same for any order of the rows. -/
theorem tie_near : 4 ≤ (inRadius tiePoints tieWeights 3 1 fun _ => 1).card := by
  have h0 : 0 ≤ bandwidth 5 1 1 * 3 := by
    unfold bandwidth
    positivity
  have hsub : (Finset.univ.erase (0 : Fin 5)) ⊆ inRadius tiePoints tieWeights 3 1 fun _ => 1 := by
    intro i hi
    have hi0 : i ≠ 0 := (Finset.mem_erase.1 hi).1
    refine Finset.mem_filter.2 ⟨Finset.mem_univ _, h0, ?_⟩
    rw [tie_maha]
    simp only [tiePoints, if_neg hi0, sub_self]
    norm_num
    positivity
  refine le_trans ?_ (Finset.card_le_card hsub)
  simp

/-- A conforming neighbour search, a nontrivial reordering, a target without ties and a value. -/
example : ∃ near : NearFn, NearOk near ∧ ∃ v, 0 < v ∧
    kdeAt near tiePoints tieWeights 3 4 1 (fun _ => 1) = .ok v ∧
    kdeAt near (tiePoints ∘ Equiv.swap 0 1) (tieWeights ∘ Equiv.swap 0 1) 3 4 1 (fun _ => 1) = .ok v := by
  obtain ⟨near, hn⟩ := nearOk_exists
  obtain ⟨v, hv⟩ := (C48_defined hn 3 1 4 fun _ => 1).2 ⟨one_ne_zero, tie_trainable, by norm_num⟩
  exact ⟨near, hn, v, C48_positive hn tieWeights_pos (by norm_num) hv, hv,
    (C48_order_partial hn (Or.inl tie_near) _).trans hv⟩

/-- A conforming neighbour search, doubled weights, and a value. -/
example : ∃ near : NearFn, NearOk near ∧ ∃ v, kdeAt near tiePoints tieWeights 3 4 1 tieTarget = .ok v ∧
    kdeAt near tiePoints (fun i => 2 * tieWeights i) 3 4 1 tieTarget = .ok (2 * v) := by
  obtain ⟨near, hn⟩ := nearOk_exists
  obtain ⟨v, hv⟩ := (C48_defined hn 3 1 4 tieTarget).2 ⟨one_ne_zero, tie_trainable, by norm_num⟩
  exact ⟨near, hn, v, hv, by rw [C48_weights near two_pos, hv]; rfl⟩

/-- Asking for six neighbours of five samples. -/
example (near : NearFn) : kdeAt near tiePoints tieWeights 3 6 1 tieTarget = .error .index :=
  C48_too_few near one_ne_zero tie_trainable (by norm_num) _

/-- A reflection, and a change of units, of samples with a value. -/
example : ∃ near : NearFn, NearOk near ∧ ∃ v,
    kdeAt near tiePoints tieWeights 3 4 1 (fun _ => 1) = .ok v ∧
    kdeAt near (affineImage (diagonal fun _ => -1) 7 tiePoints) tieWeights 3 4 1
      (diagonal (fun _ => -1) *ᵥ (fun _ => 1) + 7) = .ok v ∧
    kdeAt near (affineImage (diagonal fun _ => 1000) 7 tiePoints) tieWeights 3 4 1
      (diagonal (fun _ => 1000) *ᵥ (fun _ => 1) + 7) = .ok v := by
  obtain ⟨near, hn⟩ := nearOk_exists
  obtain ⟨v, hv⟩ := (C48_defined hn 3 1 4 fun _ => 1).2 ⟨one_ne_zero, tie_trainable, by norm_num⟩
  exact ⟨near, hn, v, hv, (C49_affine_partial hn (by rw [det_diagonal]; simp) _ (Or.inl tie_near)).trans hv,
    (C49_units near (fun _ => by norm_num) _ _ _ _ _).trans hv⟩

end CC
