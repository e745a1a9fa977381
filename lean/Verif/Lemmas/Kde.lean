import Verif.Model.Kde
import Verif.Spec.Kde
import Verif.Lemmas.Except
import Mathlib.Analysis.Matrix.Order
import Mathlib.LinearAlgebra.Matrix.Block

/-! # Lemmas on the kernel density estimator -/

set_option linter.unusedSectionVars false

namespace CC
open Matrix Spec

/-- Every positive definite matrix has a Cholesky factor. -/
theorem isCholesky_exists {p : ℕ} {S : Matrix (Fin p) (Fin p) ℝ} (hS : S.PosDef) : ∃ L, IsCholesky S L := by
  classical
  have hinv : BlockTriangular (LDL.lowerInv hS) OrderDual.toDual := fun i j h => LDL.lowerInv_triangular hS h
  let _ : Invertible (LDL.lowerInv hS) := inferInstance
  have hlow : BlockTriangular (LDL.lower hS) OrderDual.toDual :=
    blockTriangular_inv_of_blockTriangular hinv
  set D := LDL.diagEntries hS with hD
  have hdiag : LDL.diag hS = Matrix.diagonal D := rfl
  have hpos : ∀ i, 0 < D i := by
    have h1 : (LDL.diag hS).PosDef := by
      rw [LDL.diag_eq_lowerInv_conj]
      refine hS.mul_mul_conjTranspose_same ?_
      exact Matrix.vecMul_injective_of_isUnit (isUnit_of_invertible _)
    rw [hdiag] at h1
    exact fun i => (Matrix.posDef_diagonal_iff.1 h1) i
  let L0 := LDL.lower hS * Matrix.diagonal fun i => Real.sqrt (D i)
  have h0 : L0 * L0ᵀ = S := by
    have e := LDL.lower_conj_diag hS
    rw [← e, hdiag, conjTranspose_eq_transpose_of_trivial]
    simp only [L0, transpose_mul, diagonal_transpose]
    rw [Matrix.mul_assoc, ← Matrix.mul_assoc (Matrix.diagonal _) (Matrix.diagonal _), diagonal_mul_diagonal,
      ← Matrix.mul_assoc]
    congr 3
    funext i
    exact Real.mul_self_sqrt (hpos i).le
  have h1 : BlockTriangular L0 OrderDual.toDual := hlow.mul (blockTriangular_diagonal _)
  have h2 : ∀ i, L0 i i ≠ 0 := by
    have hdet : L0.det ≠ 0 := by
      intro hz
      have := hS.det_pos
      rw [← h0, det_mul, hz, zero_mul] at this
      exact lt_irrefl _ this
    rw [det_of_isLowerTriangular _ h1] at hdet
    intro i
    exact (Finset.prod_ne_zero_iff.1 hdet) i (Finset.mem_univ _)
  let sg : Fin p → ℝ := fun i => if 0 < L0 i i then 1 else -1
  have hsg : ∀ i, sg i * sg i = 1 := fun i => by
    simp only [sg]; split_ifs <;> norm_num
  refine ⟨L0 * Matrix.diagonal sg, ?_, ?_, ?_⟩
  · rw [transpose_mul, diagonal_transpose, Matrix.mul_assoc, ← Matrix.mul_assoc (Matrix.diagonal _),
      diagonal_mul_diagonal]
    have : (Matrix.diagonal fun i => sg i * sg i) = (1 : Matrix (Fin p) (Fin p) ℝ) := by
      simp only [hsg]; exact diagonal_one
    rw [this, Matrix.one_mul, h0]
  · intro i j hij
    rw [mul_diagonal, h1 (i := i) (j := j) hij, zero_mul]
  · intro i
    rw [mul_diagonal]
    simp only [sg]
    split_ifs with h
    · simpa using h
    · have := lt_of_le_of_ne (not_lt.1 h) (h2 i)
      simpa using this

theorem cholesky_ok {p : ℕ} {S : Matrix (Fin p) (Fin p) ℝ} (hS : S.PosDef) :
    ∃ L, cholesky S = .ok L ∧ IsCholesky S L := by
  have h := isCholesky_exists hS
  refine ⟨h.choose, ?_, h.choose_spec⟩
  unfold cholesky
  rw [dif_pos h]

theorem cholesky_spec {p : ℕ} {S L : Matrix (Fin p) (Fin p) ℝ} (h : cholesky S = .ok L) : IsCholesky S L := by
  unfold cholesky at h
  split_ifs at h with hex
  · exact (Except.ok.inj h) ▸ hex.choose_spec

/-- The Cholesky factor is unique. -/
theorem isCholesky_unique {p : ℕ} {S L L' : Matrix (Fin p) (Fin p) ℝ} (h : IsCholesky S L) (h' : IsCholesky S L') :
    L = L' := by
  obtain ⟨e, t, d⟩ := h
  obtain ⟨e', t', d'⟩ := h'
  have bt : BlockTriangular L OrderDual.toDual := fun i j h => t i j h
  have bt' : BlockTriangular L' OrderDual.toDual := fun i j h => t' i j h
  have hL : IsUnit L.det := isUnit_iff_ne_zero.2 (by
    rw [det_of_isLowerTriangular _ bt]
    exact Finset.prod_ne_zero_iff.2 fun i _ => (d i).ne')
  have hL' : IsUnit L'.det := isUnit_iff_ne_zero.2 (by
    rw [det_of_isLowerTriangular _ bt']
    exact Finset.prod_ne_zero_iff.2 fun i _ => (d' i).ne')
  let := Matrix.invertibleOfIsUnitDet L' hL'
  set Q := L'⁻¹ * L with hQ
  have hQL : L = L' * Q := by rw [hQ, ← Matrix.mul_assoc, Matrix.mul_nonsing_inv _ hL', Matrix.one_mul]
  have tQ : BlockTriangular Q OrderDual.toDual := (blockTriangular_inv_of_blockTriangular bt').mul bt
  have hQQ : Q * Qᵀ = 1 := by
    have : L' * (Q * Qᵀ) * L'ᵀ = L' * 1 * L'ᵀ := by
      rw [Matrix.mul_one, e', ← e]
      conv_rhs => rw [hQL, transpose_mul]
      simp only [Matrix.mul_assoc]
    have h1 := congrArg (fun X => L'⁻¹ * X) this
    simp only [Matrix.mul_assoc] at h1
    rw [← Matrix.mul_assoc L'⁻¹ L', ← Matrix.mul_assoc L'⁻¹ L', Matrix.nonsing_inv_mul _ hL', Matrix.one_mul,
      Matrix.one_mul] at h1
    have h2 := congrArg (fun X => X * (L'ᵀ)⁻¹) h1
    simp only [Matrix.mul_assoc] at h2
    rw [Matrix.mul_nonsing_inv _ (by rwa [det_transpose])] at h2
    simpa [Matrix.mul_assoc] using h2
  have hQinv : Qᵀ = Q⁻¹ := (Matrix.inv_eq_right_inv hQQ).symm
  have hQu : IsUnit Q.det := Matrix.isUnit_det_of_right_inverse hQQ
  let := Matrix.invertibleOfIsUnitDet Q hQu
  have tQi : BlockTriangular Qᵀ OrderDual.toDual := by
    rw [hQinv]
    exact blockTriangular_inv_of_blockTriangular tQ
  have hoff : ∀ i j, i ≠ j → Q i j = 0 := by
    intro i j hij
    rcases lt_or_gt_of_ne hij with h | h
    · exact tQ (i := i) (j := j) h
    · exact tQi (i := j) (j := i) h
  have hdiag : ∀ i, Q i i * Q i i = 1 := by
    intro i
    have := congrFun (congrFun hQQ i) i
    rw [Matrix.mul_apply, one_apply_eq, Finset.sum_eq_single i] at this
    · exact this
    · intro j _ hj
      rw [hoff i j (Ne.symm hj), zero_mul]
    · intro h; exact absurd (Finset.mem_univ _) h
  have hpos : ∀ i, 0 < Q i i := by
    intro i
    have := congrFun (congrFun hQL i) i
    rw [Matrix.mul_apply, Finset.sum_eq_single i] at this
    · exact pos_of_mul_pos_right (this ▸ d i) (d' i).le
    · intro j _ hj
      rw [hoff j i hj, mul_zero]
    · intro h; exact absurd (Finset.mem_univ _) h
  have hone : Q = 1 := by
    ext i j
    by_cases hij : i = j
    · subst hij
      rw [one_apply_eq]
      nlinarith [hdiag i, hpos i]
    · rw [hoff i j hij, one_apply_ne hij]
  rw [hQL, hone, Matrix.mul_one]

/-! ## The model's ingredients in terms of the specification -/

section
variable {n p : ℕ} {x : Fin n → Fin p → ℝ} {w : Fin n → ℝ}

theorem kdeMean_eq (x : Fin n → Fin p → ℝ) (w : Fin n → ℝ) : kdeMean x w = ellMean x w := by
  funext j
  unfold kdeMean ellMean
  congr 1
  exact Finset.sum_congr rfl fun i _ => mul_comm _ _

theorem kdeFact_eq (w : Fin n → ℝ) : kdeFact w = (∑ i, w i) - (∑ i, w i ^ 2) / ∑ i, w i := by
  unfold kdeFact
  congr 2
  exact Finset.sum_congr rfl fun i _ => (sq _).symm

theorem ellMean_sub (hw : ∑ i, w i ≠ 0) (b : Fin p → ℝ) : ellMean (fun i => x i - b) w = ellMean x w - b := by
  funext j
  simp only [ellMean, Pi.sub_apply, mul_sub, Finset.sum_sub_distrib, ← Finset.sum_mul, sub_div]
  rw [mul_div_cancel_left₀ _ hw]

theorem kdeCov_eq (hw : ∑ i, w i ≠ 0) : kdeCov (fun i => x i - kdeMean x w) w = ellCov x w := by
  funext j k
  unfold kdeCov ellCov
  rw [kdeFact_eq]
  congr 1
  refine Finset.sum_congr rfl fun i _ => ?_
  rw [kdeMean_eq, kdeMean_eq, ellMean_sub hw, sub_self]
  simp only [Pi.sub_apply, Pi.zero_apply, sub_zero]
  ring

theorem ellCov_mulVec (v : Fin p → ℝ) (j : Fin p) : (ellCov x w *ᵥ v) j =
    (∑ i, w i * (x i j - ellMean x w j) * (v ⬝ᵥ (x i - ellMean x w))) /
      ((∑ i, w i) - (∑ i, w i ^ 2) / ∑ i, w i) := by
  simp only [dotProduct, mulVec, ellCov, Finset.sum_div, Finset.sum_mul, Finset.mul_sum, Pi.sub_apply]
  rw [Finset.sum_comm]
  refine Finset.sum_congr rfl fun i _ => Finset.sum_congr rfl fun k _ => by ring

theorem ellCov_quad (v : Fin p → ℝ) : v ⬝ᵥ (ellCov x w *ᵥ v) =
    (∑ i, w i * (v ⬝ᵥ (x i - ellMean x w)) ^ 2) / ((∑ i, w i) - (∑ i, w i ^ 2) / ∑ i, w i) := by
  rw [dotProduct]
  simp only [ellCov_mulVec, ← mul_div_assoc, ← Finset.sum_div, Finset.mul_sum]
  rw [Finset.sum_comm]
  congr 1
  refine Finset.sum_congr rfl fun i _ => ?_
  rw [sq, ← mul_assoc]
  conv_rhs => enter [1, 2]; rw [dotProduct]
  rw [Finset.mul_sum, Finset.sum_mul]
  exact Finset.sum_congr rfl fun j _ => by simp only [Pi.sub_apply]; ring

theorem ellCov_posSemidef (h : ∀ i, 0 ≤ w i) (hs : 0 < (∑ i, w i) - (∑ i, w i ^ 2) / ∑ i, w i) :
    (ellCov x w).PosSemidef := by
  refine Matrix.posSemidef_iff_dotProduct_mulVec.2 ⟨?_, fun v => ?_⟩
  · ext j k
    simp only [conjTranspose_apply, star_trivial, ellCov]
    congr 1
    exact Finset.sum_congr rfl fun i _ => by ring
  · rw [star_trivial, ellCov_quad]
    exact div_nonneg (Finset.sum_nonneg fun i _ => mul_nonneg (h i) (sq_nonneg _)) hs.le

theorem Spec.Trainable.posDef (h : Trainable x w) : (ellCov x w).PosDef :=
  (ellCov_posSemidef h.nonneg h.spread).posDef_iff_det_ne_zero.2 h.regular

theorem sum_sq_lt (hw : ∀ i, 0 < w i) (hn : 2 ≤ n) : ∑ i, w i ^ 2 < (∑ i, w i) ^ 2 := by
  rw [sq (∑ i, w i), Finset.sum_mul]
  refine Finset.sum_lt_sum_of_nonempty ⟨⟨0, by omega⟩, Finset.mem_univ _⟩ fun i _ => ?_
  rw [sq]
  refine mul_lt_mul_of_pos_left ?_ (hw i)
  obtain ⟨j, hj⟩ : ∃ j : Fin n, j ≠ i := by
    by_cases h : i.val = 0
    · exact ⟨⟨1, by omega⟩, fun e => by have := congrArg Fin.val e; simp at this; omega⟩
    · exact ⟨⟨0, by omega⟩, fun e => by have := congrArg Fin.val e; simp at this; omega⟩
  exact Finset.single_lt_sum hj (Finset.mem_univ _) (Finset.mem_univ _) (hw j) fun k _ _ => (hw k).le

theorem dot_ellMean (hw : ∑ i, w i ≠ 0) {v : Fin p → ℝ} {c : ℝ} (h : ∀ i, v ⬝ᵥ x i = c) : v ⬝ᵥ ellMean x w = c := by
  have : v ⬝ᵥ ellMean x w = (∑ i, w i * (v ⬝ᵥ x i)) / ∑ i, w i := by
    simp only [dotProduct, ellMean, ← mul_div_assoc, ← Finset.sum_div, Finset.mul_sum]
    rw [Finset.sum_comm]
    congr 1
    refine Finset.sum_congr rfl fun i _ => Finset.sum_congr rfl fun j _ => by ring
  rw [this]
  simp only [h, ← Finset.sum_mul]
  exact mul_div_cancel_left₀ _ hw

/-- With positive weights, the data are trainable exactly when there are at least two points which do not
lie in a hyperplane. -/
theorem trainable_iff (hw : ∀ i, 0 < w i) :
    Trainable x w ↔ 2 ≤ n ∧ ∀ v : Fin p → ℝ, (∀ i j, v ⬝ᵥ x i = v ⬝ᵥ x j) → v = 0 := by
  constructor
  · intro h
    have hn : 2 ≤ n := by
      by_contra hn
      have h2 := h.spread
      obtain rfl | rfl : n = 0 ∨ n = 1 := by omega
      · exact h.mass (by simp)
      · simp only [Fin.sum_univ_one, sq] at h2
        rw [mul_div_cancel_left₀ _ (hw 0).ne', sub_self] at h2
        exact lt_irrefl _ h2
    refine ⟨hn, fun v hv => ?_⟩
    by_contra hv0
    refine h.regular (Matrix.exists_mulVec_eq_zero_iff.1 ⟨v, hv0, ?_⟩)
    funext j
    rw [ellCov_mulVec]
    have : ∀ i, v ⬝ᵥ (x i - ellMean x w) = 0 := fun i => by
      rw [dotProduct_sub, dot_ellMean h.mass fun k => hv k i, sub_self]
    simp [this]
  · rintro ⟨hn, hv⟩
    have hpos : 0 < ∑ i, w i := Finset.sum_pos (fun i _ => hw i) ⟨⟨0, by omega⟩, Finset.mem_univ _⟩
    have hs : 0 < (∑ i, w i) - (∑ i, w i ^ 2) / ∑ i, w i := by
      rw [sub_pos, div_lt_iff₀ hpos, ← sq]
      exact sum_sq_lt hw hn
    refine ⟨hpos.ne', fun i => (hw i).le, hs, fun hdet => ?_⟩
    obtain ⟨v, hv0, hCv⟩ := Matrix.exists_mulVec_eq_zero_iff.2 hdet
    refine hv0 (hv v ?_)
    have hq := ellCov_quad (x := x) (w := w) v
    rw [hCv, dotProduct_zero, eq_comm, div_eq_zero_iff] at hq
    have hq := (Finset.sum_eq_zero_iff_of_nonneg fun i _ => mul_nonneg (hw i).le (sq_nonneg _)).1
      (hq.resolve_right hs.ne')
    have hz : ∀ i, v ⬝ᵥ x i = v ⬝ᵥ ellMean x w := fun i => by
      have := (mul_eq_zero.1 (hq i (Finset.mem_univ _))).resolve_left (hw i).ne'
      rw [sq_eq_zero_iff, dotProduct_sub] at this
      linarith
    intro i j
    rw [hz, hz]

/-- The kernel density estimator is constructed exactly for trainable data, with these attributes. -/
theorem Kde.make_ok_iff {tr f : ℝ} {m : ℕ} {k : Kde n p} : Kde.make x w tr m f = .ok k ↔
    f ≠ 0 ∧ Trainable x w ∧ ∃ A, cholesky (ellCov x w)⁻¹ = .ok A ∧ k =
      { truncation := tr, nmin := m, weights := w, mean := ellMean x w, A := A,
        d := fun i => vecMul (x i - ellMean x w) A, sigma := bandwidth n p f } := by
  unfold Kde.make
  constructor
  · intro h
    obtain ⟨_, h1, h⟩ := (bind_ok_iff ..).1 h
    obtain ⟨_, h2, h⟩ := (bind_ok_iff ..).1 h
    obtain ⟨_, h3, h⟩ := (bind_ok_iff ..).1 h
    obtain ⟨_, h4, h⟩ := (bind_ok_iff ..).1 h
    obtain ⟨_, h5, h⟩ := (bind_ok_iff ..).1 h
    obtain ⟨A, h6, h⟩ := (bind_ok_iff ..).1 h
    have h1 := of_decide_eq_true ((ensure_ok_iff ..).1 h1)
    have h2 := of_decide_eq_true ((ensure_ok_iff ..).1 h2)
    have h3 := of_decide_eq_true ((ensure_ok_iff ..).1 h3)
    have h4 := of_decide_eq_true ((ensure_ok_iff ..).1 h4)
    have h5 := of_decide_eq_true ((ensure_ok_iff ..).1 h5)
    rw [kdeCov_eq h2] at h5 h6
    rw [kdeFact_eq] at h4
    refine ⟨h1, ⟨h2, h3, h4, h5⟩, A, h6, ?_⟩
    rw [← Except.ok.inj h]
    simp only [kdeMean_eq, bandwidth]
  · rintro ⟨h1, ht, A, hA, rfl⟩
    rw [(ensure_ok_iff (u := ())).2 (decide_eq_true h1)]
    simp only [bind, Except.bind]
    rw [(ensure_ok_iff (u := ())).2 (decide_eq_true ht.mass), (ensure_ok_iff (u := ())).2 (decide_eq_true ht.nonneg),
      (ensure_ok_iff (u := ())).2 (decide_eq_true (by rw [kdeFact_eq]; exact ht.spread)), kdeCov_eq ht.mass,
      (ensure_ok_iff (u := ())).2 (decide_eq_true ht.regular), hA, kdeMean_eq]
    rfl

theorem Kde.make_exists_iff {tr f : ℝ} {m : ℕ} :
    (∃ k, Kde.make x w tr m f = .ok k) ↔ f ≠ 0 ∧ Trainable x w := by
  constructor
  · rintro ⟨k, h⟩
    exact ⟨(Kde.make_ok_iff.1 h).1, (Kde.make_ok_iff.1 h).2.1⟩
  · rintro ⟨hf, h⟩
    obtain ⟨A, hA, _⟩ := cholesky_ok h.posDef.inv
    exact ⟨_, Kde.make_ok_iff.2 ⟨hf, h, A, hA, rfl⟩⟩

theorem distSq_vecMul {A C : Matrix (Fin p) (Fin p) ℝ} (h : IsCholesky C⁻¹ A) (u v m : Fin p → ℝ) :
    distSq (vecMul (u - m) A) (vecMul (v - m) A) = mahaSq C u v := by
  have e1 : distSq (vecMul (u - m) A) (vecMul (v - m) A) = vecMul (u - v) A ⬝ᵥ vecMul (u - v) A := by
    have : vecMul (u - v) A = vecMul (u - m) A - vecMul (v - m) A := by
      rw [← Matrix.sub_vecMul]
      congr 1
      abel
    rw [this]
    rfl
  rw [e1, mahaSq, ← h.1, ← mulVec_mulVec, dotProduct_mulVec, mulVec_transpose]

theorem Kde.ball_eq {tr f : ℝ} {m : ℕ} {k : Kde n p} (h : Kde.make x w tr m f = .ok k) (t : Fin p → ℝ) :
    k.ball (vecMul (t - k.mean) k.A) = inRadius x w tr f t := by
  obtain ⟨_, _, A, hA, rfl⟩ := Kde.make_ok_iff.1 h
  unfold Kde.ball inRadius
  simp only [distSq_vecMul (cholesky_spec hA)]

theorem Kde.kernelSum_eq {tr f : ℝ} {m : ℕ} {k : Kde n p} (h : Kde.make x w tr m f = .ok k) (t : Fin p → ℝ)
    (s : Finset (Fin n)) : k.kernelSum (vecMul (t - k.mean) k.A) s = gaussSum x w f t s := by
  obtain ⟨_, _, A, hA, rfl⟩ := Kde.make_ok_iff.1 h
  unfold Kde.kernelSum gaussSum
  simp only [distSq_vecMul (cholesky_spec hA)]
  refine Finset.sum_congr rfl fun i _ => ?_
  congr 2
  rw [neg_div, neg_mul, ← sq, div_div, one_div_mul_eq_div]

theorem Kde.near_nearest {near : NearFn} (hn : NearOk near) {tr f : ℝ} {m : ℕ} {k : Kde n p}
    (h : Kde.make x w tr m f = .ok k) (t : Fin p → ℝ) {q : ℕ} (hq : q ≤ n) :
    Nearest x w t q (near k.d (vecMul (t - k.mean) k.A) q) := by
  obtain ⟨_, _, A, hA, rfl⟩ := Kde.make_ok_iff.1 h
  obtain ⟨h1, h2⟩ := hn (fun i => vecMul (x i - ellMean x w) A) (vecMul (t - ellMean x w) A) q hq
  refine ⟨h1, fun i hi j hj => ?_⟩
  have := h2 i hi j hj
  rwa [distSq_vecMul (cholesky_spec hA), distSq_vecMul (cholesky_spec hA)] at this

/-- Construction followed by evaluation at one target. -/
noncomputable def kdeAt (near : NearFn) (x : Fin n → Fin p → ℝ) (w : Fin n → ℝ) (tr : ℝ) (m : ℕ) (f : ℝ)
    (t : Fin p → ℝ) : Res ℝ := do
  let k ← Kde.make x w tr m f
  k.at near t

/-- A returned value is an admissible one. -/
theorem kdeAt_spec {near : NearFn} (hn : NearOk near) {tr f v : ℝ} {m : ℕ} {t : Fin p → ℝ}
    (h : kdeAt near x w tr m f t = .ok v) :
    f ≠ 0 ∧ Trainable x w ∧ m ≤ n ∧ IsKdeValue x w tr m f t v := by
  obtain ⟨k, hk, h⟩ := (bind_ok_iff ..).1 h
  obtain ⟨hf, ht, A, hA, e⟩ := Kde.make_ok_iff.1 hk
  have em : k.nmin = m := by rw [e]
  unfold Kde.at at h
  simp only [em] at h
  rw [Kde.ball_eq hk] at h
  by_cases h1 : m ≤ (inRadius x w tr f t).card
  · rw [if_pos h1, Kde.kernelSum_eq hk] at h
    refine ⟨hf, ht, h1.trans ((Finset.card_le_univ _).trans (by simp)), _, .inl ⟨h1, rfl⟩, (Except.ok.inj h).symm⟩
  · rw [if_neg h1] at h
    by_cases h2 : n < m
    · rw [if_pos h2] at h
      cases h
    · rw [if_neg h2, Kde.kernelSum_eq hk] at h
      exact ⟨hf, ht, not_lt.1 h2, _, .inr ⟨not_le.1 h1, Kde.near_nearest hn hk t (not_lt.1 h2)⟩,
        (Except.ok.inj h).symm⟩

theorem kdeAt_exists (near : NearFn) {tr f : ℝ} {m : ℕ} (hf : f ≠ 0) (ht : Trainable x w) (hm : m ≤ n)
    (t : Fin p → ℝ) : ∃ v, kdeAt near x w tr m f t = .ok v := by
  obtain ⟨k, hk⟩ := (Kde.make_exists_iff (tr := tr) (m := m)).2 ⟨hf, ht⟩
  obtain ⟨_, _, A, hA, e⟩ := Kde.make_ok_iff.1 hk
  have em : k.nmin = m := by rw [e]
  unfold kdeAt
  rw [hk]
  change ∃ v, k.at near t = .ok v
  unfold Kde.at
  simp only [em]
  by_cases h1 : m ≤ (k.ball (vecMul (t - k.mean) k.A)).card
  · rw [if_pos h1]
    exact ⟨_, rfl⟩
  · rw [if_neg h1, if_neg (not_lt.2 hm)]
    exact ⟨_, rfl⟩

theorem kdeAt_exists_iff {near : NearFn} (hn : NearOk near) {tr f : ℝ} {m : ℕ} {t : Fin p → ℝ} :
    (∃ v, kdeAt near x w tr m f t = .ok v) ↔ f ≠ 0 ∧ Trainable x w ∧ m ≤ n := by
  constructor
  · rintro ⟨v, h⟩
    obtain ⟨h1, h2, h3, _⟩ := kdeAt_spec hn h
    exact ⟨h1, h2, h3⟩
  · rintro ⟨h1, h2, h3⟩
    exact kdeAt_exists near h1 h2 h3 t

/-- Sums over two sets of nearest rows agree when equally distant rows have equal weights. -/
theorem nearest_sum_eq {D g : Fin n → ℝ} (hg : ∀ i j, D i = D j → g i = g j) {s s' : Finset (Fin n)}
    (hc : s.card = s'.card) (h : ∀ i ∈ s, ∀ j, j ∉ s → D i ≤ D j) (h' : ∀ i ∈ s', ∀ j, j ∉ s' → D i ≤ D j) :
    ∑ i ∈ s, g i = ∑ i ∈ s', g i := by
  have e1 : ∑ i ∈ s, g i = ∑ i ∈ s \ s', g i + ∑ i ∈ s ∩ s', g i := by
    rw [add_comm, Finset.sum_inter_add_sum_sdiff]
  have e2 : ∑ i ∈ s', g i = ∑ i ∈ s' \ s, g i + ∑ i ∈ s ∩ s', g i := by
    rw [Finset.inter_comm, add_comm, Finset.sum_inter_add_sum_sdiff]
  rw [e1, e2]
  congr 1
  have hcard : (s \ s').card = (s' \ s).card := Finset.card_sdiff_comm hc
  have heq : ∀ i ∈ s \ s', ∀ j ∈ s' \ s, D i = D j := by
    intro i hi j hj
    rw [Finset.mem_sdiff] at hi hj
    exact le_antisymm (h i hi.1 j hj.2) (h' j hj.1 i hi.2)
  rcases (s \ s').eq_empty_or_nonempty with h0 | ⟨a, ha⟩
  · rw [h0] at hcard ⊢
    have : s' \ s = ∅ := Finset.card_eq_zero.1 (by rw [← hcard, Finset.card_empty])
    rw [this]
  · obtain ⟨b, hb⟩ : (s' \ s).Nonempty := Finset.card_pos.1 (hcard ▸ Finset.card_pos.2 ⟨a, ha⟩)
    rw [Finset.sum_congr rfl fun i hi => hg i b (heq i hi b hb),
      Finset.sum_congr rfl fun j hj => (hg a j (heq a ha j hj)).symm, Finset.sum_const, Finset.sum_const, hcard,
      hg a b (heq a ha b hb)]

/-- Without ties between unequal weights there is only one admissible value. -/
theorem kdeValue_unique {tr f v v' : ℝ} {m : ℕ} {t : Fin p → ℝ} (hties : NoTies x w tr m f t)
    (h : IsKdeValue x w tr m f t v) (h' : IsKdeValue x w tr m f t v') : v = v' := by
  obtain ⟨s, hs, rfl⟩ := h
  obtain ⟨s', hs', rfl⟩ := h'
  rcases hs with ⟨h1, rfl⟩ | ⟨h1, h2, h3⟩ <;> rcases hs' with ⟨h1', rfl⟩ | ⟨h1', h2', h3'⟩
  · rfl
  · omega
  · omega
  · have hties := hties.resolve_left (by omega)
    exact nearest_sum_eq (D := fun i => mahaSq (ellCov x w) (x i) t) (fun i j e => by
      rw [e, hties i j e]) (h2.trans h2'.symm) h3 h3'

end

/-- Some set of `k` nearest rows exists. -/
theorem nearest_exists {α : Type} [LinearOrder α] {n : ℕ} (D : Fin n → α) (k : ℕ) (hk : k ≤ n) :
    ∃ s : Finset (Fin n), s.card = k ∧ ∀ i ∈ s, ∀ j, j ∉ s → D i ≤ D j := by
  induction k with
  | zero => exact ⟨∅, rfl, by simp⟩
  | succ k ih =>
    obtain ⟨s, h1, h2⟩ := ih (by omega)
    have hne : (sᶜ).Nonempty := by
      rw [← Finset.card_pos, Finset.card_compl, Fintype.card_fin]
      omega
    obtain ⟨a, ha, hmin⟩ := Finset.exists_min_image sᶜ D hne
    rw [Finset.mem_compl] at ha
    refine ⟨insert a s, by rw [Finset.card_insert_of_notMem ha, h1], fun i hi j hj => ?_⟩
    rw [Finset.mem_insert, not_or] at hj
    rcases Finset.mem_insert.1 hi with rfl | hi
    · exact hmin j (Finset.mem_compl.2 hj.2)
    · exact h2 i hi j hj.2

/-- The contract of the nearest-point query can be met. -/
theorem nearOk_exists : ∃ near : NearFn, NearOk near := by
  classical
  refine ⟨fun {n p} d t k => if h : k ≤ n then (nearest_exists (fun i => distSq (d i) t) k h).choose else ∅, ?_⟩
  intro n p d t k hk
  simp only [dif_pos hk]
  exact (nearest_exists (fun i => distSq (d i) t) k hk).choose_spec

end CC
