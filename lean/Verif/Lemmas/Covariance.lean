import Verif.Model.Covariance
import Verif.Spec.Covariance
import Verif.Lemmas.Divide
import Mathlib.Algebra.Order.BigOperators.Ring.Finset
import Mathlib.Algebra.BigOperators.Field
import Mathlib.Tactic.Ring
import Mathlib.Tactic.FieldSimp
import Mathlib.Tactic.Positivity

/-! Facts about the weighted covariance, and its relation to the model's list computations. -/

namespace CC
open Spec

theorem zipWith_ofFn {α β γ : Type _} {n : Nat} (f : α → β → γ) (a : Fin n → α) (b : Fin n → β) :
    List.zipWith f (List.ofFn a) (List.ofFn b) = List.ofFn fun i => f (a i) (b i) := by
  apply List.ext_getElem <;> simp

theorem eq_ofFn {α : Type _} (l : List α) : l = List.ofFn fun i : Fin l.length => l[i] := by
  simp

theorem getMany_ofFn {K : Type} {f : Frame K} {p : Nat} {name : Fin p → String}
    {x : Fin p → List K} (h : ∀ j, f.get (name j) = .ok (x j)) :
    f.getMany (List.ofFn name) = .ok (List.ofFn x) := by
  induction p with
  | zero => rfl
  | succ p ih =>
    rw [List.ofFn_succ, List.ofFn_succ]
    simp only [Frame.getMany, h 0, ih (fun j => h j.succ), bind, Except.bind, pure, Except.pure]

section
variable {K : Type} [Field K] {n : Nat}

theorem dot_ofFn (a b : Fin n → K) : dot (List.ofFn a) (List.ofFn b) = ∑ i, a i * b i := by
  rw [dot, zipWith_ofFn, List.sum_ofFn]

theorem wcov_comm (w x y : Fin n → K) : wcov w x y = wcov w y x := by
  simp only [wcov]
  congr 1
  exact Finset.sum_congr rfl fun i _ => by ring

theorem wmean_affine {w : Fin n → K} (hw : ∑ i, w i ≠ 0) (a b : K) (x : Fin n → K) :
    wmean w (fun i => a * x i + b) = a * wmean w x + b := by
  simp only [wmean, mul_add, Finset.sum_add_distrib]
  rw [← Finset.sum_mul]
  have : ∑ i, w i * (a * x i) = a * ∑ i, w i * x i := by
    rw [Finset.mul_sum]
    exact Finset.sum_congr rfl fun i _ => by ring
  rw [this]
  field_simp

theorem wcov_affine {w : Fin n → K} (hw : ∑ i, w i ≠ 0) (a b a' b' : K) (x y : Fin n → K) :
    wcov w (fun i => a * x i + b) (fun i => a' * y i + b') = a * a' * wcov w x y := by
  simp only [wcov, wmean_affine hw]
  rw [← mul_div_assoc, Finset.mul_sum]
  congr 1
  exact Finset.sum_congr rfl fun i _ => by ring

theorem wmean_smul (t : K) (ht : t ≠ 0) (w x : Fin n → K) :
    wmean (fun i => t * w i) x = wmean w x := by
  simp only [wmean, mul_assoc, ← Finset.mul_sum]
  exact mul_div_mul_left _ _ ht

theorem wcov_smul (t : K) (ht : t ≠ 0) (w x y : Fin n → K) :
    wcov (fun i => t * w i) x y = wcov w x y := by
  simp only [wcov, wmean_smul t ht]
  have h1 : ∑ i, t * w i * (x i - wmean w x) * (y i - wmean w y)
      = t * ∑ i, w i * (x i - wmean w x) * (y i - wmean w y) := by
    rw [Finset.mul_sum]; exact Finset.sum_congr rfl fun i _ => by ring
  have h2 : ∑ i, (t * w i) ^ 2 = t * (t * ∑ i, w i ^ 2) := by
    rw [Finset.mul_sum, Finset.mul_sum]; exact Finset.sum_congr rfl fun i _ => by ring
  have h3 : t * (∑ i, w i) - t * (∑ i, w i ^ 2) / ∑ i, w i
      = t * ((∑ i, w i) - (∑ i, w i ^ 2) / ∑ i, w i) := by
    rw [mul_sub, mul_div_assoc]
  rw [h1, h2, ← Finset.mul_sum, mul_div_mul_left _ _ ht, h3, mul_div_mul_left _ _ ht]

theorem wmean_perm (σ : Equiv.Perm (Fin n)) (w x : Fin n → K) :
    wmean (w ∘ σ) (x ∘ σ) = wmean w x := by
  simp only [wmean, Function.comp_apply]
  rw [Equiv.sum_comp σ (fun i => w i * x i), Equiv.sum_comp σ w]

theorem wcov_perm (σ : Equiv.Perm (Fin n)) (w x y : Fin n → K) :
    wcov (w ∘ σ) (x ∘ σ) (y ∘ σ) = wcov w x y := by
  simp only [wcov, wmean_perm]
  simp only [Function.comp_apply]
  rw [Equiv.sum_comp σ (fun i => w i * (x i - wmean w x) * (y i - wmean w y)), Equiv.sum_comp σ w,
    Equiv.sum_comp σ (fun i => w i ^ 2)]

variable [LinearOrder K] [IsStrictOrderedRing K]

theorem fact_pos {w : Fin n → K} (hw : ∀ i, 0 < w i) (hn : 2 ≤ n) :
    0 < (∑ i, w i) - (∑ i, w i ^ 2) / ∑ i, w i := by
  have hne : (Finset.univ : Finset (Fin n)).Nonempty := ⟨⟨0, by omega⟩, Finset.mem_univ _⟩
  have hS : 0 < ∑ i, w i := Finset.sum_pos (fun i _ => hw i) hne
  have hlt : ∀ i, w i < ∑ j, w j := by
    intro i
    obtain ⟨j, hj⟩ : ∃ j : Fin n, j ≠ i := by
      by_cases h : i = ⟨0, by omega⟩
      · exact ⟨⟨1, by omega⟩, by rw [h]; intro h'; simp at h'⟩
      · exact ⟨⟨0, by omega⟩, Ne.symm h⟩
    exact Finset.single_lt_sum hj (Finset.mem_univ _) (Finset.mem_univ _) (hw j)
      fun k _ _ => (hw k).le
  rw [sub_pos, div_lt_iff₀ hS, Finset.sum_mul]
  apply Finset.sum_lt_sum_of_nonempty hne
  intro i _
  rw [sq]
  exact mul_lt_mul_of_pos_left (hlt i) (hw i)

omit [LinearOrder K] [IsStrictOrderedRing K] in
/-- The quadratic form of the covariance matrix is the variance of the combination. -/
theorem wcov_form {p : Nat} (w : Fin n → K) (x : Fin p → Fin n → K) (v : Fin p → K) :
    ∑ i, ∑ j, v i * wcov w (x i) (x j) * v j =
      (∑ k, w k * (∑ i, v i * (x i k - wmean w (x i))) ^ 2) /
        ((∑ i, w i) - (∑ i, w i ^ 2) / ∑ i, w i) := by
  simp only [wcov]
  set F := (∑ i, w i) - (∑ i, w i ^ 2) / ∑ i, w i
  have h1 : ∀ i j, v i * ((∑ k, w k * (x i k - wmean w (x i)) * (x j k - wmean w (x j))) / F) * v j
      = (∑ k, w k * ((v i * (x i k - wmean w (x i))) * (v j * (x j k - wmean w (x j))))) / F := by
    intro i j
    rw [mul_div_assoc', div_mul_eq_mul_div, Finset.mul_sum, Finset.sum_mul]
    congr 1
    exact Finset.sum_congr rfl fun k _ => by ring
  simp only [h1, ← Finset.sum_div]
  congr 1
  have h2 : ∀ k, w k * (∑ i, v i * (x i k - wmean w (x i))) ^ 2
      = ∑ i, ∑ j, w k * ((v i * (x i k - wmean w (x i))) * (v j * (x j k - wmean w (x j)))) := by
    intro k
    rw [sq, Finset.sum_mul_sum, Finset.mul_sum]
    exact Finset.sum_congr rfl fun i _ => Finset.mul_sum _ _ _
  simp only [h2]
  rw [Finset.sum_comm (s := (Finset.univ : Finset (Fin n)))]
  refine Finset.sum_congr rfl fun i _ => ?_
  rw [Finset.sum_comm]

theorem wcov_psd {p : Nat} {w : Fin n → K} (hw : ∀ i, 0 < w i) (hn : 2 ≤ n)
    (x : Fin p → Fin n → K) (v : Fin p → K) :
    0 ≤ ∑ i, ∑ j, v i * wcov w (x i) (x j) * v j := by
  rw [wcov_form]
  exact div_nonneg (Finset.sum_nonneg fun k _ => mul_nonneg (hw k).le (sq_nonneg _))
    (fact_pos hw hn).le

/-- The model's `np.cov` on at least two columns and rows with positive weights. -/
theorem npCov_eq {p : Nat} {w : Fin n → K} (hw : ∀ i, 0 < w i) (hn : 2 ≤ n) (hp : 2 ≤ p)
    (x : Fin p → Fin n → K) :
    npCov (List.ofFn fun j => List.ofFn (x j)) (List.ofFn w) =
      .ok (.matrix (List.ofFn fun i => List.ofFn fun j => .fin (wcov w (x i) (x j)))) := by
  have hne : (Finset.univ : Finset (Fin n)).Nonempty := ⟨⟨0, by omega⟩, Finset.mem_univ _⟩
  have hS : 0 < ∑ i, w i := Finset.sum_pos (fun i _ => hw i) hne
  have hf := fact_pos hw hn
  have hX : (List.ofFn fun j => List.ofFn (x j)) ≠ [] := by
    intro h
    have := congrArg List.length h
    simp at this
    omega
  have hneg : ((List.ofFn w).any fun v => decide (v < 0)) = false := by
    rw [List.any_eq_false]
    intro v hv
    obtain ⟨i, rfl⟩ := List.mem_ofFn.1 hv
    simp [(hw i).le]
  have hsum : (List.ofFn w).sum = ∑ i, w i := List.sum_ofFn
  have hd : dot (List.ofFn w) (List.ofFn w) = ∑ i, w i ^ 2 := by
    rw [dot_ofFn]; exact Finset.sum_congr rfl fun i _ => (sq _).symm
  have hD : ((List.ofFn fun j => List.ofFn (x j)).map fun y =>
        y.map (· - dot y (List.ofFn w) / ∑ i, w i))
      = List.ofFn fun j => List.ofFn fun i => x j i - wmean w (x j) := by
    rw [List.map_ofFn]
    congr 1
    funext j
    simp only [Function.comp_apply, List.map_ofFn, dot_ofFn]
    congr 1
    funext i
    simp only [Function.comp_apply, wmean]
    congr 2
    exact Finset.sum_congr rfl fun k _ => mul_comm _ _
  unfold npCov
  rw [if_neg hX, if_neg (by rw [hneg]; simp), if_neg (by rw [hsum]; exact hS.ne')]
  simp only [hsum, hd, if_neg (not_le.2 hf)]
  rw [hD]
  have hentry : ∀ i j : Fin p, covScale ((∑ i, w i) - (∑ i, w i ^ 2) / ∑ i, w i)
      (dot (List.ofFn fun k => x i k - wmean w (x i))
        (List.zipWith (· * ·) (List.ofFn fun k => x j k - wmean w (x j)) (List.ofFn w)))
      = .fin (wcov w (x i) (x j)) := by
    intro i j
    rw [zipWith_ofFn, dot_ofFn, covScale, if_neg hf.ne', wcov, mul_one_div]
    congr 2
    exact Finset.sum_congr rfl fun k _ => by ring
  split
  · rename_i d hd1
    have := congrArg List.length hd1
    simp at this
    omega
  · rw [List.map_ofFn]
    congr 3
    funext i
    simp only [Function.comp_apply, List.map_ofFn]
    congr 1
    funext j
    exact hentry i j

end

end CC
