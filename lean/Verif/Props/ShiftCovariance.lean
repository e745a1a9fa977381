import Verif.Props.Shift
import Verif.Props.Covariance
import Verif.Lemmas.Divide

/-! # C13, C14 with `shift_params`: covariances cannot be computed -/

namespace CC
open Spec

section
variable {K : Type} [Field K] [LinearOrder K] [IsStrictOrderedRing K]

omit [LinearOrder K] [IsStrictOrderedRing K] in
theorem dot_self_sub (w : List K) (m : K) : dot w w - m * w.sum = (w.map fun x => x * (x - m)).sum := by
  induction w with
  | nil => simp [dot]
  | cons x w ih =>
    have : dot (x :: w) (x :: w) = x * x + dot w w := by simp [dot]
    rw [this, List.map_cons, List.sum_cons, List.sum_cons, ← ih]
    ring

theorem sum_zero_of_nonneg {l : List K} (h : ∀ x ∈ l, 0 ≤ x) (hs : l.sum = 0) : ∀ x ∈ l, x = 0 := by
  induction l with
  | nil => simp
  | cons y l ih =>
    have hy := h y (by simp)
    have hl : 0 ≤ l.sum := List.sum_nonneg fun x hx => h x (by simp [hx])
    rw [List.sum_cons] at hs
    intro x hx
    rcases List.mem_cons.1 hx with rfl | hx
    · linarith
    · exact ih (fun x hx => h x (by simp [hx])) (by linarith) x hx

/-- The weights of a chain constructed with `shift_params=True`: one is negative or all are zero. -/
theorem shifted_weights (a : Args K) (c : Chain K) (hwf : a.samples.WF)
    (hshift : setting a .shiftParams = true) (h : Chain.make a = .ok c) :
    ∃ w, c.weights = .ok w ∧ ((∃ x ∈ w, x < 0) ∨ ∀ x ∈ w, x = 0) := by
  obtain ⟨raw, f, w, h4, h5, hf, hidx, hne, hw1, hw2, hw3, hfold, hwc⟩ := make_shift hwf hshift h
  obtain ⟨pre, post, hcols⟩ := List.append_of_mem (mem_columns_of_get hw1)
  have hnd : f.columns.Nodup := hf.1
  rw [hcols, List.nodup_append] at hnd
  have hpre : a.weightColumn ∉ pre := fun hm => hnd.2.2 _ hm _ List.mem_cons_self rfl
  rw [hcols] at hfold
  obtain ⟨w', x, m, e1, e2, e3, e4⟩ :=
    shift_fold_before hfold ⟨hpre, (List.nodup_cons.1 hnd.2.1).1⟩ hpre
  rw [hw1] at e1 e2
  cases e1; cases e2
  refine ⟨w.map (· - m), by rw [Chain.weights, hwc]; exact e4, ?_⟩
  by_cases hneg : ∃ x ∈ w.map (· - m), x < 0
  · exact .inl hneg
  · right
    have hnn : ∀ x ∈ w, 0 ≤ x - m := by
      intro x hx
      by_contra hc
      exact hneg ⟨x - m, List.mem_map.2 ⟨x, hx, rfl⟩, not_le.1 hc⟩
    obtain ⟨h0, rfl⟩ := average_ok_iff.1 e3
    have hz : (w.map fun x => x * (x - dot w w / w.sum)).sum = 0 := by
      rw [← dot_self_sub, div_mul_cancel₀ _ h0, sub_self]
    have hall := sum_zero_of_nonneg (l := w.map fun x => x * (x - dot w w / w.sum)) (by
      intro y hy
      obtain ⟨x, hx, rfl⟩ := List.mem_map.1 hy
      exact mul_nonneg (hw3 x hx).le (hnn x hx)) hz
    intro y hy
    obtain ⟨x, hx, rfl⟩ := List.mem_map.1 hy
    have := hall _ (List.mem_map.2 ⟨x, hx, rfl⟩)
    exact (mul_eq_zero.1 this).resolve_left (hw3 x hx).ne'

omit [IsStrictOrderedRing K] in
theorem npCov_raises {X : List (List K)} (hX : X ≠ []) {w : List K} (hw : (∃ x ∈ w, x < 0) ∨ ∀ x ∈ w, x = 0) :
    npCov X w = .error .value ∨ npCov X w = .error .zeroDivision := by
  unfold npCov
  rw [if_neg hX]
  by_cases hn : w.any (fun v => decide (v < 0)) = true
  · exact .inl (if_pos hn)
  · right
    rw [if_neg hn, if_pos]
    rcases hw with ⟨x, hx, h0⟩ | hw
    · exact absurd (List.any_eq_true.2 ⟨x, hx, decide_eq_true h0⟩) hn
    · clear hn
      induction w with
      | nil => rfl
      | cons x w ih =>
        rw [List.sum_cons, hw x (by simp), ih fun y hy => hw y (by simp [hy]), zero_add]

/-- **C13** (negation). The covariance of a chain constructed with `shift_params=True` cannot be computed, for any list of its
columns: the weights have been shifted too (`C08_weights_destroyed`), and numpy raises ValueError or ZeroDivisionError. -/
theorem C13_violated_shift (a : Args K) (c : Chain K) (hwf : a.samples.WF)
    (hshift : setting a .shiftParams = true) (h : Chain.make a = .ok c) (cols : List String) (hne : cols ≠ [])
    (hcols : ∀ p ∈ cols, p ∈ c.samples.columns) :
    c.getCovariance (some cols) = .error .value ∨ c.getCovariance (some cols) = .error .zeroDivision := by
  obtain ⟨w, hw, hw'⟩ := shifted_weights a c hwf hshift h
  obtain ⟨X, hX, hlen⟩ : ∃ X, c.samples.getMany cols = .ok X ∧ X.length = cols.length := by
    clear hne
    induction cols with
    | nil => exact ⟨[], rfl, rfl⟩
    | cons p ps ih =>
      obtain ⟨X, hX, hl⟩ := ih fun q hq => hcols q (by simp [hq])
      obtain ⟨x, hx⟩ := get_ok_of_mem (hcols p (by simp))
      refine ⟨x :: X, ?_, by simp [hl]⟩
      simp only [Frame.getMany, hx, hX, bind, Except.bind, pure, Except.pure]
  have hXne : X ≠ [] := by
    intro e
    rw [e] at hlen
    exact hne (List.length_eq_zero_iff.1 hlen.symm)
  have e : c.getCovariance (some cols) = (npCov X w).bind fun m => .ok { columns := cols, array := m } := by
    unfold Chain.getCovariance
    simp only [Option.getD_some, hX, hw, bind, Except.bind, pure, Except.pure]
  rw [e]
  rcases npCov_raises hXne hw' with e | e
  · exact .inl (by rw [e]; rfl)
  · exact .inr (by rw [e]; rfl)

end

/-- **C14** (negation). Nor can the correlation. -/
theorem C14_violated_shift (a : Args ℝ) (c : Chain ℝ) (hwf : a.samples.WF)
    (hshift : setting a .shiftParams = true) (h : Chain.make a = .ok c) (cols : List String) (hne : cols ≠ [])
    (hcols : ∀ p ∈ cols, p ∈ c.samples.columns) :
    c.getCorrelation (some cols) = .error .value ∨ c.getCorrelation (some cols) = .error .zeroDivision := by
  unfold Chain.getCorrelation
  rcases C13_violated_shift a c hwf hshift h cols hne hcols with e | e
  · exact .inl (by rw [e]; rfl)
  · exact .inr (by rw [e]; rfl)

/-- The hypotheses are met by the table with weights of `C08_violated`. -/
example : ∃ c, Chain.make shiftWitness = .ok c ∧ setting shiftWitness .shiftParams = true ∧ shiftWitness.samples.WF ∧
    ∀ p ∈ ["a"], p ∈ c.samples.columns := by
  obtain ⟨c, hc, hwf, ha, -⟩ := C08_violated
  exact ⟨c, hc, by decide +kernel, hwf, fun p hp => List.mem_singleton.1 hp ▸ mem_columns_of_get ha⟩

end CC
