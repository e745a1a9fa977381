import Verif.Model.Helpers
import Verif.Lemmas.Marginal
import Verif.Lemmas.MaxLoop

/-! # Lemmas: histograms of equal cells and their cumulative curve -/

set_option linter.unusedSectionVars false

namespace CC
open Spec
variable {K : Type} [Field K] [LinearOrder K] [IsStrictOrderedRing K]

/-- The total weight of the samples with a property. -/
def Spec.weightWhere (data w : List K) (P : K → Bool) : K :=
  ((data.zip w).map fun p => if P p.1 then p.2 else 0).sum

theorem binMass_eq (edges data w : List K) (i : Nat) :
    binMass edges data w i = weightWhere data w (inBin edges i) := by
  unfold binMass weightWhere
  rw [List.zip, List.map_zipWith]

theorem weightWhere_add (data w : List K) {P Q R : K → Bool}
    (h : ∀ x ∈ data, (if R x then (1 : K) else 0) = (if P x then 1 else 0) + (if Q x then 1 else 0)) :
    weightWhere data w R = weightWhere data w P + weightWhere data w Q := by
  unfold weightWhere
  rw [← List.sum_map_add]
  congr 1
  refine List.map_congr_left fun p hp => ?_
  have := congrArg (p.2 * ·) (h p.1 (List.of_mem_zip hp).1)
  simpa [mul_add] using this

theorem weightWhere_congr (data w : List K) {P Q : K → Bool} (h : ∀ x ∈ data, P x = Q x) :
    weightWhere data w P = weightWhere data w Q := by
  unfold weightWhere
  congr 1
  refine List.map_congr_left fun p hp => ?_
  rw [h p.1 (List.of_mem_zip hp).1]

theorem weightWhere_nonneg {data w : List K} (hw : ∀ v ∈ w, 0 ≤ v) (P : K → Bool) :
    0 ≤ weightWhere data w P := by
  refine List.sum_nonneg fun v hv => ?_
  obtain ⟨p, hp, rfl⟩ := List.mem_map.1 hv
  split
  · exact hw _ (List.of_mem_zip hp).2
  · exact le_rfl

theorem weightWhere_mono {data w : List K} (hw : ∀ v ∈ w, 0 ≤ v) {P Q : K → Bool}
    (h : ∀ x ∈ data, P x = true → Q x = true) : weightWhere data w P ≤ weightWhere data w Q := by
  unfold weightWhere
  refine List.sum_le_sum fun p hp => ?_
  have := h p.1 (List.of_mem_zip hp).1
  by_cases hP : P p.1 = true
  · rw [if_pos hP, if_pos (this hP)]
  · rw [if_neg hP]
    split
    · exact hw _ (List.of_mem_zip hp).2
    · exact le_rfl

theorem weightWhere_pos {data w : List K} (hw : ∀ v ∈ w, 0 < v) (hl : w.length = data.length)
    {P : K → Bool} {x : K} (hx : x ∈ data) (hP : P x = true) : 0 < weightWhere data w P := by
  obtain ⟨i, hi, rfl⟩ := List.mem_iff_getElem.1 hx
  unfold weightWhere
  have hnn : ∀ v ∈ (data.zip w).map (fun p => if P p.1 then p.2 else 0), 0 ≤ v := by
    intro v hv
    obtain ⟨p, hp, rfl⟩ := List.mem_map.1 hv
    split
    · exact (hw _ (List.of_mem_zip hp).2).le
    · exact le_rfl
  refine lt_of_lt_of_le (hw w[i] (List.getElem_mem _)) (List.single_le_sum hnn _ ?_)
  refine List.mem_map.2 ⟨(data[i], w[i]), ?_, by simp [hP]⟩
  exact List.mem_iff_getElem.2 ⟨i, by simp; omega, by simp⟩

/-- Weight in the first `k` bins. -/
theorem bins_cum {edges data : List K} (w : List K) (hinc : edges.Pairwise (· < ·))
    (hlo : ∀ x ∈ data, edges.getD 0 0 ≤ x) (k : Nat) (hk : k + 1 < edges.length) :
    (((List.range (edges.length - 1)).map (binMass edges data w)).take k).sum =
      weightWhere data w fun x => decide (x < edges.getD k 0) := by
  rw [← List.map_take, List.take_range, min_eq_left (by omega)]
  induction k with
  | zero =>
    rw [List.range_zero, List.map_nil, List.sum_nil]
    symm
    unfold weightWhere
    refine List.sum_eq_zero fun v hv => ?_
    obtain ⟨p, hp, rfl⟩ := List.mem_map.1 hv
    rw [if_neg]
    simpa using hlo p.1 (List.of_mem_zip hp).1
  | succ k ih =>
    rw [List.range_succ, List.map_append, List.sum_append, ih (by omega)]
    simp only [List.map_cons, List.map_nil, List.sum_cons, List.sum_nil, add_zero]
    rw [binMass_eq]
    refine (weightWhere_add data w fun x hx => ?_).symm
    have hlt : edges.getD k 0 < edges.getD (k + 1) 0 := by
      rw [getD_eq (by omega), getD_eq (by omega)]
      exact List.pairwise_iff_getElem.1 hinc k (k + 1) (by omega) (by omega) (by omega)
    have hne : ¬ k + 2 = edges.length := by omega
    simp only [inBin, hne, decide_false, Bool.false_and, Bool.or_false, Bool.and_eq_true,
      decide_eq_true_eq]
    by_cases h1 : x < edges.getD k 0
    · rw [if_pos (h1.trans hlt), if_pos h1, if_neg (fun h => absurd h.1 (not_le.2 h1))]; simp
    · rw [if_neg h1]
      by_cases h2 : x < edges.getD (k + 1) 0
      · rw [if_pos h2, if_pos ⟨not_lt.1 h1, h2⟩]; simp
      · rw [if_neg h2, if_neg (fun h => h2 h.2)]; simp

/-- Weight in all bins. -/
theorem bins_total {edges data : List K} (w : List K) (hinc : edges.Pairwise (· < ·))
    (h2 : 2 ≤ edges.length)
    (hlo : ∀ x ∈ data, edges.getD 0 0 ≤ x) (hhi : ∀ x ∈ data, x ≤ edges.getD (edges.length - 1) 0) :
    ((List.range (edges.length - 1)).map (binMass edges data w)).sum =
      weightWhere data w fun _ => true := by
  have h := bins_cum w hinc hlo (edges.length - 2) (by omega)
  have e : ((List.range (edges.length - 1)).map (binMass edges data w)).sum =
      (((List.range (edges.length - 1)).map (binMass edges data w)).take (edges.length - 2)).sum +
        binMass edges data w (edges.length - 2) := by
    obtain ⟨m, hm⟩ : ∃ m, edges.length = m + 2 := ⟨edges.length - 2, by omega⟩
    rw [hm]
    simp only [Nat.add_sub_cancel, show m + 2 - 1 = m + 1 from rfl]
    rw [← List.map_take, List.take_range, min_eq_left (by omega), List.range_succ, List.map_append,
      List.sum_append]
    simp
  rw [e, h, binMass_eq]
  refine (weightWhere_add data w fun x hx => ?_).symm
  have e1 : edges.length - 2 + 2 = edges.length := by omega
  have e2 : edges.length - 2 + 1 = edges.length - 1 := by omega
  have := hhi x hx
  simp only [inBin, e1, e2, decide_true, this, Bool.or_true, Bool.and_true,
    decide_eq_true_eq, if_true]
  by_cases h1 : x < edges.getD (edges.length - 2) 0
  · rw [if_pos h1, if_neg (not_le.2 h1)]; simp
  · rw [if_neg h1, if_pos (not_lt.1 h1)]; simp

/-- The curves of `get_extents`. -/
theorem extentCurves_spec {hist : List K} (hne : hist ≠ []) (hnn : ∀ v ∈ hist, 0 ≤ v)
    (h0 : (hist.take 1).sum < hist.sum) :
    extentCurves hist =
      .ok ((cumsum hist).map fun c => (c - (hist.take 1).sum) / (hist.sum - (hist.take 1).sum),
        ((cumsum hist).map fun c => (hist.sum - c) / (hist.sum - (hist.take 1).sum)).reverse) := by
  have hS : 0 < hist.sum := lt_of_le_of_lt (List.sum_nonneg fun v hv => hnn v (List.mem_of_mem_take hv)) h0
  set S := hist.sum with hSdef
  set C := (hist.take 1).sum with hC
  have hd : 0 < S - C := by linarith
  have hlen : 0 < hist.length := List.length_pos_iff.2 hne
  have hmax : npMax (((cumsum hist).map (· / S)).map (1 - ·)).reverse = .ok ((S - C) / S) := by
    obtain ⟨M, hM, hmem, hub⟩ := npMax_spec (p := (((cumsum hist).map (· / S)).map (1 - ·)).reverse)
      (by intro hc; have := congrArg List.length hc; simp at this; exact hne this)
    rw [hM]
    congr 1
    have hC0 : C ∈ cumsum hist := by
      refine List.mem_iff_getElem.2 ⟨0, by simpa using hlen, ?_⟩
      rw [cumsum_getElem]
    apply le_antisymm
    · rw [List.mem_reverse] at hmem
      obtain ⟨y, hy, rfl⟩ := List.mem_map.1 hmem
      obtain ⟨z, hz, rfl⟩ := List.mem_map.1 hy
      obtain ⟨i, hi, rfl⟩ := List.mem_iff_getElem.1 hz
      rw [cumsum_getElem, sub_div, div_self hS.ne']
      have : C ≤ (hist.take (i + 1)).sum := sum_take_mono hnn (by omega)
      have := (div_le_div_iff_of_pos_right hS).2 this
      linarith
    · apply hub
      rw [List.mem_reverse]
      refine List.mem_map.2 ⟨C / S, List.mem_map.2 ⟨C, hC0, rfl⟩, ?_⟩
      field_simp
  simp only [extentCurves, arrMax, npMax_cumsum hnn hne, bind, Except.bind, ensure, ← hSdef, hS.ne',
    ne_eq, not_false_eq_true, decide_true, if_true]
  rw [hmax]
  have hq : (S - C) / S ≠ 0 := (div_pos hd hS).ne'
  simp only [hq, not_false_eq_true, decide_true, if_true, pure, Except.pure]
  congr 2
  · simp only [List.map_reverse, List.reverse_reverse, List.map_map]
    refine List.map_congr_left fun c _ => ?_
    simp only [Function.comp]
    field_simp
    ring
  · rw [List.map_reverse, List.map_map, List.map_map]
    congr 1
    refine List.map_congr_left fun c _ => ?_
    simp only [Function.comp]
    field_simp

end CC
