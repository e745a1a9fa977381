import Verif.Model.Contours
import Verif.Spec.Contours
import Verif.Props.Invariance

/-! # C51: contours enclose highest density regions -/

set_option linter.unusedSectionVars false

namespace CC
open Spec

section
variable {K : Type} [Field K] [LinearOrder K] [IsStrictOrderedRing K]

theorem gather_range {α : Type} (l : List α) : gather l (List.range l.length) = l := by
  unfold gather
  induction l using List.reverseRecOn with
  | nil => rfl
  | append_singleton v a ih =>
    rw [List.length_append, List.length_singleton, List.range_succ, List.filterMap_append]
    congr 1
    · refine Eq.trans (List.filterMap_congr fun i hi => ?_) ih
      rw [List.getElem?_append_left (List.mem_range.1 hi)]
    · simp

theorem gather_eq_map {α : Type} {l : List α} {q : List Nat} (h : ∀ i ∈ q, i < l.length) (d : α) :
    gather l q = q.map fun i => l.getD i d := by
  unfold gather
  induction q with
  | nil => rfl
  | cons i q ih =>
    have hi := h i (by simp)
    rw [List.filterMap_cons_some (List.getElem?_eq_getElem hi), ih fun j hj => h j (List.mem_cons_of_mem _ hj),
      List.map_cons, List.getD_eq_getElem?_getD, List.getElem?_eq_getElem hi, Option.getD_some]

theorem gather_length {α : Type} {l : List α} {q : List Nat} (h : ∀ i ∈ q, i < l.length) :
    (gather l q).length = q.length := by
  cases l with
  | nil =>
    cases q with
    | nil => rfl
    | cons i q => exact absurd (h i (by simp)) (by simp)
  | cons a l => rw [gather_eq_map h a, List.length_map]

theorem gather_gather {α : Type} {l : List α} {q u : List Nat} (h : ∀ i ∈ q, i < l.length) :
    gather (gather l q) u = gather l (gather q u) := by
  have hg : ∀ i : Nat, (gather l q)[i]? = (q[i]?).bind fun j => l[j]? := by
    intro i
    by_cases hi : i < q.length
    · have hq := h q[i] (List.getElem_mem _)
      have : i < (gather l q).length := by rw [gather_length h]; exact hi
      rw [List.getElem?_eq_getElem hi, Option.bind_some, List.getElem?_eq_getElem hq,
        List.getElem?_eq_getElem this]
      congr 1
      simp only [gather_eq_map h (l[q[i]]), List.getElem_map, List.getD_eq_getElem?_getD, List.getElem?_eq_getElem hq,
        Option.getD_some]
    · rw [List.getElem?_eq_none (by rw [gather_length h]; omega), List.getElem?_eq_none (by omega)]
      rfl
  unfold gather at *
  simp only [hg, List.filterMap_filterMap]

/-- `argsort` of a permutation is the inverse permutation. -/
theorem argsortNat_spec {q : List Nat} {n : Nat} (h : q.Perm (List.range n)) :
    (argsortNat q).Perm (List.range n) ∧ gather q (argsortNat q) = List.range n := by
  have hl : q.length = n := by rw [h.length_eq, List.length_range]
  have hp : (argsortNat q).Perm (List.range n) := by
    unfold argsortNat
    rw [hl]
    exact List.mergeSort_perm _ _
  refine ⟨hp, ?_⟩
  have hlt : ∀ i ∈ argsortNat q, i < q.length := fun i hi => by
    rw [hl]; exact List.mem_range.1 (hp.mem_iff.1 hi)
  have hperm : (gather q (argsortNat q)).Perm (List.range n) := by
    rw [← hl] at hp
    exact (filterMap_getElem_perm hp).trans h
  have hs : (argsortNat q).Pairwise fun i j => q.getD i 0 ≤ q.getD j 0 := by
    have := List.pairwise_mergeSort (le := fun i j => decide (q.getD i 0 ≤ q.getD j 0))
      (fun a b c h1 h2 => by simp only [decide_eq_true_eq] at *; omega)
      (fun a b => by simp only [Bool.or_eq_true, decide_eq_true_eq]; omega) (List.range q.length)
    exact this.imp fun h => of_decide_eq_true h
  refine hperm.eq_of_pairwise (le := fun a b => a ≤ b) (fun a b _ _ h1 h2 => le_antisymm h1 h2) ?_ ?_
  · rw [gather_eq_map hlt 0]
    exact List.pairwise_map.2 hs
  · exact List.pairwise_le_range

/-! ## The sorted cells -/

theorem filter_prefix {l : List (K × K)} (h : l.Pairwise fun c d => c.2 < d.2) (p : K) :
    ∃ k, l.filter (fun c => decide (c.2 ≤ p)) = l.take k ∧ ∀ i (hi : i < l.length), i < k ↔ l[i].2 ≤ p := by
  induction l with
  | nil => exact ⟨0, rfl, by simp⟩
  | cons c l ih =>
    obtain ⟨k, h1, h2⟩ := ih h.tail
    have hc : ∀ d ∈ l, c.2 < d.2 := fun d hd => List.rel_of_pairwise_cons h hd
    by_cases hp : c.2 ≤ p
    · refine ⟨k + 1, by rw [List.filter_cons_of_pos (by simpa using hp), h1, List.take_succ_cons], fun i hi => ?_⟩
      cases i with
      | zero => simpa using hp
      | succ i => simpa using h2 i (by simpa using hi)
    · have hall : ∀ d ∈ l, ¬d.2 ≤ p := fun d hd hdp => hp ((hc d hd).le.trans hdp)
      refine ⟨0, ?_, fun i hi => ?_⟩
      · rw [List.filter_cons_of_neg (by simpa using hp), List.take_zero]
        exact List.filter_eq_nil_iff.2 fun d hd => by simpa using hall d hd
      · cases i with
        | zero => simpa using hp
        | succ i => simpa using hall _ (List.getElem_mem (by simpa using hi))

/-- Cells sorted by decreasing density with their normalised cumulative sums. -/
theorem sorted_highest {s : List K} (hpos : ∀ v ∈ s, 0 < v) (hs : s.Pairwise (· ≥ ·)) :
    HighestDensity (s.zip ((cumsum s).map (· / s.sum))) := by
  by_cases hne : s = []
  · subst hne
    refine ⟨by simp [cumsum], by simp [cumsum], by simp [cumsum], by simp [cumsum], by simp [cumsum]⟩
  have hT : 0 < s.sum := List.sum_pos s hpos hne
  set cells := s.zip ((cumsum s).map (· / s.sum)) with hcells
  have hlen : cells.length = s.length := by simp [hcells]
  have hget : ∀ i (hi : i < cells.length), cells[i] = (s[i]'(by omega), (s.take (i + 1)).sum / s.sum) := by
    intro i hi
    simp only [hcells, List.getElem_zip, List.getElem_map, cumsum_getElem]
  have hfst : cells.map Prod.fst = s := by
    rw [hcells, List.map_fst_zip]
    simp
  have hsplit : ∀ i (hi : i < s.length), (s.take (i + 1)).sum = (s.take i).sum + s[i] := by
    intro i hi
    rw [List.take_succ_eq_append_getElem hi, List.sum_append, List.sum_singleton]
  have hmono : ∀ i j, i ≤ j → (s.take i).sum ≤ (s.take j).sum := by
    intro i j hij
    have : s.take i = (s.take j).take i := by rw [List.take_take, min_eq_left hij]
    have e : (s.take j).sum = ((s.take j).take i).sum + ((s.take j).drop i).sum := by
      rw [← List.sum_append, List.take_append_drop]
    rw [this, e]
    have : 0 ≤ ((s.take j).drop i).sum :=
      List.sum_nonneg fun v hv => (hpos v (List.mem_of_mem_take (List.mem_of_mem_drop hv))).le
    linarith
  have hlt : ∀ i j (hi : i < cells.length) (hj : j < cells.length), i < j → cells[i].2 < cells[j].2 := by
    intro i j hi hj hij
    rw [hget, hget]
    refine (div_lt_div_iff_of_pos_right hT).2 ?_
    have h1 := hmono (i + 1) j hij
    have h2 := hsplit j (by omega)
    have h3 := hpos _ (List.getElem_mem (show j < s.length by omega))
    linarith
  have hsorted : cells.Pairwise fun c d => c.2 < d.2 := List.pairwise_iff_getElem.2 hlt
  have hdens : ∀ i j (hi : i < cells.length) (hj : j < cells.length), i ≤ j → cells[j].1 ≤ cells[i].1 := by
    intro i j hi hj hij
    rw [hget, hget]
    rcases Nat.eq_or_lt_of_le hij with rfl | h
    · exact le_rfl
    · exact List.pairwise_iff_getElem.1 hs i j (by omega) (by omega) h
  refine ⟨?_, ?_, ?_, ?_, ?_⟩
  · intro c hc
    obtain ⟨i, hi, rfl⟩ := List.getElem_of_mem hc
    rw [hget]
    have h2 := hsplit i (by omega)
    have h3 := hpos _ (List.getElem_mem (show i < s.length by omega))
    have h4 := hmono 0 i (Nat.zero_le _)
    have h5 := hmono (i + 1) s.length (by omega)
    rw [List.take_length] at h5
    rw [List.take_zero, List.sum_nil] at h4
    exact ⟨div_pos (by linarith) hT, (div_le_one hT).2 h5⟩
  · intro c hc c' hc' h
    obtain ⟨i, hi, rfl⟩ := List.getElem_of_mem hc
    obtain ⟨j, hj, rfl⟩ := List.getElem_of_mem hc'
    refine hlt i j hi hj ?_
    by_contra hij
    exact absurd (hdens j i hj hi (by omega)) (not_le.2 h)
  · intro p hp
    obtain ⟨k, h1, h2⟩ := filter_prefix hsorted p
    rw [h1, List.map_take, hfst]
    rcases Nat.eq_zero_or_pos k with rfl | hk
    · simpa using mul_nonneg hp hT.le
    · rcases Nat.lt_or_ge (k - 1) cells.length with hlt' | hge
      · have := (h2 (k - 1) hlt').1 (by omega)
        rw [hget] at this
        simp only at this
        rw [show k - 1 + 1 = k by omega, div_le_iff₀ hT] at this
        exact this
      · have hl : cells.length - 1 < cells.length := by
          have := List.length_pos_iff.2 hne
          omega
        have := (h2 (cells.length - 1) hl).1 (by omega)
        rw [hget] at this
        simp only at this
        rw [show cells.length - 1 + 1 = s.length by omega, List.take_length, div_le_iff₀ hT] at this
        rw [List.take_of_length_le (by omega)]
        exact this
  · intro p c hc c' hc' h1 h2
    obtain ⟨i, hi, rfl⟩ := List.getElem_of_mem hc
    obtain ⟨j, hj, rfl⟩ := List.getElem_of_mem hc'
    refine hdens i j hi hj ?_
    by_contra hij
    exact absurd (hlt j i hj hi (by omega)) (not_lt.2 (h1.trans h2.le))
  · intro p c hc hcp hmax
    obtain ⟨k, h1, h2⟩ := filter_prefix hsorted p
    obtain ⟨j, hj, rfl⟩ := List.getElem_of_mem hc
    have hjk : k ≤ j := by
      by_contra h
      exact absurd ((h2 j hj).1 (by omega)) (not_le.2 hcp)
    have hk : k < cells.length := by omega
    have hkp : p < cells[k].2 := by
      by_contra h
      exact absurd ((h2 k hk).2 (not_lt.1 h)) (lt_irrefl _)
    have h3 := hmax _ (List.getElem_mem hk) hkp
    rw [h1, List.map_take, hfst]
    rw [hget k hk] at hkp h3
    simp only at hkp h3
    rw [lt_div_iff₀ hT, hsplit k (by omega)] at hkp
    linarith

theorem Spec.HighestDensity.perm {cells cells' : List (K × K)} (h : HighestDensity cells)
    (hp : cells.Perm cells') : HighestDensity cells' := by
  obtain ⟨h1, h2, h3, h4, h5⟩ := h
  have e1 : (cells'.map Prod.fst).sum = (cells.map Prod.fst).sum := ((hp.map _).sum_eq).symm
  have e2 : ∀ p, ((cells'.filter fun c => decide (c.2 ≤ p)).map Prod.fst).sum =
      ((cells.filter fun c => decide (c.2 ≤ p)).map Prod.fst).sum := fun p =>
    (((hp.filter _).map _).sum_eq).symm
  refine ⟨fun c hc => h1 c (hp.mem_iff.2 hc), fun c hc c' hc' => h2 c (hp.mem_iff.2 hc) c' (hp.mem_iff.2 hc'), ?_,
    fun p c hc c' hc' => h4 p c (hp.mem_iff.2 hc) c' (hp.mem_iff.2 hc'), ?_⟩
  · intro p hp0
    rw [e1, e2]
    exact h3 p hp0
  · intro p c hc hcp hm
    rw [e1, e2]
    exact h5 p c (hp.mem_iff.2 hc) hcp fun c' hc' => hm c' (hp.mem_iff.1 hc')

/-! ## The surface -/

theorem stdevFlat_spec {argsort : List K → List Nat} (ha : ArgsortOk argsort) {sigma : List K} (hne : sigma ≠ [])
    (hpos : ∀ v ∈ sigma, 0 < v) : ∃ vals, stdevFlat argsort sigma = .ok vals ∧ vals.length = sigma.length ∧
      HighestDensity (sigma.zip vals) := by
  obtain ⟨hp, hs⟩ := ha sigma
  set q := (argsort sigma).reverse with hq
  have hqp : q.Perm (List.range sigma.length) := (List.reverse_perm _).trans hp
  obtain ⟨hup, hu⟩ := argsortNat_spec hqp
  set u := argsortNat q with hudef
  have hqlt : ∀ i ∈ q, i < sigma.length := fun i hi => List.mem_range.1 (hqp.mem_iff.1 hi)
  set s := gather sigma q with hsdef
  have hsp : s.Perm sigma := filterMap_getElem_perm hqp
  have hsne : s ≠ [] := by
    intro h
    rw [h] at hsp
    exact hne (List.nil_perm.1 hsp)
  have hspos : ∀ v ∈ s, 0 < v := fun v hv => hpos v (hsp.mem_iff.1 hv)
  have hdesc : s.Pairwise (· ≥ ·) := by
    have : s = (gather sigma (argsort sigma)).reverse := by
      rw [hsdef, hq]
      unfold gather
      rw [List.filterMap_reverse]
    rw [this]
    exact List.pairwise_reverse.2 (hs.imp fun h => h)
  have hT : s.sum ≠ 0 := (List.sum_pos s hspos hsne).ne'
  have hback : gather s u = sigma := by
    rw [hsdef, gather_gather hqlt, hu, gather_range]
  set C := (cumsum s).map (· / s.sum) with hC
  have hslen : s.length = sigma.length := hsp.length_eq
  have hClen : C.length = s.length := by simp [hC]
  have hult : ∀ i ∈ u, i < C.length := fun i hi => by
    rw [hClen, hslen]
    exact List.mem_range.1 (hup.mem_iff.1 hi)
  refine ⟨gather C u, ?_, ?_, ?_⟩
  · unfold stdevFlat
    simp only [← hq, ← hudef, ← hsdef, cumsum_last hsne, ensure, hT, ne_eq, not_false_eq_true, decide_true, if_true,
      bind, Except.bind, pure, Except.pure, hC]
  · rw [gather_length hult, hup.length_eq, List.length_range]
  · have hz : sigma.zip (gather C u) = gather (s.zip C) u := by
      rw [← hback]
      exact filterMap_zip u s C hClen
    rw [hz]
    refine (sorted_highest hspos hdesc).perm (List.Perm.symm ?_)
    refine filterMap_getElem_perm ?_
    rw [List.length_zip, hClen, min_self, hslen]
    exact hup

theorem reshapeLike_flatten {α β : Type} : ∀ (rows : List (List α)) (l : List β), l.length = rows.flatten.length →
    (reshapeLike rows l).flatten = l ∧ (reshapeLike rows l).map List.length = rows.map List.length
  | [], l, h => by
    have : l = [] := by simpa using h
    subst this
    simp [reshapeLike]
  | r :: rs, l, h => by
    rw [List.flatten_cons, List.length_append] at h
    obtain ⟨h1, h2⟩ := reshapeLike_flatten rs (l.drop r.length) (by rw [List.length_drop]; omega)
    simp only [reshapeLike, List.flatten_cons, List.map_cons, h1, h2, List.take_append_drop, List.length_take]
    exact ⟨trivial, by congr 1; omega⟩

/-- **C51**. The contour surface of a histogram with nonnegative entries (zeros are replaced by 1e-16 as in
the code) has the shape of the histogram, and its cells with values up to `p` are the highest density region
of mass `p`, for every `p` and every way `argsort` may order equal values. -/
theorem C51_highest_density {argsort : List K → List Nat} (ha : ArgsortOk argsort) {hist : List (List K)}
    (hne : hist.flatten ≠ []) (hnn : ∀ r ∈ hist, ∀ v ∈ r, 0 ≤ v) :
    ∃ vals, contourSurface argsort hist = .ok vals ∧ vals.map List.length = hist.map List.length ∧
      HighestDensity ((hist.flatten.map fun v => if v = 0 then 1 / 10 ^ 16 else v).zip vals.flatten) := by
  have hfl : (fillZeros hist).flatten = hist.flatten.map fun v => if v = 0 then 1 / 10 ^ 16 else v := by
    unfold fillZeros
    rw [List.map_flatten]
  have hpos : ∀ v ∈ (fillZeros hist).flatten, 0 < v := by
    intro v hv
    rw [hfl] at hv
    obtain ⟨x, hx, rfl⟩ := List.mem_map.1 hv
    obtain ⟨r, hr, hxr⟩ := List.mem_flatten.1 hx
    have := hnn r hr x hxr
    by_cases h0 : x = 0
    · rw [if_pos h0]
      positivity
    · rw [if_neg h0]
      exact lt_of_le_of_ne this (Ne.symm h0)
  obtain ⟨v, hv, hlen, hh⟩ := stdevFlat_spec ha (sigma := (fillZeros hist).flatten) (by
    rw [hfl]
    simpa using hne) hpos
  obtain ⟨h1, h2⟩ := reshapeLike_flatten (fillZeros hist) v hlen
  refine ⟨reshapeLike (fillZeros hist) v, ?_, ?_, ?_⟩
  · unfold contourSurface convertToStdev
    rw [hv]
    rfl
  · rw [h2]
    simp [fillZeros, Function.comp_def]
  · rw [h1, ← hfl]
    exact hh

/-- A conforming `argsort`. -/
theorem argsortOk_exists : ∃ argsort : List K → List Nat, ArgsortOk argsort := by
  refine ⟨fun l => (List.range l.length).mergeSort fun i j => decide (l.getD i 0 ≤ l.getD j 0), fun l => ?_⟩
  have hp : ((List.range l.length).mergeSort fun i j => decide (l.getD i 0 ≤ l.getD j 0)).Perm
      (List.range l.length) := List.mergeSort_perm _ _
  refine ⟨hp, ?_⟩
  rw [gather_eq_map (fun i hi => List.mem_range.1 (hp.mem_iff.1 hi)) 0]
  refine List.pairwise_map.2 ?_
  have := List.pairwise_mergeSort (le := fun i j => decide (l.getD i 0 ≤ l.getD j 0))
    (fun a b c h1 h2 => by
      simp only [decide_eq_true_eq] at *
      exact h1.trans h2)
    (fun a b => by
      simp only [Bool.or_eq_true, decide_eq_true_eq]
      exact le_total _ _) (List.range l.length)
  exact this.imp fun h => of_decide_eq_true h

/-- The hypotheses are met by a histogram with an empty cell and a tie. -/
example : ∃ argsort : List K → List Nat, ∃ vals, contourSurface argsort [[1, 0], [2, 1]] = .ok vals ∧
    HighestDensity (([1, 1 / 10 ^ 16, 2, 1] : List K).zip vals.flatten) := by
  obtain ⟨argsort, ha⟩ := argsortOk_exists (K := K)
  obtain ⟨vals, h1, -, h2⟩ := C51_highest_density ha (hist := [[1, 0], [2, 1]]) (by simp) (by simp)
  refine ⟨argsort, vals, h1, ?_⟩
  simpa using h2

end

end CC
