import Verif.Lemmas.Extents
import Mathlib.Data.List.Dedup

/-! # C46: bins of gridded parameters -/

set_option linter.unusedSectionVars false

namespace CC
open Spec
variable {K : Type} [Field K] [LinearOrder K] [IsStrictOrderedRing K]

theorem sortUnique_increasing (data : List K) : (sortUnique data).Pairwise (· < ·) := by
  unfold sortUnique
  have h1 : (data.mergeSort fun a b => decide (a ≤ b)).Pairwise fun a b => decide (a ≤ b) = true := by
    apply List.pairwise_mergeSort
    · intro a b c h1 h2; simp only [decide_eq_true_eq] at *; exact h1.trans h2
    · intro a b; simp only [Bool.or_eq_true, decide_eq_true_eq]; exact le_total a b
  have h2 := h1.sublist (List.dedup_sublist _)
  have h3 : (data.mergeSort fun a b => decide (a ≤ b)).dedup.Pairwise (· ≠ ·) := List.nodup_dedup _
  refine (h2.and h3).imp fun {a b} h => lt_of_le_of_ne (by simpa using h.1) h.2

theorem mem_sortUnique {data : List K} {x : K} : x ∈ sortUnique data ↔ x ∈ data := by
  unfold sortUnique
  rw [List.mem_dedup]
  exact (List.mergeSort_perm _ _).mem_iff

/-- An increasing list is determined by its members. -/
theorem increasing_unique {l₁ l₂ : List K} (h1 : l₁.Pairwise (· < ·)) (h2 : l₂.Pairwise (· < ·))
    (h : ∀ x, x ∈ l₁ ↔ x ∈ l₂) : l₁ = l₂ := by
  have n1 : l₁.Nodup := h1.imp fun h => h.ne
  have n2 : l₂.Nodup := h2.imp fun h => h.ne
  exact ((List.perm_ext_iff_of_nodup n1 n2).2 h).eq_of_pairwise
    (fun a b _ _ p q => absurd (p.trans q) (lt_irrefl a)) h1 h2

theorem getGridBins_eq {data : List K} {vs : List K} (hinc : vs.Pairwise (· < ·))
    (hmem : ∀ x, x ∈ vs ↔ x ∈ data) (h2 : 2 ≤ vs.length) :
    getGridBins data = .ok (vs.map (· - (vs.getD 1 0 - vs.getD 0 0) / 2) ++
      [vs.getD (vs.length - 1) 0 + (vs.getD 1 0 - vs.getD 0 0) / 2]) := by
  have e : sortUnique data = vs := increasing_unique (sortUnique_increasing data) hinc fun x => by
    rw [mem_sortUnique, hmem]
  unfold getGridBins
  rw [e]
  match vs, h2 with
  | a :: b :: rest, _ =>
    simp only [List.getD_cons_succ, List.getD_cons_zero, List.length_cons]
    congr 2
    · refine List.map_congr_left fun x _ => ?_
      ring
    · congr 1
      have : (b :: rest).getLastD b = (a :: b :: rest).getD (rest.length + 1 + 1 - 1) 0 := by
        rw [List.getLastD_eq_getLast?, List.getLast?_eq_getElem?]
        simp [List.getD_eq_getElem?_getD]
      rw [this]
      ring

/-- **C46**, in full generality fails (`C46_violated`). Let `vs` be the distinct values of the column in
increasing order and `δ` half of the first spacing. If all spacings exceed `δ`, there is one bin per
value: bin `i` contains the value `i` and no other. -/
theorem C46_grid_bins (data vs : List K) (hinc : vs.Pairwise (· < ·)) (hmem : ∀ x, x ∈ vs ↔ x ∈ data)
    (h2 : 2 ≤ vs.length)
    (hsp : ∀ i, i + 1 < vs.length → (vs.getD 1 0 - vs.getD 0 0) / 2 < vs.getD (i + 1) 0 - vs.getD i 0) :
    ∃ bins, getGridBins data = .ok bins ∧ bins.length = vs.length + 1 ∧ bins.Pairwise (· < ·) ∧
      ∀ i, i < vs.length → ∀ x ∈ data,
        (bins.getD i 0 < x ∧ x < bins.getD (i + 1) 0 ↔ x = vs.getD i 0) ∧
        x ≠ bins.getD i 0 ∧ x ≠ bins.getD (i + 1) 0 := by
  set d := (vs.getD 1 0 - vs.getD 0 0) / 2 with hd
  have hlt : ∀ i j, i < j → j < vs.length → vs.getD i 0 < vs.getD j 0 := by
    intro i j hij hj
    rw [getD_eq (by omega), getD_eq hj]
    exact List.pairwise_iff_getElem.1 hinc i j (by omega) hj hij
  have hd0 : 0 < d := by
    have := hlt 0 1 (by omega) (by omega)
    rw [hd]; linarith
  refine ⟨_, getGridBins_eq hinc hmem h2, by simp, ?_, ?_⟩
  · rw [← hd, List.pairwise_append]
    refine ⟨?_, by simp, ?_⟩
    · rw [List.pairwise_map]
      exact hinc.imp fun h => by linarith
    · intro x hx y hy
      obtain ⟨v, hv, rfl⟩ := List.mem_map.1 hx
      obtain rfl := List.mem_singleton.1 hy
      obtain ⟨k, hk, rfl⟩ := List.getElem_of_mem hv
      have : vs[k] ≤ vs.getD (vs.length - 1) 0 := by
        rcases Nat.lt_or_ge k (vs.length - 1) with h | h
        · have := hlt k _ h (by omega)
          rw [getD_eq hk] at this
          exact this.le
        · rw [getD_eq (by omega)]
          exact le_of_eq (by congr 1; omega)
      linarith
  · rw [← hd]
    set bins := vs.map (· - d) ++ [vs.getD (vs.length - 1) 0 + d] with hbins
    have hbl : bins.length = vs.length + 1 := by simp [hbins]
    have hb : ∀ k, k < vs.length → bins.getD k 0 = vs.getD k 0 - d := by
      intro k hk
      rw [getD_eq (by omega), getD_eq hk]
      simp [hbins, hk]
    have hbl' : bins.getD vs.length 0 = vs.getD (vs.length - 1) 0 + d := by
      rw [getD_eq (by omega)]
      simp [hbins]
    have key : ∀ i k, i < vs.length → k < vs.length →
        (i ≤ k → bins.getD i 0 < vs.getD k 0) ∧ (k < i → vs.getD k 0 < bins.getD i 0) := by
      intro i k hi hk
      rw [hb i hi]
      constructor
      · intro h
        rcases Nat.lt_or_ge i k with h' | h'
        · have := hlt i k h' hk; linarith
        · obtain rfl : i = k := by omega
          linarith
      · intro h
        have h1 := hsp (i - 1) (by omega)
        rw [show i - 1 + 1 = i by omega] at h1
        have h3 : vs.getD k 0 ≤ vs.getD (i - 1) 0 := by
          rcases Nat.lt_or_ge k (i - 1) with h' | h'
          · exact (hlt k _ h' (by omega)).le
          · obtain rfl : k = i - 1 := by omega
            exact le_rfl
        linarith
    have key' : ∀ k, k < vs.length → vs.getD k 0 < bins.getD vs.length 0 := by
      intro k hk
      rw [hbl']
      rcases Nat.lt_or_ge k (vs.length - 1) with h | h
      · have := hlt k _ h (by omega); linarith
      · obtain rfl : k = vs.length - 1 := by omega
        linarith
    intro i hi x hx
    obtain ⟨k, hk, rfl⟩ := List.getElem_of_mem ((hmem x).2 hx)
    rw [← getD_eq (d := 0) hk]
    have k1 := key i k hi hk
    have k2 : (i + 1 ≤ k → bins.getD (i + 1) 0 < vs.getD k 0) ∧
        (k < i + 1 → vs.getD k 0 < bins.getD (i + 1) 0) := by
      rcases Nat.lt_or_ge (i + 1) vs.length with h | h
      · exact key (i + 1) k h hk
      · have e : i + 1 = vs.length := by omega
        rw [e]
        exact ⟨fun h => absurd hk (by omega), fun _ => key' k hk⟩
    rcases lt_trichotomy i k with h | h | h
    · have a1 := k1.1 h.le
      have a2 := k2.1 h
      refine ⟨⟨fun hh => absurd hh.2 (not_lt.2 a2.le), fun hh => ?_⟩, a1.ne', a2.ne'⟩
      exact absurd hh (hlt i k h hk).ne'
    · subst h
      have a1 := k1.1 le_rfl
      have a2 := k2.2 (by omega)
      exact ⟨⟨fun _ => rfl, fun _ => ⟨a1, a2⟩⟩, a1.ne', a2.ne⟩
    · have a1 := k1.2 h
      have a2 := k2.2 (by omega)
      refine ⟨⟨fun hh => absurd hh.1 (not_lt.2 a1.le), fun hh => ?_⟩, a1.ne, a2.ne⟩
      exact absurd hh (hlt k i h hi).ne

/-- The hypotheses of `C46_grid_bins` are met by an uneven grid with repeated, unsorted values. -/
example : ∃ bins, getGridBins ([4, 0, 2, 4, 7] : List ℚ) = .ok bins ∧ bins.length = 5 := by
  obtain ⟨b, h1, h2, -⟩ := C46_grid_bins ([4, 0, 2, 4, 7] : List ℚ) [0, 2, 4, 7] (by decide +kernel)
    (by intro x; simp only [List.mem_cons, List.not_mem_nil, or_false]; tauto) (by decide)
    (by
      intro i hi
      have : i = 0 ∨ i = 1 ∨ i = 2 := by simp only [List.length_cons, List.length_nil] at hi; omega
      rcases this with rfl | rfl | rfl <;> decide +kernel)
  exact ⟨b, h1, h2⟩

/-- **C46** fails when a later spacing is below half of the first: with values 0, 4, 5 the bin edges are
-2, 2, 3, 7, so the second bin is empty and the third holds both 4 and 5. -/
theorem C46_violated : ∃ (data : List ℚ) (bins : List ℚ), getGridBins data = .ok bins ∧ 4 ∈ data ∧
    5 ∈ data ∧ histogram bins data [1, 1, 1] = .ok [1, 0, 2] :=
  ⟨[0, 4, 5], [-2, 2, 3, 7], by
    rw [getGridBins_eq (vs := [0, 4, 5]) (by decide +kernel) (fun x => Iff.rfl) (by decide)]
    decide +kernel, by decide +kernel, by decide +kernel, by decide +kernel⟩

/-- A constant gridded parameter has no bins: IndexError. -/
theorem C46_constant (data : List K) (c : K) (hc : ∀ x ∈ data, x = c) :
    getGridBins data = .error .index := by
  have hm : ∀ x ∈ sortUnique data, x = c := fun x hx => hc x (mem_sortUnique.1 hx)
  have hp := sortUnique_increasing data
  unfold getGridBins
  match h : sortUnique data with
  | [] => rfl
  | [a] => rfl
  | a :: b :: rest =>
    rw [h] at hm hp
    have h1 := hm a (by simp)
    have h2 := hm b (by simp)
    have h3 := (List.pairwise_cons.1 hp).1 b (by simp)
    rw [h1, h2] at h3
    exact absurd h3 (lt_irrefl _)

end CC
