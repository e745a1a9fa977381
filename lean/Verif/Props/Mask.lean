import Verif.Model.Summary
import Verif.Lemmas.Except
import Mathlib.Tactic.Linarith

/-! # C24: density bands are exactly the runs above the threshold -/

set_option linter.unusedSectionVars false

namespace CC

/-- The mask holds at point `i` (and nowhere beyond its end). -/
def Spec.Holds (mask : List Bool) (i : Nat) : Prop := mask[i]? = some true

/-- `s..e` is a maximal run of points inside the mask. -/
structure Spec.IsRun (mask : List Bool) (s e : Nat) : Prop where
  le : s ≤ e
  inside : ∀ i, s ≤ i → i ≤ e → Holds mask i
  left : ∀ i, i + 1 = s → ¬ Holds mask i
  right : ¬ Holds mask (e + 1)

open Spec

theorem getD_true_iff (mask : List Bool) (i : Nat) : mask.getD i false = true ↔ Holds mask i := by
  rw [List.getD_eq_getElem?_getD, Holds]
  cases mask[i]? with
  | none => simp
  | some b => simp

/-- Does a run start at `i`? -/
def startsAt (mask : List Bool) (i : Nat) : Bool :=
  mask.getD i false && (decide (i = 0) || !(mask.getD (i - 1) false))

/-- Does a run end at `i`? -/
def endsAt (mask : List Bool) (i : Nat) : Bool :=
  mask.getD i false && !(mask.getD (i + 1) false)

theorem maskStarts_eq {mask : List Bool} (hne : mask ≠ []) :
    maskStarts mask = (List.range mask.length).filter (startsAt mask) := by
  obtain ⟨k, hk⟩ : ∃ k, mask.length = k + 1 :=
    ⟨mask.length - 1, by have := List.length_pos_iff.2 hne; omega⟩
  unfold maskStarts
  rw [hk, Nat.add_sub_cancel, List.range_succ_eq_map, List.filter_cons, List.filter_map]
  have h0 : startsAt mask 0 = mask.getD 0 false := by simp [startsAt]
  have h1 : (startsAt mask ∘ Nat.succ) = fun i => !(mask.getD i false) && mask.getD (i + 1) false := by
    funext i
    simp [startsAt, Bool.and_comm]
  rw [h0, h1]
  split <;> simp

theorem maskEnds_eq {mask : List Bool} (hne : mask ≠ []) :
    maskEnds mask = (List.range mask.length).filter (endsAt mask) := by
  obtain ⟨k, hk⟩ : ∃ k, mask.length = k + 1 :=
    ⟨mask.length - 1, by have := List.length_pos_iff.2 hne; omega⟩
  unfold maskEnds
  rw [hk, Nat.add_sub_cancel, List.range_succ, List.filter_append]
  have h1 : endsAt mask k = mask.getD k false := by
    have : mask.getD (k + 1) false = false := by
      rw [List.getD_eq_getElem?_getD, List.getElem?_eq_none (by omega)]; rfl
    simp only [endsAt, this, Bool.not_false, Bool.and_true]
  rw [List.filter_singleton, h1]
  cases mask.getD k false <;> rfl

/-- What has been collected after the first `k` points. -/
structure Collected (mask : List Bool) (k : Nat) (L : List (Nat × Nat)) : Prop where
  ends : (List.range k).filter (endsAt mask) = L.map Prod.snd
  runs : ∀ p ∈ L, IsRun mask p.1 p.2
  lt : ∀ p ∈ L, p.2 < k
  sorted : L.Pairwise fun p q => p.2 < q.1

theorem collect (mask : List Bool) (k : Nat) :
    (∃ L, Collected mask k L ∧ (List.range k).filter (startsAt mask) = L.map Prod.fst ∧
      (k = 0 ∨ ¬ Holds mask (k - 1) ∨ ¬ Holds mask k)) ∨
    (∃ L s, Collected mask k L ∧ (List.range k).filter (startsAt mask) = L.map Prod.fst ++ [s] ∧
      s < k ∧ (∀ p ∈ L, p.2 < s) ∧ (∀ i, s ≤ i → i < k → Holds mask i) ∧
      (∀ i, i + 1 = s → ¬ Holds mask i) ∧ Holds mask k) := by
  induction k with
  | zero => exact Or.inl ⟨[], ⟨rfl, by simp, by simp, .nil⟩, rfl, Or.inl rfl⟩
  | succ k ih =>
    simp only [List.range_succ, List.filter_append, List.filter_singleton]
    rcases ih with ⟨L, hL, hS, hcl⟩ | ⟨L, s, hL, hS, hsk, hLs, hin, hleft, hk⟩
    · by_cases hk : Holds mask k
      · -- a run starts at k
        have hst : startsAt mask k = true := by
          have hk' := (getD_true_iff mask k).2 hk
          simp only [startsAt, hk', Bool.true_and, Bool.or_eq_true, decide_eq_true_eq,
            Bool.not_eq_true']
          rcases hcl with h | h | h
          · exact Or.inl h
          · right
            rw [← getD_true_iff] at h
            simpa using h
          · exact absurd hk h
        have hleft : ∀ i, i + 1 = k → ¬ Holds mask i := by
          rintro i rfl
          rcases hcl with h | h | h
          · omega
          · simpa using h
          · exact absurd hk h
        by_cases hk1 : Holds mask (k + 1)
        · right
          have hen : endsAt mask k = false := by
            have := (getD_true_iff mask (k + 1)).2 hk1
            simp only [endsAt, this, Bool.not_true, Bool.and_false]
          refine ⟨L, k, ⟨?_, hL.runs, fun p hp => (hL.lt p hp).trans (Nat.lt_succ_self _), hL.sorted⟩,
            ?_, Nat.lt_succ_self _, hL.lt, ?_, hleft, hk1⟩
          · simp only [List.range_succ, List.filter_append, List.filter_singleton, hen, hL.ends]
            simp
          · simp [hS, hst]
          · intro i h1 h2
            obtain rfl : i = k := by omega
            exact hk
        · left
          have hen : endsAt mask k = true := by
            have h1 := (getD_true_iff mask k).2 hk
            have h2 : mask.getD (k + 1) false = false := by
              rw [← getD_true_iff] at hk1; simpa using hk1
            simp only [endsAt, h1, h2, Bool.not_false, Bool.and_true]
          refine ⟨L ++ [(k, k)], ⟨?_, ?_, ?_, ?_⟩, ?_, Or.inr (Or.inr hk1)⟩
          · simp only [List.range_succ, List.filter_append, List.filter_singleton, hen, hL.ends]
            simp
          · intro p hp
            rcases List.mem_append.1 hp with hp | hp
            · exact hL.runs p hp
            · rw [List.mem_singleton.1 hp]
              exact ⟨le_rfl, fun i h1 h2 => by obtain rfl : i = k := by omega
                                               exact hk, hleft, hk1⟩
          · intro p hp
            rcases List.mem_append.1 hp with hp | hp
            · exact (hL.lt p hp).trans (Nat.lt_succ_self _)
            · rw [List.mem_singleton.1 hp]; exact Nat.lt_succ_self _
          · rw [List.pairwise_append]
            refine ⟨hL.sorted, List.pairwise_singleton _ _, ?_⟩
            intro p hp q hq
            rw [List.mem_singleton.1 hq]
            exact hL.lt p hp
          · simp [hS, hst]
      · -- outside
        left
        have hk0 : mask.getD k false = false := by
          rw [← getD_true_iff] at hk; simpa using hk
        refine ⟨L, ⟨?_, hL.runs, fun p hp => (hL.lt p hp).trans (Nat.lt_succ_self _), hL.sorted⟩, ?_,
          Or.inr (Or.inl (by simpa using hk))⟩
        · have : endsAt mask k = false := by simp only [endsAt, hk0, Bool.false_and]
          simp only [List.range_succ, List.filter_append, List.filter_singleton, this, hL.ends]
          simp
        · have : startsAt mask k = false := by simp only [startsAt, hk0, Bool.false_and]
          simp [hS, this]
    · -- inside a run that started at s
      have hst : startsAt mask k = false := by
        have h1 : mask.getD (k - 1) false = true :=
          (getD_true_iff _ _).2 (hin _ (by omega) (by omega))
        have h2 : ¬ k = 0 := by omega
        simp only [startsAt, h1, h2, decide_false, Bool.not_true, Bool.or_self, Bool.and_false]
      by_cases hk1 : Holds mask (k + 1)
      · right
        have hen : endsAt mask k = false := by
          have := (getD_true_iff mask (k + 1)).2 hk1
          simp only [endsAt, this, Bool.not_true, Bool.and_false]
        refine ⟨L, s, ⟨?_, hL.runs, fun p hp => (hL.lt p hp).trans (Nat.lt_succ_self _), hL.sorted⟩,
          ?_, by omega, hLs, ?_, hleft, hk1⟩
        · simp only [List.range_succ, List.filter_append, List.filter_singleton, hen, hL.ends]
          simp
        · simp [hS, hst]
        · intro i h1 h2
          rcases Nat.lt_or_ge i k with h | h
          · exact hin i h1 h
          · obtain rfl : i = k := by omega
            exact hk
      · left
        have hen : endsAt mask k = true := by
          have h1 := (getD_true_iff mask k).2 hk
          have h2 : mask.getD (k + 1) false = false := by
            rw [← getD_true_iff] at hk1; simpa using hk1
          simp only [endsAt, h1, h2, Bool.not_false, Bool.and_true]
        refine ⟨L ++ [(s, k)], ⟨?_, ?_, ?_, ?_⟩, ?_, Or.inr (Or.inr hk1)⟩
        · simp only [List.range_succ, List.filter_append, List.filter_singleton, hen, hL.ends]
          simp
        · intro p hp
          rcases List.mem_append.1 hp with hp | hp
          · exact hL.runs p hp
          · rw [List.mem_singleton.1 hp]
            refine ⟨by simpa using hsk.le, fun i h1 h2 => ?_, hleft, hk1⟩
            rcases Nat.lt_or_ge i k with h | h
            · exact hin i h1 h
            · obtain rfl : i = k := le_antisymm h2 h
              exact hk
        · intro p hp
          rcases List.mem_append.1 hp with hp | hp
          · exact (hL.lt p hp).trans (Nat.lt_succ_self _)
          · rw [List.mem_singleton.1 hp]; exact Nat.lt_succ_self _
        · rw [List.pairwise_append]
          refine ⟨hL.sorted, List.pairwise_singleton _ _, ?_⟩
          intro p hp q hq
          rw [List.mem_singleton.1 hq]
          exact hLs p hp
        · simp [hS, hst]

theorem not_holds_of_length (mask : List Bool) {i : Nat} (h : mask.length ≤ i) : ¬ Holds mask i := by
  rw [Holds, List.getElem?_eq_none h]
  simp

theorem run_unique {mask : List Bool} {s s' e : Nat} (h : IsRun mask s e) (h' : IsRun mask s' e) :
    s = s' := by
  rcases Nat.lt_trichotomy s s' with hlt | heq | hgt
  · exact absurd (h.inside (s' - 1) (by omega) (by have := h'.le; omega)) (h'.left _ (by omega))
  · exact heq
  · exact absurd (h'.inside (s - 1) (by omega) (by have := h.le; omega)) (h.left _ (by omega))

theorem run_lt {mask : List Bool} {s e : Nat} (h : IsRun mask s e) : e < mask.length := by
  by_contra hc
  exact not_holds_of_length mask (not_lt.1 hc) (h.inside e h.le le_rfl)

/-- The starts and ends pair up to exactly the maximal runs, in order. -/
theorem mask_runs {mask : List Bool} (hne : mask ≠ []) :
    ∃ L : List (Nat × Nat), maskStarts mask = L.map Prod.fst ∧ maskEnds mask = L.map Prod.snd ∧
      (∀ p : Nat × Nat, p ∈ L ↔ IsRun mask p.1 p.2) ∧ L.Pairwise fun p q => p.2 < q.1 := by
  rw [maskStarts_eq hne, maskEnds_eq hne]
  rcases collect mask mask.length with ⟨L, hL, hS, -⟩ | ⟨L, s, -, -, -, -, -, -, h⟩
  · refine ⟨L, hS, hL.ends, fun p => ⟨hL.runs p, fun hp => ?_⟩, hL.sorted⟩
    have hmem : p.2 ∈ (List.range mask.length).filter (endsAt mask) := by
      rw [List.mem_filter]
      refine ⟨List.mem_range.2 (run_lt hp), ?_⟩
      have h1 := (getD_true_iff mask p.2).2 (hp.inside _ hp.le le_rfl)
      have h2 : mask.getD (p.2 + 1) false = false := by
        have := hp.right
        rw [← getD_true_iff] at this; simpa using this
      simp only [endsAt, h1, h2, Bool.not_false, Bool.and_true]
    rw [hL.ends] at hmem
    obtain ⟨q, hq, he⟩ := List.mem_map.1 hmem
    have := hL.runs q hq
    rw [he] at this
    have hs := run_unique this hp
    have : q = p := Prod.ext hs he
    exact this ▸ hq
  · exact absurd h (not_holds_of_length mask le_rfl)

variable {K : Type} [Field K] [LinearOrder K] [IsStrictOrderedRing K]

/-- **C24**. For every increasing grid and every mask over it, the intervals are exactly the maximal
runs of grid points inside the mask that span more than one point, in increasing order and
disjoint; extraction never fails. -/
theorem C24_mask_intervals (x : List K) (hx : x.Pairwise (· < ·)) (mask : List Bool)
    (hlen : mask.length = x.length) :
    ∃ ivs, maskToIntervals x mask = .ok ivs ∧
      (∀ iv : K × K, iv ∈ ivs ↔ ∃ s e, IsRun mask s e ∧ s < e ∧
        x[s]? = some iv.1 ∧ x[e]? = some iv.2) ∧
      ivs.Pairwise fun a b => a.1 < a.2 ∧ a.2 < b.1 ∧ b.1 < b.2 := by
  have hmono : ∀ {i j : Nat} {a b : K}, x[i]? = some a → x[j]? = some b → i < j → a < b := by
    intro i j a b hi hj hij
    obtain ⟨hi', rfl⟩ := List.getElem?_eq_some_iff.1 hi
    obtain ⟨hj', rfl⟩ := List.getElem?_eq_some_iff.1 hj
    exact List.pairwise_iff_getElem.1 hx i j hi' hj' hij
  by_cases hne : mask = []
  · subst hne
    refine ⟨[], rfl, ?_, .nil⟩
    intro iv
    constructor
    · intro h; cases h
    · rintro ⟨s, e, h, -⟩
      have := run_lt h
      simp at this
  obtain ⟨L, hS, hE, hL, hsorted⟩ := mask_runs hne
  have hbound : ∀ p ∈ L, p.1 < x.length ∧ p.2 < x.length := by
    intro p hp
    have h := (hL p).1 hp
    have := run_lt h
    have := h.le
    omega
  let f : Nat × Nat → K × K := fun p => (x.getD p.1 0, x.getD p.2 0)
  have hf : ∀ p ∈ L, x[p.1]? = some (f p).1 ∧ x[p.2]? = some (f p).2 := by
    intro p hp
    obtain ⟨h1, h2⟩ := hbound p hp
    simp only [f, List.getD_eq_getElem?_getD, List.getElem?_eq_getElem h1,
      List.getElem?_eq_getElem h2, Option.getD_some, and_self]
  have hzip : (maskStarts mask).zip (maskEnds mask) = L := by
    rw [hS, hE, List.zip_map', List.map_id'']
    intro p; rfl
  have hmap : (L.mapM fun se => (do
      let e ← atIndex x se.2
      let s ← atIndex x se.1
      return (s, e) : Res (K × K))) = .ok (L.map f) := by
    rw [mapM_ok_iff, List.forall₂_map_right_iff, List.forall₂_same]
    intro p hp
    obtain ⟨h1, h2⟩ := hf p hp
    simp only [atIndex, h1, h2, bind, Except.bind, pure, Except.pure]
  refine ⟨(L.map f).filter fun iv => decide (iv.1 < iv.2), ?_, ?_, ?_⟩
  · unfold maskToIntervals
    rw [if_neg (by simpa using hne), if_neg (by rw [hS, hE]; simp), hzip, hmap]
    rfl
  · intro iv
    rw [List.mem_filter, List.mem_map]
    constructor
    · rintro ⟨⟨p, hp, rfl⟩, hlt⟩
      have hrun := (hL p).1 hp
      refine ⟨p.1, p.2, hrun, ?_, (hf p hp).1, (hf p hp).2⟩
      refine lt_of_le_of_ne hrun.le fun heq => ?_
      have hlt := of_decide_eq_true hlt
      simp only [f, heq] at hlt
      exact lt_irrefl _ hlt
    · rintro ⟨s, e, hrun, hlt, h1, h2⟩
      have hp := (hL (s, e)).2 hrun
      obtain ⟨h3, h4⟩ := hf _ hp
      refine ⟨⟨(s, e), hp, ?_⟩, decide_eq_true (hmono h1 h2 hlt)⟩
      rw [h1] at h3
      rw [h2] at h4
      exact Prod.ext (Option.some.inj h3).symm (Option.some.inj h4).symm
  · rw [List.pairwise_filter, List.pairwise_map]
    refine hsorted.imp_of_mem fun {p q} hp hq hpq ha hb => ?_
    exact ⟨of_decide_eq_true ha, hmono (hf p hp).2 (hf q hq).1 hpq, of_decide_eq_true hb⟩

/-- A grid and a mask with two bands and an isolated point. -/
example : ([0, 1, 2, 3, 4, 5, 6] : List ℚ).Pairwise (· < ·) ∧
    maskToIntervals ([0, 1, 2, 3, 4, 5, 6] : List ℚ) [true, true, false, true, false, true, true] =
      .ok [(0, 1), (5, 6)] := by
  constructor
  · decide +kernel
  · decide +kernel

end CC
