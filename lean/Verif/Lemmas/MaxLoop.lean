import Verif.Model.Summary
import Verif.Lemmas.Except
import Verif.Lemmas.Numpy
import Mathlib.Tactic.Linarith
import Mathlib.Tactic.Ring

/-! The bisection of the max summary. -/

set_option linter.unusedSectionVars false

namespace CC

/-- The points `i1..i2-1` are those around `s` at which the values stay at or above the threshold:
the neighbours `i1 - 1` and `i2` are below it. -/
structure Spec.Cut {K : Type} [LinearOrder K] (y : Nat → K) (s : Nat) (t : K) (i1 i2 : Nat) : Prop where
  left_le : i1 ≤ s
  lt_right : s < i2
  inside : ∀ i, i1 ≤ i → i < i2 → t ≤ y i
  below_left : ∃ i, i + 1 = i1 ∧ y i < t
  below_right : y i2 < t

open Spec
variable {K : Type} [Field K] [LinearOrder K] [IsStrictOrderedRing K]

theorem firstWhere_ok_iff {α : Type} {p : α → Bool} {l : List α} {i : Nat} :
    firstWhere p l = .ok i ↔ ∃ h : i < l.length, p l[i] = true ∧ ∀ j (hj : j < i), p l[j] = false := by
  unfold firstWhere
  cases hx : l.findIdx? p with
  | none =>
    simp only [reduceCtorEq, false_iff]
    rintro ⟨h, h1, -⟩
    rw [List.findIdx?_eq_none_iff] at hx
    have := hx _ (List.getElem_mem h)
    simp [this] at h1
  | some k =>
    rw [List.findIdx?_eq_some_iff_getElem] at hx
    obtain ⟨hk, h1, h2⟩ := hx
    simp only [Except.ok.injEq]
    constructor
    · rintro rfl
      exact ⟨hk, h1, fun j hj => by simpa using h2 j hj⟩
    · rintro ⟨hi, h3, h4⟩
      rcases Nat.lt_trichotomy k i with h | h | h
      · have := h4 k h; simp [h1] at this
      · exact h
      · exact absurd h3 (by simpa using h2 i h)

theorem firstWhere_exists {α : Type} {p : α → Bool} {l : List α} {x : α} (hx : x ∈ l) (hp : p x = true) :
    ∃ i, firstWhere p l = .ok i := by
  unfold firstWhere
  cases h : l.findIdx? p with
  | none =>
    rw [List.findIdx?_eq_none_iff] at h
    have := h x hx
    simp [this] at hp
  | some k => exact ⟨k, rfl⟩

theorem atIndex_ok {α : Type} {l : List α} {i : Nat} (h : i < l.length) : atIndex l i = .ok l[i] := by
  simp only [atIndex, List.getElem?_eq_getElem h]

theorem getD_eq {α : Type} {l : List α} {i : Nat} (h : i < l.length) (d : α) : l.getD i d = l[i] := by
  rw [List.getD_eq_getElem?_getD, List.getElem?_eq_getElem h]; rfl

/-- Both searches succeed below the peak and give the cut. -/
theorem search_cut {ys : List K} {start : Nat} (hstart : start < ys.length)
    (hfirst : ys.getD 0 0 = 0) (hlast : ys.getD (ys.length - 1) 0 = 0) {mid : K} (h0 : 0 < mid)
    (htop : mid ≤ ys.getD start 0) :
    ∃ r1 r2, firstWhere (fun y => decide (y < mid)) (ys.take start).reverse = .ok r1 ∧
      firstWhere (fun y => decide (y < mid)) (ys.drop start) = .ok r2 ∧
      Cut (fun i => ys.getD i 0) start mid (start - r1) (start + r2) ∧ start + r2 < ys.length := by
  have hs0 : 0 < start := by
    rcases Nat.eq_zero_or_pos start with h | h
    · rw [h, hfirst] at htop; exact absurd h0 (not_lt.2 htop)
    · exact h
  have hsl : start < ys.length - 1 := by
    refine lt_of_le_of_ne (by omega) fun h => ?_
    rw [h, hlast] at htop
    exact absurd h0 (not_lt.2 htop)
  obtain ⟨r1, hr1⟩ := firstWhere_exists (p := fun y => decide (y < mid)) (l := (ys.take start).reverse)
    (x := ys[0]) (by
      rw [List.mem_reverse]
      exact List.mem_iff_getElem.2 ⟨0, by simp; omega, by simp⟩)
    (by rw [getD_eq (by omega)] at hfirst; simpa [hfirst] using h0)
  obtain ⟨r2, hr2⟩ := firstWhere_exists (p := fun y => decide (y < mid)) (l := ys.drop start)
    (x := ys[ys.length - 1]) (by
      refine List.mem_iff_getElem.2 ⟨ys.length - 1 - start, by simp; omega, ?_⟩
      simp only [List.getElem_drop]
      congr 1
      omega)
    (by rw [getD_eq (by omega)] at hlast; simpa [hlast] using h0)
  refine ⟨r1, r2, hr1, hr2, ?_⟩
  obtain ⟨hl1, hp1, hb1⟩ := firstWhere_ok_iff.1 hr1
  obtain ⟨hl2, hp2, hb2⟩ := firstWhere_ok_iff.1 hr2
  simp only [List.length_reverse, List.length_take, List.length_drop] at hl1 hl2
  simp only [List.getElem_reverse, List.getElem_take, List.getElem_drop, List.length_take,
    decide_eq_true_eq, decide_eq_false_iff_not, not_lt] at hp1 hb1 hp2 hb2
  have hmin : min start ys.length = start := by omega
  have hr2pos : 0 < r2 := by
    rcases Nat.eq_zero_or_pos r2 with h | h
    · subst h
      rw [getD_eq hstart] at htop
      exact absurd hp2 (not_lt.2 (by simpa using htop))
    · exact h
  refine ⟨⟨by omega, by omega, ?_, ⟨start - 1 - r1, by omega, ?_⟩, ?_⟩, by omega⟩
  · intro i h1 h2
    rw [getD_eq (by omega)]
    rcases Nat.lt_or_ge i start with h | h
    · have := hb1 (start - 1 - i) (by omega)
      have e : min start ys.length - 1 - (start - 1 - i) = i := by omega
      simpa only [e] using this
    · have := hb2 (i - start) (by omega)
      have e : start + (i - start) = i := by omega
      simpa only [e] using this
  · rw [getD_eq (by omega)]
    simpa only [hmin] using hp1
  · rw [getD_eq (by omega)]
    exact hp2

theorem maxLoop_spec {ys cs : List K} (hcs : cs.length = ys.length) {start : Nat}
    (hstart : start < ys.length) (hfirst : ys.getD 0 0 = 0) (hlast : ys.getD (ys.length - 1) 0 = 0)
    (area : K) (fuel : Nat) (maxv minv : K) (h0 : 0 ≤ minv) (hlt : minv < maxv)
    (htop : maxv ≤ ys.getD start 0) :
    (∃ i1 i2 t, maxLoop ys cs start area fuel maxv minv = .ok (some (i1, i2)) ∧ 0 < t ∧
      t < ys.getD start 0 ∧ i2 < ys.length ∧ Cut (fun i => ys.getD i 0) start t i1 i2 ∧
      |cs.getD i2 0 - cs.getD i1 0 - area| < 3 / 1000) ∨
    (∃ lo hi, maxLoop ys cs start area fuel maxv minv = .ok none ∧ minv ≤ lo ∧ hi ≤ maxv ∧
      hi - lo = (maxv - minv) / 2 ^ fuel ∧
      (lo = minv ∨ ∃ i1 i2, i2 < ys.length ∧ Cut (fun i => ys.getD i 0) start lo i1 i2 ∧
        area + 3 / 1000 ≤ cs.getD i2 0 - cs.getD i1 0) ∧
      (hi = maxv ∨ ∃ i1 i2, i2 < ys.length ∧ Cut (fun i => ys.getD i 0) start hi i1 i2 ∧
        cs.getD i2 0 - cs.getD i1 0 ≤ area - 3 / 1000)) := by
  induction fuel generalizing maxv minv with
  | zero => exact Or.inr ⟨minv, maxv, rfl, le_rfl, le_rfl, by simp, Or.inl rfl, Or.inl rfl⟩
  | succ fuel ih =>
    have hm1 : minv < (maxv + minv) / 2 := by linarith
    have hm2 : (maxv + minv) / 2 < maxv := by linarith
    obtain ⟨r1, r2, hr1, hr2, hcut, hin⟩ := search_cut hstart hfirst hlast
      (mid := (maxv + minv) / 2) (by linarith) (by linarith)
    have hle := hcut.left_le
    have hc2 : atIndex cs (start + r2) = .ok (cs.getD (start + r2) 0) := by
      rw [getD_eq (by omega)]; exact atIndex_ok _
    have hc1 : atIndex cs (start - r1) = .ok (cs.getD (start - r1) 0) := by
      rw [getD_eq (by omega)]; exact atIndex_ok _
    simp only [maxLoop, hr1, hr2, hc1, hc2, bind, Except.bind, pure, Except.pure]
    have hpow : (maxv - minv) / 2 ^ (fuel + 1) = (maxv - minv) / 2 / 2 ^ fuel := by
      rw [pow_succ, div_div, mul_comm]
    by_cases hdev : |cs.getD (start + r2) 0 - cs.getD (start - r1) 0 - area| < 3 / 1000
    · rw [if_pos hdev]
      exact Or.inl ⟨_, _, _, rfl, by linarith, by linarith, hin, hcut, hdev⟩
    · rw [if_neg hdev]
      by_cases hless : cs.getD (start + r2) 0 - cs.getD (start - r1) 0 < area
      · rw [if_pos hless]
        have hshort : cs.getD (start + r2) 0 - cs.getD (start - r1) 0 ≤ area - 3 / 1000 := by
          rw [abs_of_neg (by linarith)] at hdev
          linarith
        rcases ih _ _ h0 hm1 (by linarith) with h | ⟨lo, hi, h1, h2, h3, h4, h5, h6⟩
        · exact Or.inl h
        · right
          refine ⟨lo, hi, h1, h2, by linarith, by rw [h4, hpow]; congr 1; ring, h5, ?_⟩
          rcases h6 with h6 | h6
          · exact Or.inr ⟨_, _, hin, h6 ▸ hcut, hshort⟩
          · exact Or.inr h6
      · rw [if_neg hless]
        have hmore : area + 3 / 1000 ≤ cs.getD (start + r2) 0 - cs.getD (start - r1) 0 := by
          rw [abs_of_nonneg (by linarith)] at hdev
          linarith
        rw [if_pos (by linarith)]
        rcases ih _ _ (by linarith) hm2 htop with h | ⟨lo, hi, h1, h2, h3, h4, h5, h6⟩
        · exact Or.inl h
        · right
          refine ⟨lo, hi, h1, by linarith, h3, by rw [h4, hpow]; congr 1; ring, ?_, h6⟩
          rcases h5 with h5 | h5
          · exact Or.inr ⟨_, _, hin, h5 ▸ hcut, hmore⟩
          · exact Or.inr h5

end CC
