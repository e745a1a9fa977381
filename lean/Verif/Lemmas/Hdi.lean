import Verif.Model.Summary
import Verif.Lemmas.MaxLoop
import Verif.Lemmas.Numpy
import Mathlib.Tactic.Linarith

/-! The search of the HDI summary. -/

set_option linter.unusedSectionVars false

namespace CC
open Spec
variable {K : Type} [Field K] [LinearOrder K] [IsStrictOrderedRing K]

theorem hdiEps_pos : (0 : K) < hdiEps := by unfold hdiEps; positivity

theorem searchsorted_lt {l : List K} {v : K} {k : Nat} (h : k < searchsortedLeft l v) :
    l.getD k 0 < v := by
  induction l generalizing k with
  | nil => simp [searchsortedLeft] at h
  | cons a l ih =>
    unfold searchsortedLeft at h
    by_cases ha : a < v
    · rw [List.takeWhile_cons_of_pos (by simpa using ha)] at h
      cases k with
      | zero => simpa using ha
      | succ k =>
        simp only [List.length_cons] at h
        simpa using ih (k := k) (by unfold searchsortedLeft; omega)
    · rw [List.takeWhile_cons_of_neg (by simpa using ha)] at h
      simp at h

theorem searchsorted_ge {l : List K} {v : K} (h : searchsortedLeft l v < l.length) :
    v ≤ l.getD (searchsortedLeft l v) 0 := by
  induction l with
  | nil => simp at h
  | cons a l ih =>
    by_cases ha : a < v
    · have e : searchsortedLeft (a :: l) v = searchsortedLeft l v + 1 := by
        unfold searchsortedLeft
        rw [List.takeWhile_cons_of_pos (by simpa using ha)]
        rfl
      rw [e] at h ⊢
      simpa using ih (by simpa using h)
    · have e : searchsortedLeft (a :: l) v = 0 := by
        unfold searchsortedLeft
        rw [List.takeWhile_cons_of_neg (by simpa using ha)]
        rfl
      rw [e]
      simpa using ha

theorem getD_mono {l : List K} (hl : l.Pairwise (· ≤ ·)) {i j : Nat} (hij : i ≤ j)
    (hj : j < l.length) : l.getD i 0 ≤ l.getD j 0 := by
  rw [getD_eq (by omega), getD_eq hj]
  rcases Nat.lt_or_ge i j with h | h
  · exact List.pairwise_iff_getElem.1 hl i j (by omega) hj h
  · have : i = j := by omega
    simp only [this, le_refl]

/-- The end index is the first one beyond the start at which the required mass is reached. -/
theorem hdiEnd_spec {cdf : List K} (hc : cdf.Pairwise (· ≤ ·)) {area : K} {i : Nat} :
    (∀ e, hdiEnd cdf area i (cdf.getD i 0) = some e → i < e ∧ e < cdf.length ∧
      cdf.getD i 0 + area ≤ cdf.getD e 0) ∧
    (∀ j, i < j → j < cdf.length → cdf.getD i 0 + area ≤ cdf.getD j 0 →
      ∃ e, hdiEnd cdf area i (cdf.getD i 0) = some e ∧ e ≤ j) := by
  set sm := cdf.getD i 0 with hsm
  set e0 := searchsortedLeft cdf (sm + area) with he0
  obtain ⟨e1, he1⟩ : ∃ e1, e1 = if e0 ≤ i then i + 1 else e0 := ⟨_, rfl⟩
  have hi1 : i < e1 := by rw [he1]; split <;> omega
  have h01 : e0 ≤ e1 := by rw [he1]; split <;> omega
  have key : e1 < cdf.length → sm + area ≤ cdf.getD e1 0 := fun h2 =>
    (searchsorted_ge (by rw [← he0]; omega)).trans (getD_mono hc h01 h2)
  have hval : hdiEnd cdf area i sm = if cdf.length ≤ e1 then none else some e1 := by
    unfold hdiEnd
    simp only [← he0, ← he1]
    by_cases h : cdf.length ≤ e1
    · rw [if_pos h, if_pos h]
    · rw [if_neg h, if_neg h, if_neg]
      rintro ⟨hlt, -⟩
      have := key (not_le.1 h)
      have := hdiEps_pos (K := K)
      linarith
  constructor
  · intro e he
    rw [hval] at he
    by_cases h : cdf.length ≤ e1
    · rw [if_pos h] at he; cases he
    · rw [if_neg h] at he
      cases he
      exact ⟨hi1, not_le.1 h, key (not_le.1 h)⟩
  · intro j hij hj hm
    have hle : e0 ≤ j := by
      by_contra hcon
      exact absurd (searchsorted_lt (not_le.1 hcon)) (not_lt.2 hm)
    have hle1 : e1 ≤ j := by rw [he1]; split <;> omega
    exact ⟨e1, by rw [hval, if_neg (by omega)], hle1⟩

/-- The running best is an interval that holds the requested mass. -/
structure HdiGood (cdf xp : List K) (area : K) (b : HdiBest K) : Prop where
  pos : ∃ i j, i < j ∧ j < cdf.length ∧ b.lower = xp.getD i 0 ∧ b.upper = xp.getD j 0 ∧
    b.startMass = cdf.getD i 0 ∧ b.endMass = cdf.getD j 0 ∧ area ≤ cdf.getD j 0 - cdf.getD i 0
  width : ∀ w, b.width = some w → w = b.upper - b.lower

theorem hdiUpdate_good {cdf xp : List K} {area : K} {b : HdiBest K} (hb : HdiGood cdf xp area b)
    {i e : Nat} (hie : i < e) (he : e < cdf.length) (hm : cdf.getD i 0 + area ≤ cdf.getD e 0) :
    HdiGood cdf xp area (hdiUpdate cdf xp i e (cdf.getD i 0) b) := by
  unfold hdiUpdate
  simp only
  split
  · exact hb
  · split
    · exact ⟨⟨i, e, hie, he, rfl, rfl, rfl, rfl, by linarith⟩, fun w hw => by cases hw; rfl⟩
    · exact hb

theorem hdiLoop_good {cdf xp : List K} (hc : cdf.Pairwise (· ≤ ·)) {area : K} (L : List Nat)
    (b : HdiBest K) (hb : HdiGood cdf xp area b) : HdiGood cdf xp area (hdiLoop cdf xp area L b) := by
  induction L generalizing b with
  | nil => exact hb
  | cons i L ih =>
    simp only [hdiLoop]
    split
    · exact hb
    · cases h : hdiEnd cdf area i (cdf.getD i 0) with
      | none => exact hb
      | some e =>
        obtain ⟨h1, h2, h3⟩ := (hdiEnd_spec hc).1 e h
        exact ih _ (hdiUpdate_good hb h1 h2 h3)

/-- The best width never grows. -/
theorem hdiUpdate_width {cdf xp : List K} {i e : Nat} {sm : K} {b : HdiBest K} {W : K}
    (h : ∃ w, b.width = some w ∧ w ≤ W) :
    ∃ w, (hdiUpdate cdf xp i e sm b).width = some w ∧ w ≤ W := by
  obtain ⟨w, hw, hle⟩ := h
  unfold hdiUpdate
  simp only
  split
  · exact ⟨w, hw, hle⟩
  · split
    · rename_i h2
      rw [hw] at h2
      have := of_decide_eq_true h2
      have := hdiEps_pos (K := K)
      exact ⟨_, rfl, by linarith⟩
    · exact ⟨w, hw, hle⟩

theorem hdiLoop_width {cdf xp : List K} {area : K} (L : List Nat) (b : HdiBest K) {W : K}
    (h : ∃ w, b.width = some w ∧ w ≤ W) : ∃ w, (hdiLoop cdf xp area L b).width = some w ∧ w ≤ W := by
  induction L generalizing b with
  | nil => exact h
  | cons i L ih =>
    simp only [hdiLoop]
    split
    · exact h
    · cases hdiEnd cdf area i (cdf.getD i 0) with
      | none => exact h
      | some e => exact ih _ (hdiUpdate_width h)

/-- An interval that holds the mass is no narrower than the best one, up to `hdiEps`, provided the
search does not skip its start as too narrow. -/
theorem hdiLoop_narrow {cdf xp : List K} (hc : cdf.Pairwise (· ≤ ·)) (hx : xp.Pairwise (· ≤ ·))
    (hlen : xp.length = cdf.length) (hone : ∀ y ∈ cdf, y ≤ 1) {area : K} {i j : Nat} (hij : i < j)
    (hj : j < cdf.length) (hm : cdf.getD i 0 + area ≤ cdf.getD j 0)
    (hwide : ∀ e, i < e → e < cdf.length → cdf.getD i 0 + area ≤ cdf.getD e 0 →
      hdiEps < xp.getD e 0 - xp.getD i 0) (L : List Nat) (hL : L.Pairwise (· < ·)) (hi : i ∈ L)
    (b : HdiBest K) :
    ∃ w, (hdiLoop cdf xp area L b).width = some w ∧ w ≤ xp.getD j 0 - xp.getD i 0 + hdiEps := by
  induction L generalizing b with
  | nil => cases hi
  | cons h L ih =>
    rw [List.pairwise_cons] at hL
    have hhi : h ≤ i := by
      rcases List.mem_cons.1 hi with rfl | hi
      · exact le_rfl
      · exact (hL.1 i hi).le
    have hcle : cdf.getD h 0 ≤ cdf.getD i 0 := getD_mono hc hhi (by omega)
    have hjone : cdf.getD j 0 ≤ 1 := by rw [getD_eq hj]; exact hone _ (List.getElem_mem _)
    have heps := hdiEps_pos (K := K)
    simp only [hdiLoop]
    rw [if_neg (by linarith)]
    obtain ⟨e, he, hej⟩ := (hdiEnd_spec hc (area := area) (i := h)).2 j (by omega) hj (by linarith)
    rw [he]
    simp only
    rcases List.mem_cons.1 hi with rfl | hi
    · obtain ⟨h1, h2, h3⟩ := (hdiEnd_spec hc).1 e he
      have hw := hwide e h1 h2 h3
      have hle : xp.getD e 0 ≤ xp.getD j 0 := getD_mono hx hej (by omega)
      apply hdiLoop_width
      unfold hdiUpdate
      simp only
      rw [if_neg (not_le.2 hw)]
      cases hb : b.width with
      | none =>
        rw [if_pos Option.all_none]
        exact ⟨_, rfl, by linarith⟩
      | some w =>
        by_cases hlt : xp.getD e 0 - xp.getD i 0 < w - hdiEps
        · rw [if_pos (by simpa using hlt)]
          exact ⟨_, rfl, by linarith⟩
        · rw [if_neg (by simpa using hlt)]
          exact ⟨w, hb, by linarith [not_lt.1 hlt]⟩
    · exact ih hL.2 hi _

end CC
