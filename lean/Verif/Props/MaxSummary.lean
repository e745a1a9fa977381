import Verif.Lemmas.MaxLoop
import Verif.Props.EqualTailed
import Mathlib.Algebra.BigOperators.Intervals
import Mathlib.Tactic.Ring

/-! # C29, C30: the max summary -/

set_option linter.unusedSectionVars false

namespace CC
variable {K : Type} [Field K] [LinearOrder K]

/-- The density continued by `P` points on each side along straight lines down to 0. -/
def Spec.padY (P : Nat) (m : Marginal K) (i : Nat) : K :=
  if i < P then m.ys.getD 0 0 * (i / (P - 1))
  else if i < P + m.ys.length then m.ys.getD (i - P) 0
  else m.ys.getD (m.ys.length - 1) 0 * (1 - ((i - P - m.ys.length : Nat) : K) / (P - 1))

/-- The abscissae of those points: the first and the last grid point are repeated. -/
def Spec.padX (P : Nat) (m : Marginal K) (i : Nat) : K :=
  if i < P then m.xs.getD 0 0
  else if i < P + m.xs.length then m.xs.getD (i - P) 0
  else m.xs.getD (m.xs.length - 1) 0

/-- The fraction of the continued density after point `i1` up to and including point `i2`. -/
def Spec.padMass (P : Nat) (m : Marginal K) (i1 i2 : Nat) : K :=
  (∑ i ∈ Finset.Ico (i1 + 1) (i2 + 1), padY P m i) / ∑ i ∈ Finset.range (2 * P + m.xs.length), padY P m i

open Spec
variable [IsStrictOrderedRing K]

theorem take_sum_range (l : List K) (k : Nat) :
    (l.take k).sum = ∑ i ∈ Finset.range k, l.getD i 0 := by
  induction k with
  | zero => simp
  | succ k ih =>
    rw [Finset.sum_range_succ, ← ih]
    rcases Nat.lt_or_ge k l.length with h | h
    · rw [List.take_succ_eq_append_getElem h, List.sum_append, getD_eq h]
      simp
    · rw [List.take_of_length_le (by omega), List.take_of_length_le h, List.getD_eq_getElem?_getD,
        List.getElem?_eq_none h]
      simp

section
variable {m : Marginal K} {P : Nat}

/-- The arrays of the code are the continued density. -/
theorem padded_spec (hm : ValidMarginal m) (hP : 2 ≤ P) : ∃ px py : List K,
    padded m P = .ok (px, py) ∧ px.length = 2 * P + m.xs.length ∧ py.length = 2 * P + m.xs.length ∧
    (∀ i, i < 2 * P + m.xs.length → px.getD i 0 = padX P m i ∧ py.getD i 0 = padY P m i) ∧
    px.Pairwise (· ≤ ·) := by
  have hl := hm.ys_length
  have h2 := hm.two
  have hPK : (P : K) - 1 ≠ 0 := by
    have : (2 : K) ≤ P := by exact_mod_cast hP
    intro h
    linarith
  have hex : endpoints m.xs = .ok (m.xs.getD 0 0, m.xs.getD (m.xs.length - 1) 0) := by
    unfold endpoints
    rw [List.head?_eq_getElem?, List.getLast?_eq_getElem?, List.getElem?_eq_getElem (by omega),
      List.getElem?_eq_getElem (by omega), getD_eq (by omega), getD_eq (by omega)]
  have hey : endpoints m.ys = .ok (m.ys.getD 0 0, m.ys.getD (m.ys.length - 1) 0) := by
    unfold endpoints
    rw [List.head?_eq_getElem?, List.getLast?_eq_getElem?, List.getElem?_eq_getElem (by omega),
      List.getElem?_eq_getElem (by omega), getD_eq (by omega), getD_eq (by omega)]
  refine ⟨_, _, by simp only [padded, hex, hey, bind, Except.bind, pure, Except.pure]; rfl,
    by simp; omega, by simp; omega, ?_, ?_⟩
  · intro i hi
    constructor
    · rw [getD_eq (by simp; omega), padX]
      by_cases h1 : i < P
      · rw [if_pos h1, List.getElem_append_left (by simp; omega), List.getElem_append_left (by simpa),
          List.getElem_replicate]
      · rw [if_neg h1]
        by_cases h3 : i < P + m.xs.length
        · rw [if_pos h3, List.getElem_append_left (by simp; omega), List.getElem_append_right (by simp; omega),
            getD_eq (l := m.xs) (i := i - P) (by omega)]
          simp
        · rw [if_neg h3, List.getElem_append_right (by simp; omega), List.getElem_replicate]
    · rw [getD_eq (by simp; omega), padY]
      by_cases h1 : i < P
      · rw [if_pos h1, List.getElem_append_left (by simp; omega), List.getElem_append_left (by simpa),
          linspace_getElem]
        ring
      · rw [if_neg h1]
        by_cases h3 : i < P + m.ys.length
        · rw [if_pos h3, List.getElem_append_left (by simp; omega), List.getElem_append_right (by simp; omega),
            getD_eq (l := m.ys) (i := i - P) (by omega)]
          simp
        · rw [if_neg h3, List.getElem_append_right (by simp; omega), linspace_getElem]
          simp only [List.length_append, linspace_length, Nat.sub_add_eq]
          field_simp
          ring
  · rw [List.pairwise_append, List.pairwise_append]
    have hxl : ∀ x ∈ m.xs, m.xs.getD 0 0 ≤ x ∧ x ≤ m.xs.getD (m.xs.length - 1) 0 := by
      intro x hx
      obtain ⟨i, hi, rfl⟩ := List.mem_iff_getElem.1 hx
      rw [getD_eq (by omega), getD_eq (by omega)]
      have hinc := List.pairwise_iff_getElem.1 hm.increasing
      constructor
      · rcases Nat.eq_zero_or_pos i with rfl | h
        · exact le_rfl
        · exact (hinc 0 i (by omega) hi h).le
      · rcases Nat.lt_or_ge i (m.xs.length - 1) with h | h
        · exact (hinc i _ hi (by omega) h).le
        · have : i = m.xs.length - 1 := by omega
          simp only [this, le_refl]
    have h01 : m.xs.getD 0 0 ≤ m.xs.getD (m.xs.length - 1) 0 :=
      (hxl _ (by rw [getD_eq (by omega)]; exact List.getElem_mem _)).2
    refine ⟨⟨List.pairwise_replicate.2 (Or.inr le_rfl), hm.increasing.imp fun h => h.le, ?_⟩,
      List.pairwise_replicate.2 (Or.inr le_rfl), ?_⟩
    · intro a ha b hb
      rw [List.eq_of_mem_replicate ha]
      exact (hxl b hb).1
    · intro a ha b hb
      rw [List.eq_of_mem_replicate hb]
      rcases List.mem_append.1 ha with ha | ha
      · rw [List.eq_of_mem_replicate ha]
        exact h01
      · exact (hxl a ha).2

theorem padY_nonneg (hm : ValidMarginal m) (hP : 2 ≤ P) {i : Nat} (hi : i < 2 * P + m.xs.length) :
    0 ≤ padY P m i := by
  have hl := hm.ys_length
  have h2 := hm.two
  have hPK : (0 : K) < (P : K) - 1 := by
    have : (2 : K) ≤ P := by exact_mod_cast hP
    linarith
  have hy : ∀ j, j < m.ys.length → 0 ≤ m.ys.getD j 0 := by
    intro j hj
    rw [getD_eq hj]
    exact hm.density_nonneg _ (List.getElem_mem _)
  unfold padY
  split
  · exact mul_nonneg (hy _ (by omega)) (div_nonneg (Nat.cast_nonneg _) hPK.le)
  · split
    · exact hy _ (by omega)
    · refine mul_nonneg (hy _ (by omega)) ?_
      rw [sub_nonneg, div_le_one hPK]
      have : ((i - P - m.ys.length : Nat) : K) + 1 ≤ P := by
        have : i - P - m.ys.length + 1 ≤ P := by omega
        exact_mod_cast this
      linarith

/-- No continued value exceeds every density value. -/
theorem padY_le (hm : ValidMarginal m) (hP : 2 ≤ P) (i : Nat) :
    padY P m i ≤ m.ys.getD (if i < P then 0 else min (i - P) (m.ys.length - 1)) 0 := by
  have hl := hm.ys_length
  have h2 := hm.two
  have hPK : (0 : K) < (P : K) - 1 := by
    have : (2 : K) ≤ P := by exact_mod_cast hP
    linarith
  have hy : ∀ j, j < m.ys.length → 0 ≤ m.ys.getD j 0 := by
    intro j hj
    rw [getD_eq hj]
    exact hm.density_nonneg _ (List.getElem_mem _)
  unfold padY
  split
  · rename_i h
    refine mul_le_of_le_one_right (hy _ (by omega)) ((div_le_one hPK).2 ?_)
    have : (i : K) + 1 ≤ P := by exact_mod_cast h
    linarith
  · split
    · rw [min_eq_left (by omega)]
    · rw [min_eq_right (by omega)]
      refine mul_le_of_le_one_right (hy _ (by omega)) ?_
      have : 0 ≤ ((i - P - m.ys.length : Nat) : K) / (P - 1) := div_nonneg (Nat.cast_nonneg _) hPK.le
      linarith

end

/-- The complete description of the outcome of the max summary, from which C29 and C30 are read off. -/
theorem summaryMax_spec (m : Marginal K) (hm : ValidMarginal m) (a : K) :
    ∃ (s : Nat) (c : K) (k : Nat), s < 2000 + m.xs.length ∧ (∀ i, i < 2000 + m.xs.length → padY 1000 m i ≤ padY 1000 m s) ∧
      m.xs[k]? = some c ∧ c = padX 1000 m s ∧ m.ys[k]? = some (padY 1000 m s) ∧ (∀ z ∈ m.ys, z ≤ padY 1000 m s) ∧
      ((∃ l u i1 i2 t, summaryMax m a = .ok ⟨some l, some c, some u⟩ ∧ l ≤ c ∧ c ≤ u ∧
        l = padX 1000 m i1 ∧ u = padX 1000 m i2 ∧ i2 < 2000 + m.xs.length ∧
        0 < t ∧ t < padY 1000 m s ∧ Cut (padY 1000 m) s t i1 i2 ∧
        |padMass 1000 m i1 i2 - a| < 3 / 1000 ∧
        ∀ (j : Nat) (x y : K), m.xs[j]? = some x → m.ys[j]? = some y → l < x → x < u → t ≤ y) ∨
      (∃ lo hi, summaryMax m a = .ok ⟨none, some c, none⟩ ∧ 0 ≤ lo ∧ hi ≤ padY 1000 m s ∧
        hi - lo = padY 1000 m s / 2 ^ 50 ∧
        (lo = 0 ∨ ∃ i1 i2, i2 < 2000 + m.xs.length ∧ Cut (padY 1000 m) s lo i1 i2 ∧
          a + 3 / 1000 ≤ padMass 1000 m i1 i2) ∧
        (hi = padY 1000 m s ∨ ∃ i1 i2, i2 < 2000 + m.xs.length ∧ Cut (padY 1000 m) s hi i1 i2 ∧
          padMass 1000 m i1 i2 ≤ a - 3 / 1000))) := by
  have hpad : padSize = 1000 := by unfold padSize; rfl
  obtain ⟨px, py, hok, hxl, hyl, hval, hpx⟩ := padded_spec hm (P := 1000) (by norm_num)
  have hl := hm.ys_length
  have h2 := hm.two
  have hN : 2 * 1000 + m.xs.length = 2000 + m.xs.length := by norm_num
  rw [hN] at hxl hyl hval
  have hx : ∀ i, i < 2000 + m.xs.length → px.getD i 0 = padX 1000 m i := fun i hi => (hval i hi).1
  have hy : ∀ i, i < 2000 + m.xs.length → py.getD i 0 = padY 1000 m i := fun i hi => (hval i hi).2
  -- values
  have hnn : ∀ y ∈ py, 0 ≤ y := by
    intro y hy'
    obtain ⟨i, hi, rfl⟩ := List.mem_iff_getElem.1 hy'
    rw [hyl] at hi
    rw [← getD_eq (by omega) 0, hy i hi]
    exact padY_nonneg hm (by norm_num) (by omega)
  have hpyne : py ≠ [] := by intro h; rw [h] at hyl; simp at hyl; omega
  obtain ⟨s, hs⟩ := argmax_isSome hpyne
  obtain ⟨hsl, hsmax, hsfirst⟩ := argmax_spec _ _ hs
  have hsN : s < 2000 + m.xs.length := by omega
  have hsv : py[s] = padY 1000 m s := by rw [← getD_eq hsl 0, hy s hsN]
  have hmaxI : ∀ i, i < 2000 + m.xs.length → padY 1000 m i ≤ padY 1000 m s := by
    intro i hi
    rw [← hy i hi, ← hsv, getD_eq (by omega)]
    exact hsmax _ (List.getElem_mem _)
  have hmem : ∀ j, j < m.xs.length → padY 1000 m (1000 + j) = m.ys.getD j 0 := by
    intro j hj
    rw [padY, if_neg (by omega), if_pos (by omega), Nat.add_sub_cancel_left]
  have hmaxY : ∀ z ∈ m.ys, z ≤ padY 1000 m s := by
    intro z hz
    obtain ⟨j, hj, rfl⟩ := List.mem_iff_getElem.1 hz
    have := hmaxI (1000 + j) (by omega)
    rwa [hmem j (by omega), getD_eq (by omega)] at this
  have htop : 0 < padY 1000 m s := by
    by_contra hcon
    have hz : ∀ z ∈ m.ys, z = 0 := fun z hz =>
      le_antisymm ((hmaxY z hz).trans (not_lt.1 hcon)) (hm.density_nonneg z hz)
    have := hm.mass_pos
    rw [List.sum_eq_zero hz] at this
    exact lt_irrefl _ this
  -- the peak is attained on the grid
  have hpeak : ∃ k, k < m.xs.length ∧ m.ys.getD k 0 = padY 1000 m s ∧ m.xs.getD k 0 = padX 1000 m s := by
    have hle := padY_le hm (P := 1000) (by norm_num) s
    refine ⟨if s < 1000 then 0 else min (s - 1000) (m.ys.length - 1), by split <;> omega, ?_, ?_⟩
    · refine le_antisymm (hmaxY _ ?_) hle
      rw [getD_eq (by split <;> omega)]
      exact List.getElem_mem _
    · unfold padX
      by_cases h1 : s < 1000
      · rw [if_pos h1, if_pos h1]
      · rw [if_neg h1, if_neg h1]
        by_cases h3 : s < 1000 + m.xs.length
        · rw [if_pos h3, min_eq_left (by omega)]
        · rw [if_neg h3, min_eq_right (by omega), hl]
  obtain ⟨k, hk, hky, hkx⟩ := hpeak
  -- cumulative
  have hsum : py.sum = ∑ i ∈ Finset.range (2 * 1000 + m.xs.length), padY 1000 m i := by
    rw [hN, ← List.take_length (l := py), take_sum_range, hyl]
    exact Finset.sum_congr rfl fun i hi => hy i (Finset.mem_range.1 hi)
  have hsumpos : 0 < py.sum := by
    refine lt_of_lt_of_le ?_ (List.single_le_sum hnn _ (List.getElem_mem hsl))
    rw [hsv]; exact htop
  set cs := (cumsum py).map (· / py.sum) with hcsdef
  have hcsl : cs.length = py.length := by simp [cs]
  have hmass : ∀ i1 i2, i1 ≤ i2 → i2 < 2000 + m.xs.length →
      cs.getD i2 0 - cs.getD i1 0 = padMass 1000 m i1 i2 := by
    intro i1 i2 h12 hi2
    rw [getD_eq (by omega), getD_eq (by omega)]
    simp only [cs, List.getElem_map, cumsum_getElem, take_sum_range]
    rw [← sub_div, ← Finset.sum_Ico_eq_sub _ (by omega), padMass, hsum]
    congr 1
    refine Finset.sum_congr rfl fun i hi => hy i ?_
    have := (Finset.mem_Ico.1 hi).2
    omega
  have hcutEq : ∀ t i1 i2, i2 < 2000 + m.xs.length → Cut (fun i => py.getD i 0) s t i1 i2 →
      Cut (padY 1000 m) s t i1 i2 := by
    intro t i1 i2 hi2 hc
    have h1 := hc.left_le
    have h3 := hc.lt_right
    refine ⟨h1, h3, fun i h h' => ?_, ?_, ?_⟩
    · rw [← hy i (by omega)]; exact hc.inside i h h'
    · obtain ⟨i, hi, hlt⟩ := hc.below_left
      exact ⟨i, hi, by rw [← hy i (by omega)]; exact hlt⟩
    · rw [← hy i2 hi2]; exact hc.below_right
  -- run the code
  have h0 : py.getD 0 0 = 0 := by
    rw [hy 0 (by omega), padY, if_pos (by norm_num)]
    simp
  have hlast : py.getD (py.length - 1) 0 = 0 := by
    have e : ((2000 + m.xs.length - 1 - 1000 - m.ys.length : Nat) : K) = 999 := by
      have : 2000 + m.xs.length - 1 - 1000 - m.ys.length = 999 := by omega
      rw [this]
      norm_num
    rw [hyl, hy _ (by omega), padY, if_neg (by omega), if_neg (by omega), e]
    norm_num
  have hmain : ∀ r, maxLoop py cs s a 50 (py[s]) 0 = .ok r → summaryMax m a =
      (match r with
      | none => .ok ⟨none, some (px.getD s 0), none⟩
      | some i => (do
        let x1 ← atIndex px i.1
        let x2 ← atIndex px i.2
        return ⟨some x1, some (px.getD s 0), some x2⟩ : Res (Bound K))) := by
    intro r hr
    have e1 : arrArgmax py = .ok s := by simp only [arrArgmax, hs]
    have e2 : atIndex px s = .ok (px.getD s 0) := by rw [getD_eq (by omega)]; exact atIndex_ok _
    simp only [summaryMax, hpad, hok, bind, Except.bind, arrMax, npMax_cumsum hnn hpyne, ensure,
      decide_eq_true hsumpos.ne', if_true, e1, atIndex_ok hsl, e2]
    rw [← hcsdef, hr]
    cases r <;> rfl
  have hpxmono : ∀ i j, i ≤ j → j < 2000 + m.xs.length → padX 1000 m i ≤ padX 1000 m j := by
    intro i j hij hj
    rw [← hx i (by omega), ← hx j hj, getD_eq (by omega), getD_eq (by omega)]
    rcases Nat.lt_or_ge i j with h | h
    · exact List.pairwise_iff_getElem.1 hpx i j (by omega) (by omega) h
    · have : i = j := by omega
      simp only [this, le_refl]
  refine ⟨s, padX 1000 m s, k, hsN, hmaxI, ?_, rfl, ?_, hmaxY, ?_⟩
  · rw [List.getElem?_eq_getElem hk, ← getD_eq hk 0, hkx]
  · rw [List.getElem?_eq_getElem (by omega), ← getD_eq (by omega) 0, hky]
  have hspec := maxLoop_spec hcsl hsl h0 hlast a 50 (py[s]) 0 le_rfl (by rw [hsv]; exact htop)
    (by rw [getD_eq hsl])
  rw [getD_eq hsl] at hspec
  rcases hspec with ⟨i1, i2, t, hr, ht0, htt, hi2, hcut, hdev⟩ | ⟨lo, hi, hr, h5, h6, h7, h8, h9⟩
  · left
    have hle := hcut.left_le
    have hlt := hcut.lt_right
    rw [hyl] at hi2
    have hcut' := hcutEq t i1 i2 hi2 hcut
    refine ⟨padX 1000 m i1, padX 1000 m i2, i1, i2, t, ?_, hpxmono _ _ hle hsN, hpxmono _ _ hlt.le hi2,
      rfl, rfl, hi2, ht0, by rw [← hsv]; exact htt, hcut', by rw [← hmass i1 i2 (by omega) hi2]; exact hdev, ?_⟩
    · rw [hmain _ hr]
      have e1 : atIndex px i1 = .ok (padX 1000 m i1) := by
        rw [← hx i1 (by omega), getD_eq (by omega)]; exact atIndex_ok _
      have e2 : atIndex px i2 = .ok (padX 1000 m i2) := by
        rw [← hx i2 (by omega), getD_eq (by omega)]; exact atIndex_ok _
      simp only [e1, e2, hx s hsN, bind, Except.bind, pure, Except.pure]
    · intro j x y hxj hyj hlx hxu
      obtain ⟨hj, rfl⟩ := List.getElem?_eq_some_iff.1 hxj
      obtain ⟨hj', rfl⟩ := List.getElem?_eq_some_iff.1 hyj
      have hpxj : padX 1000 m (1000 + j) = m.xs[j] := by
        rw [padX, if_neg (by omega), if_pos (by omega), Nat.add_sub_cancel_left, getD_eq hj]
      have h1 : i1 ≤ 1000 + j := by
        by_contra hc
        have := hpxmono (1000 + j) i1 (by omega) (by omega)
        rw [hpxj] at this
        exact absurd hlx (not_lt.2 this)
      have h3 : 1000 + j < i2 := by
        by_contra hc
        have := hpxmono i2 (1000 + j) (by omega) (by omega)
        rw [hpxj] at this
        exact absurd hxu (not_lt.2 this)
      have := hcut'.inside (1000 + j) h1 h3
      rwa [hmem j hj, getD_eq hj'] at this
  · right
    refine ⟨lo, hi, ?_, h5, by rw [← hsv]; exact h6, by rw [h7, hsv, sub_zero], ?_, ?_⟩
    · rw [hmain _ hr, hx s hsN]
    · refine h8.imp id ?_
      rintro ⟨i1, i2, hi2, hc, hmm⟩
      rw [hyl] at hi2
      have := hc.left_le
      have := hc.lt_right
      exact ⟨i1, i2, hi2, hcutEq _ _ _ hi2 hc, by rwa [← hmass i1 i2 (by omega) hi2]⟩
    · rw [← hsv]
      refine h9.imp id ?_
      rintro ⟨i1, i2, hi2, hc, hmm⟩
      rw [hyl] at hi2
      have := hc.left_le
      have := hc.lt_right
      exact ⟨i1, i2, hi2, hcutEq _ _ _ hi2 hc, by rwa [← hmass i1 i2 (by omega) hi2]⟩

/-- **C29**. On a valid marginal the max summary returns. Its centre is a grid point of highest
density. If it reports limits, they bracket the centre, they are the points of a cut of the density
continued by 1000 points on either side (all points from the first limit up to the last but one are
at or above the threshold `t`, the neighbour to the left of the first limit and the last limit
itself are below it), the mass between them is within 0.003 of the requested one, and every grid
point strictly between the limits has density at least `t`. -/
theorem C29_max_summary (m : Marginal K) (hm : ValidMarginal m) (a : K) :
    ∃ (k : Nat) (c y : K), m.xs[k]? = some c ∧ m.ys[k]? = some y ∧ (∀ z ∈ m.ys, z ≤ y) ∧
      (summaryMax m a = .ok ⟨none, some c, none⟩ ∨
      ∃ l u s i1 i2 t, summaryMax m a = .ok ⟨some l, some c, some u⟩ ∧ l ≤ c ∧ c ≤ u ∧
        l = padX 1000 m i1 ∧ u = padX 1000 m i2 ∧ c = padX 1000 m s ∧ padY 1000 m s = y ∧
        i2 < 2000 + m.xs.length ∧ 0 < t ∧ t < y ∧ Cut (padY 1000 m) s t i1 i2 ∧
        |padMass 1000 m i1 i2 - a| < 3 / 1000 ∧
        ∀ (j : Nat) (x z : K), m.xs[j]? = some x → m.ys[j]? = some z → l < x → x < u → t ≤ z) := by
  obtain ⟨s, c, k, h1, h2, h3, hc, h4, h5, h6 | h6⟩ := summaryMax_spec m hm a
  · obtain ⟨l, u, i1, i2, t, g1, g2, g3, g4, g5, g6, g7, g8, g9, g10, g11⟩ := h6
    exact ⟨k, c, _, h3, h4, h5, Or.inr ⟨l, u, s, i1, i2, t, g1, g2, g3, g4, g5, hc, rfl, g6, g7, g8, g9,
      g10, g11⟩⟩
  · obtain ⟨lo, hi, g1, -⟩ := h6
    exact ⟨k, c, _, h3, h4, h5, Or.inl g1⟩

/-- **C30**. The max summary gives up only if there are two density thresholds `peak / 2 ^ 50` apart
such that the mass enclosed at the lower one exceeds the requested one by at least 0.003 (or the
threshold is 0) and the mass enclosed at the upper one falls short of it by at least 0.003 (or the
threshold is the peak). -/
theorem C30_gives_up_only_at_jump (m : Marginal K) (hm : ValidMarginal m) (a : K) (c : Option K)
    (h : summaryMax m a = .ok ⟨none, c, none⟩) :
    ∃ s peak lo hi, s < 2000 + m.xs.length ∧ padY 1000 m s = peak ∧ peak ∈ m.ys ∧
      (∀ z ∈ m.ys, z ≤ peak) ∧ 0 ≤ lo ∧ lo < hi ∧ hi ≤ peak ∧ hi - lo = peak / 2 ^ 50 ∧
      (lo = 0 ∨ ∃ i1 i2, i2 < 2000 + m.xs.length ∧ Cut (padY 1000 m) s lo i1 i2 ∧
        a + 3 / 1000 ≤ padMass 1000 m i1 i2) ∧
      (hi = peak ∨ ∃ i1 i2, i2 < 2000 + m.xs.length ∧ Cut (padY 1000 m) s hi i1 i2 ∧
        padMass 1000 m i1 i2 ≤ a - 3 / 1000) := by
  obtain ⟨s, c', k, h1, h2, h3, hc, h4, h5, h6 | h6⟩ := summaryMax_spec m hm a
  · obtain ⟨l, u, i1, i2, t, g1, -⟩ := h6
    rw [g1] at h
    cases h
  · obtain ⟨lo, hi, g1, g2, g3, g4, g5, g6⟩ := h6
    have hpos : 0 < padY 1000 m s := by
      by_contra hcon
      have hz : ∀ z ∈ m.ys, z = 0 := fun z hz =>
        le_antisymm ((h5 z hz).trans (not_lt.1 hcon)) (hm.density_nonneg z hz)
      have := hm.mass_pos
      rw [List.sum_eq_zero hz] at this
      exact lt_irrefl _ this
    have : 0 < padY 1000 m s / 2 ^ 50 := by positivity
    exact ⟨s, _, lo, hi, h1, rfl, List.mem_of_getElem? h4, h5, g2, by linarith, g3, g4, g5, g6⟩

/-- Both are about marginals such as the one above, and the marginal of an actual chain. -/
example := C29_max_summary skewed skewed_valid (1 / 2)

example (kde : KdeFn) (hkde : KdeOk kde) : ∃ c m, Chain.make (skewArgs .max) = .ok c ∧
    parameterSummary kde c "x" = summaryMax m (6827 / 10000) ∧ ValidMarginal m := by
  obtain ⟨c, m, hc, hst, har, -, -, -, -, hm, hv, -⟩ := skew_chain kde hkde .max
  refine ⟨c, m, hc, ?_, hv⟩
  simp only [parameterSummary, hst, har, hm, bind, Except.bind]

end CC
