import Verif.Props.Mask
import Verif.Props.Hdi
import Verif.Lemmas.Marginal
import Verif.Props.MaxPosterior

/-! # C34, C35, C36: HDI bands and multimodal bounds -/

set_option linter.unusedSectionVars false

namespace CC
open Spec
variable {K : Type} [Field K] [LinearOrder K] [IsStrictOrderedRing K]

/-! ### bisection -/

theorem bisectLoop_spec {f : K → K} {rtol : K} {fa : K} (hfa : 0 < fa) (n : Nat) (xa dm : K)
    (hdm : 0 ≤ dm) (hlo : 0 ≤ f xa) (hhi : f (xa + dm) ≤ 0) :
    ∃ t lo hi, bisectLoop f rtol n xa fa dm = t ∧ xa ≤ lo ∧ lo ≤ t ∧ t ≤ hi ∧ hi ≤ xa + dm ∧
      0 ≤ f lo ∧ f hi ≤ 0 ∧
      ((t - lo < 5 / 10000 + rtol * |t| ∧ hi - t < 5 / 10000 + rtol * |t|) ∨ f t = 0 ∨
        (lo = t ∧ hi - t ≤ dm / 2 ^ n)) := by
  induction n generalizing xa dm with
  | zero => exact ⟨xa, xa, xa + dm, rfl, le_rfl, le_rfl, by linarith, le_rfl, hlo, hhi,
      Or.inr (Or.inr ⟨rfl, by simp⟩)⟩
  | succ n ih =>
    simp only [bisectLoop]
    by_cases hstop : f (xa + dm / 2) = 0 ∨ |dm / 2| < 5 / 10000 + rtol * |xa + dm / 2|
    · rw [if_pos hstop]
      refine ⟨_, xa, xa + dm, rfl, le_rfl, by linarith, by linarith, le_rfl, hlo, hhi, ?_⟩
      rcases hstop with h | h
      · exact Or.inr (Or.inl h)
      · rw [abs_of_nonneg (by linarith)] at h
        exact Or.inl ⟨by linarith, by linarith⟩
    · rw [if_neg hstop]
      push Not at hstop
      by_cases hs : 0 ≤ f (xa + dm / 2) * fa
      · rw [if_pos hs]
        have hpos : 0 ≤ f (xa + dm / 2) := nonneg_of_mul_nonneg_left hs hfa
        obtain ⟨t, lo, hi, h1, h2, h3, h4, h5, h6, h7, h8⟩ :=
          ih (xa + dm / 2) (dm / 2) (by linarith) hpos (by
            rw [add_assoc, add_halves]; exact hhi)
        refine ⟨t, lo, hi, h1, by linarith, h3, h4, by linarith, h6, h7, ?_⟩
        refine h8.imp id (Or.imp id fun h => ⟨h.1, h.2.trans (le_of_eq ?_)⟩)
        rw [pow_succ]; field_simp
      · rw [if_neg hs]
        have hneg : f (xa + dm / 2) ≤ 0 := by
          by_contra hc
          exact hs (mul_nonneg (not_le.1 hc).le hfa.le)
        obtain ⟨t, lo, hi, h1, h2, h3, h4, h5, h6, h7, h8⟩ :=
          ih xa (dm / 2) (by linarith) hlo hneg
        refine ⟨t, lo, hi, h1, h2, h3, h4, by linarith, h6, h7, ?_⟩
        refine h8.imp id (Or.imp id fun h => ⟨h.1, h.2.trans (le_of_eq ?_)⟩)
        rw [pow_succ]; field_simp

/-- What `root_scalar` returns on `[0, top]` for a function that is not negative at 0. -/
theorem bisect_spec {f : K → K} {rtol top t : K} (htop : 0 ≤ top) (h0 : 0 ≤ f 0)
    (h : bisect f rtol 0 top = .ok t) :
    0 ≤ t ∧ t ≤ top ∧ ∃ lo hi, 0 ≤ lo ∧ lo ≤ t ∧ t ≤ hi ∧ hi ≤ top ∧
      (f t = 0 ∨ (0 ≤ f lo ∧ f hi ≤ 0 ∧
        ((t - lo < 5 / 10000 + rtol * |t| ∧ hi - t < 5 / 10000 + rtol * |t|) ∨
          (lo = t ∧ hi - t ≤ top / 2 ^ 100)))) := by
  unfold bisect at h
  by_cases ha : f 0 = 0
  · rw [if_pos ha] at h
    cases h
    exact ⟨le_rfl, htop, 0, 0, le_rfl, le_rfl, le_rfl, htop, Or.inl ha⟩
  · rw [if_neg ha] at h
    by_cases hb : f top = 0
    · rw [if_pos hb] at h
      cases h
      exact ⟨htop, le_rfl, top, top, htop, le_rfl, le_rfl, le_rfl, Or.inl hb⟩
    · rw [if_neg hb] at h
      by_cases hs : 0 < f 0 * f top
      · rw [if_pos hs] at h; cases h
      · rw [if_neg hs] at h
        have hfa : 0 < f 0 := lt_of_le_of_ne h0 (Ne.symm ha)
        have hneg : f top ≤ 0 := by
          by_contra hc
          exact hs (mul_pos hfa (not_le.1 hc))
        obtain ⟨t', lo, hi, h1, h2, h3, h4, h5, h6, h7, h8⟩ :=
          bisectLoop_spec (rtol := rtol) hfa 100 0 (top - 0) (by linarith) h0 (by simpa using hneg)
        rw [h1] at h
        cases h
        rw [sub_zero, zero_add] at h5
        rw [sub_zero] at h8
        refine ⟨by linarith, by linarith, lo, hi, h2, h3, h4, h5, ?_⟩
        rcases h8 with h8 | h8 | h8
        · exact Or.inr ⟨h6, h7, Or.inl h8⟩
        · exact Or.inl h8
        · exact Or.inr ⟨h6, h7, Or.inr h8⟩

/-! ### the cut -/

/-- The integral (Simpson's rule) of the density where it is at or above a level. -/
def Spec.massAbove (m : Marginal K) (d : List K) (t : K) : K :=
  simpson (d.map fun v => if t ≤ v then v else 0) m.xs

theorem simpsonOdd_smul (h c : K) : ∀ ys : List K, simpsonOdd h (ys.map (· * c)) = c * simpsonOdd h ys
  | [] => by simp [simpsonOdd]
  | [_] => by simp [simpsonOdd]
  | [_, _] => by simp [simpsonOdd]
  | a :: b :: d :: rest => by
    have := simpsonOdd_smul h c (d :: rest)
    simp only [List.map_cons] at this ⊢
    rw [simpsonOdd, simpsonOdd, this]
    ring

theorem getD_map_mul (ys : List K) (c : K) (i : Nat) : (ys.map (· * c)).getD i 0 = ys.getD i 0 * c := by
  rw [List.getD_eq_getElem?_getD, List.getElem?_map, List.getD_eq_getElem?_getD]
  cases ys[i]? <;> simp

theorem simpson_smul (ys xs : List K) (c : K) : simpson (ys.map (· * c)) xs = c * simpson ys xs := by
  unfold simpson
  simp only [List.length_map, getD_map_mul, ← List.map_take, simpsonOdd_smul]
  split
  · rfl
  · split
    · ring
    · ring

theorem simpson_pos_of_ne {m : Marginal K} (hm : ValidMarginal m) (h : simpson m.ys m.xs ≠ 0) :
    0 < simpson m.ys m.xs := by
  refine lt_of_le_of_ne ?_ (Ne.symm h)
  refine simpson_nonneg ?_ hm.density_nonneg
  have h2 := hm.two
  rw [getD_eq (by omega), getD_eq (by omega)]
  have := List.pairwise_iff_getElem.1 hm.increasing 0 1 (by omega) (by omega) (by omega)
  linarith

/-- The cut and the normalised density. -/
theorem hdiCut_spec {m : Marginal K} (hm : ValidMarginal m) {a : K} {t : K} {d : List K}
    (h : hdiCut m a = .ok (t, d)) :
    0 < simpson m.ys m.xs ∧ d = m.ys.map (· / simpson m.ys m.xs) ∧ ∃ top, top ∈ d ∧ (∀ v ∈ d, v ≤ top) ∧
      bisect (fun t => massAbove m d t - a) defaultRtol 0 top = .ok t ∧ 0 ≤ top ∧
      massAbove m d 0 = 1 := by
  simp only [hdiCut, bind_ok_iff, ensure_ok_iff, pure_ok_iff, Prod.mk.injEq] at h
  obtain ⟨_, hne, top, htop, t', ht, rfl, rfl⟩ := h
  have hpos := simpson_pos_of_ne hm (by simpa using hne)
  set T := simpson m.ys m.xs with hT
  have hdne : m.ys.map (· / T) ≠ [] := by
    have h2 := hm.two
    have hl := hm.ys_length
    intro hc
    rw [List.map_eq_nil_iff] at hc
    rw [hc] at hl
    simp at hl
    omega
  obtain ⟨M, hM, hmem, hmax⟩ := npMax_spec hdne
  rw [arrMax, hM] at htop
  obtain rfl : M = top := Except.ok.inj htop
  have hdnn : ∀ v ∈ m.ys.map (· / T), 0 ≤ v := by
    intro v hv
    obtain ⟨y, hy, rfl⟩ := List.mem_map.1 hv
    exact div_nonneg (hm.density_nonneg y hy) hpos.le
  refine ⟨hpos, rfl, M, hmem, hmax, ht, hdnn M hmem, ?_⟩
  unfold massAbove
  have e : (m.ys.map (· / T)).map (fun v => if 0 ≤ v then v else 0) = m.ys.map (· * (1 / T)) := by
    rw [List.map_map]
    refine List.map_congr_left fun y hy => ?_
    simp only [Function.comp]
    rw [if_pos (div_nonneg (hm.density_nonneg y hy) hpos.le)]
    ring
  rw [e, simpson_smul, ← hT]
  field_simp

/-- **C35** (partial: that different masses give different cuts is missing, see `C35_violated`). The
density cut lies between two levels, at the lower of which the enclosed mass is at least the
requested one and at the upper at most; both are within `5e-4 + 4ε·cut` of the cut (or within
`peak / 2 ^ 100` when 100 bisections were not enough), unless the enclosed mass at the cut is exact. -/
theorem C35_cut_partial (m : Marginal K) (hm : ValidMarginal m) (a : K) (h1 : a ≤ 1) (t : K)
    (d : List K) (h : hdiCut m a = .ok (t, d)) :
    0 ≤ t ∧ (∃ v ∈ d, t ≤ v) ∧ (massAbove m d t = a ∨ ∃ lo hi, 0 ≤ lo ∧ lo ≤ t ∧ t ≤ hi ∧
      a ≤ massAbove m d lo ∧ massAbove m d hi ≤ a ∧
      ((t - lo < 5 / 10 ^ 4 + 4 / 2 ^ 52 * t ∧ hi - t < 5 / 10 ^ 4 + 4 / 2 ^ 52 * t) ∨
        (lo = t ∧ ∃ v ∈ d, hi - t ≤ v / 2 ^ 100))) := by
  obtain ⟨-, -, top, hmem, -, hb, htop, hm0⟩ := hdiCut_spec hm h
  obtain ⟨h0, hle, lo, hi, h2, h3, h4, h5, h6⟩ := bisect_spec htop
    (f := fun t => massAbove m d t - a) (by simp only [hm0]; linarith) hb
  refine ⟨h0, ⟨top, hmem, hle⟩, ?_⟩
  rcases h6 with h6 | ⟨h6, h7, h8⟩
  · left
    linarith
  · right
    refine ⟨lo, hi, h2, h3, h4, by linarith, by linarith, ?_⟩
    rw [abs_of_nonneg h0] at h8
    have e : (5 / 10000 : K) = 5 / 10 ^ 4 := by norm_num
    rw [e] at h8
    exact h8.imp id fun h => ⟨h.1, top, hmem, h.2⟩

/-- When a cut exists: exactly if the points of highest density hold at most the requested mass (or
all the mass is requested). Otherwise `root_scalar` raises ValueError. -/
theorem C35_cut_exists_iff (m : Marginal K) (hm : ValidMarginal m) (hs : simpson m.ys m.xs ≠ 0) (top : K)
    (hmem : top ∈ m.ys.map (· / simpson m.ys m.xs))
    (hmax : ∀ v ∈ m.ys.map (· / simpson m.ys m.xs), v ≤ top) (a : K) (ha1 : a ≤ 1) :
    (∃ t d, hdiCut m a = .ok (t, d)) ↔
      massAbove m (m.ys.map (· / simpson m.ys m.xs)) top ≤ a ∨ a = 1 := by
  have hpos := simpson_pos_of_ne hm hs
  set T := simpson m.ys m.xs with hT
  set d := m.ys.map (· / T) with hd
  obtain ⟨M, hM, hMmem, hMmax⟩ := npMax_spec (List.ne_nil_of_mem hmem)
  have hMt : M = top := le_antisymm (hmax M hMmem) (hMmax top hmem)
  subst hMt
  have h0 : massAbove m d 0 = 1 := by
    unfold massAbove
    have e : d.map (fun v => if 0 ≤ v then v else 0) = m.ys.map (· * (1 / T)) := by
      rw [hd, List.map_map]
      refine List.map_congr_left fun y hy => ?_
      simp only [Function.comp]
      rw [if_pos (div_nonneg (hm.density_nonneg y hy) hpos.le)]
      ring
    rw [e, simpson_smul, ← hT]
    field_simp
  have e0 : massDiff d m.xs a 0 = 1 - a := by rw [← h0]; rfl
  have e1 : massDiff d m.xs a M = massAbove m d M - a := rfl
  have hcut : (∃ t d', hdiCut m a = .ok (t, d')) ↔
      ∃ t, bisect (massDiff d m.xs a) defaultRtol 0 M = .ok t := by
    simp only [hdiCut, bind_ok_iff, ensure_ok_iff, pure_ok_iff, Prod.mk.injEq, ← hT, ← hd, arrMax, hM]
    constructor
    · rintro ⟨t, d', _, -, top, htop, t', ht, -, -⟩
      obtain rfl : M = top := Except.ok.inj htop
      exact ⟨t', ht⟩
    · rintro ⟨t, ht⟩
      exact ⟨t, d, (), by simpa using hs, M, rfl, t, ht, rfl, rfl⟩
  rw [hcut]
  unfold bisect
  rw [e0, e1]
  by_cases c1 : 1 - a = 0
  · rw [if_pos c1]
    exact ⟨fun _ => Or.inr (by linarith), fun _ => ⟨_, rfl⟩⟩
  rw [if_neg c1]
  have hlt : 0 < 1 - a := lt_of_le_of_ne (by linarith) (Ne.symm c1)
  by_cases c2 : massAbove m d M - a = 0
  · rw [if_pos c2]
    exact ⟨fun _ => Or.inl (by linarith), fun _ => ⟨_, rfl⟩⟩
  rw [if_neg c2]
  by_cases c3 : 0 < (1 - a) * (massAbove m d M - a)
  · rw [if_pos c3]
    have := (mul_pos_iff_of_pos_left hlt).1 c3
    constructor
    · rintro ⟨t, ht⟩; cases ht
    · rintro (h | h)
      · linarith
      · linarith
  · rw [if_neg c3]
    refine ⟨fun _ => Or.inl ?_, fun _ => ⟨_, rfl⟩⟩
    by_contra hc
    exact c3 (mul_pos hlt (by linarith))

/-- **C35** (negation). When the highest density is below 1e-3, the cut is half of it for every
requested mass between that of the peak points and 1. -/
theorem C35_violated (m : Marginal K) (hm : ValidMarginal m) (hs : simpson m.ys m.xs ≠ 0) (top : K)
    (hmem : top ∈ m.ys.map (· / simpson m.ys m.xs))
    (hmax : ∀ v ∈ m.ys.map (· / simpson m.ys m.xs), v ≤ top) (hlow : top < 1 / 10 ^ 3) (a : K)
    (ha : massAbove m (m.ys.map (· / simpson m.ys m.xs)) top < a) (ha1 : a < 1) :
    hdiCut m a = .ok (top / 2, m.ys.map (· / simpson m.ys m.xs)) := by
  have hpos := simpson_pos_of_ne hm hs
  set T := simpson m.ys m.xs with hT
  set d := m.ys.map (· / T) with hd
  have hdne : d ≠ [] := List.ne_nil_of_mem hmem
  obtain ⟨M, hM, hMmem, hMmax⟩ := npMax_spec hdne
  have hMt : M = top := le_antisymm (hmax M hMmem) (hMmax top hmem)
  subst hMt
  have hdnn : ∀ v ∈ d, 0 ≤ v := by
    intro v hv
    obtain ⟨y, hy, rfl⟩ := List.mem_map.1 hv
    exact div_nonneg (hm.density_nonneg y hy) hpos.le
  have hM0 := hdnn M hMmem
  have h0 : massAbove m d 0 = 1 := by
    unfold massAbove
    have e : d.map (fun v => if 0 ≤ v then v else 0) = m.ys.map (· * (1 / T)) := by
      rw [hd, List.map_map]
      refine List.map_congr_left fun y hy => ?_
      simp only [Function.comp]
      rw [if_pos (div_nonneg (hm.density_nonneg y hy) hpos.le)]
      ring
    rw [e, simpson_smul, ← hT]
    field_simp
  have hb : bisect (massDiff d m.xs a) defaultRtol 0 M = .ok (M / 2) := by
    have e0 : massDiff d m.xs a 0 = 1 - a := by rw [← h0]; rfl
    have e1 : massDiff d m.xs a M = massAbove m d M - a := rfl
    unfold bisect
    rw [e0, e1, if_neg (by intro h; linarith), if_neg (by intro h; linarith),
      if_neg (not_lt.2 (mul_nonpos_of_nonneg_of_nonpos (by linarith) (by linarith)))]
    congr 1
    rw [show (100 : Nat) = 99 + 1 from rfl, bisectLoop]
    simp only [zero_add, sub_zero]
    rw [if_pos]
    right
    have h3 : 0 ≤ defaultRtol * |M / 2| := mul_nonneg (by unfold defaultRtol; positivity) (abs_nonneg _)
    rw [abs_of_nonneg (by linarith)] at *
    have : M / 2 < 5 / 10000 := by
      have : M < 1 / 1000 := by norm_num at hlow ⊢; exact hlow
      linarith
    linarith
  simp only [hdiCut, ← hT, ← hd, bind, Except.bind, ensure, arrMax, hM, hb, pure, Except.pure]
  rw [if_pos (by simpa using hs)]

/-- A wide triangular distribution: half and nine tenths of the mass give the same bands. -/
def wide : Marginal ℚ := ⟨[0, 10000, 20000, 30000, 40000], [0, 1, 2, 1, 0], [0, 1/4, 3/4, 1, 1]⟩

theorem wide_valid : ValidMarginal wide := by
  refine ⟨rfl, rfl, by decide, by decide +kernel, by decide +kernel, by decide +kernel, ?_,
    by decide +kernel, by decide +kernel⟩
  intro i hi
  change i < 5 at hi
  obtain rfl | rfl | rfl | rfl | rfl : i = 0 ∨ i = 1 ∨ i = 2 ∨ i = 3 ∨ i = 4 := by omega
  all_goals (revert hi; decide +kernel)

example : hdiIntervals wide (1 / 2) = .ok [(10000, 30000)] ∧
    hdiIntervals wide (9 / 10) = .ok [(10000, 30000)] := by
  constructor <;> decide +kernel

example : hdiCut wide (1 / 2) = .ok (1 / 40000, [0, 1 / 40000, 1 / 20000, 1 / 40000, 0]) := by
  decide +kernel

/-! ### runs -/

theorem exists_run_end {mask : List Bool} {i : Nat} (h : Holds mask i) :
    ∃ e, i ≤ e ∧ (∀ k, i ≤ k → k ≤ e → Holds mask k) ∧ ¬ Holds mask (e + 1) := by
  obtain ⟨n, hn⟩ : ∃ n, mask.length ≤ i + n := ⟨mask.length, by omega⟩
  induction n generalizing i with
  | zero => exact absurd h (not_holds_of_length mask (by omega))
  | succ n ih =>
    by_cases h1 : Holds mask (i + 1)
    · obtain ⟨e, h2, h3, h4⟩ := ih h1 (by omega)
      refine ⟨e, by omega, fun k hk hke => ?_, h4⟩
      rcases Nat.lt_or_ge i k with hl | hl
      · exact h3 k hl hke
      · obtain rfl : i = k := by omega
        exact h
    · exact ⟨i, le_rfl, fun k hk hke => by obtain rfl : i = k := by omega
                                           exact h, h1⟩

theorem exists_run_start {mask : List Bool} {i : Nat} (h : Holds mask i) :
    ∃ s, s ≤ i ∧ (∀ k, s ≤ k → k ≤ i → Holds mask k) ∧ ∀ k, k + 1 = s → ¬ Holds mask k := by
  induction i with
  | zero => exact ⟨0, le_rfl, fun k _ hk => by obtain rfl : k = 0 := by omega
                                               exact h, fun k hk => by omega⟩
  | succ i ih =>
    by_cases h1 : Holds mask i
    · obtain ⟨s, h2, h3, h4⟩ := ih h1
      refine ⟨s, by omega, fun k hk hke => ?_, h4⟩
      rcases Nat.lt_or_ge k (i + 1) with hl | hl
      · exact h3 k hk (by omega)
      · obtain rfl : k = i + 1 := by omega
        exact h
    · exact ⟨i + 1, le_rfl, fun k hk hke => by obtain rfl : k = i + 1 := by omega
                                               exact h, fun k hk => by
        obtain rfl : k = i := by omega
        exact h1⟩

/-- Every point inside the mask belongs to a maximal run. -/
theorem exists_run {mask : List Bool} {i : Nat} (h : Holds mask i) :
    ∃ s e, s ≤ i ∧ i ≤ e ∧ IsRun mask s e := by
  obtain ⟨s, h1, h2, h3⟩ := exists_run_start h
  obtain ⟨e, h4, h5, h6⟩ := exists_run_end h
  refine ⟨s, e, h1, h4, ⟨by omega, fun k hk hke => ?_, h3, h6⟩⟩
  rcases Nat.lt_or_ge k i with hl | hl
  · exact h2 k hk hl.le
  · exact h5 k hl hke

theorem idx_lt {x : List K} (hx : x.Pairwise (· < ·)) {i j : Nat} {a b : K} (hi : x[i]? = some a)
    (hj : x[j]? = some b) (h : i < j) : a < b := by
  obtain ⟨hi', rfl⟩ := List.getElem?_eq_some_iff.1 hi
  obtain ⟨hj', rfl⟩ := List.getElem?_eq_some_iff.1 hj
  exact List.pairwise_iff_getElem.1 hx i j hi' hj' h

theorem idx_le {x : List K} (hx : x.Pairwise (· < ·)) {i j : Nat} {a b : K} (hi : x[i]? = some a)
    (hj : x[j]? = some b) : a ≤ b ↔ i ≤ j := by
  constructor
  · intro h
    by_contra hc
    exact absurd (idx_lt hx hj hi (not_le.1 hc)) (not_lt.2 h)
  · intro h
    rcases Nat.lt_or_ge i j with hl | hl
    · exact (idx_lt hx hi hj hl).le
    · obtain rfl : i = j := by omega
      rw [hi] at hj
      exact (Option.some.inj hj).le

/-- **C34**. If a cut exists, the bands succeed: there is a level, not above the highest density, such
that either the bands are the maximal runs of at least two grid points at or above the level (in
increasing order and disjoint), or no two neighbouring grid points are at or above the level and the
HDI summary interval is reported. In the first case every grid point in a band has a higher density
than every grid point in no band, except for isolated points above the level. -/
theorem C34_bands (m : Marginal K) (hm : ValidMarginal m) (a : K) (h1 : a ≤ 1) (t : K) (d : List K)
    (hcut : hdiCut m a = .ok (t, d)) :
    ∃ ivs lev, hdiIntervals m a = .ok ivs ∧ (∃ y ∈ m.ys, lev ≤ y) ∧
      ((ivs ≠ [] ∧ (ivs.Pairwise fun p q => p.1 < p.2 ∧ p.2 < q.1 ∧ q.1 < q.2) ∧
        (∀ iv : K × K, iv ∈ ivs ↔ ∃ s e, s < e ∧ m.xs[s]? = some iv.1 ∧ m.xs[e]? = some iv.2 ∧
          (∀ i, s ≤ i → i ≤ e → ∃ y, m.ys[i]? = some y ∧ lev ≤ y) ∧
          (∀ i y, i + 1 = s ∨ i = e + 1 → m.ys[i]? = some y → y < lev)) ∧
        ∀ (k k' : Nat) (x x' y y' : K), m.xs[k]? = some x → m.ys[k]? = some y →
          m.xs[k']? = some x' → m.ys[k']? = some y' →
          (∃ iv ∈ ivs, iv.1 ≤ x ∧ x ≤ iv.2) → (∀ iv ∈ ivs, ¬ (iv.1 ≤ x' ∧ x' ≤ iv.2)) →
          y' < y ∨ (lev ≤ y' ∧ ∀ i z, i + 1 = k' ∨ i = k' + 1 → m.ys[i]? = some z → z < lev)) ∨
      ((∃ l c u, summaryHdi m a = .ok ⟨some l, some c, some u⟩ ∧ ivs = [(l, u)]) ∧
        ∀ i y y', m.ys[i]? = some y → m.ys[i + 1]? = some y' → ¬ (lev ≤ y ∧ lev ≤ y'))) := by
  obtain ⟨hpos, hd, top, htmem, hmax, hbis, htop, hm0⟩ := hdiCut_spec hm hcut
  obtain ⟨l, c, u, hsum, -⟩ := C31_hdi_mass hm a h1
  obtain ⟨ht0, ⟨v, hv, htv⟩, -⟩ := C35_cut_partial m hm a h1 t d hcut
  have hT := hpos
  set T := simpson m.ys m.xs with hTdef
  have hdl : d.length = m.xs.length := by rw [hd, List.length_map, hm.ys_length]
  -- the level in the units of ys
  have hge : ∀ y : K, t ≤ y / T ↔ t * T ≤ y := fun y => le_div_iff₀ hT
  have hlev : ∃ y ∈ m.ys, t * T ≤ y := by
    rw [hd] at hv
    obtain ⟨y, hy, rfl⟩ := List.mem_map.1 hv
    exact ⟨y, hy, (hge y).1 htv⟩
  obtain ⟨ivs, hiv, hmem, hsort⟩ := C24_mask_intervals m.xs hm.increasing
    (d.map fun v => decide (t ≤ v)) (by rw [List.length_map, hdl])
  have hholds : ∀ i, Holds (d.map fun v => decide (t ≤ v)) i ↔ ∃ y, m.ys[i]? = some y ∧ t * T ≤ y := by
    intro i
    unfold Holds
    rw [hd]
    simp only [List.getElem?_map]
    cases m.ys[i]? with
    | none => simp
    | some y => simp [hge]
  have hrun : hdiIntervals m a = .ok (if ivs.isEmpty then [(l, u)] else ivs) := by
    simp only [hdiIntervals, hsum, hcut, hiv, bind, Except.bind, pure, Except.pure, Option.getD_some]
  set mask := d.map fun v => decide (t ≤ v) with hmask
  have hlenm : mask.length = m.xs.length := by rw [hmask, List.length_map, hdl]
  have hget : ∀ i, i < mask.length → ∃ x, m.xs[i]? = some x := fun i hi =>
    ⟨_, List.getElem?_eq_getElem (by omega)⟩
  by_cases hemp : ivs = []
  · refine ⟨[(l, u)], t * T, by rw [hrun, hemp]; rfl, hlev, Or.inr ⟨⟨l, c, u, hsum, rfl⟩, ?_⟩⟩
    rintro i y y' hy hy' ⟨hly, hly'⟩
    obtain ⟨s, e, h2, h3, h4⟩ := exists_run ((hholds i).2 ⟨y, hy, hly⟩)
    have h5 : i < e := by
      refine lt_of_le_of_ne h3 ?_
      rintro rfl
      exact h4.right ((hholds (i + 1)).2 ⟨y', hy', hly'⟩)
    have h6 := run_lt h4
    obtain ⟨a', ha'⟩ := hget s (by omega)
    obtain ⟨b', hb'⟩ := hget e h6
    have := (hmem (a', b')).2 ⟨s, e, h4, by omega, ha', hb'⟩
    rw [hemp] at this
    cases this
  · refine ⟨ivs, t * T, by rw [hrun, if_neg (by simpa using hemp)], hlev, Or.inl ⟨hemp, hsort, ?_, ?_⟩⟩
    · intro iv
      rw [hmem]
      constructor
      · rintro ⟨s, e, h2, h3, h4, h5⟩
        refine ⟨s, e, h3, h4, h5, fun i hi hie => (hholds i).1 (h2.inside i hi hie), ?_⟩
        intro i y hi hy
        by_contra hc
        have := (hholds i).2 ⟨y, hy, not_lt.1 hc⟩
        rcases hi with hi | rfl
        · exact h2.left i hi this
        · exact h2.right this
      · rintro ⟨s, e, h3, h4, h5, h6, h7⟩
        refine ⟨s, e, ⟨h3.le, fun i hi hie => (hholds i).2 (h6 i hi hie), ?_, ?_⟩, h3, h4, h5⟩
        · intro i hi hh
          obtain ⟨y, hy, hly⟩ := (hholds i).1 hh
          exact absurd (h7 i y (Or.inl hi) hy) (not_lt.2 hly)
        · intro hh
          obtain ⟨y, hy, hly⟩ := (hholds _).1 hh
          exact absurd (h7 _ y (Or.inr rfl) hy) (not_lt.2 hly)
    · rintro k k' x x' y y' hx hy hx' hy' ⟨iv, hiv', hin⟩ hout
      obtain ⟨s, e, h2, -, h4, h5⟩ := (hmem iv).1 hiv'
      obtain ⟨y2, hy2, hly⟩ := (hholds k).1 (h2.inside k ((idx_le hm.increasing h4 hx).1 hin.1)
        ((idx_le hm.increasing hx h5).1 hin.2))
      rw [hy] at hy2
      obtain rfl := Option.some.inj hy2
      by_cases hlt : y' < t * T
      · exact Or.inl (hlt.trans_le hly)
      · right
        refine ⟨not_lt.1 hlt, fun i z hi hz => ?_⟩
        by_contra hc
        obtain ⟨s', e', h2', h3', h4'⟩ := exists_run ((hholds k').2 ⟨y', hy', not_lt.1 hlt⟩)
        have hzh := (hholds i).2 ⟨z, hz, not_lt.1 hc⟩
        have hse : s' < e' := by
          rcases hi with hi | rfl
          · by_contra hse
            have := h4'.left i (by omega)
            exact this hzh
          · by_contra hse
            obtain rfl : k' = e' := by omega
            exact h4'.right hzh
        have h6 := run_lt h4'
        obtain ⟨a', ha'⟩ := hget s' (by omega)
        obtain ⟨b', hb'⟩ := hget e' h6
        exact hout _ ((hmem (a', b')).2 ⟨s', e', h4', hse, ha', hb'⟩)
          ⟨(idx_le hm.increasing ha' hx').2 h2', (idx_le hm.increasing hx' hb').2 h3'⟩

/-- Two modes: both bands are found. -/
def bimodal : Marginal ℚ :=
  ⟨[0, 1, 2, 3, 4, 5, 6, 7, 8], [0, 4, 5, 4, 0, 4, 6, 4, 0],
    [0, 4/27, 9/27, 13/27, 13/27, 17/27, 23/27, 1, 1]⟩

theorem bimodal_valid : ValidMarginal bimodal := by
  refine ⟨rfl, rfl, by decide, by decide +kernel, by decide +kernel, by decide +kernel, ?_,
    by decide +kernel, by decide +kernel⟩
  intro i hi
  change i < 9 at hi
  obtain rfl | rfl | rfl | rfl | rfl | rfl | rfl | rfl | rfl : i = 0 ∨ i = 1 ∨ i = 2 ∨ i = 3 ∨ i = 4 ∨
    i = 5 ∨ i = 6 ∨ i = 7 ∨ i = 8 := by omega
  all_goals (revert hi; decide +kernel)

theorem bimodal_cut : ∃ t d, hdiCut bimodal (7 / 10) = .ok (t, d) := by
  have h : (hdiCut bimodal (7 / 10)).isOk = true := by decide +kernel
  revert h
  cases hdiCut bimodal (7 / 10) with
  | error e => intro h; cases h
  | ok p => exact fun _ => ⟨p.1, p.2, rfl⟩

theorem bimodal_bands : hdiIntervals bimodal (7 / 10) = .ok [(1, 3), (5, 7)] := by decide +kernel

example : multimodalBounds bimodal [(1, 3), (5, 7)] =
    .ok [⟨some 1, some 2, some 3⟩, ⟨some 5, some 6, some 7⟩] := by decide +kernel

/-! ### C36 -/

/-- **C36**. For every band whose ends are grid points, the reported bound is the band, and its centre
is the grid point of the band with the highest density. -/
theorem C36_multimodal_bounds (m : Marginal K) (hm : ValidMarginal m) (ivs : List (K × K))
    (hivs : ∀ iv ∈ ivs, ∃ s e : Nat, s ≤ e ∧ m.xs[s]? = some iv.1 ∧ m.xs[e]? = some iv.2) :
    ∃ bs, multimodalBounds m ivs = .ok bs ∧
      List.Forall₂ (fun (iv : K × K) (b : Bound K) => ∃ (k : Nat) (x y : K),
        b = ⟨some iv.1, some x, some iv.2⟩ ∧ m.xs[k]? = some x ∧ m.ys[k]? = some y ∧
        iv.1 ≤ x ∧ x ≤ iv.2 ∧
        ∀ (k' : Nat) (x' y' : K), m.xs[k']? = some x' → m.ys[k']? = some y' →
          iv.1 ≤ x' → x' ≤ iv.2 → y' ≤ y) ivs bs := by
  obtain ⟨c0, lo, hi, -, hlo, hhi, -, -⟩ := hm.ends
  have hep : endpoints m.xs = .ok (lo, hi) := by unfold endpoints; rw [hlo, hhi]
  rw [List.head?_eq_getElem?] at hlo
  rw [List.getLast?_eq_getElem?] at hhi
  have key : ∀ iv ∈ ivs, ∃ b, modeBound m lo hi iv = .ok b ∧ ∃ (k : Nat) (x y : K),
        b = ⟨some iv.1, some x, some iv.2⟩ ∧ m.xs[k]? = some x ∧ m.ys[k]? = some y ∧
        iv.1 ≤ x ∧ x ≤ iv.2 ∧
        ∀ (k' : Nat) (x' y' : K), m.xs[k']? = some x' → m.ys[k']? = some y' →
          iv.1 ≤ x' → x' ≤ iv.2 → y' ≤ y := by
    intro iv hiv
    obtain ⟨s, e, hse, hs, he⟩ := hivs iv hiv
    have hel := (List.getElem?_eq_some_iff.1 he).1
    have e1 : max iv.1 lo = iv.1 := max_eq_left ((idx_le hm.increasing hlo hs).2 (Nat.zero_le _))
    have e2 : min iv.2 hi = iv.2 := min_eq_left ((idx_le hm.increasing he hhi).2 (by omega))
    simp only [modeBound, e1, e2]
    set pts := (m.xs.zip m.ys).filter fun p => decide (iv.1 ≤ p.1) && decide (p.1 ≤ iv.2) with hpts
    have hmem : ∀ p : K × K, p ∈ pts ↔ (∃ k : Nat, m.xs[k]? = some p.1 ∧ m.ys[k]? = some p.2) ∧
        iv.1 ≤ p.1 ∧ p.1 ≤ iv.2 := by
      intro p
      rw [hpts, List.mem_filter, List.mem_iff_getElem?]
      simp only [List.getElem?_zip_eq_some, Bool.and_eq_true, decide_eq_true_eq]
    have hne : pts ≠ [] := by
      have hl := hm.ys_length
      refine List.ne_nil_of_mem ((hmem (iv.1, m.ys.getD s 0)).2 ⟨⟨s, hs, ?_⟩, le_rfl, ?_⟩)
      · rw [getD_eq (by omega), List.getElem?_eq_getElem]
      · exact (idx_le hm.increasing hs he).2 hse
    rw [if_neg (by simpa using hne)]
    obtain ⟨i, hi'⟩ := argmax_isSome (l := pts.map Prod.snd) (by simpa using hne)
    obtain ⟨hil, hmax, -⟩ := argmax_spec _ _ hi'
    rw [List.length_map] at hil
    have hin : pts[i] ∈ pts := List.getElem_mem _
    obtain ⟨⟨k, hk1, hk2⟩, hk3, hk4⟩ := (hmem _).1 hin
    refine ⟨⟨some iv.1, some pts[i].1, some iv.2⟩, ?_, k, pts[i].1, pts[i].2, rfl, hk1, hk2, hk3, hk4, ?_⟩
    · simp only [arrArgmax, hi', atIndex, List.getElem?_map, List.getElem?_eq_getElem hil, Option.map_some,
        bind, Except.bind, pure, Except.pure]
    · intro k' x' y' hx' hy' h1 h2
      have := hmax y' (List.mem_map.2 ⟨(x', y'), (hmem _).2 ⟨⟨k', hx', hy'⟩, h1, h2⟩, rfl⟩)
      simpa using this
  have : ∃ bs, List.Forall₂ (fun iv b => modeBound m lo hi iv = .ok b) ivs bs ∧
      List.Forall₂ (fun (iv : K × K) (b : Bound K) => ∃ (k : Nat) (x y : K),
        b = ⟨some iv.1, some x, some iv.2⟩ ∧ m.xs[k]? = some x ∧ m.ys[k]? = some y ∧
        iv.1 ≤ x ∧ x ≤ iv.2 ∧
        ∀ (k' : Nat) (x' y' : K), m.xs[k']? = some x' → m.ys[k']? = some y' →
          iv.1 ≤ x' → x' ≤ iv.2 → y' ≤ y) ivs bs := by
    clear hivs
    induction ivs with
    | nil => exact ⟨[], .nil, .nil⟩
    | cons iv ivs ih =>
      obtain ⟨b, hb1, hb2⟩ := key iv (by simp)
      obtain ⟨bs, h1, h2⟩ := ih fun iv' h => key iv' (by simp [h])
      exact ⟨b :: bs, .cons hb1 h1, .cons hb2 h2⟩
  obtain ⟨bs, h1, h2⟩ := this
  refine ⟨bs, ?_, h2⟩
  simp only [multimodalBounds, hep, bind, Except.bind]
  rw [mapM_ok_iff]
  exact h1

/-- In particular, all bands found by the density cut. -/
theorem C36_bounds_of_bands (m : Marginal K) (hm : ValidMarginal m) (a : K) (h1 : a ≤ 1) (t : K)
    (d : List K) (hcut : hdiCut m a = .ok (t, d)) :
    ∃ ivs bs, hdiIntervals m a = .ok ivs ∧ multimodalBounds m ivs = .ok bs ∧ ivs.length = bs.length ∧
      (2 ≤ ivs.length → ∀ iv ∈ ivs, ∃ s e : Nat, s < e ∧ m.xs[s]? = some iv.1 ∧ m.xs[e]? = some iv.2) := by
  obtain ⟨ivs, lev, h2, -, h4⟩ := C34_bands m hm a h1 t d hcut
  have hgrid : (∀ iv ∈ ivs, ∃ s e : Nat, s ≤ e ∧ m.xs[s]? = some iv.1 ∧ m.xs[e]? = some iv.2) ∧
      (2 ≤ ivs.length → ∀ iv ∈ ivs, ∃ s e : Nat, s < e ∧ m.xs[s]? = some iv.1 ∧ m.xs[e]? = some iv.2) := by
    rcases h4 with ⟨-, -, h5, -⟩ | ⟨⟨l, c, u, h5, h6⟩, -⟩
    · have : ∀ iv ∈ ivs, ∃ s e : Nat, s < e ∧ m.xs[s]? = some iv.1 ∧ m.xs[e]? = some iv.2 := by
        intro iv hiv
        obtain ⟨s, e, h6, h7, h8, -⟩ := (h5 iv).1 hiv
        exact ⟨s, e, h6, h7, h8⟩
      exact ⟨fun iv hiv => by obtain ⟨s, e, h6, h7⟩ := this iv hiv; exact ⟨s, e, h6.le, h7⟩, fun _ => this⟩
    · rw [h6]
      refine ⟨fun iv hiv => ?_, fun h => absurd h (by simp)⟩
      obtain rfl := List.mem_singleton.1 hiv
      obtain ⟨l', c', u', h7, -, -, i, j, p, q, hij, hl, hu, -⟩ := C31_hdi_mass hm a h1
      rw [h5] at h7
      obtain ⟨rfl, -, rfl⟩ : l = l' ∧ c = c' ∧ u = u' := by simpa using h7
      obtain ⟨x0, xl, hx0, -, hpl, -⟩ := hm.hdi_setup
      rw [List.head?_eq_getElem?] at hx0
      rw [hpl] at hl hu
      obtain ⟨j, rfl⟩ : ∃ k, j = k + 1 := ⟨j - 1, by omega⟩
      cases i with
      | zero => exact ⟨0, j, Nat.zero_le _, by simpa [← hx0] using hl, by simpa using hu⟩
      | succ i => exact ⟨i, j, by omega, by simpa using hl, by simpa using hu⟩
  obtain ⟨bs, h5, h6⟩ := C36_multimodal_bounds m hm ivs hgrid.1
  exact ⟨ivs, bs, h2, h5, h6.length_eq, hgrid.2⟩

end CC
