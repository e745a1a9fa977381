import Verif.Lemmas.Format
import Verif.Lemmas.Except
import Mathlib.Tactic.Positivity
import Mathlib.Tactic.NormNum

/-! # C40, C41, C42: displayed bounds -/

set_option linter.unusedSectionVars false

namespace CC
open Spec

section
variable {K : Type} [Field K] [LinearOrder K] [IsStrictOrderedRing K] [FloorRing K]

theorem scaleOf_nonneg (l c u : K) : 0 ≤ scaleOf l c u := by
  unfold scaleOf
  split_ifs <;> first | exact abs_nonneg _ | exact le_min (abs_nonneg _) (abs_nonneg _)

theorem scaleOf_eq_zero {l c u : K} : scaleOf l c u = 0 ↔ l = 0 ∧ c = 0 ∧ u = 0 := by
  unfold scaleOf
  split_ifs with h1 h2 h2
  · rw [abs_eq_zero]
    constructor
    · rintro rfl
      exact ⟨by linarith, rfl, by linarith⟩
    · exact fun h => h.2.1
  · rw [abs_eq_zero]
    exact ⟨fun h => absurd h h2, fun h => absurd (by rw [h.1, h.2.1, sub_zero]) h2⟩
  · rw [abs_eq_zero]
    exact ⟨fun h => absurd h h1, fun h => absurd (by rw [h.2.2, h.2.1, sub_zero]) h1⟩
  · constructor
    · intro h
      rcases min_choice |u - c| |c - l| with hm | hm <;> rw [hm, abs_eq_zero] at h
      · exact absurd h h1
      · exact absurd h h2
    · exact fun h => absurd (by rw [h.2.2, h.2.1, sub_zero]) h1

theorem log_min {a b : K} (ha : 0 < a) (hb : 0 < b) :
    Int.log 10 (min a b) = min (Int.log 10 a) (Int.log 10 b) := by
  rcases le_total a b with h | h
  · rw [min_eq_left h, min_eq_left (Int.log_mono_right ha h)]
  · rw [min_eq_right h, min_eq_right (Int.log_mono_right hb h)]

theorem resolution_eq (l c u : K) : resolution (u - c) (c - l) c =
    if scaleOf l c u = 0 then none else some (Int.log 10 (scaleOf l c u)) := by
  unfold resolution
  by_cases h1 : u - c = 0 <;> by_cases h2 : c - l = 0
  · rw [if_neg (by simp [h1]), if_neg (by simp [h2]), if_neg (by simp [h1])]
    have e : scaleOf l c u = |c| := by unfold scaleOf; rw [if_pos h1, if_pos h2]
    rw [e]
    by_cases hc : c = 0
    · simp [hc]
    · rw [if_pos hc, if_neg (by simpa using hc)]
  · rw [if_neg (by simp [h1]), if_pos ⟨h1, h2⟩]
    have e : scaleOf l c u = |c - l| := by unfold scaleOf; rw [if_pos h1, if_neg h2]
    rw [e, if_neg (by simpa using h2)]
  · rw [if_neg (by simp [h2]), if_neg (by simp [h1]), if_pos ⟨h1, h2⟩]
    have e : scaleOf l c u = |u - c| := by unfold scaleOf; rw [if_neg h1, if_pos h2]
    rw [e, if_neg (by simpa using h1)]
  · rw [if_pos ⟨h1, h2⟩]
    have e : scaleOf l c u = min |u - c| |c - l| := by unfold scaleOf; rw [if_neg h1, if_neg h2]
    have p1 := abs_pos.2 h1
    have p2 := abs_pos.2 h2
    rw [e, if_neg (lt_min p1 p2).ne', log_min p1 p2]

/-- The signed value of a rounded number. -/
def Signed.val (s : Signed K) : K := (if s.neg then -1 else 1) * s.abs

theorem sign_abs (x : K) : (if (decide (x < 0)) = true then (-1 : K) else 1) * |x| = x := by
  by_cases h : x < 0
  · rw [if_pos (by simpa using h), abs_of_neg h]; ring
  · rw [if_neg (by simpa using h), abs_of_nonneg (not_lt.1 h)]; ring

theorem sign_sub_le (b : Bool) (x y e : K) (h : |x - y| ≤ e) :
    |(if b = true then (-1 : K) else 1) * x - (if b = true then (-1 : K) else 1) * y| ≤ e := by
  cases b
  · simpa using h
  · simp only [if_true]
    rw [show (-1 : K) * x - -1 * y = -(x - y) by ring, abs_neg]
    exact h

/-- What is known about one displayed number. -/
structure Shown (q d : ℕ) (k : ℤ) (tol : K) (s : Signed K) (x : K) : Prop where
  close : |(if s.neg = true then (-1 : K) else 1) * ((halfEven (s.abs * 10 ^ d) : K) / 10 ^ d) *
    (10 : K) ^ k - x| ≤ tol
  digits : ∀ n : ℕ, q ∣ n → (n : K) / 10 ^ d * (10 : K) ^ k ≤ |x| → n ≤ halfEven (s.abs * 10 ^ d)

theorem halfEven_zero : halfEven (0 : K) = 0 := by
  have := halfEven_natCast (K := K) 0
  simpa using this

theorem Shown.fixZero {q d : ℕ} {k : ℤ} {tol : K} {s : Signed K} {x : K}
    (h : Shown q d k tol s x) : Shown q d k tol s.fixZero x := by
  unfold Signed.fixZero
  by_cases hs : s.abs = 0
  · rw [if_pos hs]
    constructor
    · have := h.close
      rw [hs] at this
      simpa [halfEven_zero] using this
    · intro n hq hn
      have := h.digits n hq hn
      rw [hs] at this
      simpa [halfEven_zero] using this
  · rw [if_neg hs]; exact h

/-- Rounding once to `d` decimals in units of `10^-f`. -/
theorem shown_once (d : ℕ) (f : ℤ) (x : K) :
    Shown 1 d (-f) (1 / 2 * (10 : K) ^ (-f - d)) (((Signed.of x).mul ((10 : K) ^ f)).round d) x := by
  have h10 : (10 : K) ≠ 0 := by norm_num
  have hf : (0 : K) < 10 ^ f := by positivity
  have hd : (0 : K) < 10 ^ d := by positivity
  have e : (((Signed.of x).mul ((10 : K) ^ f)).round d).abs * 10 ^ d =
      (halfEven (|x| * 10 ^ f * 10 ^ d) : K) := by
    simp only [Signed.round, Signed.mul, Signed.of]
    field_simp
  have hs := halfEven_spec (x := |x| * 10 ^ f * 10 ^ d) (by positivity)
  constructor
  · rw [e, halfEven_natCast]
    have hn : (((Signed.of x).mul ((10 : K) ^ f)).round d).neg = decide (x < 0) := rfl
    rw [hn]
    rw [mul_assoc]
    generalize halfEven (|x| * 10 ^ f * 10 ^ d) = N at hs
    have hb : |(N : K) / 10 ^ d * 10 ^ (-f) - abs x| ≤ 1 / 2 * 10 ^ (-f - d : ℤ) := by
      have e2 : (N : K) / 10 ^ d * 10 ^ (-f) - |x| =
          ((N : K) - |x| * 10 ^ f * 10 ^ d) * (10 ^ (-f - d : ℤ)) := by
        rw [zpow_sub₀ h10, zpow_neg, zpow_natCast]
        field_simp
      rw [e2, abs_mul, abs_of_pos (show (0 : K) < 10 ^ (-f - d : ℤ) by positivity)]
      exact mul_le_mul_of_nonneg_right hs (by positivity)
    have hc := sign_sub_le (decide (x < 0)) _ _ _ hb
    rwa [sign_abs] at hc
  · intro n _ hn
    rw [e, halfEven_natCast]
    apply halfEven_ge
    rw [zpow_neg] at hn
    have : (n : K) = (n : K) / 10 ^ d * (10 ^ f)⁻¹ * 10 ^ f * 10 ^ d := by field_simp
    rw [this]
    gcongr

/-- Rounding to one decimal and then to an integer. -/
theorem shown_twice (x : K) :
    Shown 1 0 0 (11 / 20) (((Signed.of x).mul 1).round 1) x := by
  have hs := halfEven_spec (x := |x| * 1 * 10 ^ 1) (by positivity)
  have e : (((Signed.of x).mul 1).round 1).abs * 10 ^ 0 =
      (halfEven (|x| * 1 * 10 ^ 1) : K) / 10 ^ 1 := by
    simp only [Signed.round, Signed.mul, Signed.of, pow_zero, mul_one]
  have hs2 := halfEven_spec (x := (halfEven (|x| * 1 * 10 ^ 1) : K) / 10 ^ 1) (by positivity)
  constructor
  · rw [e]
    have hn : (((Signed.of x).mul 1).round 1).neg = decide (x < 0) := rfl
    rw [hn]
    generalize halfEven (|x| * 1 * 10 ^ 1) = N at hs hs2
    generalize halfEven ((N : K) / 10 ^ 1) = M at hs2
    have hb : |(M : K) - abs x| ≤ 11 / 20 := by
      rw [abs_le] at *
      constructor <;> linarith [hs.1, hs.2, hs2.1, hs2.2]
    have hc := sign_sub_le (decide (x < 0)) _ _ _ hb
    rw [sign_abs] at hc
    simpa using hc
  · intro n _ hn
    rw [e]
    apply halfEven_ge
    have : 10 * n ≤ halfEven (|x| * 1 * 10 ^ 1) := by
      apply halfEven_ge
      simp at hn
      push_cast
      linarith
    have h2 : ((10 * n : ℕ) : K) ≤ (halfEven (|x| * 1 * 10 ^ 1) : K) := by exact_mod_cast this
    rw [le_div_iff₀ (by norm_num)]
    push_cast at h2
    linarith

/-- Rounding to tens. -/
theorem shown_tens (x : K) :
    Shown 10 0 0 5 ((((Signed.of x).mul ((10 : K) ^ (-1 : ℤ))).round 0).mul ((10 : K) ^ (1 : ℤ))) x := by
  have hs := halfEven_spec (x := |x| * 10 ^ (-1 : ℤ) * 10 ^ 0) (by positivity)
  have e : ((((Signed.of x).mul ((10 : K) ^ (-1 : ℤ))).round 0).mul ((10 : K) ^ (1 : ℤ))).abs * 10 ^ 0 =
      ((10 * halfEven (|x| * 10 ^ (-1 : ℤ) * 10 ^ 0) : ℕ) : K) := by
    simp only [Signed.round, Signed.mul, Signed.of, pow_zero, mul_one, div_one, zpow_one]
    push_cast; ring
  constructor
  · rw [e, halfEven_natCast]
    have hn : ((((Signed.of x).mul ((10 : K) ^ (-1 : ℤ))).round 0).mul ((10 : K) ^ (1 : ℤ))).neg =
      decide (x < 0) := rfl
    rw [hn]
    generalize halfEven (|x| * 10 ^ (-1 : ℤ) * 10 ^ 0) = N at hs
    have hb : |((10 * N : ℕ) : K) - abs x| ≤ 5 := by
      rw [show ((10 : K) ^ (-1 : ℤ)) = 1 / 10 by norm_num] at hs
      rw [abs_le] at *
      push_cast
      constructor <;> linarith [hs.1, hs.2]
    have hc := sign_sub_le (decide (x < 0)) _ _ _ hb
    rw [sign_abs] at hc
    simpa using hc
  · rintro _ ⟨n, rfl⟩ hn
    rw [e, halfEven_natCast]
    apply Nat.mul_le_mul_left
    apply halfEven_ge
    rw [show ((10 : K) ^ (-1 : ℤ)) = 1 / 10 by norm_num]
    simp at hn
    linarith

/-- The display of a bound: layout, numerals, and which numbers they show. -/
structure Display (text : String) (usePm : Bool) (l c u : K) (q : ℕ) (d : ℕ) (k : ℤ) (tol : K) : Prop where
  ex : ∃ (pm : Bool) (C U L : String) (vc vu vl : K),
    text = layout pm k C U L ∧ Numeral C d vc ∧ Numeral U d vu ∧ Numeral L d vl ∧
    (pm = true ↔ usePm = true ∧ U = L) ∧
    |vc * 10 ^ k - c| ≤ tol ∧ |vu * 10 ^ k - (u - c)| ≤ tol ∧ |vl * 10 ^ k - (c - l)| ≤ tol ∧
    (∀ n : ℕ, q ∣ n → (n : K) / 10 ^ d * (10 : K) ^ k ≤ |u - c| → (n : K) ≤ |vu| * 10 ^ d) ∧
    ∀ n : ℕ, q ∣ n → (n : K) / 10 ^ d * (10 : K) ^ k ≤ |c - l| → (n : K) ≤ |vl| * 10 ^ d

theorem abs_sign_mul (b : Bool) (N d : ℕ) :
    |(if b = true then (-1 : K) else 1) * ((N : K) / 10 ^ d)| * 10 ^ d = N := by
  have h : |(if b = true then (-1 : K) else 1)| = 1 := by cases b <;> simp
  rw [abs_mul, h, one_mul, abs_of_nonneg (by positivity)]
  field_simp

theorem display_of {l c u : K} {q d : ℕ} {k : ℤ} {tol : K} {m u' l' : Signed K}
    (hm : Shown q d k tol m c) (hu : Shown q d k tol u' (u - c)) (hl : Shown q d k tol l' (c - l))
    (usePm : Bool) (text : String)
    (ht : text = if k = 0 then numberText usePm d m u' l' else "\\left( " ++ numberText usePm d m u' l'
      ++ " \\right) \\times 10^{" ++ toString k ++ "}") : Display text usePm l c u q d k tol := by
  refine ⟨usePm && u'.text d == l'.text d, m.text d, u'.text d, l'.text d, _, _, _, ?_,
    text_numeral d m, text_numeral d u', text_numeral d l', by simp, hm.close, hu.close, hl.close,
    ?_, ?_⟩
  · rw [ht]; rfl
  · intro n hq hn
    rw [abs_sign_mul]
    exact_mod_cast hu.digits n hq hn
  · intro n hq hn
    rw [abs_sign_mul]
    exact_mod_cast hl.digits n hq hn

theorem formatLimits_eq {l c u : K} (usePm : Bool) (h : scaleOf l c u ≠ 0) (res : Int)
    (hr : Int.log 10 (scaleOf l c u) = res) :
    let k : ℤ := if res = 2 then 0 else -formatFactor res
    let t := numberText usePm (formatDecimals res) (scaleBack res (scaleRound res c).fixZero)
      (scaleBack res (scaleRound res (u - c))) (scaleBack res (scaleRound res (c - l)))
    formatLimits l c u usePm = .ok (if k = 0 then t
      else "\\left( " ++ t ++ " \\right) \\times 10^{" ++ toString k ++ "}") := by
  have e : resolution (u - c) (c - l) c = some res := by
    rw [resolution_eq, if_neg h, hr]
  simp only [formatLimits, e]
  by_cases h2 : res = 2
  · simp [h2]
  · simp only [h2, if_false]
    by_cases hf : formatFactor res = 0
    · rw [if_neg (by simp [hf]), if_pos (by simp [hf])]
    · rw [if_pos hf, if_neg (by simpa using hf)]

/-- The display of every bound, with the weight `unit` of the last significant digit: `unit` is ten
to the power of the leading digit of the smaller error, minus one. -/
theorem format_display (l c u : K) (usePm : Bool) (h : scaleOf l c u ≠ 0) :
    ∃ (text : String) (q d : ℕ) (k : ℤ) (unit : K),
      formatLimits l c u usePm = .ok text ∧
      10 * unit ≤ scaleOf l c u ∧ scaleOf l c u < 100 * unit ∧ 0 < unit ∧
      (unit = 10 ^ (k - d) ∧ q = 1 ∨ unit = 10 ∧ d = 0 ∧ k = 0 ∧ q = 10) ∧
      Display text usePm l c u q d k
        ((if 10 ≤ scaleOf l c u ∧ scaleOf l c u < 100 then 11 / 20 else 1 / 2) * unit) := by
  have hpos : 0 < scaleOf l c u := lt_of_le_of_ne (scaleOf_nonneg l c u) (Ne.symm h)
  obtain ⟨res, hr⟩ : ∃ res, Int.log 10 (scaleOf l c u) = res := ⟨_, rfl⟩
  have hlo : (10 : K) ^ res ≤ scaleOf l c u := by
    have := Int.zpow_log_le_self (b := 10) (by norm_num) hpos
    rw [hr] at this
    exact_mod_cast this
  have hhi : scaleOf l c u < (10 : K) ^ (res + 1) := by
    have := Int.lt_zpow_succ_log_self (R := K) (b := 10) (by norm_num) (scaleOf l c u)
    rw [hr] at this
    exact_mod_cast this
  have hT := formatLimits_eq usePm h res hr
  generalize scaleOf l c u = e at *
  have h10 : (10 : K) ≠ 0 := by norm_num
  by_cases h2 : res = 2
  · subst h2
    refine ⟨_, 10, 0, 0, 10, hT, ?_, ?_, by norm_num, Or.inr ⟨rfl, rfl, rfl, rfl⟩, ?_⟩
    · norm_num at hlo ⊢; linarith
    · norm_num at hhi ⊢; linarith
    · have hc : ¬ (10 ≤ e ∧ e < 100) := by
        norm_num at hlo; intro hh; linarith [hh.2]
      rw [show (if 10 ≤ e ∧ e < 100 then 11 / 20 else 1 / 2 : K) * 10 = 5 by
        rw [if_neg hc]; norm_num]
      have hz : ∀ s : Signed K, s.fixZero.mul ((10 : K) ^ (1 : ℤ)) =
          (s.mul ((10 : K) ^ (1 : ℤ))).fixZero := by
        intro s
        by_cases hs : s.abs = 0 <;> simp [Signed.fixZero, Signed.mul, hs]
      refine display_of ?_ (shown_tens _) (shown_tens _) usePm _ rfl
      have := (shown_tens c).fixZero
      rw [← hz] at this
      exact this
  by_cases h1 : res = 1
  · subst h1
    have hc : 10 ≤ e ∧ e < 100 := by norm_num at hlo hhi; exact ⟨hlo, hhi⟩
    refine ⟨_, 1, 0, 0, 1, hT, by linarith [hc.1], by linarith [hc.2], by norm_num,
      Or.inl ⟨by norm_num, rfl⟩, ?_⟩
    rw [if_pos hc, mul_one]
    have e1 : ∀ x : K, scaleBack 1 (scaleRound 1 x) = ((Signed.of x).mul 1).round 1 := by
      intro x; simp [scaleBack, scaleRound, formatFactor, formatRound]
    refine display_of (m := scaleBack 1 (scaleRound 1 c).fixZero) ?_ (by rw [e1]; exact shown_twice _)
      (by rw [e1]; exact shown_twice _) usePm _ rfl
    have := (shown_twice c).fixZero
    rw [← e1] at this
    exact this
  have e1 : ∀ x : K, scaleBack res (scaleRound res x) =
      ((Signed.of x).mul ((10 : K) ^ formatFactor res)).round (formatDecimals res) := by
    intro x
    have : formatRound res = formatDecimals res := by
      simp [formatRound, formatDecimals, h2, h1]
    simp [scaleBack, scaleRound, h2, this]
  have hunit : -formatFactor res - (formatDecimals res : ℤ) = res - 1 := by
    unfold formatFactor formatDecimals
    by_cases a : res = -1
    · subst a; rfl
    by_cases b : res = -2
    · subst b; rfl
    simp only [a, b, h1, h2, if_false, or_self]
    by_cases c0 : 2 < |res|
    · rw [if_pos c0]; push_cast; ring
    · rw [if_neg c0]
      have := abs_le.1 (not_lt.1 c0)
      have : res = 0 := by omega
      subst this; rfl
  refine ⟨_, 1, formatDecimals res, -formatFactor res, 10 ^ (res - 1), hT, ?_, ?_, by positivity,
    Or.inl ⟨by rw [hunit], rfl⟩, ?_⟩
  · rw [zpow_sub_one₀ h10]
    have : (10 : K) * (10 ^ res * 10⁻¹) = 10 ^ res := by field_simp
    rw [this]; exact hlo
  · rw [zpow_sub_one₀ h10]
    rw [zpow_add_one₀ h10] at hhi
    have : (100 : K) * (10 ^ res * 10⁻¹) = 10 ^ res * 10 := by ring
    rw [this]; exact hhi
  · have hc : ¬ (10 ≤ e ∧ e < 100) := by
      rintro ⟨ha, hb⟩
      rcases lt_trichotomy res 1 with hlt | heq | hgt
      · have : (10 : K) ^ (res + 1) ≤ 10 ^ (1 : ℤ) := zpow_le_zpow_right₀ (by norm_num) (by omega)
        norm_num at this
        linarith
      · exact h1 heq
      · have : (10 : K) ^ (2 : ℤ) ≤ 10 ^ res := zpow_le_zpow_right₀ (by norm_num) (by omega)
        norm_num at this
        linarith
    rw [if_neg hc, ← hunit]
    refine display_of (m := scaleBack res (scaleRound res c).fixZero)
      (u' := scaleBack res (scaleRound res (u - c))) (l' := scaleBack res (scaleRound res (c - l))) ?_
      (by rw [e1]; exact shown_once _ _ _) (by rw [e1]; exact shown_once _ _ _) usePm _ ?_
    · have := (shown_once (formatDecimals res) (formatFactor res) c).fixZero
      rw [← e1] at this
      simpa [scaleBack, h2] using this
    · simp only [h2, if_false]

/-- **C40**. Whatever the three limits are, the text shows three numerals with the same number of
decimals `d` in units of `10^k`; they differ from the true centre, upper and lower error by at most
half a unit of the last significant digit, and `\\pm` is used exactly when asked for and both errors
read the same. `unit` is the weight of the last significant digit; it is that of the last displayed
digit, `10^(k-d)`, except that errors from 100 to 1000 are shown in tens.

What is missing from the full property: for errors from 10 to 100 the bound is 0.55 instead of 0.5
units, see `C40_violated`. -/
theorem C40_display_partial (l c u : K) (usePm : Bool) (text : String)
    (h : formatLimits l c u usePm = .ok text) :
    ∃ (pm : Bool) (k : ℤ) (d : ℕ) (C U L : String) (vc vu vl unit : K),
      text = layout pm k C U L ∧ Numeral C d vc ∧ Numeral U d vu ∧ Numeral L d vl ∧
      (pm = true ↔ usePm = true ∧ U = L) ∧
      (unit = 10 ^ (k - d) ∨
        unit = 10 ∧ d = 0 ∧ k = 0 ∧ 100 ≤ scaleOf l c u ∧ scaleOf l c u < 1000) ∧
      (let tol := (if 10 ≤ scaleOf l c u ∧ scaleOf l c u < 100 then 11 / 20 else 1 / 2) * unit
       |vc * 10 ^ k - c| ≤ tol ∧ |vu * 10 ^ k - (u - c)| ≤ tol ∧ |vl * 10 ^ k - (c - l)| ≤ tol) := by
  have hne : scaleOf l c u ≠ 0 := by
    intro h0
    have e : resolution (u - c) (c - l) c = none := by rw [resolution_eq, if_pos h0]
    simp [formatLimits, e] at h
  obtain ⟨t, q, d, k, unit, ht, h1, h2, -, hu, pm, C, U, L, vc, vu, vl, e, nC, nU, nL, hpm, ec, eu,
    el, -, -⟩ := format_display l c u usePm hne
  obtain rfl : t = text := Except.ok.inj (ht.symm.trans h)
  refine ⟨pm, k, d, C, U, L, vc, vu, vl, unit, e, nC, nU, nL, hpm, ?_, ec, eu, el⟩
  rcases hu with hu | ⟨hu, hd, hk, -⟩
  · exact Or.inl hu.1
  · right
    subst hu
    exact ⟨rfl, hd, hk, by linarith, by linarith⟩

/-- **C41**. If neither error is zero, both are displayed with at least two significant digits: the
numerals without their point are at least 10, also when the display is in tens. -/
theorem C41_two_digits (l c u : K) (usePm : Bool) (hu0 : u ≠ c) (hl0 : l ≠ c) :
    ∃ (text : String) (pm : Bool) (k : ℤ) (d : ℕ) (C U L : String) (vc vu vl unit : K),
      formatLimits l c u usePm = .ok text ∧ text = layout pm k C U L ∧
      Numeral C d vc ∧ Numeral U d vu ∧ Numeral L d vl ∧
      (unit = 10 ^ (k - d) ∨
        unit = 10 ∧ d = 0 ∧ k = 0 ∧ 100 ≤ scaleOf l c u ∧ scaleOf l c u < 1000) ∧
      10 * unit ≤ |vu| * 10 ^ k ∧ 10 * unit ≤ |vl| * 10 ^ k := by
  have hue : u - c ≠ 0 := sub_ne_zero.2 hu0
  have hle : c - l ≠ 0 := sub_ne_zero.2 hl0.symm
  have hne : scaleOf l c u ≠ 0 := by
    intro h0
    rw [scaleOf_eq_zero] at h0
    exact hu0 (by rw [h0.2.2, h0.2.1])
  have hs : scaleOf l c u ≤ |u - c| ∧ scaleOf l c u ≤ |c - l| := by
    unfold scaleOf
    rw [if_neg hue, if_neg hle]
    exact ⟨min_le_left _ _, min_le_right _ _⟩
  obtain ⟨t, q, d, k, unit, ht, h1, h2, hpos, hu, pm, C, U, L, vc, vu, vl, e, nC, nU, nL, hpm, ec, eu,
    el, gu, gl⟩ := format_display l c u usePm hne
  have h10 : (10 : K) ≠ 0 := by norm_num
  refine ⟨t, pm, k, d, C, U, L, vc, vu, vl, unit, ht, e, nC, nU, nL, ?_, ?_⟩
  · rcases hu with hu | ⟨hu, hd, hk, -⟩
    · exact Or.inl hu.1
    · right
      subst hu
      exact ⟨rfl, hd, hk, by linarith, by linarith⟩
  · rcases hu with ⟨hu, rfl⟩ | ⟨rfl, rfl, rfl, rfl⟩
    · have hk : (0 : K) < 10 ^ k := by positivity
      have hd : (0 : K) < 10 ^ d := by positivity
      have e10 : ((10 : ℕ) : K) / 10 ^ d * 10 ^ k = 10 * unit := by
        rw [hu, zpow_sub₀ h10, zpow_natCast]; push_cast; ring
      have fin : ∀ v : K, ((10 : ℕ) : K) ≤ |v| * 10 ^ d → 10 * unit ≤ |v| * 10 ^ k := by
        intro v hv
        rw [← e10, div_mul_eq_mul_div, div_le_iff₀ hd]
        calc ((10 : ℕ) : K) * 10 ^ k ≤ (|v| * 10 ^ d) * 10 ^ k :=
              mul_le_mul_of_nonneg_right hv hk.le
          _ = |v| * 10 ^ k * 10 ^ d := by ring
      exact ⟨fin vu (gu 10 (one_dvd _) (by rw [e10]; linarith [hs.1])),
        fin vl (gl 10 (one_dvd _) (by rw [e10]; linarith [hs.2]))⟩
    · have a := gu 100 (by norm_num) (by norm_num; linarith [hs.1])
      have b := gl 100 (by norm_num) (by norm_num; linarith [hs.2])
      norm_num at a b ⊢
      exact ⟨a, b⟩

/-- **C42** (what holds). A bound with a missing limit gives an empty text; a bound with three limits
that are not all zero gives the display of C40, with the label in front and within dollar signs as
requested. What is missing from the full property are three zero limits, see `C42_violated`. -/
theorem C42_formats_partial (b : Bound K) (wrap : Bool) (label : Option String)
    (h : b ≠ ⟨some 0, some 0, some 0⟩) :
    (b.lower = none ∨ b.center = none ∨ b.upper = none →
      parameterText (some (.single b)) wrap label = .ok "") ∧
    ∀ l c u, b = ⟨some l, some c, some u⟩ → ∃ text, formatLimits l c u true = .ok text ∧
      parameterText (some (.single b)) wrap label =
        .ok ((if wrap then "$" else "") ++
          ((match label with | none => "" | some s => if s = "" then "" else s ++ " = ") ++ text) ++
          (if wrap then "$" else "")) := by
  refine ⟨?_, ?_⟩
  · rcases b with ⟨_ | l, _ | c, _ | u⟩ <;> simp [parameterText, singleText]
  · rintro l c u rfl
    have hne : scaleOf l c u ≠ 0 := by
      intro h0
      obtain ⟨rfl, rfl, rfl⟩ := scaleOf_eq_zero.1 h0
      exact h rfl
    obtain ⟨t, -, -, -, -, ht, -⟩ := format_display l c u true hne
    refine ⟨t, ht, ?_⟩
    simp only [parameterText, singleText, ht, bind, Except.bind, pure, Except.pure]
    congr 1
    cases label with
    | none => cases wrap <;> simp [dollars]
    | some s =>
      by_cases hs : s = "" <;> cases wrap <;> simp [dollars, hs]

/-- The lines of several bounds. -/
theorem modeLines_ok (wrap : Bool) (bs : List (Bound K × ℕ))
    (h : ∀ b ∈ bs, ∃ l c u, b.1 = ⟨some l, some c, some u⟩ ∧ ¬ (l = 0 ∧ c = 0 ∧ u = 0)) :
    ∃ ls, bs.mapM (modeLine wrap) = .ok ls ∧ ls.length = bs.length := by
  induction bs with
  | nil => exact ⟨[], rfl, rfl⟩
  | cons b bs ih =>
    obtain ⟨ls, hl, hlen⟩ := ih fun x hx => h x (List.mem_cons_of_mem _ hx)
    obtain ⟨l, c, u, hb, hz⟩ := h b (by simp)
    have hne : scaleOf l c u ≠ 0 := fun h0 => hz (scaleOf_eq_zero.1 h0)
    obtain ⟨t, -, -, -, -, ht, -⟩ := format_display l c u false hne
    refine ⟨("I" ++ toString (b.2 + 1) ++ ": " ++ (if wrap then dollars t else t)) :: ls, ?_, by
      simp [hlen]⟩
    rw [List.mapM_cons, hl]
    simp [modeLine, formatBound, hb, ht, bind, Except.bind, pure, Except.pure]

/-- **C42** for several modes: if each bound has three limits that are not all zero, there is a text
with one line per mode, after a line for the label. -/
theorem C42_modes_partial (bs : List (Bound K)) (wrap : Bool) (label : Option String)
    (hl : 2 ≤ bs.length)
    (h : ∀ b ∈ bs, ∃ l c u, b = ⟨some l, some c, some u⟩ ∧ ¬ (l = 0 ∧ c = 0 ∧ u = 0)) :
    ∃ lines : List String, parameterText (some (.multi bs)) wrap label =
        .ok (String.intercalate "\n" lines) ∧
      lines.length = bs.length + (if label.getD "" = "" then 0 else 1) := by
  have hf : (bs.filter fun b => !b.allNone) = bs := by
    rw [List.filter_eq_self]
    intro b hb
    obtain ⟨l, c, u, rfl, -⟩ := h b hb
    rfl
  have hz : ∀ b ∈ bs.zipIdx, ∃ l c u, b.1 = ⟨some l, some c, some u⟩ ∧ ¬ (l = 0 ∧ c = 0 ∧ u = 0) := by
    intro b hb
    exact h b.1 (List.mem_zipIdx hb |>.2.2 ▸ List.getElem_mem _)
  obtain ⟨ls, hls, hlen⟩ := modeLines_ok wrap bs.zipIdx hz
  match bs, hl, hf, hls, hlen with
  | b1 :: b2 :: bs, _, hf, hls, hlen =>
    refine ⟨(if label.getD "" ≠ "" then
      [if wrap then dollars (label.getD "") else label.getD ""] else []) ++ ls, ?_, ?_⟩
    · simp only [parameterText]
      rw [hf, if_neg (by simp), hls]
      rfl
    · by_cases h0 : label.getD "" = "" <;> simp [h0, hlen]

/-- **C42** (violation). A bound whose three limits are all zero (a parameter that is constantly zero,
or a constant one after `shift_params`) raises OverflowError. -/
theorem C42_violated (wrap : Bool) (label : Option String) :
    parameterText (some (.single (⟨some 0, some 0, some 0⟩ : Bound K))) wrap label =
      .error .overflow := by
  have e : resolution ((0 : K) - 0) (0 - 0) 0 = none := by
    rw [resolution_eq, if_pos (scaleOf_eq_zero.2 ⟨rfl, rfl, rfl⟩)]
  simp only [parameterText, singleText, formatLimits, e, bind, Except.bind]

end

/-- **C40** (violation). Errors of 20 around 101.46: the centre is rounded to 101.5 and then to 102,
which is 0.54 units away. -/
theorem C40_violated :
    formatLimits (8146 / 100 : ℚ) (10146 / 100) (12146 / 100) true = .ok "102\\pm 20" ∧
      |(102 : ℚ) - 10146 / 100| > 1 / 2 := by
  refine ⟨?_, by norm_num⟩
  decide +kernel

example : formatLimits (1 : ℚ) (31415 / 10000) 6 true = .ok "3.1^{+2.9}_{-2.1}" := by decide +kernel
example : formatLimits (-1234 : ℚ) 0 56789 true =
    .ok "\\left( 0.0^{+56.8}_{-1.2} \\right) \\times 10^{3}" := by decide +kernel
example : formatLimits (-4 / 100 : ℚ) (-1 / 100) (2 / 100) true = .ok "-0.010\\pm 0.030" := by
  decide +kernel
example : formatLimits (1000 : ℚ) 1123 1246 true = .ok "1120\\pm 120" := by decide +kernel
example : parameterText (some (.multi [⟨some (1 : ℚ), some 2, some 3⟩, ⟨some 5, some 7, some 8⟩])) true
    (some "x") = .ok "$x$\nI1: $2.0^{+1.0}_{-1.0}$\nI2: $7.0^{+1.0}_{-2.0}$" := by decide +kernel

end CC
