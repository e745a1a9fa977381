import Verif.Model.Format
import Verif.Spec.Format
import Mathlib.Tactic.Linarith
import Mathlib.Tactic.Ring
import Mathlib.Tactic.FieldSimp
import Mathlib.Tactic.IntervalCases
import Mathlib.Data.Nat.Digits.Lemmas

/-! # Lemmas about rounding and decimal texts -/

set_option linter.unusedSectionVars false

namespace CC
open Spec

theorem digitChar_toNat {n : Nat} (h : n < 10) : (digitChar n).toNat - 48 = n := by
  interval_cases n <;> decide

theorem digitChar_isDigit {n : Nat} (h : n < 10) : (digitChar n).isDigit = true := by
  interval_cases n <;> decide

theorem natOf_append_single (l : List Char) (c : Char) :
    natOf (l ++ [c]) = 10 * natOf l + (c.toNat - 48) := by
  simp [natOf]

theorem natOf_append (a b : List Char) : natOf (a ++ b) = natOf a * 10 ^ b.length + natOf b := by
  induction b using List.reverseRecOn with
  | nil => simp [natOf]
  | append_singleton b c ih =>
    rw [← List.append_assoc, natOf_append_single, natOf_append_single, ih]
    simp [pow_succ]; ring

theorem natOf_digits (l : List Nat) (h : ∀ d ∈ l, d < 10) :
    natOf (l.reverse.map digitChar) = Nat.ofDigits 10 l := by
  induction l with
  | nil => simp [natOf]
  | cons d l ih =>
    rw [List.reverse_cons, List.map_append, List.map_singleton, natOf_append_single,
      ih (fun x hx => h x (List.mem_cons_of_mem _ hx)), digitChar_toNat (h d (by simp)),
      Nat.ofDigits_cons]
    omega

theorem natOf_decDigits (n : Nat) : natOf (decDigits n) = n := by
  unfold decDigits
  by_cases h : n = 0
  · rw [if_pos h, h]; rfl
  · rw [if_neg h, natOf_digits _ (fun d hd => Nat.digits_lt_base (by norm_num) hd),
      Nat.ofDigits_digits]

theorem decDigits_ne_nil (n : Nat) : decDigits n ≠ [] := by
  unfold decDigits
  by_cases h : n = 0
  · rw [if_pos h]; simp
  · rw [if_neg h]; simpa using Nat.digits_ne_nil_iff_ne_zero.2 h

theorem decDigits_isDigit (n : Nat) : ∀ c ∈ decDigits n, c.isDigit = true := by
  unfold decDigits
  by_cases h : n = 0
  · rw [if_pos h]; simp
  · rw [if_neg h]
    intro c hc
    obtain ⟨d, hd, rfl⟩ := List.mem_map.1 hc
    exact digitChar_isDigit (Nat.digits_lt_base (by norm_num) (List.mem_reverse.1 hd))

theorem lastDigits_succ (d n : Nat) :
    lastDigits (d + 1) n = lastDigits d (n / 10) ++ [digitChar (n % 10)] := by
  unfold lastDigits
  rw [List.range_succ, List.map_append, List.map_singleton]
  congr 1
  · apply List.map_congr_left
    intro i hi
    have hi' := List.mem_range.1 hi
    congr 2
    rw [Nat.div_div_eq_div_mul, ← pow_succ']
    congr 2
    omega
  · simp

theorem lastDigits_length (d n : Nat) : (lastDigits d n).length = d := by simp [lastDigits]

theorem natOf_lastDigits (d n : Nat) (h : n < 10 ^ d) : natOf (lastDigits d n) = n := by
  induction d generalizing n with
  | zero => have : n = 0 := by simpa using h
            subst this; rfl
  | succ d ih =>
    rw [lastDigits_succ, natOf_append_single, ih _ (by rw [pow_succ] at h; omega),
      digitChar_toNat (Nat.mod_lt _ (by norm_num))]
    omega

theorem lastDigits_isDigit (d n : Nat) : ∀ c ∈ lastDigits d n, c.isDigit = true := by
  intro c hc
  obtain ⟨i, -, rfl⟩ := List.mem_map.1 hc
  exact digitChar_isDigit (Nat.mod_lt _ (by norm_num))

section
variable {K : Type} [Field K] [LinearOrder K] [IsStrictOrderedRing K] [FloorRing K]

/-- The text of a rounded number is a numeral for it. -/
theorem text_numeral (d : Nat) (s : Signed K) :
    Numeral (s.text d) d ((if s.neg then -1 else 1) * ((halfEven (s.abs * 10 ^ d) : K) / 10 ^ d)) := by
  generalize hn : halfEven (s.abs * 10 ^ d) = n
  refine ⟨s.neg, decDigits (n / 10 ^ d), lastDigits d (n % 10 ^ d), ?_, decDigits_ne_nil _,
    lastDigits_length _ _, ?_, ?_⟩
  · simp only [Signed.text, hn, unitsText, String.toList_ofList, List.append_assoc]
  · intro c hc
    rcases List.mem_append.1 hc with h | h
    · exact decDigits_isDigit _ c h
    · exact lastDigits_isDigit _ _ c h
  · rw [natOf_append, natOf_decDigits, lastDigits_length,
      natOf_lastDigits _ _ (Nat.mod_lt _ (by positivity)), Nat.div_add_mod']

theorem toNat_floor_spec {x : K} (hx : 0 ≤ x) :
    ((⌊x⌋.toNat : Nat) : K) ≤ x ∧ x < (⌊x⌋.toNat : Nat) + 1 := by
  have h0 : 0 ≤ ⌊x⌋ := Int.floor_nonneg.2 hx
  have e : ((⌊x⌋.toNat : Nat) : K) = ((⌊x⌋ : Int) : K) := by
    have : ((⌊x⌋.toNat : Nat) : Int) = ⌊x⌋ := Int.toNat_of_nonneg h0
    rw [← Int.cast_natCast, this]
  rw [e]
  exact ⟨Int.floor_le x, Int.lt_floor_add_one x⟩

theorem halfEven_spec {x : K} (hx : 0 ≤ x) : |(halfEven x : K) - x| ≤ 1 / 2 := by
  obtain ⟨h1, h2⟩ := toNat_floor_spec hx
  unfold halfEven
  simp only
  generalize ⌊x⌋.toNat = f at h1 h2
  rw [abs_le]
  by_cases c1 : x - f < 1 / 2
  · rw [if_pos c1]; constructor <;> linarith
  rw [if_neg c1]
  by_cases c2 : 1 / 2 < x - f
  · rw [if_pos c2]; push_cast; constructor <;> linarith
  rw [if_neg c2]
  by_cases c3 : f % 2 = 0
  · rw [if_pos c3]; constructor <;> linarith
  · rw [if_neg c3]; push_cast; constructor <;> linarith

theorem halfEven_natCast (n : Nat) : halfEven (n : K) = n := by
  have h := halfEven_spec (Nat.cast_nonneg (α := K) n)
  have h3 : |((halfEven (n : K) : Int) : K) - ((n : Int) : K)| < 1 := by
    push_cast; linarith
  rw [← Int.cast_sub, ← Int.cast_abs] at h3
  have h4 : |(halfEven (n : K) : Int) - (n : Int)| < 1 := by exact_mod_cast h3
  have := Int.abs_lt_one_iff.1 h4
  omega

theorem halfEven_ge {x : K} (n : Nat) (h : (n : K) ≤ x) : n ≤ halfEven x := by
  have hx : 0 ≤ x := le_trans (Nat.cast_nonneg n) h
  have h1 := (abs_le.1 (halfEven_spec hx)).1
  have h2 : ((n : K)) < (halfEven x : K) + 1 := by linarith
  have : n < halfEven x + 1 := by exact_mod_cast h2
  omega

end
end CC
