import Verif.Props.Format

/-! # Which limits can be read off a displayed text -/

set_option linter.unusedSectionVars false

namespace CC
open Spec

variable {K : Type} [Field K] [LinearOrder K] [IsStrictOrderedRing K]

/-- The characters of numerals. -/
def numeric (c : Char) : Bool := c.isDigit || c == '-' || c == '.'

/-- A numeral without a digit other than zero. -/
def AllZero (s : List Char) : Prop := ∀ c ∈ s, c.isDigit = true → c = '0'

theorem natOf_zero (l : List Char) (h : ∀ c ∈ l, c.isDigit = true) : natOf l = 0 ↔ ∀ c ∈ l, c = '0' := by
  induction l using List.reverseRecOn with
  | nil => simp [natOf]
  | append_singleton l c ih =>
    have ih := ih fun d hd => h d (by simp [hd])
    have hc := h c (by simp)
    rw [natOf_append_single]
    have hdig : c.toNat - 48 = 0 ↔ c = '0' := by
      constructor
      · intro h0
        simp only [Char.isDigit, Bool.and_eq_true, decide_eq_true_eq] at hc
        have h1 : 48 ≤ c.toNat := hc.1
        have : c.toNat = 48 := by omega
        exact Char.toNat_inj.1 this
      · rintro rfl; rfl
    constructor
    · intro h0
      have h1 : natOf l = 0 := by omega
      have h2 : c.toNat - 48 = 0 := by omega
      intro d hd
      rcases List.mem_append.1 hd with hd | hd
      · exact ih.1 h1 d hd
      · rw [List.mem_singleton.1 hd]; exact hdig.1 h2
    · intro hall
      have h1 := ih.2 fun d hd => hall d (by simp [hd])
      have h2 := hdig.2 (hall c (by simp))
      omega

/-- Whether the value of a numeral is zero can be read off its digits. -/
theorem numeral_zero {s : String} {d : ℕ} {v : K} (h : Numeral s d v) : v = 0 ↔ AllZero s.toList := by
  obtain ⟨neg, ip, fp, hs, hip, hfp, hdig, rfl⟩ := h
  have h10 : (10 : K) ^ d ≠ 0 := pow_ne_zero _ (by norm_num)
  have hz : ((if neg then -1 else 1 : K) * ((natOf (ip ++ fp) : K) / 10 ^ d) = 0) ↔ natOf (ip ++ fp) = 0 := by
    rw [mul_eq_zero, div_eq_zero_iff]
    constructor
    · rintro (h | h | h)
      · cases neg <;> simp at h
      · exact_mod_cast h
      · exact absurd h h10
    · intro h
      exact .inr (.inl (by exact_mod_cast h))
  rw [hz, natOf_zero _ hdig, hs]
  unfold AllZero
  constructor
  · intro h c hc hd
    rcases List.mem_append.1 hc with hc | hc
    · rcases List.mem_append.1 hc with hc | hc
      · cases neg
        · simp at hc
        · rw [if_pos rfl, List.mem_singleton] at hc
          subst hc
          exact absurd hd (by decide)
      · exact h c (by simp [hc])
    · split at hc
      · simp at hc
      · rcases List.mem_cons.1 hc with rfl | hc
        · exact absurd hd (by decide)
        · exact h c (by simp [hc])
  · intro h c hc
    refine h c ?_ (hdig c hc)
    rcases List.mem_append.1 hc with hc | hc
    · simp [hc]
    · by_cases hd : d = 0
      · rw [hd] at hfp
        rw [List.length_eq_zero_iff.1 hfp] at hc
        simp at hc
      · simp [hd, hc]

theorem numeral_chars {s : String} {d : ℕ} {v : K} (h : Numeral s d v) : (∀ c ∈ s.toList, numeric c = true) ∧ s.toList ≠ [] := by
  obtain ⟨neg, ip, fp, hs, hip, hfp, hdig, -⟩ := h
  rw [hs]
  constructor
  · intro c hc
    rcases List.mem_append.1 hc with hc | hc
    · rcases List.mem_append.1 hc with hc | hc
      · cases neg
        · simp at hc
        · rw [if_pos rfl, List.mem_singleton] at hc
          subst hc
          decide
      · simp [numeric, hdig c (by simp [hc])]
    · split at hc
      · simp at hc
      · rcases List.mem_cons.1 hc with rfl | hc
        · decide
        · simp [numeric, hdig c (by simp [hc])]
  · intro h0
    simp at h0
    exact hip h0.2.1

/-- A text of numeric characters ends where another character follows. -/
theorem numeric_prefix {a b x y : List Char} (ha : ∀ c ∈ a, numeric c = true) (hb : ∀ c ∈ b, numeric c = true)
    (hx : ∀ c ∈ x.head?, numeric c = false) (hy : ∀ c ∈ y.head?, numeric c = false) (h : a ++ x = b ++ y) : a = b ∧ x = y := by
  have ht : ∀ (a x : List Char), (∀ c ∈ a, numeric c = true) → (∀ c ∈ x.head?, numeric c = false) →
      (a ++ x).takeWhile numeric = a := by
    intro a x ha hx
    rw [List.takeWhile_append_of_pos ha]
    cases x with
    | nil => simp
    | cons c x =>
      rw [List.takeWhile_cons_of_neg (by simpa using hx c (by simp))]
      simp
  have e : a = b := by rw [← ht a x ha hx, ← ht b y hb hy, h]
  subst e
  exact ⟨rfl, List.append_cancel_left h⟩

/-- The part of the layout between the brackets. -/
def body (pm : Bool) (C U L : String) : List Char :=
  if pm then C.toList ++ ('\\' :: ['p', 'm', ' '] ++ L.toList) else
    C.toList ++ ('^' :: ['{', '+'] ++ (U.toList ++ ('}' :: ['_', '{', '-'] ++ L.toList ++ ['}'])))

theorem layout_toList (pm : Bool) (k : ℤ) (C U L : String) : (layout pm k C U L).toList =
    if k = 0 then body pm C U L else
      '\\' :: ("left( ".toList ++ (body pm C U L ++ (" \\right) \\times 10^{".toList ++ (toString k).toList ++ ['}']))) := by
  unfold layout body
  by_cases hk : k = 0 <;> cases pm <;> simp [hk]

theorem body_read {pm pm' : Bool} {C U L C' U' L' : String} {x y : List Char} (hC : ∀ c ∈ C.toList, numeric c = true)
    (hC' : ∀ c ∈ C'.toList, numeric c = true) (hU : ∀ c ∈ U.toList, numeric c = true) (hU' : ∀ c ∈ U'.toList, numeric c = true)
    (hL : ∀ c ∈ L.toList, numeric c = true) (hL' : ∀ c ∈ L'.toList, numeric c = true) (hx : ∀ c ∈ x.head?, numeric c = false)
    (hy : ∀ c ∈ y.head?, numeric c = false) (h : body pm C U L ++ x = body pm' C' U' L' ++ y) :
    pm = pm' ∧ (if pm then L.toList = L'.toList else U.toList = U'.toList) := by
  cases pm <;> cases pm' <;> simp only [body, if_true, if_false, Bool.false_eq_true, List.append_assoc] at h ⊢
  · obtain ⟨-, h2⟩ := numeric_prefix hC hC' (by simp [numeric]) (by simp [numeric]) h
    simp only [List.cons_append, List.nil_append, List.cons.injEq, true_and] at h2
    obtain ⟨h3, -⟩ := numeric_prefix hU hU' (by simp [numeric]) (by simp [numeric]) h2
    exact ⟨trivial, h3⟩
  · obtain ⟨-, h2⟩ := numeric_prefix hC hC' (by simp [numeric]) (by simp [numeric]) h
    simp at h2
  · obtain ⟨-, h2⟩ := numeric_prefix hC hC' (by simp [numeric]) (by simp [numeric]) h
    simp at h2
  · obtain ⟨-, h2⟩ := numeric_prefix hC hC' (by simp [numeric]) (by simp [numeric]) h
    simp only [List.cons_append, List.nil_append, List.cons.injEq, true_and] at h2
    obtain ⟨h3, -⟩ := numeric_prefix hL hL' hx hy h2
    exact ⟨trivial, h3⟩

/-- From equal texts one reads equal errors. -/
theorem layout_read {pm pm' : Bool} {k k' : ℤ} {C U L C' U' L' : String} {d d' : ℕ} {vc vu vl vc' vu' vl' : K}
    (hC : Numeral C d vc) (hU : Numeral U d vu) (hL : Numeral L d vl) (hC' : Numeral C' d' vc') (hU' : Numeral U' d' vu')
    (hL' : Numeral L' d' vl') (h : layout pm k C U L = layout pm' k' C' U' L') :
    pm = pm' ∧ (if pm then L.toList = L'.toList else U.toList = U'.toList) := by
  have hl := congrArg String.toList h
  rw [layout_toList, layout_toList] at hl
  have hstart : ∀ (pm : Bool) (C U L : String) (d : ℕ) (vc : K), Numeral C d vc → ∃ c r, body pm C U L = c :: r ∧ numeric c = true := by
    intro pm C U L d vc hC
    obtain ⟨h1, h2⟩ := numeral_chars hC
    obtain ⟨c, r, e⟩ := List.exists_cons_of_ne_nil h2
    refine ⟨c, ?_⟩
    cases pm
    · exact ⟨_, by simp only [body, e]; rfl, h1 c (by simp [e])⟩
    · exact ⟨_, by simp only [body, e]; rfl, h1 c (by simp [e])⟩
  have c1 := (numeral_chars hC).1
  have c2 := (numeral_chars hC').1
  have u1 := (numeral_chars hU).1
  have u2 := (numeral_chars hU').1
  have l1 := (numeral_chars hL).1
  have l2 := (numeral_chars hL').1
  by_cases hk : k = 0 <;> by_cases hk' : k' = 0 <;> simp only [hk, hk', if_true, if_false] at hl
  · exact body_read (x := []) (y := []) c1 c2 u1 u2 l1 l2 (by simp) (by simp) (by simpa using hl)
  · exfalso
    obtain ⟨c, r, e, hc⟩ := hstart pm C U L d vc hC
    rw [e] at hl
    have := (List.cons.inj hl).1
    rw [this] at hc
    exact absurd hc (by decide)
  · exfalso
    obtain ⟨c, r, e, hc⟩ := hstart pm' C' U' L' d' vc' hC'
    rw [e] at hl
    have := (List.cons.inj hl).1
    rw [← this] at hc
    exact absurd hc (by decide)
  · have h2 := List.append_cancel_left (List.cons.inj hl).2
    exact body_read c1 c2 u1 u2 l1 l2 (by simp [numeric]) (by simp [numeric]) h2

/-- A bound with two errors is displayed differently from one without an upper error, if that is smaller than 100. -/
theorem display_ne [FloorRing K] {l c u l' c' : K} {pm pm' : Bool} (hu : u ≠ c) (hl : l ≠ c) (hs : scaleOf l' c' c' < 100) {t t' : String}
    (h : formatLimits l c u pm = .ok t) (h' : formatLimits l' c' c' pm' = .ok t') : t ≠ t' := by
  obtain ⟨text, q, k, d, C, U, L, vc, vu, vl, unit, h1, rfl, hC, hU, hL, hunit, h2, h3⟩ := C41_two_digits l c u pm hu hl
  rw [h] at h1
  cases h1
  obtain ⟨q', k', d', C', U', L', vc', vu', vl', unit', rfl, hC', hU', hL', hq', hunit', h4⟩ := C40_display_partial l' c' c' pm' t' h'
  have hunit1 : unit' = 10 ^ (k' - d') := by
    rcases hunit' with h5 | ⟨-, -, -, h5, -⟩
    · exact h5
    · exact absurd hs (not_lt.2 h5)
  have hpos : (0 : K) < unit := by
    rcases hunit with h5 | ⟨h5, -⟩
    · rw [h5]; positivity
    · rw [h5]; norm_num
  have hvu : vu ≠ 0 := by
    rintro rfl
    simp at h2
    linarith
  have hvl : vl ≠ 0 := by
    rintro rfl
    simp at h3
    linarith
  have hvu' : vu' = 0 := by
    obtain ⟨-, h5, -⟩ := h4
    rw [sub_self, sub_zero] at h5
    obtain ⟨neg, ip, fp, hs', -, -, -, hv⟩ := hU'
    have h10 : (0 : K) < 10 ^ k' := by positivity
    have hn : (natOf (ip ++ fp) : K) < 1 := by
      have e1 : |vu' * 10 ^ k'| = natOf (ip ++ fp) * unit' := by
        have hneg : |(if neg then -1 else 1 : K)| = 1 := by cases neg <;> simp
        rw [hv, abs_mul, abs_mul, hneg, one_mul, abs_of_nonneg (by positivity), abs_of_pos h10, hunit1,
          zpow_sub₀ (by norm_num), zpow_natCast]
        ring
      have hp : 0 < unit' := by rw [hunit1]; positivity
      rw [e1] at h5
      have : (natOf (ip ++ fp) : K) * unit' ≤ 11 / 20 * unit' := by
        refine h5.trans (mul_le_mul_of_nonneg_right ?_ hp.le)
        split <;> norm_num
      have := le_of_mul_le_mul_right this hp
      linarith [(by norm_num : (11 / 20 : K) < 1)]
    have h0 : natOf (ip ++ fp) = 0 := by
      have : natOf (ip ++ fp) < 1 := by exact_mod_cast hn
      omega
    rw [hv, h0]
    simp
  intro heq
  obtain ⟨rfl, hread⟩ := layout_read hC hU hL hC' hU' hL' heq
  cases q with
  | false =>
    simp only [Bool.false_eq_true, if_false] at hread
    exact hvu ((numeral_zero hU).2 (by rw [hread]; exact (numeral_zero hU').1 hvu'))
  | true =>
    simp only [if_true] at hread
    have hUL : U' = L' := (hq'.1 rfl).2
    exact hvl ((numeral_zero hL).2 (by rw [hread, ← hUL]; exact (numeral_zero hU').1 hvu'))

end CC
