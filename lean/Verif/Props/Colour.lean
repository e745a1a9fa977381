import Verif.Lemmas.Colour
import Verif.Spec.Colour
import Mathlib.Algebra.Order.Floor.Ring
import Mathlib.Tactic.NormNum
import Mathlib.Tactic.Positivity
import Mathlib.Data.Rat.Floor

/-! # C53, C54: colour names and scaled colours -/

namespace CC
open Spec

/-- **C53, partial** (names). Every palette name gives the fifth of its nine shades; every alias
except `e` gives a shade of the palette. Missing: the alias `e`, for which it is false
(`C53_violated_alias_e`). -/
theorem C53_names_partial :
    (∀ n l, (n, l) ∈ Colors.allColours → ∃ c, Colors.format (some n) = .ok c ∧ l[4]? = some c) ∧
    (∀ n t, (n, t) ∈ Colors.aliases → n ≠ "e" → ∃ c l, Colors.format (some n) = .ok c ∧
      (t, l) ∈ Colors.allColours ∧
      l[if n = "k" ∨ n = "black" then 8 else if n = "f" ∨ n = "white" then 0 else 4]? = some c) := by
  constructor
  · have h : ∀ p ∈ Colors.allColours, ∃ c ∈ p.2, Colors.format (some p.1) = .ok c ∧
        p.2[4]? = some c := by decide +kernel
    intro n l hm
    obtain ⟨c, -, hc⟩ := h (n, l) hm
    exact ⟨c, hc⟩
  · have h : ∀ p ∈ Colors.aliases, p.1 ≠ "e" → ∃ q ∈ Colors.allColours, q.1 = p.2 ∧ ∃ c ∈ q.2,
        Colors.format (some p.1) = .ok c ∧ q.2[if p.1 = "k" ∨ p.1 = "black" then 8
          else if p.1 = "f" ∨ p.1 = "white" then 0 else 4]? = some c := by decide +kernel
    intro n t hm hne
    obtain ⟨⟨t', l⟩, hq, rfl, c, -, h1, h2⟩ := h (n, t) hm hne
    exact ⟨c, l, h1, hq, h2⟩

/-- **C53, violated.** The documented alias `e` raises KeyError. -/
theorem C53_violated_alias_e : "e" ∈ Colors.aliases.map Prod.fst ∧
    Colors.format (some "e") = .error .key := by decide +kernel

/-- **C53** (idempotence). Whatever was accepted is a fixed hex code, for every input string. -/
theorem C53_format_idempotent (s c : String) (h : Colors.format (some s) = .ok c) :
    Colors.format (some c) = .ok c ∧ c.toList.head? = some '#' ∧
      (s.toList.head? ≠ some '#' → ∃ p ∈ Colors.allColours, c ∈ p.2) := by
  obtain ⟨h1, -, h3⟩ := format_result h
  exact ⟨format_hash h1, h1, h3⟩

/-- **C53** (rejection). Every nonempty string that is not a hex code, a palette name or an alias is
rejected with ValueError. The empty string is rejected too, but with IndexError
(`C53_violated_empty`). -/
theorem C53_unknown_rejected (s : String) (h1 : s.toList.head? ≠ some '#') (h0 : s ≠ "")
    (h2 : s ∉ Colors.allColours.map Prod.fst) (h3 : s ∉ Colors.aliases.map Prod.fst) :
    Colors.format (some s) = .error .value := by
  rw [format_not_hash h1 h0]
  have e1 : Colors.allColours.lookup s = none := by
    rw [← lookup_isSome_iff] at h2; exact Option.not_isSome_iff_eq_none.1 h2
  have e2 : Colors.aliases.lookup s = none := by
    rw [← lookup_isSome_iff] at h3; exact Option.not_isSome_iff_eq_none.1 h3
  simp [e1, e2]

/-- **C53, violated.** The empty string raises IndexError instead of ValueError. -/
theorem C53_violated_empty : Colors.format (some "") = .error .index := rfl

example : Colors.format (some "crimson") = .error .value :=
  C53_unknown_rejected _ (by decide) (by decide) (by decide +kernel) (by decide +kernel)

/-! ### Scaling -/

theorem hexVal_eq (c : Char) : Colors.hexVal c = digits.lookup c := by
  have hle : ∀ a b : Char, a ≤ b ↔ a.toNat ≤ b.toNat := fun a b => Iff.rfl
  by_cases h : c.toNat < 128
  · have key : ∀ n : Nat, n < 128 → Colors.hexVal (Char.ofNat n) = digits.lookup (Char.ofNat n) := by
      decide +kernel
    have := key c.toNat h
    rwa [Char.ofNat_toNat] at this
  · have h1 : Colors.hexVal c = none := by
      have e1 : ('9' : Char).toNat = 57 := rfl
      have e2 : ('f' : Char).toNat = 102 := rfl
      have e3 : ('F' : Char).toNat = 70 := rfl
      simp only [Colors.hexVal, hle, e1, e2, e3]
      rw [if_neg (by omega), if_neg (by omega), if_neg (by omega)]
    have h2 : c ∉ digits.map Prod.fst := by
      intro hm
      have : ∀ d ∈ digits.map Prod.fst, d.toNat < 128 := by decide
      exact h (this c hm)
    rw [h1]
    rw [← lookup_isSome_iff] at h2
    exact (Option.not_isSome_iff_eq_none.1 h2).symm

theorem digits_lt {c : Char} {n : Nat} (h : digits.lookup c = some n) : n < 16 ∧ c ≠ '#' := by
  have := lookup_mem h
  have key : ∀ p ∈ digits, p.2 < 16 ∧ p.1 ≠ '#' := by decide
  exact key _ this

theorem digits_hexDigit {n : Nat} (h : n < 16) : digits.lookup (Colors.hexDigit n) = some n := by
  have key : ∀ n : Nat, n < 16 → digits.lookup (Colors.hexDigit n) = some n := by decide +kernel
  exact key n h

theorem rgb_some {s : String} {r g b : Nat} (h : rgb s = some (r, g, b)) :
    ∃ r1 r0 g1 g0 b1 b0 x1 x0 y1 y0 z1 z0, s.toList = ['#', r1, r0, g1, g0, b1, b0] ∧
      digits.lookup r1 = some x1 ∧ digits.lookup r0 = some x0 ∧
      digits.lookup g1 = some y1 ∧ digits.lookup g0 = some y0 ∧
      digits.lookup b1 = some z1 ∧ digits.lookup b0 = some z0 ∧
      r = 16 * x1 + x0 ∧ g = 16 * y1 + y0 ∧ b = 16 * z1 + z0 := by
  simp only [rgb] at h
  split at h
  · rename_i r1 r0 g1 g0 b1 b0 heq
    simp only [Option.bind_eq_bind, Option.bind_eq_some_iff, Option.pure_def, Option.some.injEq,
      Prod.mk.injEq] at h
    obtain ⟨x1, e1, x0, e2, y1, e3, y0, e4, z1, e5, z0, e6, h1, h2, h3⟩ := h
    exact ⟨r1, r0, g1, g0, b1, b0, x1, x0, y1, y0, z1, z0, heq, e1, e2, e3, e4, e5, e6,
      h1.symm, h2.symm, h3.symm⟩
  · cases h

section
variable {K : Type} [Field K] [LinearOrder K] [IsStrictOrderedRing K] [FloorRing K]

omit [IsStrictOrderedRing K] in
theorem clamp_floor {x : K} (hx : 0 ≤ x) :
    (Colors.clamp ⌊x⌋).toNat = min 255 ⌊x⌋.toNat ∧ (Colors.clamp ⌊x⌋).toNat < 256 := by
  have : 0 ≤ ⌊x⌋ := Int.floor_nonneg.2 hx
  unfold Colors.clamp
  split
  · omega
  · split <;> omega

/-- **C54.** Scaling a colour `#rrggbb` by any factor `s ≥ 0` gives a colour of the same form whose
channels are `min 255 ⌊s·channel⌋`. -/
theorem C54_scaled_channels (c : String) (r g b : Nat) (h : rgb c = some (r, g, b)) (s : K)
    (hs : 0 ≤ s) :
    ∃ t, Colors.scaleColour (some c) s = .ok t ∧
      rgb t = some (min 255 ⌊(r : K) * s⌋.toNat, min 255 ⌊(g : K) * s⌋.toNat,
        min 255 ⌊(b : K) * s⌋.toNat) := by
  obtain ⟨r1, r0, g1, g0, b1, b0, x1, x0, y1, y0, z1, z0, hc, e1, e2, e3, e4, e5, e6, rfl, rfl, rfl⟩
    := rgb_some h
  have hstrip : Colors.stripHash c.toList = [r1, r0, g1, g0, b1, b0] := by
    rw [hc]
    simp [Colors.stripHash, (digits_lt e1).2, (digits_lt e6).2]
  have hf : Colors.format (some c) = .ok c := format_hash (by rw [hc]; rfl)
  have hneg : ¬ s < 0 := not_lt.2 hs
  refine ⟨String.ofList ('#' :: (Colors.hex2 (Colors.clamp ⌊((16 * x1 + x0 : Nat) : K) * s⌋).toNat
      ++ Colors.hex2 (Colors.clamp ⌊((16 * y1 + y0 : Nat) : K) * s⌋).toNat
      ++ Colors.hex2 (Colors.clamp ⌊((16 * z1 + z0 : Nat) : K) * s⌋).toNat)), ?_, ?_⟩
  · simp only [Colors.scaleColour, Colors.scaleColourWith, hf, bind, Except.bind, hstrip, hneg,
      decide_false, Colors.hexPair, hexVal_eq, e1, e2, e3, e4, e5, e6]
    rfl
  · have hx : (0 : K) ≤ ((16 * x1 + x0 : Nat) : K) * s := by positivity
    have hy : (0 : K) ≤ ((16 * y1 + y0 : Nat) : K) * s := by positivity
    have hz : (0 : K) ≤ ((16 * z1 + z0 : Nat) : K) * s := by positivity
    obtain ⟨a1, a2⟩ := clamp_floor hx
    obtain ⟨b1, b2⟩ := clamp_floor hy
    obtain ⟨c1, c2⟩ := clamp_floor hz
    generalize (Colors.clamp ⌊((16 * x1 + x0 : Nat) : K) * s⌋).toNat = R at a1 a2
    generalize (Colors.clamp ⌊((16 * y1 + y0 : Nat) : K) * s⌋).toNat = G at b1 b2
    generalize (Colors.clamp ⌊((16 * z1 + z0 : Nat) : K) * s⌋).toNat = B at c1 c2
    rw [← a1, ← b1, ← c1]
    have hd : ∀ n, n < 256 → digits.lookup (Colors.hexDigit (n / 16)) = some (n / 16) ∧
        digits.lookup (Colors.hexDigit (n % 16)) = some (n % 16) := fun n hn =>
      ⟨digits_hexDigit (by omega), digits_hexDigit (by omega)⟩
    simp only [rgb, Colors.hex2, String.toList_ofList, List.cons_append, List.nil_append,
      (hd R a2).1, (hd R a2).2, (hd G b2).1, (hd G b2).2, (hd B c2).1, (hd B c2).2,
      Option.bind_eq_bind, Option.bind_some, Option.pure_def, Nat.div_add_mod]

/-- **C54** (bounds). The channels of a hex colour are at most 255. -/
theorem rgb_le {c : String} {r g b : Nat} (h : rgb c = some (r, g, b)) :
    r ≤ 255 ∧ g ≤ 255 ∧ b ≤ 255 := by
  obtain ⟨r1, r0, g1, g0, b1, b0, x1, x0, y1, y0, z1, z0, hc, e1, e2, e3, e4, e5, e6, rfl, rfl, rfl⟩
    := rgb_some h
  have := (digits_lt e1).1; have := (digits_lt e2).1; have := (digits_lt e3).1
  have := (digits_lt e4).1; have := (digits_lt e5).1; have := (digits_lt e6).1
  omega

/-- **C54** (monotone, identity, black). Larger factors give channelwise larger colours; factor 1
keeps the channels; factor 0 gives black. -/
theorem C54_monotone_identity_black (c : String) (p : Nat × Nat × Nat) (h : rgb c = some p) :
    (∀ s s' : K, 0 ≤ s → s ≤ s' → ∃ t t' q q', Colors.scaleColour (some c) s = .ok t ∧
      Colors.scaleColour (some c) s' = .ok t' ∧ rgb t = some q ∧ rgb t' = some q' ∧
      q.1 ≤ q'.1 ∧ q.2.1 ≤ q'.2.1 ∧ q.2.2 ≤ q'.2.2) ∧
    (∃ t, Colors.scaleColour (some c) (1 : K) = .ok t ∧ rgb t = some p) ∧
    (∃ t, Colors.scaleColour (some c) (0 : K) = .ok t ∧ rgb t = some (0, 0, 0)) := by
  obtain ⟨r, g, b⟩ := p
  refine ⟨?_, ?_, ?_⟩
  · intro s s' hs hss
    obtain ⟨t, h1, h2⟩ := C54_scaled_channels c r g b h s hs
    obtain ⟨t', h1', h2'⟩ := C54_scaled_channels c r g b h s' (hs.trans hss)
    refine ⟨t, t', _, _, h1, h1', h2, h2', ?_, ?_, ?_⟩
    all_goals
      apply min_le_min le_rfl
      apply Int.toNat_le_toNat
      apply Int.floor_le_floor
      exact mul_le_mul_of_nonneg_left hss (Nat.cast_nonneg _)
  · obtain ⟨t, h1, h2⟩ := C54_scaled_channels c r g b h (1 : K) zero_le_one
    refine ⟨t, h1, ?_⟩
    obtain ⟨k1, k2, k3⟩ := rgb_le h
    rw [h2]
    simp [k1, k2, k3]
  · obtain ⟨t, h1, h2⟩ := C54_scaled_channels c r g b h (0 : K) le_rfl
    exact ⟨t, h1, by rw [h2]; simp⟩

end

example : rgb "#84cc16" = some (132, 204, 22) := by decide +kernel

example : ∃ t, Colors.scaleColour (K := ℚ) (some "#84cc16") (3 / 2) = .ok t ∧
    rgb t = some (198, 255, 33) := by
  obtain ⟨t, h1, h2⟩ := C54_scaled_channels (K := ℚ) "#84cc16" 132 204 22 (by decide +kernel)
    (3 / 2) (by norm_num)
  refine ⟨t, h1, ?_⟩
  rw [h2]
  have e1 : ⌊((132 : Nat) : ℚ) * (3 / 2)⌋ = 198 := by rw [Int.floor_eq_iff]; norm_num
  have e2 : ⌊((204 : Nat) : ℚ) * (3 / 2)⌋ = 306 := by rw [Int.floor_eq_iff]; norm_num
  have e3 : ⌊((22 : Nat) : ℚ) * (3 / 2)⌋ = 33 := by rw [Int.floor_eq_iff]; norm_num
  rw [e1, e2, e3]; rfl

end CC
