import Verif.Model.Colormap
import Verif.Props.Colour
import Verif.Lemmas.Format
import Verif.Lemmas.Numpy

/-! # C104, C105: colours given as numbers, default colours and colour maps -/

namespace CC
open Spec

section
variable {K : Type} [Field K] [LinearOrder K] [IsStrictOrderedRing K] [FloorRing K]

theorem halfEven_channel {x : K} (h0 : 0 ≤ x) (h1 : x ≤ 1) : halfEven (x * 255) < 256 := by
  have h := (abs_le.1 (halfEven_spec (mul_nonneg h0 (by norm_num : (0 : K) ≤ 255)))).2
  have h2 : (halfEven (x * 255) : K) < 256 := by linarith
  exact_mod_cast h2

/-- The nearest channel to a number from 0 to 1. -/
def Spec.Channel (x : K) (n : Nat) : Prop := n ≤ 255 ∧ |(n : K) - x * 255| ≤ 1 / 2

theorem rgb2hex_three {x y z : K} (hx : 0 ≤ x ∧ x ≤ 1) (hy : 0 ≤ y ∧ y ≤ 1) (hz : 0 ≤ z ∧ z ≤ 1) (l : List K)
    (hl : l = [] ∨ ∃ a, 0 ≤ a ∧ a ≤ 1 ∧ l = [a]) :
    ∃ s, Colors.rgb2hex (x :: y :: z :: l) = .ok s ∧ s.toList.head? = some '#' ∧
      rgb s = some (halfEven (x * 255), halfEven (y * 255), halfEven (z * 255)) := by
  have e1 := halfEven_channel hx.1 hx.2
  have e2 := halfEven_channel hy.1 hy.2
  have e3 := halfEven_channel hz.1 hz.2
  refine ⟨String.ofList ('#' :: (Colors.hex2 (halfEven (x * 255)) ++ (Colors.hex2 (halfEven (y * 255)) ++
    (Colors.hex2 (halfEven (z * 255)) ++ [])))), ?_, ?_, ?_⟩
  · rcases hl with rfl | ⟨a, ha0, ha1, rfl⟩
    · simp [Colors.rgb2hex, ensure, hx, hy, hz, bind, Except.bind, pure, Except.pure]
    · simp [Colors.rgb2hex, ensure, hx, hy, hz, ha0, ha1, bind, Except.bind, pure, Except.pure]
  · rw [String.toList_ofList]; rfl
  · generalize halfEven (x * 255) = R at e1
    generalize halfEven (y * 255) = G at e2
    generalize halfEven (z * 255) = B at e3
    have hd : ∀ n, n < 256 → digits.lookup (Colors.hexDigit (n / 16)) = some (n / 16) ∧
        digits.lookup (Colors.hexDigit (n % 16)) = some (n % 16) := fun n hn =>
      ⟨digits_hexDigit (by omega), digits_hexDigit (by omega)⟩
    simp only [rgb, Colors.hex2, String.toList_ofList, List.cons_append, List.nil_append,
      (hd R e1).1, (hd R e1).2, (hd G e2).1, (hd G e2).2, (hd B e3).1, (hd B e3).2,
      Option.bind_eq_bind, Option.bind_some, Option.pure_def, Nat.div_add_mod]

/-- **C104.** A colour given as a list of numbers is accepted exactly if there are three or four of them, all from 0 to 1. The
chain then has the hex colour with the nearest channels, the fourth number is ignored. -/
theorem C104_numbers (v : List K) :
    (∀ x y z l, v = x :: y :: z :: l → l.length ≤ 1 → (∀ u ∈ v, 0 ≤ u ∧ u ≤ 1) →
      ∃ s r g b, Colors.validateInput (some (.numbers v)) = .ok (some s) ∧ Colors.formatInput (some (.numbers v)) = .ok s ∧
        rgb s = some (r, g, b) ∧ Channel x r ∧ Channel y g ∧ Channel z b) ∧
    ((v.length ≠ 3 ∧ v.length ≠ 4 ∨ ∃ u ∈ v, u < 0 ∨ 1 < u) →
      Colors.formatInput (some (.numbers v)) = .error .value ∧
      Colors.validateInput (some (.numbers v)) = .error .validation) := by
  constructor
  · rintro x y z l rfl hl hv
    simp only [List.mem_cons, forall_eq_or_imp] at hv
    obtain ⟨hx, hy, hz, hr⟩ := hv
    obtain ⟨s, h1, h2, h3⟩ := rgb2hex_three hx hy hz l (by
      match l, hl with
      | [], _ => exact Or.inl rfl
      | [a], _ => exact Or.inr ⟨a, (hr a (by simp)).1, (hr a (by simp)).2, rfl⟩)
    have hf := format_hash h2
    have hc : ∀ u : K, 0 ≤ u ∧ u ≤ 1 → Channel u (halfEven (u * 255)) := fun u hu =>
      ⟨Nat.lt_succ_iff.1 (halfEven_channel hu.1 hu.2), halfEven_spec (mul_nonneg hu.1 (by norm_num))⟩
    refine ⟨s, _, _, _, ?_, ?_, h3, hc x hx, hc y hy, hc z hz⟩
    · simp only [Colors.validateInput, Colors.formatInput, h1, hf, bind, Except.bind]
    · simp only [Colors.formatInput, h1, hf, bind, Except.bind]
  · intro h
    have hf : Colors.rgb2hex v = .error .value := by
      unfold Colors.rgb2hex
      rcases h with ⟨h3, h4⟩ | ⟨u, hu, hout⟩
      · simp [h3, h4, ensure, bind, Except.bind]
      · have : (v.all fun x => decide (0 ≤ x) && decide (x ≤ 1)) = false := by
          rw [List.all_eq_false]
          refine ⟨u, hu, ?_⟩
          rcases hout with h | h
          · simp [not_le.2 h]
          · simp [not_le.2 h]
        rw [this]
        cases hb : (decide (v.length = 3) || decide (v.length = 4)) <;> simp [ensure, bind, Except.bind]
    constructor
    · simp only [Colors.formatInput, hf, bind, Except.bind]
    · simp only [Colors.validateInput, Colors.formatInput, hf, bind, Except.bind]

omit [IsStrictOrderedRing K] in
/-- Texts are validated as in the model of the constructor, which knows no other colours. -/
theorem C104_text (v : Option String) : Colors.validateInput (v.map (Colors.Input.text (K := K))) = validateColor v := by
  cases v with
  | none => rfl
  | some s => rfl

omit [IsStrictOrderedRing K] in
/-- **C105** (default colours). `get_default` gives eleven distinct hex colours, the ones that the first eleven chains without
a colour get. -/
theorem C105_default : ∃ l : List String, Colors.getDefault (K := K) = .ok l ∧ l.length = 11 ∧ l.Nodup ∧
    (∀ s ∈ l, (rgb s).isSome) ∧ Colors.nextColours.take 11 = l.map .ok := by
  have h : Colors.getDefault (K := K) = Colors.defaultColors.mapM fun s => Colors.format (some s) := by
    simp only [Colors.getDefault, Colors.getFormatted, List.mapM_map]
    rfl
  have h1 : ∃ l, (Colors.defaultColors.mapM fun s => Colors.format (some s)) = .ok l ∧ l.length = 11 ∧ l.Nodup ∧
    (∀ s ∈ l, (rgb s).isSome) ∧ Colors.nextColours.take 11 = l.map .ok := by
    exact ⟨["#3b82f6", "#10b981", "#ef4444", "#a855f7", "#f59e0b", "#71717a", "#06b6d4", "#14b8a6", "#22c55e", "#f97316", "#6366f1"],
      by decide +kernel⟩
  rw [h]
  exact h1

/-- The brightness of the `i`-th of `n` colours: 1 at both ends, falling evenly to `scale` in the middle. -/
def Spec.mapBrightness (scale : K) (n i : Nat) : K := scale + (1 - scale) * |1 - 2 * (i : K) / ((n : K) - 1)|

/-- A colour map: three or four numbers from 0 to 1 at every place. -/
def Spec.ColourMap (cmap : K → List K) : Prop := ∀ t, ∃ x y z l, cmap t = x :: y :: z :: l ∧ l.length ≤ 1 ∧ ∀ u ∈ cmap t, 0 ≤ u ∧ u ≤ 1

theorem mapBrightness_bounds {n i : Nat} (hi : i < n) :
    0 ≤ |1 - 2 * (i : K) / ((n : K) - 1)| ∧ |1 - 2 * (i : K) / ((n : K) - 1)| ≤ 1 := by
  refine ⟨abs_nonneg _, ?_⟩
  have h1 : (i : K) + 1 ≤ n := by exact_mod_cast hi
  have h2 : (0 : K) ≤ i := Nat.cast_nonneg _
  rcases (by linarith : (0 : K) ≤ (n : K) - 1).eq_or_lt with h | h
  · rw [← h]; simp
  · have h3 : 0 ≤ 2 * (i : K) / ((n : K) - 1) := div_nonneg (by linarith) h.le
    have h4 : 2 * (i : K) / ((n : K) - 1) ≤ 2 := by rw [div_le_iff₀ h]; linarith
    rw [abs_le]; constructor <;> linarith

theorem map_colours (cmap : K → List K) (hmap : ColourMap cmap) : ∃ col : K → String, ∃ r g b : K → Nat,
    (∀ n, Colors.getFormatted ((linspace (5 / 100 : K) (9 / 10) n).map fun t => some (.numbers (cmap t))) =
      .ok ((linspace (5 / 100 : K) (9 / 10) n).map col)) ∧
    ∀ t, rgb (col t) = some (r t, g t, b t) ∧ ∃ x y z rest, cmap t = x :: y :: z :: rest ∧ Channel x (r t) ∧ Channel y (g t) ∧ Channel z (b t) := by
  have key : ∀ t, ∃ (s : String) (r g b : Nat), Colors.formatInput (some (.numbers (cmap t))) = .ok s ∧ rgb s = some (r, g, b) ∧
      ∃ x y z rest, cmap t = x :: y :: z :: rest ∧ Channel x r ∧ Channel y g ∧ Channel z b := by
    intro t
    obtain ⟨x, y, z, l, h1, h2, h3⟩ := hmap t
    obtain ⟨s, r, g, b, -, h5, h6, h7⟩ := (C104_numbers (cmap t)).1 x y z l h1 h2 h3
    exact ⟨s, r, g, b, h5, h6, x, y, z, l, h1, h7⟩
  choose col r g b h1 h2 h3 using key
  refine ⟨col, r, g, b, fun n => ?_, fun t => ⟨h2 t, h3 t⟩⟩
  rw [Colors.getFormatted, mapM_ok_iff, List.forall₂_map_left_iff, List.forall₂_map_right_iff, List.forall₂_same]
  exact fun t _ => h1 t

/-- **C105, partial** (colour maps). For a scale that is not negative, `get_colormap` gives `n` hex colours: the channels of the
colour map at `n` evenly spaced places from 0.05 to 0.9, times a brightness, rounded down and at most 255. Missing: negative scales
(`C105_violated`). -/
theorem C105_colormap_partial (cmap : K → List K) (hmap : ColourMap cmap) (n : Nat) (scale : K) (hs : 0 ≤ scale) :
    ∃ l, Colors.getColormap cmap n scale = .ok l ∧ l.length = n ∧
      ∀ i (hi : i < l.length), ∃ x y z rest r g b, cmap (1 / 20 + (i : K) * (17 / 20 / ((n : K) - 1))) = x :: y :: z :: rest ∧
        Channel x r ∧ Channel y g ∧ Channel z b ∧
        rgb l[i] = some (min 255 ⌊(r : K) * mapBrightness scale n i⌋.toNat, min 255 ⌊(g : K) * mapBrightness scale n i⌋.toNat,
          min 255 ⌊(b : K) * mapBrightness scale n i⌋.toNat) := by
  obtain ⟨col, r, g, b, h1, h2⟩ := map_colours cmap hmap
  have hb : ∀ i, i < n → 0 ≤ mapBrightness scale n i := by
    intro i hi
    obtain ⟨h3, h4⟩ := mapBrightness_bounds (K := K) hi
    unfold mapBrightness
    nlinarith
  have key : ∀ i, ∃ t, i < n → Colors.scaleColour (some (col (5 / 100 + (i : K) * ((9 / 10 - 5 / 100) / ((n : K) - 1))))) (mapBrightness scale n i) = .ok t ∧
      rgb t = some (min 255 ⌊(r (5 / 100 + (i : K) * ((9 / 10 - 5 / 100) / ((n : K) - 1))) : K) * mapBrightness scale n i⌋.toNat,
        min 255 ⌊(g (5 / 100 + (i : K) * ((9 / 10 - 5 / 100) / ((n : K) - 1))) : K) * mapBrightness scale n i⌋.toNat,
        min 255 ⌊(b (5 / 100 + (i : K) * ((9 / 10 - 5 / 100) / ((n : K) - 1))) : K) * mapBrightness scale n i⌋.toNat) := by
    intro i
    by_cases hi : i < n
    · obtain ⟨t, e1, e2⟩ := C54_scaled_channels _ _ _ _ (h2 (5 / 100 + (i : K) * ((9 / 10 - 5 / 100) / ((n : K) - 1)))).1 _ (hb i hi)
      exact ⟨t, fun _ => ⟨e1, e2⟩⟩
    · exact ⟨"", fun h => absurd h hi⟩
  choose t ht using key
  refine ⟨(List.range n).map t, ?_, by simp, ?_⟩
  · simp only [Colors.getColormap, Int.toNat_natCast, Nat.cast_nonneg, decide_true, ensure, if_true, bind, Except.bind, h1]
    rw [mapM_ok_iff, List.forall₂_iff_get]
    refine ⟨by simp, fun i hi hi' => ?_⟩
    simp only [List.length_map, List.length_range] at hi'
    simp only [List.get_eq_getElem, List.getElem_zip, List.getElem_map, linspace_getElem, List.getElem_range]
    rw [← (ht i hi').1]
    congr 1
    unfold mapBrightness
    rw [zero_add, sub_zero, mul_div_assoc', mul_comm (i : K) 2]
  · intro i hi
    simp only [List.length_map, List.length_range] at hi
    obtain ⟨-, x, y, z, rest, e1, e2, e3, e4⟩ := h2 (5 / 100 + (i : K) * ((9 / 10 - 5 / 100) / ((n : K) - 1)))
    have ee : (1 / 20 + (i : K) * (17 / 20 / ((n : K) - 1))) = 5 / 100 + (i : K) * ((9 / 10 - 5 / 100) / ((n : K) - 1)) := by
      norm_num
    refine ⟨x, y, z, rest, _, _, _, by rw [ee]; exact e1, e2, e3, e4, ?_⟩
    rw [List.getElem_map, List.getElem_range]
    exact (ht i hi).2

/-- **C105** (ends). The first and the last colour are those of the map; with a scale of at most 1 no channel is brighter than in the map. -/
theorem C105_brightness (scale : K) (n : Nat) :
    (mapBrightness scale n 0 = 1) ∧ (2 ≤ n → mapBrightness scale n (n - 1) = 1) ∧
    (∀ k, mapBrightness scale (2 * k + 3) (k + 1) = scale) ∧
    (∀ i, i < n → mapBrightness scale n (n - 1 - i) = mapBrightness scale n i) ∧
    (∀ i, i < n → 0 ≤ scale → scale ≤ 1 → scale ≤ mapBrightness scale n i ∧ mapBrightness scale n i ≤ 1) := by
  have h0 : mapBrightness scale n 0 = 1 := by unfold mapBrightness; simp
  have hsym : ∀ i, i < n → mapBrightness scale n (n - 1 - i) = mapBrightness scale n i := by
    intro i hi
    unfold mapBrightness
    rw [Nat.sub_sub, Nat.cast_sub (by omega)]
    rcases eq_or_ne ((n : K) - 1) 0 with h | h
    · rw [h]; simp
    · have : 1 - 2 * ((n : K) - ((1 + i : ℕ) : K)) / ((n : K) - 1) = -(1 - 2 * (i : K) / ((n : K) - 1)) := by
        push_cast; field_simp; ring
      rw [this, abs_neg]
  refine ⟨h0, fun h => ?_, fun k => ?_, hsym, fun i hi hs hs' => ?_⟩
  · have := hsym 0 (by omega)
    rwa [h0, Nat.sub_zero] at this
  · unfold mapBrightness
    have hk : (0 : K) ≤ k := Nat.cast_nonneg _
    have : 1 - 2 * ((k + 1 : ℕ) : K) / (((2 * k + 3 : ℕ) : K) - 1) = 0 := by
      push_cast
      rw [sub_eq_zero, eq_comm, div_eq_one_iff_eq (by linarith)]
      ring
    rw [this]; simp
  · obtain ⟨h3, h4⟩ := mapBrightness_bounds (K := K) hi
    unfold mapBrightness
    constructor <;> nlinarith

/-- **C105, violated.** With the scale -1 the second of three colours has no "#", whatever the map. -/
theorem C105_violated (cmap : K → List K) (hmap : ColourMap cmap) :
    ∃ a b c, Colors.getColormap cmap 3 (-1) = .ok [a, b, c] ∧ rgb b = none := by
  obtain ⟨col, r, g, b, h1, h2⟩ := map_colours cmap hmap
  obtain ⟨u, u1, -⟩ := C54_scaled_channels _ _ _ _ (h2 (5 / 100)).1 (1 : K) zero_le_one
  obtain ⟨v, v1, -⟩ := C54_scaled_channels _ _ _ _ (h2 (9 / 10)).1 (1 : K) zero_le_one
  have hmid : ∃ w, Colors.scaleColour (some (col (19 / 40))) (-1 : K) = .ok w ∧ rgb w = none := by
    obtain ⟨r1, r0, g1, g0, b1, b0, x1, x0, y1, y0, z1, z0, hc, e1, e2, e3, e4, e5, e6, -⟩ := rgb_some (h2 (19 / 40)).1
    have hstrip : Colors.stripHash (col (19 / 40)).toList = [r1, r0, g1, g0, b1, b0] := by
      rw [hc]
      simp [Colors.stripHash, (digits_lt e1).2, (digits_lt e6).2]
    have hf : Colors.format (some (col (19 / 40))) = .ok (col (19 / 40)) := format_hash (by rw [hc]; rfl)
    refine ⟨String.ofList [r1, r0, g1, g0, b1, b0], ?_, ?_⟩
    · have hneg : (-1 : K) < 0 := by norm_num
      simp [Colors.scaleColour, Colors.scaleColourWith, hf, bind, Except.bind, hstrip, hneg, pure, Except.pure]
    · unfold rgb
      rw [String.toList_ofList]
      split
      · next h => simp at h
      · rfl
  obtain ⟨w, w1, w2⟩ := hmid
  refine ⟨u, w, v, ?_, w2⟩
  have l1 : linspace (5 / 100 : K) (9 / 10) 3 = [5 / 100, 19 / 40, 9 / 10] := by
    simp [linspace, List.range_succ]; norm_num
  have l2 : (linspace (0 : K) 2 3).map (fun t => -1 + (1 - -1) * |1 - t|) = [1, -1, 1] := by
    simp [linspace, List.range_succ]; norm_num
  have h3 := h1 3
  rw [l1] at h3
  simp only [List.map_cons, List.map_nil] at h3
  simp only [Colors.getColormap, show (3 : Int).toNat = 3 from rfl, l1, l2, h3, ensure, bind, Except.bind, List.map_cons, List.map_nil,
    List.zip_cons_cons, List.zip_nil_right, show (0 : Int) ≤ 3 by norm_num, decide_true, if_true, List.mapM_cons, List.mapM_nil, u1, w1, v1,
    pure, Except.pure]
end

/-- Numbers, and a map from black to white with four numbers. -/
example : (∀ t : ℚ, 0 ≤ t → t ≤ 1 → ColourMap fun _ : ℚ => [t, t, t, 1]) ∧
    ∃ s, Colors.validateInput (some (.numbers [(1 : ℚ) / 2, 0, 1])) = .ok (some s) := by
  refine ⟨fun t h0 h1 _ => ⟨t, t, t, [1], rfl, by simp, by simp [h0, h1]⟩, ?_⟩
  obtain ⟨s, r, g, b, h, -⟩ := (C104_numbers [(1 : ℚ) / 2, 0, 1]).1 _ _ _ _ rfl (by simp) (by simp; norm_num)
  exact ⟨s, h⟩

end CC
