import Verif.Model.Shades
import Verif.Props.Colour
import Verif.Lemmas.Except
import Verif.Lemmas.Numpy
import Verif.Props.Marginal
import Verif.Lemmas.PlotDemo
import Mathlib.Analysis.Complex.ExponentialBounds

/-! # C83: the colours of contours -/

namespace CC
open Spec

/-- The brightness of contour `k` of `num` relative to the chain's colour: evenly spaced ratios from `1 - gradient / 10` for
the innermost to `1 + gradient / 2` for the outermost contour. -/
noncomputable def Spec.brightness (gradient : ℝ) (num k : Nat) : ℝ :=
  (1 - gradient / 10) ^ (1 - (k : ℝ) / ((num : ℝ) - 1)) * (1 + gradient / 2) ^ ((k : ℝ) / ((num : ℝ) - 1))

/-- A channel made brighter or darker: rounded down, at most 255. -/
noncomputable def Spec.shaded (channel : Nat) (f : ℝ) : Nat := min 255 ⌊(channel : ℝ) * f⌋.toNat

theorem shadeFactors_eq {g : ℝ} (h1 : -2 < g) (h2 : g < 10) (num : Nat) :
    shadeFactors g num = (List.range num).map fun k => some ((brightness g num k) ^ Real.log 10) := by
  have p1 : 0 < 1 - 1 / 10 * g := by linarith
  have p2 : 0 < 1 + 1 / 2 * g := by linarith
  unfold shadeFactors
  rw [if_pos ⟨p1, p2⟩, linspace, List.map_map]
  refine List.map_congr_left fun k _ => ?_
  simp only [Function.comp_apply, Option.some.injEq]
  rw [brightness, show 1 - g / 10 = 1 - 1 / 10 * g by ring, show 1 + g / 2 = 1 + 1 / 2 * g by ring]
  set a := 1 - 1 / 10 * g
  set b := 1 + 1 / 2 * g
  set t := (k : ℝ) / ((num : ℝ) - 1) with ht
  have e : (k : ℝ) * ((Real.log b - Real.log a) / ((num : ℝ) - 1)) = t * (Real.log b - Real.log a) := by rw [ht]; ring
  rw [e, Real.rpow_def_of_pos (by norm_num : (0 : ℝ) < 10), Real.rpow_def_of_pos p1, Real.rpow_def_of_pos p2, ← Real.exp_add,
    Real.rpow_def_of_pos (Real.exp_pos _), Real.log_exp]
  congr 1
  ring

theorem brightness_pos {g : ℝ} (h1 : -2 < g) (h2 : g < 10) (num k : Nat) : 0 < brightness g num k :=
  mul_pos (Real.rpow_pos_of_pos (by linarith) _) (Real.rpow_pos_of_pos (by linarith) _)

theorem brightness_mono {g : ℝ} (h1 : 0 ≤ g) (h2 : g < 10) {num j k : Nat} (hjk : j ≤ k) (hk : k < num) :
    brightness g num j ≤ brightness g num k := by
  rcases Nat.lt_or_ge num 2 with hn | hn
  · obtain rfl : j = k := by omega
    exact le_rfl
  have hn' : (0 : ℝ) < (num : ℝ) - 1 := by
    have : (2 : ℝ) ≤ num := by exact_mod_cast hn
    linarith
  have p1 : 0 < 1 - g / 10 := by linarith
  have p2 : 0 < 1 + g / 2 := by linarith
  have p3 : 1 - g / 10 ≤ 1 + g / 2 := by linarith
  have ht : (j : ℝ) / ((num : ℝ) - 1) ≤ (k : ℝ) / ((num : ℝ) - 1) :=
    div_le_div_of_nonneg_right (by exact_mod_cast hjk) hn'.le
  unfold brightness
  rw [Real.rpow_def_of_pos p1, Real.rpow_def_of_pos p2, Real.rpow_def_of_pos p1, Real.rpow_def_of_pos p2, ← Real.exp_add,
    ← Real.exp_add, Real.exp_le_exp]
  have hl := Real.log_le_log p1 p3
  nlinarith

/-- **C83, partial**: for gradients between -2 and 10 there is one colour for every contour, its channels are the chain's
times a brightness, and for nonnegative gradients no contour is darker than one inside. Missing: the brightness is not the one
asked for but its power to the natural logarithm of 10 (`C83_violated`), and the other gradients (`C83_violated_gradient`). -/
theorem C83_colours_partial {color : String} {r g b : Nat} (hc : rgb color = some (r, g, b)) {gradient : ℝ} (h1 : -2 < gradient)
    (h2 : gradient < 10) (num : Nat) :
    ∃ l, scaleColours color num gradient = .ok l ∧ l.length = num ∧
      (∀ k (hk : k < l.length), rgb l[k] = some
        (shaded r (brightness gradient num k ^ Real.log 10), shaded g (brightness gradient num k ^ Real.log 10),
          shaded b (brightness gradient num k ^ Real.log 10))) ∧
      (0 ≤ gradient → ∀ j k, j ≤ k → k < num → ∀ x : Nat,
        shaded x (brightness gradient num j ^ Real.log 10) ≤ shaded x (brightness gradient num k ^ Real.log 10)) := by
  have hpos : ∀ k, 0 ≤ brightness gradient num k ^ Real.log 10 := fun k =>
    (Real.rpow_pos_of_pos (brightness_pos h1 h2 num k) _).le
  choose t ht hr using fun k => C54_scaled_channels color r g b hc (brightness gradient num k ^ Real.log 10) (hpos k)
  refine ⟨(List.range num).map t, ?_, by simp, fun k hk => ?_, fun hg j k hjk hk x => ?_⟩
  · rw [scaleColours, shadeFactors_eq h1 h2, mapM_ok_iff, List.forall₂_map_left_iff, List.forall₂_map_right_iff,
      List.forall₂_same]
    exact fun k _ => ht k
  · rw [List.getElem_map, List.getElem_range]
    exact hr k
  · unfold shaded
    refine min_le_min le_rfl (Int.toNat_le_toNat (Int.floor_le_floor ?_))
    refine mul_le_mul_of_nonneg_left ?_ (Nat.cast_nonneg _)
    exact Real.rpow_le_rpow (brightness_pos h1 h2 _ _).le (brightness_mono hg h2 hjk hk) (Real.log_nonneg (by norm_num))

theorem two_lt_log_ten : 2 < Real.log 10 := by
  rw [Real.lt_log_iff_exp_lt (by norm_num)]
  have h := Real.exp_one_lt_d9
  have h0 := Real.exp_pos 1
  have : Real.exp 2 = Real.exp 1 * Real.exp 1 := by rw [← Real.exp_add]; norm_num
  rw [this]
  nlinarith

/-- **C83, violated**: the innermost contour is darker than asked for and the outermost one brighter, by a power above 2: the
brightness runs on a scale of base 10 between natural logarithms. -/
theorem C83_violated {gradient : ℝ} (h1 : 0 < gradient) (h2 : gradient < 10) {num : Nat} (hn : 2 ≤ num) :
    brightness gradient num 0 = 1 - gradient / 10 ∧ brightness gradient num (num - 1) = 1 + gradient / 2 ∧
    brightness gradient num 0 ^ Real.log 10 < (1 - gradient / 10) ^ 2 ∧
    (1 + gradient / 2) ^ 2 < brightness gradient num (num - 1) ^ Real.log 10 := by
  have hn' : ((num - 1 : ℕ) : ℝ) / ((num : ℝ) - 1) = 1 := by
    have : (2 : ℝ) ≤ num := by exact_mod_cast hn
    rw [Nat.cast_sub (by omega), Nat.cast_one, div_self (by linarith)]
  have e0 : brightness gradient num 0 = 1 - gradient / 10 := by simp [brightness]
  have e1 : brightness gradient num (num - 1) = 1 + gradient / 2 := by simp [brightness, hn']
  refine ⟨e0, e1, ?_, ?_⟩
  · rw [e0, ← Real.rpow_natCast]
    exact Real.rpow_lt_rpow_of_exponent_gt (by linarith) (by linarith) (by exact_mod_cast two_lt_log_ten)
  · rw [e1, ← Real.rpow_natCast]
    exact Real.rpow_lt_rpow_of_exponent_lt (by linarith) (by exact_mod_cast two_lt_log_ten)

/-- **C83, violated** on a colour: with the default gradient the innermost contour of a chain in `#c8c8c8` should have
channels of 180 and has at most 162. -/
theorem C83_violated_colour : ∃ l c x, scaleColours "#c8c8c8" 3 1 = .ok l ∧ l[0]? = some c ∧ rgb c = some (x, x, x) ∧
    x ≤ 162 ∧ shaded 200 (brightness 1 3 0) = 180 := by
  obtain ⟨l, hl, hlen, hk, -⟩ := C83_colours_partial (color := "#c8c8c8") (r := 200) (g := 200) (b := 200) (by decide)
    (gradient := 1) (by norm_num) (by norm_num) 3
  obtain ⟨e0, -, h, -⟩ := C83_violated (gradient := 1) one_pos (by norm_num) (num := 3) (by norm_num)
  refine ⟨l, l[0], _, hl, List.getElem?_eq_getElem _, hk 0 (by omega), ?_, ?_⟩
  · refine (min_le_right _ _).trans ?_
    rw [Int.toNat_le, ← Int.lt_add_one_iff, Int.floor_lt]
    push_cast
    norm_num at h ⊢
    linarith
  · rw [e0, shaded]
    have : ⌊((200 : ℕ) : ℝ) * (1 - 1 / 10)⌋ = 180 := by rw [Int.floor_eq_iff]; norm_num
    rw [this]
    rfl

/-- **C83, violated**: gradients of 10 or more (or -2 or less) are accepted for chains and raise ValueError for their
contours. -/
theorem C83_violated_gradient {color : String} {p : Nat × Nat × Nat} (hc : rgb color = some p) {gradient : ℝ}
    (h : 10 ≤ gradient ∨ gradient ≤ -2) {num : Nat} (hn : 0 < num) : scaleColours color num gradient = .error .value := by
  obtain ⟨r, g, b⟩ := p
  obtain ⟨r1, r0, g1, g0, b1, b0, x1, x0, y1, y0, z1, z0, hc, e1, e2, e3, e4, e5, e6, -⟩ := rgb_some hc
  have hstrip : Colors.stripHash color.toList = [r1, r0, g1, g0, b1, b0] := by
    rw [hc]
    simp [Colors.stripHash, (digits_lt e1).2, (digits_lt e6).2]
  have hf : Colors.format (some color) = .ok color := format_hash (by rw [hc]; rfl)
  have hs : shadeFactors gradient num = List.replicate num none := by
    unfold shadeFactors
    rw [if_neg]
    rintro ⟨h1, h2⟩
    rcases h with h | h <;> linarith
  obtain ⟨n, rfl⟩ : ∃ n, num = n + 1 := ⟨num - 1, by omega⟩
  rw [scaleColours, hs, List.replicate_succ, List.mapM_cons]
  have : scaleColourOpt color none = .error .value := by
    rw [scaleColourOpt, hf]
    change (if (Colors.stripHash color.toList).length ≠ 6 then _ else _) = _
    rw [hstrip]
    rfl
  rw [this]
  rfl

/-- Colours for all contours exist if there are contours, for gradients between -2 and 10. -/
theorem contourColours_exists {c : Chain ℝ} (hc : ∀ s, c.cfg .color = some s → ∃ p, rgb s = some p)
    (h1 : (-2 : ℝ) < c.cfg .shadeGradient) (h2 : (c.cfg .shadeGradient : ℝ) < 10) {num : Nat} (hn : 0 < num) :
    ∃ r, contourColours c num = .ok r := by
  obtain ⟨base, p, hb, hp⟩ : ∃ base p, Colors.format (c.cfg .color) = .ok base ∧ rgb base = some p := by
    cases hcol : (c.cfg .color : Option String) with
    | none => exact ⟨"#3b82f6", (59, 130, 246), rfl, by decide⟩
    | some s =>
      obtain ⟨p, hp⟩ := hc s hcol
      refine ⟨s, p, format_hash ?_, hp⟩
      obtain ⟨r, g, b⟩ := p
      obtain ⟨r1, r0, g1, g0, b1, b0, x1, x0, y1, y0, z1, z0, hs, -⟩ := rgb_some hp
      rw [hs]; rfl
  obtain ⟨r, g, b⟩ := p
  obtain ⟨l, hl, hlen, hk, -⟩ := C83_colours_partial hp h1 h2 num
  have hsub : 0 ≤ lineFactor (c.cfg .shadeGradient) (c.cfg .shade) := by
    unfold lineFactor
    have : (0 : ℝ) ≤ max (1 / 10) (1 - 1 / 5 * c.cfg .shadeGradient) := le_max_of_le_left (by norm_num)
    split
    · exact mul_nonneg this (by norm_num)
    · exact this
  have hsc : ∀ x ∈ l, ∃ y, Colors.scaleColour (some x) (lineFactor (c.cfg .shadeGradient) (c.cfg .shade)) = .ok y := by
    intro x hx
    obtain ⟨i, hi, rfl⟩ := List.getElem_of_mem hx
    obtain ⟨t, ht, -⟩ := C54_scaled_channels _ _ _ _ (hk i hi) _ hsub
    exact ⟨t, ht⟩
  unfold contourColours
  rw [hb]
  simp only [bind, Except.bind]
  rw [hl]
  cases l with
  | nil => rw [List.length_nil] at hlen; omega
  | cons f t =>
    obtain ⟨y, hy⟩ := hsc f (by simp)
    obtain ⟨z, hz⟩ := mapM_ok_of_forall (f := fun x => Colors.scaleColour (some x)
      (lineFactor (c.cfg .shadeGradient) (c.cfg .shade))) (l := (f :: t).dropLast)
      fun x hx => hsc x (List.dropLast_subset _ hx)
    simp only
    rw [hy]
    simp only
    rw [hz]
    exact ⟨_, rfl⟩

/-- **C83** for the lines: there are as many as filled contours, the first two in the colour of the innermost filled contour
and each other one in that of the filled contour just inside it, all times one factor, which for nonnegative gradients does not
exceed 1. -/
theorem C83_lines {c : Chain ℝ} {num : Nat} {fills lines : List String} (h : contourColours c num = .ok (fills, lines)) :
    fills.length = num ∧ lines.length = num ∧ ∃ sub : ℝ, 9 / 100 ≤ sub ∧ (0 ≤ (c.cfg .shadeGradient : ℝ) → sub ≤ 1) ∧
      ∀ k (hk : k < lines.length) (hk' : k - 1 < fills.length), ∀ r g b, rgb fills[k - 1] = some (r, g, b) →
        rgb lines[k] = some (shaded r sub, shaded g sub, shaded b sub) := by
  unfold contourColours at h
  rw [bind_ok_iff] at h
  obtain ⟨base, -, h⟩ := h
  rw [bind_ok_iff] at h
  obtain ⟨l, hl, h⟩ := h
  set sub := lineFactor (c.cfg .shadeGradient) (c.cfg .shade) with hs
  have hsub : 9 / 100 ≤ sub ∧ (0 ≤ (c.cfg .shadeGradient : ℝ) → sub ≤ 1) := by
    rw [hs, lineFactor]
    have h1 : (1 : ℝ) / 10 ≤ max (1 / 10) (1 - 1 / 5 * c.cfg .shadeGradient) := le_max_left _ _
    have h2 : 0 ≤ (c.cfg .shadeGradient : ℝ) → max (1 / 10) (1 - 1 / 5 * (c.cfg .shadeGradient : ℝ)) ≤ 1 :=
      fun h => max_le (by norm_num) (by linarith)
    split
    · exact ⟨by linarith, fun h => by linarith [h2 h]⟩
    · exact ⟨by linarith, h2⟩
  have hlen : l.length = num := by
    rw [scaleColours, mapM_ok_iff] at hl
    rw [← hl.length_eq, shadeFactors]
    split <;> simp [linspace]
  cases l with
  | nil => cases h
  | cons f t =>
    simp only [bind_ok_iff, pure_ok_iff] at h
    obtain ⟨first, hf, rest, hr, h⟩ := h
    cases h
    rw [mapM_ok_iff] at hr
    have hlen' := hr.length_eq
    rw [List.length_dropLast] at hlen'
    refine ⟨hlen, by simp at hlen hlen' ⊢; omega, sub, hsub.1, hsub.2, fun k hk hk' r g b hp => ?_⟩
    have key : ∀ x y, Colors.scaleColour (some x) sub = .ok y → ∀ r g b, rgb x = some (r, g, b) →
        rgb y = some (shaded r sub, shaded g sub, shaded b sub) := by
      intro x y hxy r g b hp
      obtain ⟨t, ht, hrgb⟩ := C54_scaled_channels x r g b hp sub (by linarith [hsub.1])
      rw [ht] at hxy
      cases hxy
      exact hrgb
    cases k with
    | zero => exact key _ _ hf _ _ _ hp
    | succ k =>
      rw [List.getElem_cons_succ]
      have hk1 : k < rest.length := by simpa using hk
      have := hr.get (i := k) (by rw [hr.length_eq]; exact hk1) hk1
      simp only [List.get_eq_getElem, List.getElem_dropLast] at this
      exact key _ _ this _ _ _ hp

/-- Three contours of a chain in the default colour. -/
example : ∃ (c : Chain ℝ) (r : List String × List String), (c.cfg .shadeGradient : ℝ) = 1 ∧ contourColours c 3 = .ok r ∧
    r.1.length = 3 ∧ r.2.length = 3 := by
  obtain ⟨c, hc, -, -, -, -, -, -, -, hcfg⟩ :=
    plain_chain_cfg (K := ℝ) false [] rfl
      (by change (0 : ℝ) ≤ 6827 / 10000 ∧ (6827 / 10000 : ℝ) ≤ 1; constructor <;> norm_num)
      (by change (1 : ℝ) ≤ 10; norm_num) rfl rfl (by intro h; cases h) singleFrame singleFrame_wf
      (by simp [singleFrame]) (w := [1, 1]) rfl (by simp) "a" 1 le_rfl (one_dvd _)
  have hgr : (c.cfg .shadeGradient : ℝ) = 1 := by rw [hcfg]; rfl
  have hco : (c.cfg .color : Option String) = none := by rw [hcfg]; rfl
  obtain ⟨r, hr⟩ := contourColours_exists (c := c) (by rw [hco]; simp) (by rw [hgr]; norm_num) (by rw [hgr]; norm_num)
    (num := 3) (by norm_num)
  obtain ⟨h1, h2, -⟩ := C83_lines (fills := r.1) (lines := r.2) hr
  exact ⟨c, r, hgr, hr, h1, h2⟩

end CC
