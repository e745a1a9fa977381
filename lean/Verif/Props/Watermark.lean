import Verif.Model.Watermark
import Mathlib.Tactic.Linarith
import Mathlib.Tactic.FieldSimp

/-! # C94: watermarks -/

namespace CC

/-- The width in inches of a text turned by `r` degrees; a point is 1/72 of an inch. -/
noncomputable def Spec.turnedWidth (ext : TextExtent) (size r : ℝ) : ℝ :=
  size / 72 * (ext.width * |Real.cos (r * Real.pi / 180)| + ext.height * |Real.sin (r * Real.pi / 180)|)

/-- The height in inches of a text turned by `r` degrees. -/
noncomputable def Spec.turnedHeight (ext : TextExtent) (size r : ℝ) : ℝ :=
  size / 72 * (ext.width * |Real.sin (r * Real.pi / 180)| + ext.height * |Real.cos (r * Real.pi / 180)|)

open Spec

theorem rotation_cos_sin {dx dy : ℝ} (hx : 0 < dx) :
    Real.cos (watermarkRotation dx dy * Real.pi / 180) = dx / Real.sqrt (dy ^ 2 + dx ^ 2) ∧
    Real.sin (watermarkRotation dx dy * Real.pi / 180) = -dy / Real.sqrt (dy ^ 2 + dx ^ 2) := by
  have hne : (⟨dx, -dy⟩ : ℂ) ≠ 0 := by
    intro h
    have := congrArg Complex.re h
    simp at this
    linarith
  have e : watermarkRotation dx dy * Real.pi / 180 = Complex.arg ⟨dx, -dy⟩ := by
    rw [watermarkRotation]
    have := Real.pi_pos
    field_simp
  have hn : ‖(⟨dx, -dy⟩ : ℂ)‖ = Real.sqrt (dy ^ 2 + dx ^ 2) := by
    rw [Complex.norm_eq_sqrt_sq_add_sq]
    simp [add_comm]
  rw [e, Complex.cos_arg hne, Complex.sin_arg, hn]
  exact ⟨rfl, rfl⟩

/-- **C94** (direction). The watermark stands in the middle and runs along the falling diagonal of the figure. -/
theorem C94_diagonal {cfg : WatermarkConfig} {ext : String → TextExtent} {onAxes : Bool} {w h sizeScale : ℝ} {t : WatermarkText}
    (ht : addWatermark cfg ext onAxes w h sizeScale = some t) (hw : 0 < w) (hd : 0 < cfg.dpi) :
    cfg.watermark = some t.text ∧ t.x = 1 / 2 ∧ t.y = 1 / 2 ∧
    Real.cos (t.rotation * Real.pi / 180) * Real.sqrt (w ^ 2 + h ^ 2) = w ∧
    Real.sin (t.rotation * Real.pi / 180) * Real.sqrt (w ^ 2 + h ^ 2) = -h := by
  unfold addWatermark at ht
  split at ht
  · cases ht
  rename_i text htext
  have ht' := Option.some.inj ht
  subst ht'
  obtain ⟨h1, h2⟩ := rotation_cos_sin (dx := w * cfg.dpi) (dy := h * cfg.dpi) (by positivity)
  have hs : Real.sqrt ((h * cfg.dpi) ^ 2 + (w * cfg.dpi) ^ 2) = Real.sqrt (w ^ 2 + h ^ 2) * cfg.dpi := by
    rw [show (h * cfg.dpi) ^ 2 + (w * cfg.dpi) ^ 2 = (w ^ 2 + h ^ 2) * cfg.dpi ^ 2 by ring,
      Real.sqrt_mul (by positivity), Real.sqrt_sq hd.le]
  have hpos : 0 < Real.sqrt (w ^ 2 + h ^ 2) := Real.sqrt_pos.2 (by positivity)
  refine ⟨htext, rfl, rfl, ?_, ?_⟩
  · rw [h1, hs]; field_simp
  · rw [h2, hs]; field_simp


/-- The part of the width that the text may cover. -/
noncomputable def Spec.share (tex onAxes : Bool) : ℝ :=
  if tex then (if onAxes then 70 / 72 * (7 / 10) else 70 / 72) else (if onAxes then 56 / 72 * (8 / 10) else 56 / 72)

theorem watermarkSize_eq {cfg : WatermarkConfig} {ext : TextExtent} {onAxes : Bool} {w h sizeScale : ℝ} (hw : 0 < w) (hh : 0 < h)
    (hd : 0 < cfg.dpi) (he : 0 < ext.width) (he' : 0 ≤ ext.height) :
    watermarkSize cfg ext onAxes sizeScale (w * cfg.dpi) (h * cfg.dpi) * (ext.width * w + ext.height * h) =
      72 * share cfg.tex onAxes * sizeScale * w * Real.sqrt (w ^ 2 + h ^ 2) := by
  have hs : Real.sqrt ((h * cfg.dpi) ^ 2 + (w * cfg.dpi) ^ 2) = Real.sqrt (w ^ 2 + h ^ 2) * cfg.dpi := by
    rw [show (h * cfg.dpi) ^ 2 + (w * cfg.dpi) ^ 2 = (w ^ 2 + h ^ 2) * cfg.dpi ^ 2 by ring,
      Real.sqrt_mul (by positivity), Real.sqrt_sq hd.le]
  have ha : |h * cfg.dpi / (w * cfg.dpi)| = h / w := by
    rw [mul_div_mul_right _ _ hd.ne', abs_of_pos (by positivity)]
  have hden : ext.height * (cfg.dpi / 100) * (h / w) + ext.width * (cfg.dpi / 100) =
      cfg.dpi / (100 * w) * (ext.width * w + ext.height * h) := by
    field_simp
    ring
  have hpos : 0 < ext.width * w + ext.height * h := by positivity
  unfold watermarkSize share
  simp only [hs, ha, hden]
  cases cfg.tex <;> cases onAxes <;> simp only [Bool.false_eq_true, if_true, if_false] <;> field_simp <;> ring

theorem turned_eq {ext : TextExtent} {w h dpi s : ℝ} (hw : 0 < w) (hh : 0 < h) (hd : 0 < dpi) :
    turnedWidth ext s (watermarkRotation (w * dpi) (h * dpi)) = s / 72 * (ext.width * w + ext.height * h) / Real.sqrt (w ^ 2 + h ^ 2) ∧
    turnedHeight ext s (watermarkRotation (w * dpi) (h * dpi)) =
      s / 72 * (ext.width * h + ext.height * w) / Real.sqrt (w ^ 2 + h ^ 2) := by
  obtain ⟨h1, h2⟩ := rotation_cos_sin (dx := w * dpi) (dy := h * dpi) (by positivity)
  have hs : Real.sqrt ((h * dpi) ^ 2 + (w * dpi) ^ 2) = Real.sqrt (w ^ 2 + h ^ 2) * dpi := by
    rw [show (h * dpi) ^ 2 + (w * dpi) ^ 2 = (w ^ 2 + h ^ 2) * dpi ^ 2 by ring,
      Real.sqrt_mul (by positivity), Real.sqrt_sq hd.le]
  have hpos : 0 < Real.sqrt (w ^ 2 + h ^ 2) := Real.sqrt_pos.2 (by positivity)
  have a1 : |w * dpi / (Real.sqrt (w ^ 2 + h ^ 2) * dpi)| = w / Real.sqrt (w ^ 2 + h ^ 2) := by
    rw [mul_div_mul_right _ _ hd.ne', abs_of_pos (by positivity)]
  have a2 : |-(h * dpi) / (Real.sqrt (w ^ 2 + h ^ 2) * dpi)| = h / Real.sqrt (w ^ 2 + h ^ 2) := by
    rw [neg_div, abs_neg, mul_div_mul_right _ _ hd.ne', abs_of_pos (by positivity)]
  unfold turnedWidth turnedHeight
  rw [h1, h2, hs, a1, a2]
  constructor <;> field_simp

/-- **C94** (width). The font size is the greatest whole number of points for which the turned text covers at most 70/72 of the width of
the figure (56/72 without TeX, less on a panel), times the scale of the figure. -/
theorem C94_width {cfg : WatermarkConfig} {ext : String → TextExtent} {onAxes : Bool} {w h sizeScale : ℝ} {t : WatermarkText}
    (ht : addWatermark cfg ext onAxes w h sizeScale = some t) (hw : 0 < w) (hh : 0 < h) (hd : 0 < cfg.dpi)
    (he : 0 < (ext t.text).width) (he' : 0 ≤ (ext t.text).height) (n : ℤ) :
    n ≤ t.fontsize ↔ turnedWidth (ext t.text) n t.rotation ≤ share cfg.tex onAxes * sizeScale * w := by
  unfold addWatermark at ht
  split at ht
  · cases ht
  rename_i text htext
  have ht' := Option.some.inj ht
  subst ht'
  simp only at he he' ⊢
  rw [(turned_eq hw hh hd).1, Int.le_floor]
  have hpos : 0 < (ext text).width * w + (ext text).height * h := by positivity
  have hS : 0 < Real.sqrt (w ^ 2 + h ^ 2) := Real.sqrt_pos.2 (by positivity)
  rw [div_le_iff₀ hS, ← mul_le_mul_iff_left₀ hpos, watermarkSize_eq hw hh hd he he']
  constructor <;> intro h <;> linarith

/-- **C94** for the kinds of figures: the watermark of `plot` fills its share of the panel if two parameters are flipped, and of
the figure otherwise; that of the other figures fills four fifths of such a share. -/
theorem C94_figures {cfg : WatermarkConfig} {ext : String → TextExtent} {w h : ℝ} {t : WatermarkText} (hw : 0 < w) (hh : 0 < h)
    (hd : 0 < cfg.dpi) (he : 0 < (ext t.text).width) (he' : 0 ≤ (ext t.text).height) (n : ℤ) :
    (plotWatermark cfg ext true 2 w h = some t →
      (n ≤ t.fontsize ↔ turnedWidth (ext t.text) n t.rotation ≤ share cfg.tex true * w)) ∧
    (∀ flip columns, flip = false ∨ columns ≠ 2 → plotWatermark cfg ext flip columns w h = some t →
      (n ≤ t.fontsize ↔ turnedWidth (ext t.text) n t.rotation ≤ share cfg.tex false * w)) ∧
    (otherWatermark cfg ext w h = some t →
      (n ≤ t.fontsize ↔ turnedWidth (ext t.text) n t.rotation ≤ share cfg.tex false * (4 / 5) * w)) := by
  refine ⟨fun ht => ?_, fun flip columns hf ht => ?_, fun ht => ?_⟩
  · simpa using C94_width ht hw hh hd he he' n
  · have e : (flip && decide (columns = 2)) = false := by
      rcases hf with rfl | hf <;> simp_all
    unfold plotWatermark at ht
    rw [e] at ht
    simpa using C94_width ht hw hh hd he he' n
  · have := C94_width ht hw hh hd he he' n
    rwa [show (8 / 10 : ℝ) = 4 / 5 by norm_num] at this

/-- **C94** (height, partial: only for figures that are not wider than high). The watermark of a figure stays inside. -/
theorem C94_height_partial {cfg : WatermarkConfig} {ext : String → TextExtent} {w h sizeScale : ℝ} {t : WatermarkText}
    (ht : addWatermark cfg ext false w h sizeScale = some t) (hw : 0 < w) (hwh : w ≤ h) (hd : 0 < cfg.dpi)
    (h0 : 0 ≤ sizeScale) (h1 : sizeScale ≤ 1) (he : 0 < (ext t.text).width) (he' : 0 ≤ (ext t.text).height) :
    turnedWidth (ext t.text) t.fontsize t.rotation ≤ w ∧ turnedHeight (ext t.text) t.fontsize t.rotation ≤ h := by
  have hh : 0 < h := lt_of_lt_of_le hw hwh
  have hsh : share cfg.tex false * sizeScale * w ≤ w := by
    have : share cfg.tex false * sizeScale ≤ 1 := by
      unfold share
      cases cfg.tex <;> simp only [Bool.false_eq_true, if_true, if_false] <;> linarith
    nlinarith
  have hwid := ((C94_width ht hw hh hd he he' t.fontsize).1 le_rfl).trans hsh
  refine ⟨hwid, ?_⟩
  unfold addWatermark at ht
  split at ht
  · cases ht
  rename_i text htext
  have ht' := Option.some.inj ht
  subst ht'
  simp only at he he' hwid ⊢
  rw [(turned_eq hw hh hd).1] at hwid
  rw [(turned_eq hw hh hd).2]
  generalize hs : ((⌊watermarkSize cfg (ext text) false sizeScale (w * cfg.dpi) (h * cfg.dpi)⌋ : ℤ) : ℝ) = s at hwid ⊢
  have hpos : 0 < (ext text).width * w + (ext text).height * h := by positivity
  have hS : 0 < Real.sqrt (w ^ 2 + h ^ 2) := Real.sqrt_pos.2 (by positivity)
  have hs0 : 0 ≤ s := by
    rw [← hs]
    have hz : 0 ≤ watermarkSize cfg (ext text) false sizeScale (w * cfg.dpi) (h * cfg.dpi) := by
      have e := watermarkSize_eq (cfg := cfg) (ext := ext text) (onAxes := false) (sizeScale := sizeScale) hw hh hd he he'
      have : 0 ≤ share cfg.tex false := by unfold share; cases cfg.tex <;> simp <;> norm_num
      refine nonneg_of_mul_nonneg_left (b := (ext text).width * w + (ext text).height * h) ?_ hpos
      rw [mul_comm] at e
      rw [mul_comm, e]
      positivity
    exact_mod_cast Int.floor_nonneg.2 hz
  rw [div_le_iff₀ hS] at hwid ⊢
  have key : ((ext text).width * h + (ext text).height * w) * w ≤ ((ext text).width * w + (ext text).height * h) * h := by
    have : (ext text).height * w * w ≤ (ext text).height * h * h := by
      rw [mul_assoc, mul_assoc]
      exact mul_le_mul_of_nonneg_left (mul_le_mul hwh hwh hw.le hh.le) he'
    nlinarith
  have e1 : s / 72 * (((ext text).width * h + (ext text).height * w) * w) ≤
      s / 72 * (((ext text).width * w + (ext text).height * h) * h) := mul_le_mul_of_nonneg_left key (by positivity)
  have e2 : s / 72 * ((ext text).width * w + (ext text).height * h) * h ≤ w * Real.sqrt (w ^ 2 + h ^ 2) * h :=
    mul_le_mul_of_nonneg_right hwid hh.le
  refine le_of_mul_le_mul_right (a := w) ?_ hw
  nlinarith

/-- **C94** (violation). A summary of 10 times 1 inches: a text five times as wide as high sticks out by more than half an inch. -/
theorem C94_violated : ∃ (cfg : WatermarkConfig) (ext : String → TextExtent) (t : WatermarkText),
    otherWatermark cfg ext 10 1 = some t ∧ (ext t.text).width = 6 ∧ (ext t.text).height = 6 / 5 ∧
    3 / 2 < turnedHeight (ext t.text) t.fontsize t.rotation := by
  refine ⟨{ watermark := some "Preliminary" }, fun _ => ⟨6, 6 / 5⟩, _, rfl, rfl, rfl, ?_⟩
  simp only
  rw [(turned_eq (by norm_num) (by norm_num) (by norm_num)).2]
  have hs : (10 : ℝ) < Real.sqrt (10 ^ 2 + 1 ^ 2) := Real.lt_sqrt_of_sq_lt (by norm_num)
  have hs2 : Real.sqrt (10 ^ 2 + 1 ^ 2) < 11 := (Real.sqrt_lt' (by norm_num)).2 (by norm_num)
  have hfl : (73 : ℤ) ≤ ⌊watermarkSize { watermark := some "Preliminary" } ⟨6, 6 / 5⟩ false (8 / 10) (10 * 300) (1 * 300)⌋ := by
    rw [Int.le_floor]
    have e := watermarkSize_eq (cfg := { watermark := some "Preliminary" }) (ext := ⟨6, 6 / 5⟩) (onAxes := false)
      (sizeScale := 8 / 10) (w := 10) (h := 1) (by norm_num) (by norm_num) (by norm_num) (by norm_num) (by norm_num)
    have ht : (⟨some "Preliminary", 300, some false, none⟩ : WatermarkConfig).tex = false := rfl
    simp only [ht, share, Bool.false_eq_true, if_false] at e
    have hs3 : (1004 / 100 : ℝ) < Real.sqrt (10 ^ 2 + 1 ^ 2) := Real.lt_sqrt_of_sq_lt (by norm_num)
    push_cast
    linarith
  have hfl' : (73 : ℝ) ≤ (⌊watermarkSize { watermark := some "Preliminary" } ⟨6, 6 / 5⟩ false (8 / 10) (10 * 300) (1 * 300)⌋ : ℤ) := by
    exact_mod_cast hfl
  rw [lt_div_iff₀ (by linarith)]
  generalize ((⌊watermarkSize { watermark := some "Preliminary" } ⟨6, 6 / 5⟩ false (8 / 10) (10 * 300) (1 * 300)⌋ : ℤ) : ℝ) = s at *
  norm_num only at hs2 ⊢
  linarith

/-- A figure of 6 times 8 inches meets the hypotheses. -/
example : ∃ (cfg : WatermarkConfig) (ext : String → TextExtent) (t : WatermarkText), addWatermark cfg ext false 6 8 1 = some t ∧
    0 < cfg.dpi ∧ 0 < (ext t.text).width ∧ 0 < (ext t.text).height :=
  ⟨{ watermark := some "Preliminary" }, fun _ => ⟨6, 6 / 5⟩, _, rfl, by norm_num, by norm_num, by norm_num⟩

end CC
