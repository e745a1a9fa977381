import Verif.Model.Contours
import Mathlib.Analysis.SpecialFunctions.PolarCoord
import Mathlib.MeasureTheory.Integral.IntervalIntegral.FundThmCalculus

/-! # C52: contour levels -/

namespace CC
open MeasureTheory ProbabilityTheory Set

/-- The mass of the standard normal distribution between `-s` and `s`. -/
noncomputable def Spec.mass1 (s : ℝ) : ℝ := (gaussianReal 0 1).real (Ioc (-s) s)

theorem normCdf_eq (x : ℝ) : normCdf x = (gaussianReal 0 1).real (Iic x) := cdf_eq_real _ x

instance : NullSingletonClass (gaussianReal 0 1) := nullSingletonClass_gaussianReal one_ne_zero

/-- The distribution function is symmetric. -/
theorem normCdf_neg (x : ℝ) : normCdf (-x) = 1 - normCdf x := by
  rw [normCdf_eq, normCdf_eq]
  have hmap : (gaussianReal 0 1).real (Iic (-x)) = (gaussianReal 0 1).real (Ici x) := by
    have h : (gaussianReal 0 1).map (fun y => -y) = gaussianReal 0 1 := by
      rw [gaussianReal_map_neg, neg_zero]
    conv_lhs => rw [← h]
    rw [measureReal_def, Measure.map_apply measurable_neg measurableSet_Iic, ← measureReal_def]
    congr 1
    ext y
    simp
  have h2 : (gaussianReal 0 1).real (Ici x) = (gaussianReal 0 1).real (Ioi x) := by
    rw [measureReal_def, measureReal_def, measure_congr Ioi_ae_eq_Ici]
  rw [hmap, h2, ← compl_Iic, probReal_compl_eq_one_sub measurableSet_Iic]

theorem normCdf_zero : normCdf 0 = 1 / 2 := by
  have := normCdf_neg 0
  rw [neg_zero] at this
  linarith

theorem gaussian_Ioc_pos {a b : ℝ} (h : a < b) : 0 < (gaussianReal 0 1).real (Ioc a b) := by
  rw [measureReal_def]
  refine ENNReal.toReal_pos (fun h0 => ?_) (measure_ne_top _ _)
  have := gaussianReal_absolutelyContinuous' 0 one_ne_zero h0
  rw [Real.volume_Ioc] at this
  simp at this
  linarith

theorem normCdf_sub {a b : ℝ} (h : a ≤ b) : normCdf b - normCdf a = (gaussianReal 0 1).real (Ioc a b) := by
  rw [normCdf_eq, normCdf_eq, ← measureReal_sdiff (Iic_subset_Iic.2 h) measurableSet_Iic]
  congr 1
  ext y
  simp [and_comm]

theorem normCdf_strictMono : StrictMono normCdf := by
  intro a b h
  have := normCdf_sub h.le
  have := gaussian_Ioc_pos h
  linarith

theorem normCdf_lt_one (x : ℝ) : normCdf x < 1 := by
  have h1 := normCdf_strictMono (show x < x + 1 by linarith)
  have h2 : normCdf (x + 1) ≤ 1 := cdf_le_one _ _
  linarith

/-- The mass of the standard normal distribution of two variables within radius `s`. -/
noncomputable def Spec.mass2 (s : ℝ) : ℝ :=
  ((gaussianReal 0 1).prod (gaussianReal 0 1)).real {p : ℝ × ℝ | p.1 ^ 2 + p.2 ^ 2 ≤ s ^ 2}

theorem radial_integral (s : ℝ) :
    ∫ r in (0 : ℝ)..s, r * Real.exp (-(1 / 2) * r ^ 2) = 1 - Real.exp (-(1 / 2) * s ^ 2) := by
  have hd : ∀ r ∈ uIcc 0 s, HasDerivAt (fun r : ℝ => -Real.exp (-(1 / 2) * r ^ 2))
      (r * Real.exp (-(1 / 2) * r ^ 2)) r := by
    intro r _
    have h1 : HasDerivAt (fun r : ℝ => -(1 / 2) * r ^ 2) (-(1 / 2) * (2 * r)) r := by
      have := (hasDerivAt_pow 2 r).const_mul (-(1 / 2 : ℝ))
      simpa using this
    have h2 := (h1.exp).neg
    refine h2.congr_deriv ?_
    ring
  rw [intervalIntegral.integral_eq_sub_of_hasDerivAt hd]
  · simp
    ring
  · refine Continuous.intervalIntegrable ?_ _ _
    fun_prop

theorem mass2_eq {s : ℝ} (hs : 0 ≤ s) : Spec.mass2 s = 1 - Real.exp (-(1 / 2) * s ^ 2) := by
  have hdens : (gaussianReal 0 1).prod (gaussianReal 0 1) = (volume : Measure (ℝ × ℝ)).withDensity
      fun p => ENNReal.ofReal ((2 * Real.pi)⁻¹ * Real.exp (-(1 / 2) * (p.1 ^ 2 + p.2 ^ 2))) := by
    rw [gaussianReal_of_var_ne_zero 0 one_ne_zero, prod_withDensity (measurable_gaussianPDF _ _)
      (measurable_gaussianPDF _ _), ← Measure.volume_eq_prod]
    congr 1
    funext p
    rw [gaussianPDF, gaussianPDF, ← ENNReal.ofReal_mul (gaussianPDFReal_nonneg _ _ _)]
    congr 1
    simp only [gaussianPDFReal, NNReal.coe_one, mul_one, sub_zero]
    have e : (Real.sqrt (2 * Real.pi))⁻¹ * (Real.sqrt (2 * Real.pi))⁻¹ = (2 * Real.pi)⁻¹ := by
      rw [← mul_inv, Real.mul_self_sqrt (by positivity)]
    rw [mul_mul_mul_comm, e, ← Real.exp_add]
    congr 2
    ring
  have hset : MeasurableSet {p : ℝ × ℝ | p.1 ^ 2 + p.2 ^ 2 ≤ s ^ 2} :=
    measurableSet_le (by fun_prop) (by fun_prop)
  unfold Spec.mass2
  rw [measureReal_def, hdens, withDensity_apply _ hset, ← lintegral_indicator hset,
    ← lintegral_comp_polarCoord_symm]
  set g : ℝ → ENNReal := (Iic s).indicator fun r =>
    ENNReal.ofReal ((2 * Real.pi)⁻¹ * (r * Real.exp (-(1 / 2) * r ^ 2))) with hg
  have hgm : Measurable g := by
    refine Measurable.indicator ?_ measurableSet_Iic
    fun_prop
  have h1 : ∫⁻ p in polarCoord.target, ENNReal.ofReal p.1 • ({p : ℝ × ℝ | p.1 ^ 2 + p.2 ^ 2 ≤ s ^ 2}.indicator
      (fun p => ENNReal.ofReal ((2 * Real.pi)⁻¹ * Real.exp (-(1 / 2) * (p.1 ^ 2 + p.2 ^ 2)))) (polarCoord.symm p)) =
      ∫⁻ p in polarCoord.target, g p.1 * 1 := by
    refine setLIntegral_congr_fun polarCoord.open_target.measurableSet fun p hp => ?_
    have hr : 0 < p.1 := by
      rw [polarCoord_target] at hp
      exact hp.1
    have hsq : (p.1 * Real.cos p.2) ^ 2 + (p.1 * Real.sin p.2) ^ 2 = p.1 ^ 2 := by
      have := Real.sin_sq_add_cos_sq p.2
      nlinarith
    simp only [polarCoord_symm_apply, Set.indicator_apply, mem_ofPred_eq, hsq, hg, mem_Iic, mul_one, smul_eq_mul]
    have hiff : p.1 ^ 2 ≤ s ^ 2 ↔ p.1 ≤ s := pow_le_pow_iff_left₀ hr.le hs two_ne_zero
    by_cases h : p.1 ≤ s
    · rw [if_pos (hiff.2 h), if_pos h, ← ENNReal.ofReal_mul hr.le]
      congr 1
      ring
    · rw [if_neg fun h' => h (hiff.1 h'), if_neg h, mul_zero]
  have h2 : ∫⁻ p in polarCoord.target, g p.1 * 1 = (∫⁻ r in Ioi (0 : ℝ), g r) * ENNReal.ofReal (2 * Real.pi) := by
    rw [polarCoord_target, Measure.volume_eq_prod, ← Measure.prod_restrict, lintegral_prod_mul
      (f := g) (g := fun _ => 1) hgm.aemeasurable aemeasurable_const]
    congr 1
    rw [lintegral_one, Measure.restrict_apply_univ, Real.volume_Ioo]
    congr 1
    ring
  have h3 : ∫⁻ r in Ioi (0 : ℝ), g r =
      ENNReal.ofReal ((2 * Real.pi)⁻¹ * (1 - Real.exp (-(1 / 2) * s ^ 2))) := by
    rw [hg, lintegral_indicator measurableSet_Iic, Measure.restrict_restrict measurableSet_Iic, inter_comm,
      Ioi_inter_Iic, ← radial_integral s, ← intervalIntegral.integral_const_mul,
      intervalIntegral.integral_of_le hs, ofReal_integral_eq_lintegral_ofReal]
    · refine Continuous.integrableOn_Ioc ?_
      fun_prop
    · refine (ae_restrict_iff' measurableSet_Ioc).2 (ae_of_all _ fun r hr => ?_)
      have := hr.1
      simp only [Pi.zero_apply]
      positivity
  have hnn : 0 ≤ 1 - Real.exp (-(1 / 2) * s ^ 2) := by
    have : Real.exp (-(1 / 2) * s ^ 2) ≤ 1 := Real.exp_le_one_iff.2 (by nlinarith [sq_nonneg s])
    linarith
  rw [h1, h2, h3, ← ENNReal.ofReal_mul (by positivity), ENNReal.toReal_ofReal (by positivity)]
  field_simp

/-- The mass enclosed by the level of `s` in the chosen convention. -/
noncomputable def Spec.enclosed (sigma2d : Bool) (s : ℝ) : ℝ := if sigma2d then Spec.mass2 s else Spec.mass1 s

theorem level_eq (sigma2d : Bool) {s : ℝ} (hs : 0 ≤ s) :
    (if sigma2d then 1 - Real.exp (-(1 / 2) * s ^ 2) else 2 * normCdf s - 1) = Spec.enclosed sigma2d s := by
  unfold Spec.enclosed
  cases sigma2d with
  | true => exact (mass2_eq hs).symm
  | false =>
    have h1 := normCdf_sub (show -s ≤ s by linarith)
    rw [normCdf_neg] at h1
    simp only [Bool.false_eq_true, if_false, Spec.mass1, ← h1]
    ring

/-- **C52** (meaning). The level of a nonnegative sigma is the mass of the standard normal distribution
within that distance of the centre, of one variable or (`sigma2d`) of two. -/
theorem C52_level_is_mass (sigma2d : Bool) {sigmas : List ℝ} (h : ∀ s ∈ sigmas, 0 ≤ s) :
    getLevels sigma2d sigmas = sigmas.map (Spec.enclosed sigma2d) := by
  unfold getLevels
  exact List.map_congr_left fun s hs => level_eq sigma2d (h s hs)

/-- **C52**. There is a level for each sigma; the level of zero is zero; levels of nonnegative sigmas are in
`[0, 1)`; and they increase with sigma, in both conventions. -/
theorem C52_levels (sigma2d : Bool) {sigmas : List ℝ} (h : ∀ s ∈ sigmas, 0 ≤ s) :
    List.Forall₂ (fun s l => (s = 0 → l = 0) ∧ 0 ≤ l ∧ l < 1) sigmas (getLevels sigma2d sigmas) ∧
    (sigmas.Pairwise (· < ·) ↔ (getLevels sigma2d sigmas).Pairwise (· < ·)) := by
  have key : ∀ s t : ℝ, 0 ≤ s → 0 ≤ t →
      (s < t ↔ (if sigma2d then 1 - Real.exp (-(1 / 2) * s ^ 2) else 2 * normCdf s - 1) <
        (if sigma2d then 1 - Real.exp (-(1 / 2) * t ^ 2) else 2 * normCdf t - 1)) := by
    intro s t hs ht
    cases sigma2d with
    | true =>
      simp only [if_true, sub_lt_sub_iff_left, Real.exp_lt_exp]
      rw [← pow_lt_pow_iff_left₀ hs ht two_ne_zero]
      constructor <;> intro h <;> linarith
    | false =>
      simp only [Bool.false_eq_true, if_false]
      rw [← normCdf_strictMono.lt_iff_lt]
      constructor <;> intro h <;> linarith
  constructor
  · unfold getLevels
    rw [List.forall₂_map_right_iff, List.forall₂_same]
    intro s hs
    have h0 := h s hs
    have hz : (if sigma2d then 1 - Real.exp (-(1 / 2) * (0 : ℝ) ^ 2) else 2 * normCdf 0 - 1) = 0 := by
      cases sigma2d <;> simp [normCdf_zero]
    refine ⟨fun e => by rw [e]; exact hz, ?_, ?_⟩
    · rw [← hz]
      rcases h0.eq_or_lt with rfl | h1
      · exact le_rfl
      · exact ((key 0 s le_rfl h0).1 h1).le
    · cases sigma2d with
      | true =>
        have := Real.exp_pos (-(1 / 2) * s ^ 2)
        simp only [if_true]
        linarith
      | false =>
        have := normCdf_lt_one s
        simp only [Bool.false_eq_true, if_false]
        linarith
  · unfold getLevels
    rw [List.pairwise_map]
    exact List.Pairwise.iff_of_mem fun ha hb => key _ _ (h _ ha) (h _ hb)

/-- The default sigmas meet the hypotheses: their levels are `0 < level 1 < level 2 < 1`. -/
example (sigma2d : Bool) : (getLevels sigma2d [0, 1, 2]).Pairwise (· < ·) :=
  (C52_levels sigma2d (by simp)).2.1 (by norm_num)

end CC
