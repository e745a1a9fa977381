import Verif.Model.Numpy
import Verif.Props.Marginal
import Verif.Props.Modes
import Verif.Props.MegKde
import Verif.Lemmas.TwoPoint
import Mathlib.Analysis.SpecialFunctions.Integrals.Basic
import Mathlib.Algebra.Order.Field.Basic
import Mathlib.Tactic.Ring
import Mathlib.Tactic.FieldSimp
import Mathlib.Tactic.LinearCombination

/-! # C90: the quadrature of marginals -/

namespace CC
open Spec

section
variable {K : Type} [Field K] [CharZero K]

/-- The value of the parabola `a + b x + c x²`. -/
def Spec.parabola (a b c x : K) : K := a + b * x + c * x ^ 2

/-- Its antiderivative `a x + b x² / 2 + c x³ / 3`. -/
def Spec.parabolaArea (a b c x : K) : K := a * x + b * x ^ 2 / 2 + c * x ^ 3 / 3

/-- `n` equally spaced points from `x₀`. -/
def Spec.spaced (x₀ h : K) (n : Nat) : List K := (List.range n).map fun (i : Nat) => x₀ + (i : K) * h

omit [CharZero K] in
theorem spaced_succ (x₀ h : K) (n : Nat) : spaced x₀ h (n + 1) = x₀ :: spaced (x₀ + h) h n := by
  unfold spaced
  rw [List.range_succ_eq_map, List.map_cons, List.map_map]
  simp only [Nat.cast_zero, zero_mul, add_zero, List.cons.injEq, true_and]
  refine List.map_congr_left fun i _ => ?_
  simp only [Function.comp_apply, Nat.cast_succ]
  ring

omit [CharZero K] in
theorem spaced_getD (x₀ h : K) {n i : Nat} (hi : i < n) : (spaced x₀ h n).getD i 0 = x₀ + i * h := by
  rw [List.getD_eq_getElem?_getD, spaced, List.getElem?_map, List.getElem?_range hi]
  rfl

theorem simpsonOdd_parabola (a b c h : K) (k : Nat) (x₀ : K) :
    simpsonOdd h ((spaced x₀ h (2 * k + 1)).map (parabola a b c)) =
      parabolaArea a b c (x₀ + 2 * k * h) - parabolaArea a b c x₀ := by
  induction k generalizing x₀ with
  | zero =>
    rw [Nat.mul_zero, Nat.zero_add, spaced_succ]
    simp [spaced, simpsonOdd]
  | succ k ih =>
    have e : 2 * (k + 1) + 1 = 2 * k + 1 + 1 + 1 := by ring
    have ih' := ih (x₀ + h + h)
    rw [spaced_succ, List.map_cons] at ih'
    rw [e, spaced_succ, spaced_succ, spaced_succ, List.map_cons, List.map_cons, List.map_cons, simpsonOdd, ih']
    unfold parabola parabolaArea
    have h2 : (2 : K) ≠ 0 := two_ne_zero
    have h3 : (3 : K) ≠ 0 := three_ne_zero
    push_cast
    field_simp
    ring

theorem simpson_parabola (a b c x₀ h : K) (n : Nat) (hn : 3 ≤ n) :
    simpson ((spaced x₀ h n).map (parabola a b c)) (spaced x₀ h n) =
      parabolaArea a b c (x₀ + (n - 1 : Nat) * h) - parabolaArea a b c x₀ := by
  have hl : ((spaced x₀ h n).map (parabola a b c)).length = n := by simp [spaced]
  have hstep : (spaced x₀ h n).getD 1 0 - (spaced x₀ h n).getD 0 0 = h := by
    rw [spaced_getD _ _ (by omega), spaced_getD _ _ (by omega)]
    push_cast
    ring
  have hget : ∀ i, i < n → ((spaced x₀ h n).map (parabola a b c)).getD i 0 = parabola a b c (x₀ + i * h) := by
    intro i hi
    rw [List.getD_eq_getElem?_getD, spaced, List.getElem?_map, List.getElem?_map, List.getElem?_range hi]
    rfl
  unfold simpson
  simp only [hl, hstep]
  by_cases ho : n % 2 = 1
  · obtain ⟨k, rfl⟩ : ∃ k, n = 2 * k + 1 := ⟨n / 2, by omega⟩
    rw [if_pos ho, simpsonOdd_parabola]
    push_cast
    rfl
  · obtain ⟨k, rfl⟩ : ∃ k, n = 2 * k + 4 := ⟨n / 2 - 2, by omega⟩
    rw [if_neg ho, if_neg (by omega), hget _ (by omega), hget _ (by omega), hget _ (by omega)]
    have ht : ((spaced x₀ h (2 * k + 4)).map (parabola a b c)).take (2 * k + 4 - 1) =
        (spaced x₀ h (2 * (k + 1) + 1)).map (parabola a b c) := by
      rw [← List.map_take]
      congr 1
      unfold spaced
      rw [← List.map_take, List.take_range]
      congr 2
      omega
    rw [ht, simpsonOdd_parabola]
    have e1 : (((2 * k + 4 - 1 : Nat)) : K) = 2 * k + 3 := by
      rw [show 2 * k + 4 - 1 = 2 * k + 3 by omega]; push_cast; ring
    have e2 : (((2 * k + 4 - 2 : Nat)) : K) = 2 * k + 2 := by
      rw [show 2 * k + 4 - 2 = 2 * k + 2 by omega]; push_cast; ring
    have e3 : (((2 * k + 4 - 3 : Nat)) : K) = 2 * k + 1 := by
      rw [show 2 * k + 4 - 3 = 2 * k + 1 by omega]; push_cast; ring
    rw [e1, e2, e3]
    unfold parabola parabolaArea
    push_cast
    field_simp
    ring

end

theorem parabola_integral (a b c l u : ℝ) : ∫ x in l..u, parabola a b c x = parabolaArea a b c u - parabolaArea a b c l := by
  unfold parabola parabolaArea
  rw [intervalIntegral.integral_add (Continuous.intervalIntegrable (by fun_prop) _ _)
      (Continuous.intervalIntegrable (by fun_prop) _ _),
    intervalIntegral.integral_add (Continuous.intervalIntegrable (by fun_prop) _ _)
      (Continuous.intervalIntegrable (by fun_prop) _ _),
    intervalIntegral.integral_const_mul, intervalIntegral.integral_const_mul, integral_pow,
    intervalIntegral.integral_const, integral_id]
  norm_num
  ring

theorem linspace_spaced (l u : ℝ) (n : Nat) : linspace l u n = spaced l ((u - l) / ((n : ℝ) - 1)) n := rfl

/-- **C90**. The quadrature of `n` points between `l` and `u` integrates every parabola exactly, whether `n` is odd or even, from 3
points on. -/
theorem C90_parabola (a b c l u : ℝ) (n : Nat) (hn : 3 ≤ n) :
    simpson ((linspace l u n).map fun x => a + b * x + c * x ^ 2) (linspace l u n) = ∫ x in l..u, (a + b * x + c * x ^ 2) := by
  have h := simpson_parabola a b c l ((u - l) / ((n : ℝ) - 1)) n hn
  rw [← linspace_spaced l u n] at h
  have h2 := parabola_integral a b c l u
  unfold parabola at h h2
  rw [h, h2]
  congr 2
  have : (n : ℝ) - 1 ≠ 0 := by
    have : (3 : ℝ) ≤ n := by exact_mod_cast hn
    linarith
  rw [Nat.cast_sub (by omega), Nat.cast_one]
  field_simp
  ring

/-- Two points: exact for straight lines. -/
theorem C90_line (a b l u : ℝ) : simpson ((linspace l u 2).map fun x => a + b * x) (linspace l u 2) = ∫ x in l..u, (a + b * x) := by
  have h := parabola_integral a b 0 l u
  unfold parabola at h
  simp only [zero_mul, add_zero] at h
  rw [h]
  have e : linspace l u 2 = [l, u] := by
    simp only [linspace, List.range_succ, List.range_zero, List.nil_append, List.map_cons, List.map_nil,
      List.cons_append, List.cons.injEq, and_true]
    constructor <;> norm_num
  rw [e]
  simp [simpson, parabolaArea]
  ring

theorem three_le_gridSize : 3 ≤ gridSize := by unfold gridSize; omega

/-- The density that the bands of a multimodal chain are cut from integrates to 1 if its points lie on a parabola. -/
theorem C90_density (kde : KdeFn) (c : Chain ℝ) (col : String) (pad : Bool) (useKde : Option Bool) (m : Marginal ℝ)
    (hm : smoothedHistogram kde c col pad useKde = .ok m) (a₀ a₁ a₂ : ℝ)
    (hy : m.ys = m.xs.map fun x => a₀ + a₁ * x + a₂ * x ^ 2) (area t : ℝ) (density : List ℝ)
    (hc : hdiCut m area = .ok (t, density)) :
    ∃ (l u : ℝ) (f : ℝ → ℝ), m.xs.head? = some l ∧ m.xs.getLast? = some u ∧ density = m.xs.map f ∧ ∫ x in l..u, f x = 1 := by
  simp only [smoothedHistogram, bind_ok_iff, ensure_ok_iff, pure_ok_iff] at hm
  obtain ⟨data, -, w, -, bins, -, hist, -, hist', -, ab, -, _, -, ys, -, cs, -, rfl⟩ := hm
  simp only at hy
  subst hy
  simp only [hdiCut, bind_ok_iff, ensure_ok_iff, pure_ok_iff, decide_eq_true_eq] at hc
  obtain ⟨_, ht, top, -, t', -, he⟩ := hc
  have he' := (Prod.mk.inj he).2
  rw [C90_parabola _ _ _ _ _ _ three_le_gridSize] at he' ht
  refine ⟨ab.1, ab.2, fun x => (a₀ + a₁ * x + a₂ * x ^ 2) / ∫ x in ab.1..ab.2, (a₀ + a₁ * x + a₂ * x ^ 2), ?_, ?_, ?_, ?_⟩
  · exact linspace_head (by have := two_le_gridSize; omega)
  · exact linspace_last two_le_gridSize
  · rw [← he', List.map_map]
    rfl
  · rw [intervalIntegral.integral_div, div_self ht]

/-- A kernel density estimate that is a parabola on its grid is divided by its integral. -/
theorem C90_kde (kde : KdeFn) (factor : ℝ) (data weights bins xs r : List ℝ) (l u a₀ a₁ a₂ : ℝ)
    (hk : ∀ ts ys, kde data weights factor ts = .ok ys → ys = ts.map fun x => a₀ + a₁ * x + a₂ * x ^ 2)
    (h : kdeDensity kde factor data weights bins l u xs = .ok r) :
    ∃ n, 200 ≤ n ∧ xs.mapM (interp1d (linspace l u n) ((linspace l u n).map fun x =>
      (a₀ + a₁ * x + a₂ * x ^ 2) / ∫ x in l..u, (a₀ + a₁ * x + a₂ * x ^ 2))) = .ok r := by
  simp only [kdeDensity, bind_ok_iff, ensure_ok_iff] at h
  obtain ⟨n, hn, ys, hys, _, -, h⟩ := h
  have h200 : 200 ≤ n := by
    simp only [kdeGridSize, bind_ok_iff, pure_ok_iff] at hn
    obtain ⟨_, -, rfl⟩ := hn
    exact le_max_left _ _
  rw [hk _ _ hys, C90_parabola _ _ _ _ _ _ (by omega), List.map_map] at h
  exact ⟨n, h200, h⟩

/-- The hypotheses of `C90_density` hold for a multimodal grid of two points with weights 1 and 3. -/
example : ∃ (c : Chain ℝ) (m : Marginal ℝ) (kde : KdeFn), smoothedHistogram kde c "a" true none = .ok m ∧
    (∃ a₀ a₁ a₂ : ℝ, m.ys = m.xs.map fun x => a₀ + a₁ * x + a₂ * x ^ 2) ∧
    ∃ t density, hdiCut m 1 = .ok (t, density) := by
  obtain ⟨near, hn⟩ := nearOk_exists
  obtain ⟨c, -, h⟩ := twoPoint_exists true (u := 1) (v := 3) one_pos (by norm_num)
  obtain ⟨m, hm, hv, hx, hy⟩ := h.marginal one_pos (by norm_num) (megKde_kdeOk hn) true
  refine ⟨c, m, megKde near, hm, ⟨1 / 4, 1 / 2, 0, ?_⟩, ?_⟩
  · rw [hy, hx]
    refine List.map_congr_left fun x _ => ?_
    ring
  · have hs := two_simpson one_pos (by norm_num) hv hx hy
    have hne : m.ys.map (· / simpson m.ys m.xs) ≠ [] := by
      have h2 := hv.two
      have h3 := hv.ys_length
      intro h
      have h := congrArg List.length h
      rw [List.length_map, List.length_nil] at h
      omega
    obtain ⟨M, -, hmem, hmax⟩ := npMax_spec hne
    exact (C35_cut_exists_iff m hv hs M hmem hmax 1 le_rfl).2 (Or.inr rfl)

end CC
