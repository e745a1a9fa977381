import Verif.Props.GelmanRubin

/-! # C137: walkers that agree better fare no worse

A diagnostic of convergence should not be made to pass by making walkers disagree more, nor by asking for more. -/

set_option linter.unusedSectionVars false

namespace CC
open Spec

section
variable {m n : Nat}

/-- Every walker as a whole is moved away from the mean of all walkers, so that its distance from it grows by a factor. -/
noncomputable def Spec.movedApart (s : ℝ) (θ : Fin m → Fin n → ℝ) : Fin m → Fin n → ℝ :=
  fun j i => θ j i + (s - 1) * (walkerMean θ j - grandMean θ)

theorem moved_mean (hn : 0 < n) (s : ℝ) (θ : Fin m → Fin n → ℝ) (j : Fin m) :
    walkerMean (movedApart s θ) j = walkerMean θ j + (s - 1) * (walkerMean θ j - grandMean θ) := by
  have : (n : ℝ) ≠ 0 := by exact_mod_cast hn.ne'
  simp only [walkerMean, movedApart, Finset.sum_add_distrib, Finset.sum_const, Finset.card_univ, Fintype.card_fin, nsmul_eq_mul]
  field_simp

theorem moved_grand (hm : 0 < m) (hn : 0 < n) (s : ℝ) (θ : Fin m → Fin n → ℝ) : grandMean (movedApart s θ) = grandMean θ := by
  have hm' : (m : ℝ) ≠ 0 := by exact_mod_cast hm.ne'
  have h0 : ∑ j, (walkerMean θ j - grandMean θ) = 0 := by
    rw [Finset.sum_sub_distrib, Finset.sum_const, Finset.card_univ, Fintype.card_fin, nsmul_eq_mul]
    unfold grandMean
    field_simp
    ring
  unfold grandMean
  simp only [moved_mean hn]
  rw [Finset.sum_add_distrib, ← Finset.mul_sum, h0, mul_zero, add_zero]

theorem moved_within (hn : 0 < n) (s : ℝ) (θ : Fin m → Fin n → ℝ) : within (movedApart s θ) = within θ := by
  simp only [within, moved_mean hn]
  congr 1
  refine Finset.sum_congr rfl fun j _ => ?_
  congr 1
  refine Finset.sum_congr rfl fun i _ => ?_
  simp only [movedApart]
  ring

theorem moved_between (hm : 0 < m) (hn : 0 < n) (s : ℝ) (θ : Fin m → Fin n → ℝ) : between (movedApart s θ) = s ^ 2 * between θ := by
  simp only [between, moved_mean hn, moved_grand hm hn]
  rw [mul_left_comm]
  congr 1
  rw [Finset.mul_sum]
  exact Finset.sum_congr rfl fun j _ => by ring

theorem ratio_parts (hm : 1 < m) (hn : 1 < n) {θ : Fin m → Fin n → ℝ} (hW : within θ ≠ 0) :
    ratioSq θ = ((n : ℝ) - 1) / n + between θ * ((1 / n + 1 / (m * n)) / within θ) ∧
      0 < (1 / (n : ℝ) + 1 / (m * n)) / within θ := by
  have hWpos := lt_of_le_of_ne (within_nonneg θ hn) (Ne.symm hW)
  have hn0 : (0 : ℝ) < n := by exact_mod_cast (by omega : 0 < n)
  have hm0 : (0 : ℝ) < m := by exact_mod_cast (by omega : 0 < m)
  refine ⟨?_, by positivity⟩
  unfold ratioSq
  field_simp
  ring

/-- One parameter: if it converges after its walkers are moved apart, it does before, provided the walkers are not so short that the
ratio can fall below `1 - t`. -/
theorem converged_apart (hm : 1 < m) (hn : 1 < n) {t s : ℝ} (hs : 1 ≤ s) (hlong : t < 1 → (1 - t) ^ 2 < ((n : ℝ) - 1) / n)
    {θ : Fin m → Fin n → ℝ} (h : Converged t (movedApart s θ)) : Converged t θ := by
  obtain ⟨hW, hr⟩ := h
  rw [moved_within (by omega)] at hW
  have hW' : within (movedApart s θ) ≠ 0 := by rwa [moved_within (by omega)]
  obtain ⟨e1, hc⟩ := ratio_parts hm hn hW
  obtain ⟨e2, -⟩ := ratio_parts hm hn hW'
  rw [moved_within (by omega), moved_between (by omega) (by omega)] at e2
  have hB := between_nonneg θ hm
  have hle : ratioSq θ ≤ ratioSq (movedApart s θ) := by
    rw [e1, e2]
    have : between θ ≤ s ^ 2 * between θ := le_mul_of_one_le_left hB (by nlinarith)
    have := mul_le_mul_of_nonneg_right this hc.le
    linarith
  have hlow := (C21_ratio_bound θ hm hn hW).1
  refine ⟨hW, abs_lt.2 ⟨?_, ?_⟩⟩
  · by_cases ht : t < 1
    · have : 1 - t < √(ratioSq θ) := Real.lt_sqrt_of_sq_lt ((hlong ht).trans_le hlow)
      linarith
    · have h1 := Real.sqrt_pos.2 (lt_of_lt_of_le (show (0 : ℝ) < ((n : ℝ) - 1) / n from ?_) hlow)
      · linarith
      · have : (1 : ℝ) < n := by exact_mod_cast hn
        exact div_pos (by linarith) (by linarith)
  · have := Real.sqrt_le_sqrt hle
    have := (abs_lt.1 hr).2
    linarith

/-- **C137** (Gelman-Rubin). If every parameter of `c'` is that of `c` with the walkers moved apart, by a factor of its own, and `c'`
passes, then `c` passes. What is missing are walkers of few steps: at least eleven are needed for the default threshold 0.05. -/
theorem C137_apart_partial (a a' : Args ℝ) (c c' : Chain ℝ) (hwf : a.samples.WF) (h : Chain.make a = .ok c) (hwf' : a'.samples.WF)
    (h' : Chain.make a' = .ok c') (hm : 1 < m) (hn : 1 < n) (hwalk : c.walkers = m) (hrows : c.samples.index.length = m * n)
    (hwalk' : c'.walkers = m) (hrows' : c'.samples.index.length = m * n) (hcols : c'.dataColumns = c.dataColumns) (s : String → ℝ)
    (hs : ∀ p, 1 ≤ s p) (happart : ∀ p ∈ c.dataColumns, ∀ x, (p, x) ∈ c.samples.cols → ∃ x', (p, x') ∈ c'.samples.cols ∧
      steps x' m n = movedApart (s p) (steps x m n)) {t : ℝ} (hlong : t < 1 → (1 - t) ^ 2 < ((n : ℝ) - 1) / n)
    (hpass : gelmanOne t c' = .ok true) : gelmanOne t c = .ok true := by
  obtain ⟨v, hv, hiff⟩ := C21_gelman_rubin_verdict a c hwf h m n hm hn hwalk hrows t
  obtain ⟨v', hv', hiff'⟩ := C21_gelman_rubin_verdict a' c' hwf' h' m n hm hn hwalk' hrows' t
  rw [hpass] at hv'
  cases hv'
  rw [hv]
  congr 1
  refine hiff.2 fun p hp x hx => ?_
  obtain ⟨x', hx', e⟩ := happart p hp x hx
  have := hiff'.1 rfl p (by rw [hcols]; exact hp) x' hx'
  rw [e] at this
  exact converged_apart hm hn (hs p) hlong this

/-- **C137** is violated by short walkers: however well they agree, a parameter whose walkers have the same mean fails if there are few
steps; for the default threshold 0.05, if there are at most ten per walker. -/
theorem C137_violated_short (a : Args ℝ) (c : Chain ℝ) (hwf : a.samples.WF) (h : Chain.make a = .ok c) (hm : 1 < m) (hn : 1 < n)
    (hwalk : c.walkers = m) (hrows : c.samples.index.length = m * n) {t : ℝ} (ht : t ≤ 1) (hshort : ((n : ℝ) - 1) / n ≤ (1 - t) ^ 2)
    {p : String} {x : List ℝ} (hp : p ∈ c.dataColumns) (hx : (p, x) ∈ c.samples.cols)
    (hmean : ∀ j j', walkerMean (steps x m n) j = walkerMean (steps x m n) j') : gelmanOne t c = .ok false := by
  obtain ⟨v, hv, hiff⟩ := C21_gelman_rubin_verdict a c hwf h m n hm hn hwalk hrows t
  rw [hv]
  congr 1
  refine Bool.eq_false_iff.2 fun hb => ?_
  obtain ⟨hW, hr⟩ := hiff.1 hb p hp x hx
  rw [((C21_ratio_bound _ hm hn hW).2).2 hmean] at hr
  have h1 : √(((n : ℝ) - 1) / n) ≤ 1 - t := Real.sqrt_le_left (by linarith) |>.2 hshort
  have := (abs_lt.1 hr).1
  linarith

end

/-- The condition for the default threshold. -/
theorem C137_default {n : Nat} (hn : 0 < n) : ((1 - 1 / 20 : ℝ) ^ 2 < ((n : ℝ) - 1) / n ↔ 11 ≤ n) ∧
    (((n : ℝ) - 1) / n ≤ (1 - 1 / 20 : ℝ) ^ 2 ↔ n ≤ 10) := by
  have hn0 : (0 : ℝ) < n := by exact_mod_cast hn
  have key : (1 - 1 / 20 : ℝ) ^ 2 < ((n : ℝ) - 1) / n ↔ 11 ≤ n := by
    rw [lt_div_iff₀ hn0]
    constructor
    · intro h
      by_contra hlt
      have : (n : ℝ) ≤ 10 := by exact_mod_cast (by omega : n ≤ 10)
      nlinarith
    · intro h
      have : (11 : ℝ) ≤ n := by exact_mod_cast h
      nlinarith
  refine ⟨key, ?_⟩
  rw [← not_lt, key]
  omega

/-- Two walkers of two steps each. -/
def twoByTwo (x : List ℝ) : Frame ℝ :=
  { index := [.int 0, .int 1, .int 2, .int 3], cols := [("a", x), ("weight", [1, 1, 1, 1])] }

theorem two_verdict (x : List ℝ) (hx : x.length = 4) (t : ℝ) : ∃ (a : Args ℝ) (c : Chain ℝ), a.samples.WF ∧ Chain.make a = .ok c ∧
    c.walkers = 2 ∧ c.samples = twoByTwo x ∧ c.dataColumns = ["a"] ∧
    ∃ b, gelmanOne t c = .ok b ∧ (b = true ↔ Converged t (steps x 2 2)) := by
  have hf : (twoByTwo x).WF := ⟨by simp [twoByTwo], by simp [twoByTwo, hx]⟩
  obtain ⟨c, hc, hcs, h1, h2, -, -, hw, -⟩ := plain_chain_walkers (twoByTwo x) hf (by simp [twoByTwo]) (w := [1, 1, 1, 1]) rfl (by simp)
    "two" 2 (by simp) (by simp [twoByTwo])
  have hdc : c.dataColumns = ["a"] := by
    simp [Chain.dataColumns, hcs, twoByTwo, Frame.columns, Chain.reserved, h1, h2]
    decide
  obtain ⟨b, hb, hiff⟩ := C21_gelman_rubin_verdict _ c (toRaw_WF.2 hf) hc 2 2 (by norm_num) (by norm_num) hw
    (by rw [hcs]; simp [twoByTwo]) t
  refine ⟨_, c, toRaw_WF.2 hf, hc, hw, hcs, hdc, b, hb, hiff.trans ?_⟩
  rw [hdc, hcs]
  simp [twoByTwo]

theorem two_apart : steps [-2, 8, 4, 14] 2 2 = movedApart 3 (steps [0, 10, 2, 12] 2 2) := by
  funext j i
  fin_cases j <;> fin_cases i <;>
    simp [movedApart, walkerMean, grandMean, steps, Fin.sum_univ_two] <;> norm_num

/-- **C137** is violated: two walkers of two steps each, 0 and 10 and 2 and 12, fail `gelman_rubin` with the default threshold; moved
apart to three times their distance, -2 and 8 and 4 and 14, they pass. -/
theorem C137_violated : ∃ (a a' : Args ℝ) (c c' : Chain ℝ) (x x' : List ℝ), a.samples.WF ∧ Chain.make a = .ok c ∧ a'.samples.WF ∧
    Chain.make a' = .ok c' ∧ c.walkers = 2 ∧ c'.walkers = 2 ∧ c.dataColumns = ["a"] ∧ c'.dataColumns = ["a"] ∧ ("a", x) ∈ c.samples.cols ∧
    ("a", x') ∈ c'.samples.cols ∧ steps x' 2 2 = movedApart 3 (steps x 2 2) ∧
    gelmanOne (1 / 20) c = .ok false ∧ gelmanOne (1 / 20) c' = .ok true := by
  obtain ⟨a, c, h1, h2, h3, h4, h5, b, hb, hiff⟩ := two_verdict [0, 10, 2, 12] rfl (1 / 20)
  obtain ⟨a', c', h1', h2', h3', h4', h5', b', hb', hiff'⟩ := two_verdict [-2, 8, 4, 14] rfl (1 / 20)
  refine ⟨a, a', c, c', [0, 10, 2, 12], [-2, 8, 4, 14], h1, h2, h1', h2', h3, h3', h5, h5', by rw [h4]; simp [twoByTwo],
    by rw [h4']; simp [twoByTwo], ?_, ?_, ?_⟩
  · exact two_apart
  · rw [hb]
    congr 1
    refine Bool.eq_false_iff.2 fun e => ?_
    obtain ⟨-, hr⟩ := hiff.1 e
    have hv : ratioSq (steps [0, 10, 2, 12] 2 2) = 14 / 25 := by
      simp [ratioSq, within, between, walkerMean, grandMean, steps, Fin.sum_univ_two]
      norm_num
    rw [hv] at hr
    have h1 : √(14 / 25 : ℝ) ≤ 19 / 20 := Real.sqrt_le_left (by norm_num) |>.2 (by norm_num)
    have := (abs_lt.1 hr).1
    linarith
  · rw [hb']
    congr 1
    refine hiff'.2 ⟨?_, ?_⟩
    · simp [within, walkerMean, steps, Fin.sum_univ_two]
      norm_num
    · have hv : ratioSq (steps [-2, 8, 4, 14] 2 2) = 26 / 25 := by
        simp [ratioSq, within, between, walkerMean, grandMean, steps, Fin.sum_univ_two]
        norm_num
      rw [hv, abs_lt]
      have h1 : (1 : ℝ) < √(26 / 25) := Real.lt_sqrt_of_sq_lt (by norm_num)
      have h2 : √(26 / 25 : ℝ) < 21 / 20 := (Real.sqrt_lt' (by norm_num)).2 (by norm_num)
      constructor <;> linarith

/-- With the threshold one half the same chains are long enough, and meet the hypotheses of `C137_apart_partial`. -/
example : ∃ (a a' : Args ℝ) (c c' : Chain ℝ), a.samples.WF ∧ Chain.make a = .ok c ∧ a'.samples.WF ∧
    Chain.make a' = .ok c' ∧ c.walkers = 2 ∧ c.samples.index.length = 2 * 2 ∧ c'.walkers = 2 ∧ c'.samples.index.length = 2 * 2 ∧
    c'.dataColumns = c.dataColumns ∧ (∀ p ∈ c.dataColumns, ∀ x, (p, x) ∈ c.samples.cols → ∃ x', (p, x') ∈ c'.samples.cols ∧
      steps x' 2 2 = movedApart 3 (steps x 2 2)) ∧ (1 - 1 / 2 : ℝ) ^ 2 < (((2 : ℕ) : ℝ) - 1) / (2 : ℕ) ∧ gelmanOne (1 / 2) c' = .ok true := by
  obtain ⟨a, c, h1, h2, h3, h4, h5, -⟩ := two_verdict [0, 10, 2, 12] rfl (1 / 2)
  obtain ⟨a', c', h1', h2', h3', h4', h5', b', hb', hiff'⟩ := two_verdict [-2, 8, 4, 14] rfl (1 / 2)
  refine ⟨a, a', c, c', h1, h2, h1', h2', h3, by rw [h4]; simp [twoByTwo], h3', by rw [h4']; simp [twoByTwo], by rw [h5, h5'], ?_,
    by norm_num, ?_⟩
  · rw [h5, h4, h4']
    intro p hp x hx
    rw [List.mem_singleton] at hp
    subst hp
    obtain rfl : x = [0, 10, 2, 12] := by simpa [twoByTwo] using hx
    exact ⟨[-2, 8, 4, 14], by simp [twoByTwo], two_apart⟩
  · rw [hb']
    congr 1
    refine hiff'.2 ⟨?_, ?_⟩
    · simp [within, walkerMean, steps, Fin.sum_univ_two]
      norm_num
    · have hv : ratioSq (steps [-2, 8, 4, 14] 2 2) = 26 / 25 := by
        simp [ratioSq, within, between, walkerMean, grandMean, steps, Fin.sum_univ_two]
        norm_num
      rw [hv, abs_lt]
      have h1 : (1 : ℝ) < √(26 / 25) := Real.lt_sqrt_of_sq_lt (by norm_num)
      have h2 : √(26 / 25 : ℝ) < 21 / 20 := (Real.sqrt_lt' (by norm_num)).2 (by norm_num)
      constructor <;> linarith

/-- Those of `C137_violated_short` are met by the walkers 0 and 10 and 10 and 0. -/
example : ∃ (a : Args ℝ) (c : Chain ℝ), a.samples.WF ∧ Chain.make a = .ok c ∧ c.walkers = 2 ∧ c.samples.index.length = 2 * 2 ∧
    "a" ∈ c.dataColumns ∧ ("a", [0, 10, 10, 0]) ∈ c.samples.cols ∧ (((2 : ℕ) : ℝ) - 1) / (2 : ℕ) ≤ (1 - 1 / 20) ^ 2 ∧
    ∀ j j', walkerMean (steps [0, 10, 10, 0] 2 2) j = walkerMean (steps [0, 10, 10, 0] 2 2) j' := by
  obtain ⟨a, c, h1, h2, h3, h4, h5, -⟩ := two_verdict [0, 10, 10, 0] rfl (1 / 2)
  refine ⟨a, c, h1, h2, h3, by rw [h4]; simp [twoByTwo], by simp [h5], by rw [h4]; simp [twoByTwo], by norm_num, ?_⟩
  have : ∀ j, walkerMean (steps [0, 10, 10, 0] 2 2) j = 5 := by
    intro j
    fin_cases j <;> simp [walkerMean, steps, Fin.sum_univ_two] <;> norm_num
  intro j j'
  rw [this, this]

/-! ### thresholds -/

theorem runDiagnostic_mono {f g : Chain ℝ → Res Bool} (hfg : ∀ c, f c = .ok true → g c = .ok true) {cs : List (Chain ℝ)} {r : TestResult}
    (h : runDiagnostic f cs = .ok r) (hr : r.passed = true) : ∃ r', runDiagnostic g cs = .ok r' ∧ r'.passed = true := by
  have hlist : ∀ (cs : List (Chain ℝ)) (rs : List TestResult), cs.mapM (fun c => do
        let b ← f c
        return ({ passed := b, results := [(c.name, b)] } : TestResult)) = .ok rs → rs.all (·.passed) = true →
      ∃ rs', cs.mapM (fun c => do
        let b ← g c
        return ({ passed := b, results := [(c.name, b)] } : TestResult)) = .ok rs' ∧ rs'.all (·.passed) = true := by
    intro cs rs h
    rw [mapM_ok_iff] at h
    induction h with
    | nil => intro _; exact ⟨[], rfl, rfl⟩
    | @cons c r cs rs hc _ ih =>
      intro hall
      simp only [List.all_cons, Bool.and_eq_true] at hall
      obtain ⟨rs', h1, h2⟩ := ih hall.2
      rw [bind_ok_iff] at hc
      obtain ⟨b, hb, hr⟩ := hc
      cases hr
      obtain rfl : b = true := hall.1
      refine ⟨⟨true, [(c.name, true)]⟩ :: rs', ?_, by simp [h2]⟩
      rw [List.mapM_cons, h1, hfg c hb]
      rfl
  match cs, h with
  | [], h => cases h
  | [c], h =>
    simp only [runDiagnostic, bind_ok_iff] at h ⊢
    obtain ⟨b, hb, hr'⟩ := h
    cases hr'
    dsimp only at hr
    subst hr
    exact ⟨_, ⟨true, hfg c hb, rfl⟩, rfl⟩
  | c :: d :: cs, h =>
    simp only [runDiagnostic, bind_ok_iff] at h ⊢
    obtain ⟨rs, hrs, hr'⟩ := h
    cases hr'
    obtain ⟨rs', h1, h2⟩ := hlist _ _ hrs hr
    exact ⟨_, ⟨rs', h1, rfl⟩, h2⟩

/-- **C137** (thresholds). What passes a strict threshold passes a loose one: for `gelman_rubin` the larger is the looser (a deviation
from 1 that is permitted), for `geweke` the smaller (a p-value). -/
theorem C137_threshold (parent : List (String × Chain ℝ)) (sel : ChainSel ℝ) (r : TestResult) (hr : r.passed = true) :
    (∀ t t' : ℝ, t ≤ t' → gelmanRubin parent sel t = .ok r → ∃ r', gelmanRubin parent sel t' = .ok r' ∧ r'.passed = true) ∧
    ∀ (spec : List ℝ → Flt ℝ) (normaltest : List (Flt ℝ) → Flt ℝ) (first last t t' : ℝ), t' ≤ t →
      geweke spec normaltest parent sel first last t = .ok r →
        ∃ r', geweke spec normaltest parent sel first last t' = .ok r' ∧ r'.passed = true := by
  constructor
  · intro t t' ht h
    have key : ∀ c, gelmanOne t c = .ok true → gelmanOne t' c = .ok true := by
      intro c hc
      simp only [gelmanOne, bind_ok_iff, ensure_ok_iff, pure_ok_iff] at hc ⊢
      obtain ⟨X, hX, u, hu, v, hv, hall⟩ := hc
      refine ⟨X, hX, u, hu, v, hv, ?_⟩
      rw [List.all_eq_true] at hall ⊢
      intro x hx
      have := hall x hx
      revert this
      cases fltAbs ((gelmanR c.walkers x).sub (.fin 1)) <;> simp [Flt.lt]
      intro h
      linarith
    simp only [gelmanRubin, bind_ok_iff] at h ⊢
    obtain ⟨cs, hcs, h⟩ := h
    obtain ⟨r', h1, h2⟩ := runDiagnostic_mono key h hr
    exact ⟨r', ⟨cs, hcs, h1⟩, h2⟩
  · intro spec normaltest first last t t' ht h
    have key : ∀ c, gewekeOne spec normaltest first last t c = .ok true → gewekeOne spec normaltest first last t' c = .ok true := by
      intro c hc
      simp only [gewekeOne, bind_ok_iff, ensure_ok_iff, pure_ok_iff] at hc ⊢
      obtain ⟨u, hu, X, hX, v, hv, hall⟩ := hc
      refine ⟨u, hu, X, hX, v, hv, ?_⟩
      rw [eq_comm] at hall ⊢
      revert hall
      generalize normaltest _ = z
      cases z <;> simp [Flt.lt]
      intro h
      linarith
    simp only [geweke, bind_ok_iff] at h ⊢
    obtain ⟨cs, hcs, h⟩ := h
    obtain ⟨r', h1, h2⟩ := runDiagnostic_mono key h hr
    exact ⟨r', ⟨cs, hcs, h1⟩, h2⟩

/-- The chain of `C137_violated` that passes, alone in a registry. -/
example : ∃ (parent : List (String × Chain ℝ)) (r : TestResult), parent.length = 1 ∧ gelmanRubin parent .all (1 / 20) = .ok r ∧
    r.passed = true := by
  obtain ⟨_, _, _, c, _, _, _, _, _, _, _, _, _, _, _, _, _, _, h⟩ := C137_violated
  refine ⟨[("two", c)], ⟨true, [(c.name, true)]⟩, rfl, ?_, rfl⟩
  simp only [gelmanRubin, sanitiseChains, List.map_cons, List.map_nil, bind, Except.bind, runDiagnostic, h]
  rfl

end CC
