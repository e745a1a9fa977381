import Verif.Model.Comparison
import Verif.Spec.Comparison
import Verif.Lemmas.Covariance
import Mathlib.Tactic.Ring

/-! Facts about the criterion loop and the subtraction of the minimum. -/

set_option linter.unusedSectionVars false

namespace CC
open Spec
variable {K : Type} [Field K] [LinearOrder K]

theorem foldl_max_spec (x : K) (xs : List K) :
    (xs.foldl max x ∈ x :: xs) ∧ ∀ y ∈ x :: xs, y ≤ xs.foldl max x := by
  induction xs generalizing x with
  | nil => simp
  | cons z zs ih =>
    obtain ⟨h1, h2⟩ := ih (max x z)
    rw [List.foldl_cons]
    refine ⟨?_, ?_⟩
    · rcases List.mem_cons.1 h1 with h | h
      · rw [h]
        rcases max_cases x z with ⟨h', -⟩ | ⟨h', -⟩ <;> rw [h'] <;> simp
      · exact List.mem_cons_of_mem _ (List.mem_cons_of_mem _ h)
    · intro y hy
      rcases List.mem_cons.1 hy with rfl | hy
      · exact (le_max_left _ _).trans (h2 _ (List.mem_cons_self ..))
      · rcases List.mem_cons.1 hy with rfl | hy
        · exact (le_max_right _ _).trans (h2 _ (List.mem_cons_self ..))
        · exact h2 y (List.mem_cons_of_mem _ hy)

theorem npMax_spec {p : List K} (hp : p ≠ []) :
    ∃ M, npMax p = .ok M ∧ M ∈ p ∧ ∀ y ∈ p, y ≤ M := by
  cases p with
  | nil => exact absurd rfl hp
  | cons x xs => exact ⟨_, rfl, foldl_max_spec x xs⟩

theorem foldl_min_fin (x : K) (l : List (String × K)) :
    ∃ m, (l.map fun e => (e.1, Flt.fin e.2)).foldl (fun m e => Flt.minNan m e.2) (.fin x) = .fin m ∧
      m ≤ x ∧ (∀ e ∈ l, m ≤ e.2) ∧ (m = x ∨ ∃ e ∈ l, e.2 = m) := by
  induction l generalizing x with
  | nil => exact ⟨x, rfl, le_rfl, by simp, Or.inl rfl⟩
  | cons e es ih =>
    have hmin : Flt.minNan (.fin x) (Flt.fin e.2) = .fin (min x e.2) := by
      simp only [Flt.minNan, Flt.lt, decide_eq_true_eq]
      split
      · rename_i h; rw [min_eq_right h.le]
      · rename_i h; rw [min_eq_left (not_lt.1 h)]
    obtain ⟨m, h1, h2, h3, h4⟩ := ih (min x e.2)
    refine ⟨m, ?_, h2.trans (min_le_left _ _), ?_, ?_⟩
    · rw [List.map_cons, List.foldl_cons, hmin, h1]
    · intro e' he'
      rcases List.mem_cons.1 he' with rfl | he'
      · exact h2.trans (min_le_right _ _)
      · exact h3 e' he'
    · rcases h4 with h4 | ⟨e', he', h4⟩
      · rcases min_cases x e.2 with ⟨h5, -⟩ | ⟨h5, -⟩
        · exact Or.inl (h4.trans h5)
        · exact Or.inr ⟨e, List.mem_cons_self .., by rw [h4, h5]⟩
      · exact Or.inr ⟨e', List.mem_cons_of_mem _ he', h4⟩

theorem relative_fin (l : List (String × K)) :
    ∃ m, relativeToMin (l.map fun e => (e.1, Flt.fin e.2)) =
        l.map (fun e => (e.1, Flt.fin (e.2 - m))) ∧
      (∀ e ∈ l, m ≤ e.2) ∧ (l ≠ [] → ∃ e ∈ l, e.2 = m) := by
  cases l with
  | nil => exact ⟨0, rfl, by simp, by simp⟩
  | cons e es =>
    obtain ⟨m, h1, h2, h3, h4⟩ := foldl_min_fin e.2 es
    refine ⟨m, ?_, ?_, fun _ => ?_⟩
    · simp only [List.map_cons, relativeToMin, h1, List.map_map]
      simp only [Flt.sub, Flt.neg, Flt.add, sub_eq_add_neg, List.cons.injEq, true_and]
      rfl
    · intro e' he'
      rcases List.mem_cons.1 he' with rfl | he'
      · exact h2
      · exact h3 e' he'
    · rcases h4 with h4 | ⟨e', he', h4⟩
      · exact ⟨e, List.mem_cons_self .., h4.symm⟩
      · exact ⟨e', List.mem_cons_of_mem _ he', h4⟩

/-- The loop collects the values of the eligible chains in order. -/
theorem criterionLoop_ok {f : Chain K → Res (Option (Flt K))} {elig : Chain K → Bool}
    {crit : Chain K → K → Prop} {cs : List (String × Chain K)}
    (h1 : ∀ e ∈ cs, elig e.2 = true → ∃ v, f e.2 = .ok (some (.fin v)) ∧ crit e.2 v)
    (h2 : ∀ e ∈ cs, elig e.2 = false → f e.2 = .ok none) :
    ∃ l : List (String × K), criterionLoop f cs = .ok (l.map fun e => (e.1, .fin e.2)) ∧
      List.Forall₂ (fun (e : String × Chain K) v => v.1 = e.1 ∧ crit e.2 v.2)
        (cs.filter fun e => elig e.2) l := by
  induction cs with
  | nil => exact ⟨[], rfl, .nil⟩
  | cons e es ih =>
    obtain ⟨l, hl, hF⟩ := ih (fun e he => h1 e (List.mem_cons_of_mem _ he))
      (fun e he => h2 e (List.mem_cons_of_mem _ he))
    cases he : elig e.2 with
    | true =>
      obtain ⟨v, hv, hc⟩ := h1 e (List.mem_cons_self ..) he
      refine ⟨(e.1, v) :: l, ?_, ?_⟩
      · simp only [criterionLoop, hv, hl, bind, Except.bind, pure, Except.pure, List.map_cons]
      · rw [List.filter_cons, if_pos he]
        exact .cons ⟨rfl, hc⟩ hF
    | false =>
      refine ⟨l, ?_, ?_⟩
      · simp only [criterionLoop, h2 e (List.mem_cons_self ..) he, hl, bind, Except.bind, pure,
          Except.pure]
      · rw [List.filter_cons, if_neg (by simp [he])]
        exact hF

theorem relative_criterion [IsStrictOrderedRing K] {f : Chain K → Res (Option (Flt K))}
    {elig : Chain K → Bool} {crit : Chain K → K → Prop} {cs : List (String × Chain K)}
    (h1 : ∀ e ∈ cs, elig e.2 = true → ∃ v, f e.2 = .ok (some (.fin v)) ∧ crit e.2 v)
    (h2 : ∀ e ∈ cs, elig e.2 = false → f e.2 = .ok none) :
    ∃ l, criterionLoop f cs = .ok l ∧ RelativeCriterion elig crit cs (relativeToMin l) := by
  obtain ⟨l, hl, hF⟩ := criterionLoop_ok h1 h2
  refine ⟨_, hl, ?_⟩
  obtain ⟨m, h3, h4, h5⟩ := relative_fin l
  refine ⟨l.map fun e => (e.1, e.2 - m), ?_, ?_, ?_, m, ?_⟩
  · rw [h3, List.map_map]; rfl
  · simp only [List.mem_map, forall_exists_index, and_imp]
    rintro _ e he rfl
    exact sub_nonneg.2 (h4 e he)
  · intro hne
    obtain ⟨e, he, hem⟩ := h5 (by rintro rfl; exact hne rfl)
    exact ⟨(e.1, e.2 - m), List.mem_map.2 ⟨e, he, rfl⟩, sub_eq_zero.2 hem⟩
  · rw [List.forall₂_map_right_iff]
    exact hF.imp fun e v h => ⟨h.1, by simpa using h.2⟩

theorem logPosterior_some {c : Chain K} {p : List K} (h : c.logPosterior = some p) :
    (c.posteriorColumn, p) ∈ c.samples.cols := lookup_mem h

theorem logPosterior_isSome {c : Chain K} :
    c.logPosterior.isSome = true ↔ c.posteriorColumn ∈ c.samples.columns :=
  lookup_isSome_iff _ _

/-- The posterior of an accepted chain is as long as the table, hence non-empty. -/
theorem posterior_length [IsStrictOrderedRing K] {c : Chain K} (h : Accepted c) {p : List K}
    (hp : c.logPosterior = some p) : p.length = c.samples.index.length ∧ p ≠ [] := by
  obtain ⟨a, hwf, hc⟩ := h
  obtain ⟨hW, -, hne, -⟩ := make_WF hwf hc
  have hl := hW.2 _ (logPosterior_some hp)
  refine ⟨hl, ?_⟩
  rintro rfl
  exact hne (List.length_eq_zero_iff.1 hl.symm)

theorem eligible_iff {c : Chain K} : eligible c = true ↔
    ∃ p N k, c.logPosterior = some p ∧ c.numEffDataPoints = some N ∧ c.numFreeParams = some k := by
  simp only [eligible, Bool.and_eq_true, decide_eq_true_eq, ← logPosterior_isSome,
    Option.isSome_iff_exists]
  constructor
  · rintro ⟨⟨⟨p, hp⟩, N, hN⟩, k, hk⟩; exact ⟨p, N, k, hp, hN, hk⟩
  · rintro ⟨p, N, k, hp, hN, hk⟩; exact ⟨⟨⟨p, hp⟩, N, hN⟩, k, hk⟩

theorem not_eligible {c : Chain K} (h : eligible c = false) :
    c.logPosterior = none ∨ c.numEffDataPoints = none ∨ c.numFreeParams = none := by
  by_contra hne
  push Not at hne
  obtain ⟨h1, h2, h3⟩ := hne
  obtain ⟨p, hp⟩ := Option.ne_none_iff_exists'.1 h1
  obtain ⟨N, hN⟩ := Option.ne_none_iff_exists'.1 h2
  obtain ⟨k, hk⟩ := Option.ne_none_iff_exists'.1 h3
  have := eligible_iff.2 ⟨p, N, k, hp, hN, hk⟩
  rw [h] at this
  cases this

end CC
