import Verif.Model.Layout
import Verif.Lemmas.Except
import Mathlib.Tactic.FieldSimp
import Mathlib.Tactic.Linarith

/-! # C92: sizes of the other figures -/

namespace CC

/-- A size scaled by a number. -/
noncomputable def Spec.scaled (f : ℝ) (s : ℝ × ℝ) : ℝ × ℝ := (f * s.1, f * s.2)

open Spec

/-- **C92** (`plot_walks`, partial: not for numbers). Without a size the figure is 8 inches wide and one inch high per panel, plus
3/4 inches; a pair is the size itself. -/
theorem C92_walks_partial (n extra : Nat) :
    walksSize .none n extra = (8, 3 / 4 + (n : ℝ) + extra) ∧ ∀ w h, walksSize (.pair w h) n extra = (w, h) := by
  refine ⟨?_, fun _ _ => rfl⟩
  simp only [walksSize, Prod.mk.injEq, true_and]
  push_cast
  ring

/-- **C92** (`plot_walks`, violation). A number is documented to scale the figure; every number other than 0 gives another size. -/
theorem C92_violated (n extra : Nat) (f : ℝ) (hf : f ≠ 0) :
    walksSize (.number f) n extra = (f, f) ∧ walksSize (.number f) n extra ≠ scaled f (walksSize .none n extra) := by
  refine ⟨rfl, fun h => ?_⟩
  have h1 : f = f * 8 := congrArg Prod.fst h
  apply hf
  linarith

/-- **C92** (`plot_distributions`). The panels are the least rows that hold all columns, none wider than `col_wrap`; a number is the
scale, and every panel has 5/2 inches times the scale to a side; a pair is the size itself. -/
theorem C92_distributions (n colWrap rows cols : Nat) (h : distGrid n colWrap = .ok (rows, cols)) :
    cols ≤ colWrap ∧ n ≤ rows * colWrap ∧ (0 < n → (rows - 1) * colWrap < n ∧ 0 < rows ∧ 0 < cols ∧ n ≤ rows * cols) ∧
    distSize .none rows cols = ((cols : ℝ) * (5 / 2), (rows : ℝ) * (5 / 2)) ∧
    (∀ f, distSize (.number f) rows cols = scaled f (distSize .none rows cols)) ∧
    ∀ w h, distSize (.pair w h) rows cols = (w, h) := by
  simp only [distGrid, bind_ok_iff, ensure_ok_iff, pure_ok_iff, Prod.mk.injEq, decide_eq_true_eq] at h
  obtain ⟨_, h0, h1, h2⟩ := h
  have hpos : 0 < colWrap := Nat.pos_of_ne_zero h0
  have hmod := Nat.div_add_mod (n + colWrap - 1) colWrap
  have hlt := Nat.mod_lt (n + colWrap - 1) hpos
  rw [h1, Nat.mul_comm] at hmod
  have hn : n ≤ rows * colWrap := by omega
  refine ⟨by omega, hn, fun hn0 => ?_, ?_, ?_, fun _ _ => rfl⟩
  · have hr : 0 < rows := by
      rcases Nat.eq_zero_or_pos rows with e | e
      · rw [e, Nat.zero_mul] at hn
        omega
      · exact e
    refine ⟨?_, hr, by omega, ?_⟩
    · rw [Nat.sub_mul]
      omega
    · rcases Nat.le_total n colWrap with hle | hle
      · rw [← h2, Nat.min_eq_left hle]
        exact Nat.le_mul_of_pos_left n hr
      · rw [← h2, Nat.min_eq_right hle]
        exact hn
  · simp [distSize]
  · intro f
    simp only [distSize, scaled, Prod.mk.injEq]
    constructor <;> ring

/-- The rows of `plot_summary` on the page, in inches from the bottom edge of the figure: equal parts of what is between the two
margins. -/
noncomputable def Spec.rowHeight (l : SummaryLayout) (chains : Nat) : ℝ := (l.top - l.bottom) * l.size.2 / chains

/-- **C92** (`plot_summary`). The figure is scaled by `figsize`; before that every column of panels has its width, all columns of
parameters the same, every row has 1/2 inch (with error bars) or 4/5 inches times the ratio, and the margins above and below are
3/10 and 2/10 inches. -/
theorem C92_summary (f : ℝ) (errorbar : Bool) (extra ratio paramText modelText : ℝ) (columns chains : Nat) (l : SummaryLayout)
    (h : summaryLayout f errorbar extra ratio paramText modelText columns chains = .ok l) :
    l.size.1 = f * l.widths.sum ∧ l.widths.length = columns + 1 ∧
    (∀ w ∈ l.widths.tail, w = extra + 1 / 2 ∨ w = extra + paramText / 65) ∧
    (∀ w ∈ l.widths.tail, extra + 1 / 2 ≤ w ∧ extra + paramText / 65 ≤ w) ∧ l.widths.head? = some (1 / 4 + modelText / 65) ∧
    rowHeight l chains = f * ratio * (if errorbar then 1 / 2 else 4 / 5) ∧
    (1 - l.top) * l.size.2 = 3 / 10 * f ∧ l.bottom * l.size.2 = 1 / 5 * f := by
  simp only [summaryLayout, bind_ok_iff, ensure_ok_iff, pure_ok_iff, decide_eq_true_eq] at h
  obtain ⟨_, hc, _, hn, _, hh, rfl⟩ := h
  have hn' : (chains : ℝ) ≠ 0 := by exact_mod_cast hn
  refine ⟨?_, by simp, ?_, ?_, rfl, ?_, ?_, ?_⟩
  · simp only [List.sum_cons, List.sum_replicate, nsmul_eq_mul]
    ring
  · intro w hw
    rw [List.tail_cons] at hw
    rw [List.eq_of_mem_replicate hw]
    rcases max_choice (1 / 2) (paramText / 65) with e | e
    · exact .inl (by rw [e])
    · exact .inr (by rw [e])
  · intro w hw
    rw [List.tail_cons] at hw
    rw [List.eq_of_mem_replicate hw]
    exact ⟨by linarith [le_max_left (1 / 2) (paramText / 65)], by linarith [le_max_right (1 / 2) (paramText / 65)]⟩
  · unfold rowHeight
    simp only
    generalize hg : (3 / 10 + 1 / 5 + (if errorbar = true then (1 : ℝ) / 2 else 4 / 5) * ratio * chains) = g at hh
    have : (if errorbar = true then (1 : ℝ) / 2 else 4 / 5) * ratio * chains = g - 1 / 2 := by linarith
    rw [div_eq_iff hn', show f * ratio * (if errorbar = true then (1 : ℝ) / 2 else 4 / 5) * chains = f * ((if errorbar = true then
      (1 : ℝ) / 2 else 4 / 5) * ratio * chains) by ring, this]
    field_simp
    ring
  · generalize (3 / 10 + 1 / 5 + (if errorbar = true then (1 : ℝ) / 2 else 4 / 5) * ratio * chains) = g at hh
    field_simp
    ring
  · generalize (3 / 10 + 1 / 5 + (if errorbar = true then (1 : ℝ) / 2 else 4 / 5) * ratio * chains) = g at hh
    field_simp

example : distGrid 5 4 = .ok (2, 4) := rfl
example : ∃ l, summaryLayout 1 true 1 1 65 130 3 2 = .ok l := by
  unfold summaryLayout
  simp only [bind_ok_iff, ensure_ok_iff, pure_ok_iff, decide_eq_true_eq]
  exact ⟨_, (), by decide, (), by decide, (), by norm_num, rfl⟩

end CC
