import Verif.Model.Truth
import Mathlib.Algebra.Order.Field.Rat
import Mathlib.Tactic.NormNum

/-! # C62: truth markers -/

namespace CC
variable {K : Type} [Field K] [LinearOrder K]

/-- **C62** (validation). A truth is rejected exactly when it asks for an edge wider than 1 on an unfilled
marker, and is otherwise taken as given. -/
theorem C62_validation (filled : List String) (t : Truth K) :
    (t.make filled = .error .validation ↔ ∃ m, t.marker = some m ∧ m ∉ filled ∧ 1 < t.markerEdgeWidth) ∧
    (t.make filled = .ok t ↔ ¬ ∃ m, t.marker = some m ∧ m ∉ filled ∧ 1 < t.markerEdgeWidth) := by
  unfold Truth.make Truth.isFilled
  cases hm : t.marker with
  | none => simp
  | some m =>
    by_cases h1 : m ∈ filled
    · simp [h1]
    · by_cases h2 : 1 < t.markerEdgeWidth
      · simp [h1, h2]
      · simp [h1, h2]

omit [Field K] [LinearOrder K] in
/-- **C62** (markers). For filled markers the edge colour is the given one, or else the colour, the face has
the colour and the edge its width; for all others no edge or face is passed. -/
theorem C62_marker (filled : List String) (t : Truth K) :
    (∀ m, t.marker = some m → m ∈ filled →
      (∀ e, t.edgeColor = some e → (t.markerKwargs filled).edgecolor = some e) ∧
      (t.edgeColor = none → (t.markerKwargs filled).edgecolor = some t.color) ∧
      (t.markerKwargs filled).facecolor = some t.color ∧
      (t.markerKwargs filled).linewidth = some t.markerEdgeWidth) ∧
    ((∀ m, t.marker = some m → m ∉ filled) → (t.markerKwargs filled).edgecolor = none ∧
      (t.markerKwargs filled).facecolor = none ∧ (t.markerKwargs filled).linewidth = none) ∧
    (t.markerKwargs filled).marker = t.marker ∧ (t.markerKwargs filled).color = t.color ∧
    (t.markerKwargs filled).s = t.markerSize ∧ (t.markerKwargs filled).alpha = t.alpha ∧
    (t.markerKwargs filled).zorder = t.zorder := by
  refine ⟨?_, ?_, rfl, rfl, rfl, rfl, rfl⟩
  · intro m hm hf
    have hi : t.isFilled filled = true := by simp [Truth.isFilled, hm, hf]
    refine ⟨fun e he => ?_, fun he => ?_, ?_, ?_⟩ <;> simp [Truth.markerKwargs, *]
  · intro h
    have hi : t.isFilled filled = false := by
      unfold Truth.isFilled
      cases hm : t.marker with
      | none => rfl
      | some m => simp [h m hm]
    simp [Truth.markerKwargs, hi]

/-- Wide edges: refused for a cross, accepted for a circle, whose edge is black by default. -/
example : Truth.make ["o", "s"] { Truth.line [("a", (1 : ℚ))] with marker := some "x", markerEdgeWidth := 2 } =
      .error .validation ∧
    Truth.make ["o", "s"] { Truth.line [("a", (1 : ℚ))] with marker := some "o", markerEdgeWidth := 2 } =
      .ok { Truth.line [("a", (1 : ℚ))] with marker := some "o", markerEdgeWidth := 2 } ∧
    (Truth.markerKwargs ["o", "s"] { Truth.line [("a", (1 : ℚ))] with marker := some "o" }).edgecolor = some "black" := by
  refine ⟨(C62_validation _ _).1.2 ⟨"x", rfl, by decide, by norm_num⟩, (C62_validation _ _).2.2 ?_, ?_⟩
  · rintro ⟨m, hm, hf, -⟩
    cases hm
    exact hf (by decide)
  · exact ((C62_marker _ _).1 "o" rfl (by decide)).2.1 rfl

end CC
