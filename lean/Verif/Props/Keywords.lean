import Verif.Model.Keywords
import Verif.Props.Ranges

/-! # C96: keywords for legend and watermark -/

namespace CC

/-- The value of a keyword: the one given, or the default. -/
def Spec.chosen (given default : List (String × Kw)) (k : String) : Option Kw :=
  match given.lookup k with
  | some v => some v
  | none => default.lookup k

open Spec

theorem lookup_dictMerge (d e : List (String × Kw)) (h : (e.map Prod.fst).Nodup) (k : String) :
    (dictMerge d e).lookup k = chosen e d k := by
  induction e generalizing d with
  | nil => rfl
  | cons x e ih =>
    rw [List.map_cons, List.nodup_cons] at h
    change (dictMerge (dictSet d x.1 x.2) e).lookup k = _
    rw [ih _ h.2, chosen, chosen, lookup_dictSet, List.lookup_cons]
    by_cases hk : k = x.1
    · subst hk
      have : e.lookup x.1 = none := by
        rw [List.lookup_eq_none_iff]
        intro p hp
        simp only [bne_iff_ne, ne_eq]
        intro he
        exact h.1 (List.mem_map.2 ⟨p, hp, he.symm⟩)
      rw [this]
      simp
    · rw [beq_false_of_ne hk, if_neg hk]

/-- **C96** (legend). Every keyword given for the legend reaches it as given; the others have their defaults, and markers come
first if the legend is put below the diagonal or artists are not asked for. -/
theorem C96_legend (size : ℝ) (given : List (String × Kw)) (h : (given.map Prod.fst).Nodup) (outside artists : Bool) (k : String) :
    (legendKwargs size given outside artists).lookup k =
      chosen given ([("labelspacing", .num (3 / 10)), ("loc", .text "upper right"), ("frameon", .flag false), ("fontsize", .num size),
        ("handlelength", .num 1), ("handletextpad", .num (1 / 5)), ("borderaxespad", .num 0),
        ("markerfirst", .flag (outside || !artists))]) k := by
  have e5 : (2 / 10 : ℝ) = 1 / 5 := by norm_num
  have key : (legendKwargsFinal size given).lookup "markerfirst" = given.lookup "markerfirst" := by
    rw [legendKwargsFinal, lookup_dictMerge _ _ h, chosen]
    cases given.lookup "markerfirst" <;> rfl
  have hall : ∀ k, k ≠ "markerfirst" → (legendKwargsFinal size given).lookup k =
      chosen given ([("labelspacing", .num (3 / 10)), ("loc", .text "upper right"), ("frameon", .flag false), ("fontsize", .num size),
        ("handlelength", .num 1), ("handletextpad", .num (1 / 5)), ("borderaxespad", .num 0),
        ("markerfirst", .flag (outside || !artists))]) k := by
    intro k hk
    rw [legendKwargsFinal, lookup_dictMerge _ _ h, chosen, chosen]
    cases given.lookup k with
    | some v => rfl
    | none => simp only [legendDefaults, List.lookup, beq_false_of_ne hk, e5]
  unfold legendKwargs
  simp only [key]
  by_cases hk : k = "markerfirst"
  · subst hk
    cases hg : given.lookup "markerfirst" with
    | none =>
      rw [if_pos (by rfl), lookup_dictSet, if_pos rfl, chosen, hg]
      rfl
    | some v =>
      rw [if_neg (by simp), key, hg, chosen, hg]
  · split
    · rw [lookup_dictSet, if_neg hk, hall k hk]
    · exact hall k hk

theorem two_keys {a b : Kw} : ([("rotation", a), ("fontsize", b)].map Prod.fst).Nodup := by
  change ["rotation", "fontsize"].Nodup
  decide

/-- **C96** (watermark, partial: not for `rotation` and `fontsize`). Every other keyword given for the watermark reaches the text as given;
the others have their defaults. -/
theorem C96_watermark_partial (given : List (String × Kw)) (h : (given.map Prod.fst).Nodup) (rotation fontsize : ℝ) {k : String}
    (h1 : k ≠ "rotation") (h2 : k ≠ "fontsize") :
    (watermarkKwargs given rotation fontsize).lookup k =
      chosen given [("color", .text "#333333"), ("alpha", .num (7 / 10)), ("verticalalignment", .text "center"),
        ("horizontalalignment", .text "center"), ("weight", .text "bold")] k := by
  rw [watermarkKwargs, lookup_dictMerge _ _ two_keys, chosen]
  simp only [List.lookup, beq_false_of_ne h1, beq_false_of_ne h2]
  rw [watermarkKwargsFinal, lookup_dictMerge _ _ h]
  rfl

/-- **C96** (watermark, violation). Whatever rotation and font size are given, the computed ones are used. -/
theorem C96_violated (given : List (String × Kw)) (rotation fontsize : ℝ) :
    (watermarkKwargs given rotation fontsize).lookup "rotation" = some (.num rotation) ∧
    (watermarkKwargs given rotation fontsize).lookup "fontsize" = some (.num fontsize) := by
  constructor <;> rw [watermarkKwargs, lookup_dictMerge _ _ two_keys] <;> rfl

/-- A watermark that is asked to be horizontal. -/
example : (watermarkKwargs [("rotation", .num 0)] (-45) 50).lookup "rotation" ≠ some (.num 0) := by
  rw [(C96_violated _ _ _).1]
  intro h
  have := Kw.num.inj (Option.some.inj h)
  norm_num at this

/-- **C96** (files). The files asked for are written, in order, with the configured resolution, and no others. -/
theorem C96_files (dpi : Nat) : saveFig .none dpi = [] ∧ (∀ f, saveFig (.one f) dpi = [(f, dpi)]) ∧
    ∀ fs, (saveFig (.many fs) dpi).map Prod.fst = fs ∧ ∀ e ∈ saveFig (.many fs) dpi, e.2 = dpi := by
  refine ⟨rfl, fun _ => rfl, fun fs => ⟨?_, ?_⟩⟩
  · simp [saveFig, Function.comp_def]
  · intro e he
    obtain ⟨f, -, rfl⟩ := List.mem_map.1 he
    rfl

/-- A legend of which the place is given. -/
example : (legendKwargs 12 [("loc", .text "lower left")] false false).lookup "loc" = some (.text "lower left") ∧
    (legendKwargs 12 [("loc", .text "lower left")] false false).lookup "markerfirst" = some (.flag true) := by
  constructor <;> rw [C96_legend _ _ (by simp)] <;> rfl

end CC
