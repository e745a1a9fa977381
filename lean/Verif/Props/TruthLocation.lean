import Verif.Model.TruthLocation
import Verif.Lemmas.Except

/-! # C99: locations of truths -/

namespace CC

namespace Spec
variable {K : Type}

/-- The entries of a dictionary or Series are a location: every key is text and every value a number. -/
def Located (entries : List (LocKey × Option K)) (loc : List (String × K)) : Prop :=
  entries = loc.map fun p => (LocKey.text p.1, some p.2)

/-- What the documentation of `location` promises (truth.py 16): a dictionary is kept and a Series becomes one. -/
def AcceptsDictAndSeries (f : LocationArg K → Res (List (String × K))) : Prop :=
  ∀ loc : List (String × K), ∀ entries, Located entries loc → f (.dict entries) = .ok loc ∧ f (.series entries) = .ok loc

end Spec

open Spec

section
variable {K : Type}

theorem locEntry_ok {e : LocKey × Option K} {p : String × K} :
    locEntry e = .ok p ↔ e = (.text p.1, some p.2) := by
  obtain ⟨k, v⟩ := e
  obtain ⟨s, x⟩ := p
  cases k <;> cases v <;> simp [locEntry]

theorem mapM_locEntry {es : List (LocKey × Option K)} {l : List (String × K)} :
    es.mapM locEntry = .ok l ↔ Located es l := by
  unfold Located
  induction es generalizing l with
  | nil =>
    rw [List.mapM_nil, pure_ok_iff]
    constructor
    · rintro rfl; rfl
    · intro h; exact (List.map_eq_nil_iff.1 h.symm).symm
  | cons e es ih =>
    rw [List.mapM_cons, bind_ok_iff]
    constructor
    · rintro ⟨p, hp, h⟩
      rw [bind_ok_iff] at h
      obtain ⟨q, hq, h⟩ := h
      rw [← pure_ok_iff.1 h, locEntry_ok.1 hp, ih.1 hq]
      rfl
    · intro h
      cases l with
      | nil => simp at h
      | cons p l =>
        simp only [List.map_cons, List.cons.injEq] at h
        exact ⟨p, locEntry_ok.2 h.1, by rw [ih.2 h.2]; rfl⟩

theorem locEntries_located {es : List (LocKey × Option K)} {l : List (String × K)} (h : Located es l) :
    locEntries (.dict es) = l := by
  unfold Located at h
  subst h
  unfold locEntries
  simp only [List.filterMap_map]
  induction l with
  | nil => rfl
  | cons p l ih => simp

theorem locField_dict {es : List (LocKey × Option K)} {l : List (String × K)} (h : Located es l) :
    locField (.dict es) = .ok (.dict es) := by
  unfold locField
  simp only [mapM_locEntry.2 h, bind, Except.bind, pure, Except.pure]
  rw [← h]

/-- **C99** for dictionaries: a dictionary is accepted exactly if all its keys are text and all its values are numbers, and is kept as
it is. Missing: Series, which are documented and rejected (`C99_violated`). -/
theorem C99_dictionary_partial (entries : List (LocKey × Option K)) (loc : List (String × K)) :
    truthLocation (.dict entries) = .ok loc ↔ Located entries loc := by
  constructor
  · intro h
    unfold truthLocation at h
    rw [bind_ok_iff] at h
    obtain ⟨d, hd, h⟩ := h
    unfold locField at hd
    simp only at hd
    rw [bind_ok_iff] at hd
    obtain ⟨l, hl, hd⟩ := hd
    have hloc := mapM_locEntry.1 hl
    have hd' := pure_ok_iff.1 hd
    rw [← hloc] at hd'
    subst hd'
    rw [bind_ok_iff] at h
    obtain ⟨e, he, h⟩ := h
    have : e = .dict entries := (Except.ok.inj he).symm
    subst this
    rw [← pure_ok_iff.1 h, locEntries_located hloc]
    exact hloc
  · intro h
    unfold truthLocation
    simp only [locField_dict h, ensureDict, bind, Except.bind, pure, Except.pure, locEntries_located h]

/-- **C99** is violated: no Series is accepted, although the documentation says that it is converted, because the validator that
converts it runs only after the annotation has been validated. -/
theorem C99_violated : ¬ AcceptsDictAndSeries (K := K) truthLocation ∧
    ∀ entries : List (LocKey × Option K), truthLocation (.series entries) = .error .validation := by
  refine ⟨fun h => ?_, fun _ => rfl⟩
  have := (h [] [] rfl).2
  cases this

/-- **C99**: what would be needed. Run before the annotation is validated, the same validator gives what is documented. -/
theorem C99_before : AcceptsDictAndSeries (K := K) truthLocationBefore := by
  intro loc entries h
  constructor
  · unfold truthLocationBefore
    simp only [ensureDict, locField_dict h, bind, Except.bind, pure, Except.pure, locEntries_located h]
  · unfold truthLocationBefore
    simp only [ensureDict, locField_dict h, bind, Except.bind, pure, Except.pure, locEntries_located h]

end

/-- A dictionary that is accepted. -/
example : truthLocation (K := ℚ) (.dict [(.text "A", some 0), (.text "B", some 5)]) = .ok [("A", 0), ("B", 5)] := by
  rw [C99_dictionary_partial]; rfl

/-- The same values as a Series. -/
example : truthLocation (K := ℚ) (.series [(.text "A", some 0), (.text "B", some 5)]) = .error .validation := rfl

end CC
