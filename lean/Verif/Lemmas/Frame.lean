import Verif.Model.Chain
import Verif.Lemmas.Except

/-! Lemmas about frames and the validation steps. -/

namespace CC

theorem mapM_some_map_fin {K : Type} (l : List K) :
    (l.map Flt.fin).mapM Flt.toFin? = some l := by
  induction l with
  | nil => rfl
  | cons a l ih => simp [List.mapM_cons, ih, Flt.toFin?]

theorem mapM_toFin?_eq_some {K : Type} {l : List (Flt K)} {v : List K} :
    l.mapM Flt.toFin? = some v ↔ l = v.map .fin := by
  constructor
  · intro h
    induction l generalizing v with
    | nil => simp at h; subst h; rfl
    | cons a l ih =>
      rw [List.mapM_cons] at h
      cases a with
      | fin x =>
        simp only [Flt.toFin?, Option.pure_def, Option.bind_eq_bind, Option.bind_some] at h
        cases hl : l.mapM Flt.toFin? with
        | none => simp [hl] at h
        | some vs => simp [hl] at h; subst h; simp [ih hl]
      | posInf => simp [Flt.toFin?] at h
      | negInf => simp [Flt.toFin?] at h
      | nan => simp [Flt.toFin?] at h
  · rintro rfl; exact mapM_some_map_fin v

theorem mapM_toFin?_isSome {K : Type} {l : List (Flt K)} :
    (∃ v, l.mapM Flt.toFin? = some v) ↔ ∀ x ∈ l, x.isFinite = true := by
  constructor
  · rintro ⟨v, hv⟩ x hx
    rw [mapM_toFin?_eq_some] at hv
    subst hv
    obtain ⟨y, _, rfl⟩ := List.mem_map.1 hx
    rfl
  · intro h
    induction l with
    | nil => exact ⟨[], rfl⟩
    | cons a l ih =>
      obtain ⟨v, hv⟩ := ih (fun x hx => h x (List.mem_cons_of_mem _ hx))
      have ha := h a List.mem_cons_self
      cases a with
      | fin x => exact ⟨x :: v, by simp [List.mapM_cons, hv, Flt.toFin?]⟩
      | posInf => simp [Flt.isFinite] at ha
      | negInf => simp [Flt.isFinite] at ha
      | nan => simp [Flt.isFinite] at ha

section
variable {K : Type}

theorem checkColumn_ok_iff {c : ColLabel × List (Flt K)} {d : String × List K} :
    checkColumn c = .ok d ↔ c = (.str d.1, d.2.map .fin) := by
  obtain ⟨l, v⟩ := c
  cases l with
  | other i => simp [checkColumn]
  | str s =>
    simp only [checkColumn]
    cases h : v.mapM Flt.toFin? with
    | none =>
      simp only [reduceCtorEq, Prod.mk.injEq, ColLabel.str.injEq, false_iff, not_and]
      rintro - rfl
      rw [mapM_some_map_fin] at h; cases h
    | some w =>
      rw [mapM_toFin?_eq_some] at h
      subst h
      obtain ⟨d1, d2⟩ := d
      simp only [Except.ok.injEq, Prod.mk.injEq, ColLabel.str.injEq]
      constructor
      · rintro ⟨rfl, rfl⟩; exact ⟨rfl, rfl⟩
      · rintro ⟨rfl, h⟩
        refine ⟨rfl, ?_⟩
        exact (List.map_injective_iff.2 (fun a b h => by cases h; rfl)) h

theorem forall₂_eq_map {α β : Type _} {g : β → α} {l : List α} {r : List β} :
    List.Forall₂ (fun a b => a = g b) l r ↔ l = r.map g := by
  constructor
  · intro h
    induction h with
    | nil => rfl
    | cons h _ ih => simp [h, ih]
  · rintro rfl
    induction r with
    | nil => exact .nil
    | cons b r ih => exact .cons rfl ih

/-- Validation of the columns succeeds with `f` exactly when the raw table *is* `f`. -/
theorem checkColumns_ok_iff {raw : RawFrame K} {f : Frame K} :
    checkColumns raw = .ok f ↔ raw = f.toRaw := by
  simp only [checkColumns, bind_ok_iff, pure_ok_iff, mapM_ok_iff, checkColumn_ok_iff]
  constructor
  · rintro ⟨cols, h, rfl⟩
    obtain ⟨idx, rc⟩ := raw
    simp only [Frame.toRaw, RawFrame.mk.injEq, true_and]
    exact forall₂_eq_map.1 h
  · rintro rfl
    exact ⟨f.cols, forall₂_eq_map.2 rfl, rfl⟩

theorem toRaw_injective {f g : Frame K} (h : f.toRaw = g.toRaw) : f = g := by
  have h1 := checkColumns_ok_iff (raw := f.toRaw) (f := f) |>.2 rfl
  have h2 := checkColumns_ok_iff (raw := f.toRaw) (f := g) |>.2 h
  rw [h1] at h2; exact Except.ok.inj h2

/-- Validation of the columns succeeds exactly when every label is a string and every cell
finite. -/
theorem checkColumns_isOk {raw : RawFrame K} :
    (∃ f, checkColumns raw = .ok f) ↔
      ∀ c ∈ raw.cols, (∃ s, c.1 = .str s) ∧ ∀ x ∈ c.2, x.isFinite = true := by
  constructor
  · rintro ⟨f, hf⟩ c hc
    rw [checkColumns_ok_iff] at hf
    subst hf
    simp only [Frame.toRaw, List.mem_map] at hc
    obtain ⟨d, _, rfl⟩ := hc
    refine ⟨⟨d.1, rfl⟩, fun x hx => ?_⟩
    obtain ⟨y, _, rfl⟩ := List.mem_map.1 hx
    rfl
  · intro h
    obtain ⟨idx, cols⟩ := raw
    simp only at h
    suffices hs : ∃ fc : List (String × List K), cols = fc.map fun c => (.str c.1, c.2.map .fin) by
      obtain ⟨fc, rfl⟩ := hs
      exact ⟨⟨idx, fc⟩, checkColumns_ok_iff.2 rfl⟩
    induction cols with
    | nil => exact ⟨[], rfl⟩
    | cons c cols ih =>
      obtain ⟨fc, rfl⟩ := ih (fun d hd => h d (List.mem_cons_of_mem _ hd))
      obtain ⟨⟨s, hs⟩, hfin⟩ := h c List.mem_cons_self
      obtain ⟨v, hv⟩ := mapM_toFin?_isSome.2 hfin
      rw [mapM_toFin?_eq_some] at hv
      exact ⟨(s, v) :: fc, by simp [← hs, ← hv]⟩

theorem lookup_map_str {K : Type} (cols : List (String × List K)) (n : String) :
    (cols.map fun c => (ColLabel.str c.1, c.2.map Flt.fin)).lookup (.str n)
      = (cols.lookup n).map (List.map Flt.fin) := by
  induction cols with
  | nil => rfl
  | cons c cols ih =>
    obtain ⟨a, v⟩ := c
    by_cases h : n = a
    · subst h; simp
    · have h1 : (n == a) = false := by simpa using h
      have h2 : (ColLabel.str n == ColLabel.str a) = false := by simpa using h
      simp only [List.map_cons, List.lookup_cons, h1, h2, ih]

end

end CC
