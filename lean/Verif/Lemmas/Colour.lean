import Verif.Model.Chain
import Verif.Spec.Chain

/-! Lemmas about colour names. -/

namespace CC

theorem lookup_isSome_iff {α β : Type _} [DecidableEq α] (d : List (α × β)) (k : α) :
    (d.lookup k).isSome ↔ k ∈ d.map Prod.fst := by
  induction d with
  | nil => simp
  | cons e d ih =>
    obtain ⟨a, b⟩ := e
    by_cases hk : k = a
    · subst hk; simp
    · have : (k == a) = false := by simpa using hk
      simp [List.lookup_cons, this, ih, hk]

/-- Every colour in the palette table starts with `#`, and every palette has nine shades. -/
theorem palette_hash : ∀ p ∈ Colors.allColours, p.2.length = 9 ∧
    ∀ c ∈ p.2, c.toList.head? = some '#' := by decide +kernel

theorem lookup_mem {α β : Type _} [DecidableEq α] {d : List (α × β)} {k : α} {v : β}
    (h : d.lookup k = some v) : (k, v) ∈ d := by
  induction d with
  | nil => simp at h
  | cons e d ih =>
    obtain ⟨a, b⟩ := e
    by_cases hk : k = a
    · subst hk; simp at h; simp [h]
    · have : (k == a) = false := by simpa using hk
      simp only [List.lookup_cons, this] at h
      exact List.mem_cons_of_mem _ (ih h)

theorem paletteAt_ok {n : String} (hn : n ∈ Colors.allColours.map Prod.fst) {i : Nat} (hi : i < 9) :
    ∃ c, Colors.paletteAt n i = .ok c ∧ c.toList.head? = some '#' ∧
      ∃ l, (n, l) ∈ Colors.allColours ∧ l[i]? = some c := by
  obtain ⟨l, hl⟩ := Option.isSome_iff_exists.1 ((lookup_isSome_iff _ _).2 hn)
  have hm := lookup_mem hl
  obtain ⟨h9, hh⟩ := palette_hash _ hm
  simp only at h9 hh
  have hlt : i < l.length := by omega
  refine ⟨l[i], ?_, hh _ (List.getElem_mem hlt), l, hm, List.getElem?_eq_getElem hlt⟩
  simp [Colors.paletteAt, hl, List.getElem?_eq_getElem hlt]

/-- Every alias other than `e` maps to a palette name. -/
theorem alias_targets : ∀ p ∈ Colors.aliases, p.1 ≠ "e" →
    p.2 ∈ Colors.allColours.map Prod.fst := by decide +kernel

theorem alias_nodup : (Colors.aliases.map Prod.fst).Nodup := by decide +kernel

/-- No alias is itself a palette name. -/
theorem alias_not_palette : ∀ p ∈ Colors.aliases, p.1 ∉ Colors.allColours.map Prod.fst := by
  decide +kernel

theorem palette_no_hash : ∀ p ∈ Colors.allColours.map Prod.fst, p.toList.head? ≠ some '#' := by
  decide +kernel

theorem alias_no_hash : ∀ p ∈ Colors.aliases.map Prod.fst, p.toList.head? ≠ some '#' := by
  decide +kernel

theorem format_hash {s : String} (h : s.toList.head? = some '#') :
    Colors.format (some s) = .ok s := by
  simp only [Colors.format]
  cases hs : s.toList with
  | nil => simp [hs] at h
  | cons c cs => simp [hs] at h; simp [h]

theorem format_not_hash {s : String} (h : s.toList.head? ≠ some '#') (hne : s ≠ "") :
    Colors.format (some s) =
      if (Colors.allColours.lookup s).isSome then Colors.paletteAt s 4
      else match Colors.aliases.lookup s with
        | some target =>
          let index := if pyLower s ∈ ["k", "black"] then 8
            else if pyLower s ∈ ["f", "white"] then 0 else 4
          Colors.paletteAt target index
        | none => .error .value := by
  simp only [Colors.format]
  cases hs : s.toList with
  | nil => exact absurd (String.toList_injective hs) hne
  | cons c cs =>
    simp only [hs, List.head?_cons, ne_eq, Option.some.injEq] at h
    simp only [h, if_false]
    cases List.lookup s Colors.aliases <;> rfl

theorem format_empty : Colors.format (some "") = .error .index := by rfl

/-- `format` succeeds exactly on the understood colours, and then yields a hex code. -/
theorem format_ok_iff (s : String) :
    (∃ c, Colors.format (some s) = .ok c) ↔ Spec.ColourOk (some s) := by
  by_cases hh : s.toList.head? = some '#'
  · simp [format_hash hh, Spec.ColourOk, hh]
  by_cases he : s = ""
  · subst he
    rw [format_empty]
    have h1 : "" ∉ Colors.allColours.map Prod.fst := by decide +kernel
    have h2 : "" ∉ Colors.aliases.map Prod.fst := by decide +kernel
    simp only [Spec.ColourOk, h1, h2, false_and, or_false]
    simp
  rw [format_not_hash hh he]
  simp only [Spec.ColourOk, hh, false_or]
  by_cases hp : s ∈ Colors.allColours.map Prod.fst
  · have := (lookup_isSome_iff Colors.allColours s).2 hp
    obtain ⟨c, hc, -⟩ := paletteAt_ok hp (i := 4) (by omega)
    rw [if_pos this]
    exact ⟨fun _ => .inl hp, fun _ => ⟨c, hc⟩⟩
  · have : ¬ (Colors.allColours.lookup s).isSome := fun h => hp ((lookup_isSome_iff _ _).1 h)
    simp only [this, hp, false_or]
    cases ha : Colors.aliases.lookup s with
    | none =>
      have : s ∉ Colors.aliases.map Prod.fst := fun h => by
        rw [← lookup_isSome_iff, ha] at h; cases h
      simp [this]
    | some al =>
      have hm := lookup_mem ha
      have hin : s ∈ Colors.aliases.map Prod.fst := List.mem_map.2 ⟨_, hm, rfl⟩
      simp only [hin, true_and]
      by_cases hse : s = "e"
      · subst hse
        have hal : al = "grey" := by
          have : Colors.aliases.lookup "e" = some "grey" := by decide +kernel
          rw [this] at ha; exact (Option.some.inj ha).symm
        subst hal
        constructor
        · rintro ⟨c, hc⟩
          exfalso
          have : (do
            let index := if pyLower "e" ∈ ["k", "black"] then 8
              else if pyLower "e" ∈ ["f", "white"] then 0 else 4
            Colors.paletteAt "grey" index : Res String) = .error .key := by decide +kernel
          simp only [Bool.false_eq_true, if_false] at hc
          rw [this] at hc
          cases hc
        · intro h; exact absurd rfl h
      · have htarget := alias_targets _ hm hse
        refine ⟨fun _ => hse, fun _ => ?_⟩
        simp only [Bool.false_eq_true, if_false]
        split
        · obtain ⟨c, hc, -⟩ := paletteAt_ok htarget (i := 8) (by omega); exact ⟨c, hc⟩
        · split
          · obtain ⟨c, hc, -⟩ := paletteAt_ok htarget (i := 0) (by omega); exact ⟨c, hc⟩
          · obtain ⟨c, hc, -⟩ := paletteAt_ok htarget (i := 4) (by omega); exact ⟨c, hc⟩

theorem paletteAt_hash {n : String} {i : Nat} {c : String} (h : Colors.paletteAt n i = .ok c) :
    c.toList.head? = some '#' ∧ ∃ l, (n, l) ∈ Colors.allColours ∧ c ∈ l := by
  simp only [Colors.paletteAt] at h
  split at h
  · cases h
  · rename_i l hl
    split at h
    · cases h
    · rename_i d hd
      cases h
      have hm := lookup_mem hl
      have hmem := List.mem_of_getElem? hd
      exact ⟨(palette_hash _ hm).2 _ hmem, l, hm, hmem⟩

/-- The result of `format` is a hex code: the given one, or one of the palette. -/
theorem format_result {s c : String} (h : Colors.format (some s) = .ok c) :
    c.toList.head? = some '#' ∧
      (s.toList.head? = some '#' → c = s) ∧
      (s.toList.head? ≠ some '#' → ∃ p ∈ Colors.allColours, c ∈ p.2) := by
  by_cases hh : s.toList.head? = some '#'
  · rw [format_hash hh] at h
    cases h
    exact ⟨hh, fun _ => rfl, fun hn => absurd hh hn⟩
  by_cases he : s = ""
  · subst he; rw [format_empty] at h; cases h
  rw [format_not_hash hh he] at h
  have key : ∀ {n i}, Colors.paletteAt n i = .ok c → c.toList.head? = some '#' ∧
      (s.toList.head? = some '#' → c = s) ∧
      (s.toList.head? ≠ some '#' → ∃ p ∈ Colors.allColours, c ∈ p.2) := by
    intro n i hp
    obtain ⟨h1, l, h2, h3⟩ := paletteAt_hash hp
    exact ⟨h1, fun hn => absurd hn hh, fun _ => ⟨_, h2, h3⟩⟩
  split at h
  · exact key h
  · split at h
    · exact key h
    · cases h

theorem validateColor_ok_iff (v : Option String) :
    (∃ c, validateColor v = .ok c) ↔ Spec.ColourOk v := by
  cases v with
  | none => simp [validateColor, Spec.ColourOk]
  | some s =>
    rw [← format_ok_iff]
    simp only [validateColor]
    cases h : Colors.format (some s) with
    | ok c =>
      have := format_hash (format_result h).1
      simp [bind, Except.bind, this]
    | error e =>
      simp only [bind, Except.bind, reduceCtorEq, exists_false, iff_false, not_exists]
      intro c
      split <;> simp_all

theorem validateColor_hash {s : String} (h : s.toList.head? = some '#') :
    validateColor (some s) = .ok (some s) := by
  simp [validateColor, format_hash h, bind, Except.bind]

theorem validateColor_result {v c : Option String} (h : validateColor v = .ok c) :
    (v = none ∧ c = none) ∨ ∃ s t, v = some s ∧ c = some t ∧ Colors.format (some s) = .ok t ∧
      t.toList.head? = some '#' := by
  cases v with
  | none => simp [validateColor] at h; exact .inl ⟨rfl, h.symm⟩
  | some s =>
    right
    simp only [validateColor] at h
    cases hf : Colors.format (some s) with
    | ok t =>
      have ht := (format_result hf).1
      simp only [hf, bind, Except.bind, format_hash ht, Except.ok.injEq] at h
      exact ⟨s, t, rfl, h.symm, hf, ht⟩
    | error e =>
      rw [hf] at h
      simp only [bind, Except.bind] at h
      split at h <;> simp_all

end CC
