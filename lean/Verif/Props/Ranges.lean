import Verif.Spec.Ranges
import Verif.Lemmas.Except
import Verif.Lemmas.Demo
import Verif.Lemmas.Comparison
import Verif.Props.Extents

/-! # C60: parameter ranges cover every shown chain -/

set_option linter.unusedSectionVars false

namespace CC
open Spec
variable {K : Type} [Field K] [LinearOrder K] [IsStrictOrderedRing K]

theorem arrMin_ok_iff {data : List K} {v : K} : arrMin data = .ok v ↔ v ∈ data ∧ ∀ x ∈ data, v ≤ x := by
  cases data with
  | nil => simp [arrMin]
  | cons x xs =>
    obtain ⟨h1, h2⟩ := foldl_min_map_spec x xs
    simp only [arrMin, Except.ok.injEq]
    constructor
    · rintro rfl; exact ⟨h1, h2⟩
    · rintro ⟨h3, h4⟩; exact le_antisymm (h2 v h3) (h4 _ h1)

theorem arrMax_ok_iff {data : List K} {v : K} : arrMax data = .ok v ↔ v ∈ data ∧ ∀ x ∈ data, x ≤ v := by
  by_cases h : data = []
  · subst h; simp [arrMax, npMax]
  · obtain ⟨M, h0, h1, h2⟩ := npMax_spec h
    simp only [arrMax, h0, Except.ok.injEq]
    constructor
    · rintro rfl; exact ⟨h1, h2⟩
    · rintro ⟨h3, h4⟩; exact le_antisymm (h4 _ h1) (h2 v h3)

/-- A column that can be read is there. -/
theorem get_ok_mem {f : Frame K} {col : String} {d : List K} (h : f.get col = .ok d) : col ∈ f.columns :=
  List.mem_map.2 ⟨_, get_mem h, rfl⟩

theorem chainRange_iff {c : Chain K} {column : String} {wide : Bool} {r : Option (K × K)}
    (h : chainRange c column wide = .ok r) (lo hi : K) :
    r = some (lo, hi) ↔ OwnRange c column wide lo hi := by
  unfold chainRange at h
  by_cases hc : column ∉ c.samples.columns
  · rw [if_pos hc] at h
    cases h
    simp only [reduceCtorEq, false_iff]
    rintro ⟨d, hd, -⟩
    exact hc (get_ok_mem hd)
  · rw [if_neg hc] at h
    obtain ⟨data, hd, h⟩ := bind_ok_iff.1 h
    unfold OwnRange
    simp only [hd, Except.ok.injEq, exists_eq_left']
    by_cases hp : c.cfg .plotContour = true ∨ c.cfg .plotCloud = true
    · rw [if_pos (by simpa using hp)] at h
      have hn : ¬ (c.cfg .plotContour = false ∧ c.cfg .plotCloud = false) := by
        rcases hp with hp | hp <;> simp [hp]
      by_cases hg : c.grid = true
      · simp only [hg, if_true, bind_ok_iff, pure_ok_iff] at h
        obtain ⟨a, ha, b, hb, rfl⟩ := h
        rw [arrMin_ok_iff] at ha
        rw [arrMax_ok_iff] at hb
        simp only [Option.some.injEq, Prod.mk.injEq, hp, hg, true_and, reduceCtorEq, false_and, or_false, ← and_assoc, hn]
        constructor
        · rintro ⟨rfl, rfl⟩
          exact ⟨ha.1, hb.1, fun x hx => ⟨ha.2 x hx, hb.2 x hx⟩⟩
        · intro s
          exact ⟨le_antisymm (ha.2 _ s.low_mem) (s.mem _ ha.1).1, le_antisymm (s.mem _ hb.1).2 (hb.2 _ s.high_mem)⟩
      · rw [Bool.not_eq_true] at hg
        simp only [hg, Bool.false_eq_true, if_false, bind_ok_iff, pure_ok_iff] at h
        obtain ⟨w, hw, e, he, rfl⟩ := h
        simp only [hp, hg, hw, he, Option.some.injEq, true_and, false_and, false_or, or_false, ← and_assoc, hn,
          Except.ok.injEq, exists_eq_left', Bool.false_eq_true]
    · rw [if_neg (by simpa using hp)] at h
      push Not at hp
      simp only [ne_eq, Bool.not_eq_true] at hp
      obtain ⟨m, hm, h⟩ := bind_ok_iff.1 h
      simp only [hp.1, hp.2, hm, Bool.false_eq_true, false_and, false_or, true_and, or_false, Except.ok.injEq]
      cases m with
      | none =>
        cases h
        simp
      | some m =>
        simp only [pure_ok_iff] at h
        subst h
        simp only [Option.map_eq_some_iff, Prod.mk.injEq, Option.some.injEq]
        constructor
        · rintro ⟨v, hv, rfl, rfl⟩; exact ⟨m, v, rfl, hv, rfl, rfl⟩
        · rintro ⟨m', v, rfl, hv, rfl, rfl⟩; exact ⟨_, hv, rfl, rfl⟩

/-- The loop over the chains. -/
theorem parameterExtents_fold (column : String) (wide : Bool) (chains : List (Chain K)) :
    ∀ (s r : Option (K × K)),
    chains.foldlM (fun r c => do return joinRange r (← chainRange c column wide)) s = .ok r →
    ((∀ lo hi, (s = some (lo, hi) ∨ ∃ c ∈ chains, OwnRange c column wide lo hi) →
        ∃ a b, r = some (a, b) ∧ a ≤ lo ∧ hi ≤ b) ∧
      (∀ a b, r = some (a, b) → (∃ hi, s = some (a, hi) ∨ ∃ c ∈ chains, OwnRange c column wide a hi) ∧
        ∃ lo, s = some (lo, b) ∨ ∃ c ∈ chains, OwnRange c column wide lo b)) := by
  induction chains with
  | nil =>
    intro s r h
    simp only [List.foldlM_nil, pure_ok_iff] at h
    subst h
    constructor
    · rintro lo hi (rfl | ⟨c, hc, -⟩)
      · exact ⟨lo, hi, rfl, le_rfl, le_rfl⟩
      · cases hc
    · intro a b h
      exact ⟨⟨b, .inl h⟩, a, .inl h⟩
  | cons c chains ih =>
    intro s r h
    simp only [List.foldlM_cons, bind_ok_iff, pure_ok_iff] at h
    obtain ⟨_, ⟨q, hq, rfl⟩, h⟩ := h
    obtain ⟨h1, h2⟩ := ih _ _ h
    have hr := chainRange_iff hq
    constructor
    · intro lo hi hs
      have : (∃ a b, joinRange s q = some (a, b) ∧ a ≤ lo ∧ hi ≤ b) ∨ ∃ c ∈ chains, OwnRange c column wide lo hi := by
        rcases hs with rfl | ⟨c', hc', ho⟩
        · left
          cases q with
          | none => exact ⟨lo, hi, rfl, le_rfl, le_rfl⟩
          | some q => exact ⟨_, _, rfl, min_le_right _ _, le_max_right _ _⟩
        · rcases List.mem_cons.1 hc' with rfl | hc'
          · left
            rw [(hr lo hi).2 ho]
            cases s with
            | none => exact ⟨lo, hi, rfl, le_rfl, le_rfl⟩
            | some s => exact ⟨_, _, rfl, min_le_left _ _, le_max_left _ _⟩
          · exact .inr ⟨c', hc', ho⟩
      rcases this with ⟨a, b, hj, ha, hb⟩ | ho
      · obtain ⟨a', b', e, h3, h4⟩ := h1 a b (.inl hj)
        exact ⟨a', b', e, h3.trans ha, hb.trans h4⟩
      · exact h1 lo hi (.inr ho)
    · intro a b hab
      obtain ⟨⟨hi, h3⟩, lo, h4⟩ := h2 a b hab
      constructor
      · rcases h3 with h3 | ⟨c', hc', ho⟩
        · cases s with
          | none => exact ⟨hi, .inr ⟨c, by simp, (hr _ _).1 h3⟩⟩
          | some s =>
            cases q with
            | none => exact ⟨hi, .inl h3⟩
            | some q =>
              simp only [joinRange, Option.some.injEq, Prod.mk.injEq] at h3
              obtain ⟨rfl, rfl⟩ := h3
              rcases min_choice q.1 s.1 with e | e
              · exact ⟨q.2, .inr ⟨c, by simp, (hr _ _).1 (by rw [e])⟩⟩
              · exact ⟨s.2, .inl (by rw [e])⟩
        · exact ⟨hi, .inr ⟨c', by simp [hc'], ho⟩⟩
      · rcases h4 with h4 | ⟨c', hc', ho⟩
        · cases s with
          | none => exact ⟨lo, .inr ⟨c, by simp, (hr _ _).1 h4⟩⟩
          | some s =>
            cases q with
            | none => exact ⟨lo, .inl h4⟩
            | some q =>
              simp only [joinRange, Option.some.injEq, Prod.mk.injEq] at h4
              obtain ⟨rfl, rfl⟩ := h4
              rcases max_choice q.2 s.2 with e | e
              · exact ⟨q.1, .inr ⟨c, by simp, (hr _ _).1 (by rw [e])⟩⟩
              · exact ⟨s.1, .inl (by rw [e])⟩
        · exact ⟨lo, .inr ⟨c', by simp [hc'], ho⟩⟩

/-- **C60** (covering). The automatic range of a column contains the own range of every chain, and both of its
ends are ends of the own range of some chain; it is infinite exactly if no chain has a range. -/
theorem C60_covers (column : String) (wide : Bool) (chains : List (Chain K)) (r : Option (K × K))
    (h : parameterExtents column wide chains = .ok r) :
    (∀ c ∈ chains, ∀ lo hi, OwnRange c column wide lo hi → ∃ a b, r = some (a, b) ∧ a ≤ lo ∧ hi ≤ b) ∧
    (∀ a b, r = some (a, b) → (∃ c ∈ chains, ∃ hi, OwnRange c column wide a hi) ∧
      ∃ c ∈ chains, ∃ lo, OwnRange c column wide lo b) ∧
    (r = none ↔ ∀ c ∈ chains, ∀ lo hi, ¬ OwnRange c column wide lo hi) := by
  obtain ⟨h1, h2⟩ := parameterExtents_fold column wide chains none r h
  have h3 : ∀ c ∈ chains, ∀ lo hi, OwnRange c column wide lo hi → ∃ a b, r = some (a, b) ∧ a ≤ lo ∧ hi ≤ b :=
    fun c hc lo hi ho => h1 lo hi (.inr ⟨c, hc, ho⟩)
  have h4 : ∀ a b, r = some (a, b) → (∃ c ∈ chains, ∃ hi, OwnRange c column wide a hi) ∧
      ∃ c ∈ chains, ∃ lo, OwnRange c column wide lo b := by
    intro a b hab
    obtain ⟨⟨hi, h5⟩, lo, h6⟩ := h2 a b hab
    simp only [reduceCtorEq, false_or] at h5 h6
    obtain ⟨c, hc, ho⟩ := h5
    obtain ⟨c', hc', ho'⟩ := h6
    exact ⟨⟨c, hc, hi, ho⟩, c', hc', lo, ho'⟩
  refine ⟨h3, h4, ?_, ?_⟩
  · rintro rfl c hc lo hi ho
    obtain ⟨a, b, e, -⟩ := h3 c hc lo hi ho
    cases e
  · intro hno
    cases r with
    | none => rfl
    | some r =>
      obtain ⟨⟨c, hc, hi, ho⟩, -⟩ := h4 r.1 r.2 rfl
      exact absurd ho (hno c hc _ _)

theorem lookup_dictSet {β : Type} (d : List (String × β)) (k p : String) (v : β) :
    (dictSet d k v).lookup p = if p = k then some v else d.lookup p := by
  unfold dictSet
  by_cases hk : k ∈ d.map Prod.fst
  · rw [if_pos hk]
    by_cases hp : p = k
    · subst hp
      rw [if_pos rfl]
      induction d with
      | nil => cases hk
      | cons e d ih =>
        by_cases he : e.1 = p
        · simp [he]
        · have hk' : p ∈ d.map Prod.fst := by
            rcases List.mem_cons.1 hk with h | h
            · exact absurd h.symm he
            · exact h
          rw [List.map_cons, if_neg he, ← ih hk']
          rw [List.lookup_cons, beq_false_of_ne (Ne.symm he)]
    · rw [if_neg hp]
      clear hk
      induction d with
      | nil => rfl
      | cons e d ih =>
        by_cases he : e.1 = k
        · rw [List.map_cons, if_pos he, List.lookup_cons, List.lookup_cons, he, beq_false_of_ne hp, ih]
        · rw [List.map_cons, if_neg he, List.lookup_cons, List.lookup_cons, ih]
  · rw [if_neg hk]
    by_cases hp : p = k
    · subst hp
      rw [if_pos rfl]
      induction d with
      | nil => simp
      | cons e d ih =>
        simp only [List.map_cons, List.mem_cons, not_or] at hk
        rw [List.cons_append, List.lookup_cons, beq_false_of_ne hk.1]
        exact ih hk.2
    · rw [if_neg hp]
      clear hk
      induction d with
      | nil => simp [List.lookup_cons, beq_false_of_ne hp]
      | cons e d ih =>
        rw [List.cons_append, List.lookup_cons, List.lookup_cons, ih]

theorem customExtents_fold (chains : List (Chain K)) (initial : List (String × K × K)) (wide : Bool)
    (columns : List String) : ∀ s d, columns.foldlM (fun d p => if p ∈ initial.map Prod.fst then Except.ok d
      else do return dictSet d p (← parameterExtents p wide chains)) s = .ok d →
    ∀ p, (p ∉ columns ∨ p ∈ initial.map Prod.fst → d.lookup p = s.lookup p) ∧
      (p ∈ columns → p ∉ initial.map Prod.fst → ∃ r, parameterExtents p wide chains = .ok r ∧ d.lookup p = some r) := by
  induction columns with
  | nil =>
    intro s d h p
    simp only [List.foldlM_nil, pure_ok_iff] at h
    subst h
    simp
  | cons q columns ih =>
    intro s d h p
    simp only [List.foldlM_cons] at h
    obtain ⟨t, ht, h⟩ := bind_ok_iff.1 h
    obtain ⟨h1, h2⟩ := ih t d h p
    by_cases hq : q ∈ initial.map Prod.fst
    · rw [if_pos hq] at ht
      cases ht
      refine ⟨fun hp => h1 ?_, fun hp hp' => h2 ?_ hp'⟩
      · rcases hp with hp | hp
        · exact .inl fun hc => hp (List.mem_cons_of_mem _ hc)
        · exact .inr hp
      · rcases List.mem_cons.1 hp with rfl | hp
        · exact absurd hq hp'
        · exact hp
    · rw [if_neg hq] at ht
      simp only [bind_ok_iff, pure_ok_iff] at ht
      obtain ⟨r, hr, rfl⟩ := ht
      refine ⟨fun hp => ?_, fun hp hp' => ?_⟩
      · have hpq : p ≠ q := by
          rintro rfl
          rcases hp with hp | hp
          · exact hp (by simp)
          · exact hq hp
        rw [h1 (hp.imp_left fun hp hc => hp (List.mem_cons_of_mem _ hc)), lookup_dictSet, if_neg hpq]
      · by_cases hpc : p ∈ columns
        · exact h2 hpc hp'
        · have hpq : p = q := (List.mem_cons.1 hp).resolve_right hpc
          subst hpq
          exact ⟨r, hr, by rw [h1 (.inl hpc), lookup_dictSet, if_pos rfl]⟩

theorem lookup_map_some {β : Type} (l : List (String × β)) (p : String) :
    (l.map fun e => (e.1, some e.2)).lookup p = (l.lookup p).map some := by
  induction l with
  | nil => rfl
  | cons e l ih =>
    rw [List.map_cons, List.lookup_cons, List.lookup_cons, ih]
    cases p == e.1 <;> rfl

/-- **C60** (configuration). A range given in the configuration is used as is; every other requested column gets
the automatic range of the chains shown. -/
theorem C60_custom (columns : List String) (chains : List (Chain K)) (initial : List (String × K × K)) (wide : Bool)
    (d : List (String × Option (K × K))) (h : customExtents columns chains initial wide = .ok d) (p : String) :
    (∀ r, initial.lookup p = some r → d.lookup p = some (some r)) ∧
    (p ∈ columns → initial.lookup p = none →
      ∃ r, parameterExtents p wide chains = .ok r ∧ d.lookup p = some r) := by
  obtain ⟨h1, h2⟩ := customExtents_fold chains initial wide columns _ d h p
  constructor
  · intro r hr
    have hm : p ∈ initial.map Prod.fst := by
      rw [← lookup_isSome_iff, hr]; rfl
    rw [h1 (.inr hm), lookup_map_some, hr]
    rfl
  · intro hp hn
    refine h2 hp ?_
    rw [← lookup_isSome_iff, hn]
    simp

/-- **C60** for a plot: the ranges that are used cover all the chains that are shown. -/
theorem C60_sanitise (cfg : PlotConfig) (final : List (String × Chain ℝ)) (req : ChainReq ℝ)
    (columns : Option (List String)) (wide : Bool) (b : PlottingBase) (h : sanitise cfg final req columns wide = .ok b)
    (p : String) :
    (∀ r, cfg.extents.lookup p = some r → b.extents.lookup p = some (some r)) ∧
    (p ∈ b.columns → cfg.extents.lookup p = none → ∃ r, b.extents.lookup p = some r ∧
      (∀ c ∈ b.chains, ∀ lo hi, OwnRange c p wide lo hi → ∃ u v, r = some (u, v) ∧ u ≤ lo ∧ hi ≤ v)) := by
  simp only [sanitise, bind_ok_iff, pure_ok_iff] at h
  obtain ⟨chains, -, e, he, rfl⟩ := h
  obtain ⟨h1, h2⟩ := C60_custom _ _ _ _ _ he p
  refine ⟨h1, fun hp hn => ?_⟩
  obtain ⟨r, hr, hl⟩ := h2 hp hn
  exact ⟨r, hl, (C60_covers p wide chains r hr).1⟩

deriving instance DecidableEq for Chain.MaxPosterior

/-- A grid for the examples. -/
def rangeGrid : Frame ℚ := ⟨[.int 0, .int 1, .int 2], [("a", [3, 0, 2]), ("weight", [1, 1, 1])]⟩

/-- A frame with a posterior for the examples. -/
def rangePoint : Frame ℚ :=
  ⟨[.int 0, .int 1], [("a", [7, 5]), ("log_posterior", [0, 1]), ("weight", [1, 1])]⟩

/-- A grid and a chain shown as a point only: the range goes from the lowest grid point to the maximum
posterior point. -/
example : ∃ c d : Chain ℚ, OwnRange c "a" true 0 3 ∧ OwnRange d "a" true 5 5 ∧
    parameterExtents "a" true [c, d] = .ok (some (0, 5)) ∧
    customExtents ["a"] [c, d] [("b", 1, 2)] true = .ok [("b", some (1, 2)), ("a", some (0, 5))] := by
  obtain ⟨c, -, hs, -, -, -, hg, -, -, hc⟩ := plain_chain_cfg (K := ℚ) true [] rfl (by decide +kernel)
    (by decide +kernel) rfl rfl (by decide) rangeGrid ⟨by decide, by decide⟩ (by decide) (w := [1, 1, 1]) rfl (by decide +kernel)
    "c" 1 (by decide) (by decide)
  obtain ⟨d, -, hs', hw', hp', -, -, -, -, hc'⟩ := plain_chain_cfg (K := ℚ) false [⟨.plotContour, false⟩, ⟨.plotPoint, true⟩]
    rfl (by decide +kernel)
    (by decide +kernel) rfl rfl (by decide) rangePoint ⟨by decide, by decide⟩ (by decide) (w := [1, 1]) rfl (by decide +kernel)
    "d" 1 (by decide) (by decide)
  have hcc : c.cfg .plotContour = true := by rw [hc]; rfl
  have hdc : d.cfg .plotContour = false := by rw [hc']; rfl
  have hdl : d.cfg .plotCloud = false := by rw [hc']; rfl
  have hm : d.maxPosteriorPoint = .ok (some ⟨1, [("a", 5)]⟩) := by
    simp only [Chain.maxPosteriorPoint, Chain.logPosterior, Chain.plottingColumns, Chain.dataColumns, hs', hp', hw', hc']
    decide +kernel
  have h1 : OwnRange c "a" true 0 3 := by
    refine ⟨[3, 0, 2], by rw [hs]; rfl, .inl ⟨.inl hcc, hg, by simp, by simp, ?_⟩⟩
    decide +kernel
  have h2 : OwnRange d "a" true 5 5 :=
    ⟨[7, 5], by rw [hs']; rfl, .inr (.inr ⟨hdc, hdl, _, 5, hm, rfl, rfl, rfl⟩)⟩
  have e1 : chainRange c "a" true = .ok (some (0, 3)) := by
    have hd : c.samples.get "a" = .ok [3, 0, 2] := by rw [hs]; rfl
    have hm : "a" ∈ c.samples.columns := by rw [hs]; decide
    simp only [chainRange, hcc, hg, hd, hm, not_true_eq_false, if_false, Bool.true_or, if_true, bind, Except.bind]
    decide +kernel
  have e2 : chainRange d "a" true = .ok (some (5, 5)) := by
    have hd : d.samples.get "a" = .ok [7, 5] := by rw [hs']; rfl
    have hm' : "a" ∈ d.samples.columns := by rw [hs']; decide
    simp only [chainRange, hdc, hdl, hd, hm, hm', not_true_eq_false, if_false, Bool.or_self, Bool.false_eq_true, bind,
      Except.bind]
    decide +kernel
  have e3 : parameterExtents "a" true [c, d] = .ok (some (0, 5)) := by
    simp only [parameterExtents, List.foldlM_cons, List.foldlM_nil, e1, e2, bind, Except.bind, pure, Except.pure, joinRange]
    decide +kernel
  refine ⟨c, d, h1, h2, e3, ?_⟩
  simp only [customExtents, List.foldlM_cons, List.foldlM_nil, e3, bind, Except.bind, pure, Except.pure]
  rfl

end CC
