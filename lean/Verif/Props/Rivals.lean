import Verif.Props.Comparison

/-! # C127: how two chains compare does not depend on the other chains

`aic()`, `bic()` and `dic()` report values relative to the best chain of the registry, so a further chain may change all of them. Their
differences, by which models are compared, stay the same. -/

set_option linter.unusedSectionVars false

namespace CC
open Spec

section
variable {K : Type} [Field K] [LinearOrder K] [IsStrictOrderedRing K]

/-- Two chains, registered under the names `n₁` and `n₂`, compare in the same way according to both reports: all four values are
finite and the differences agree. -/
def Spec.SameDifference (r r' : List (String × Flt K)) (n₁ n₂ : String) : Prop :=
  ∃ a₁ a₂ b₁ b₂ : K, r.lookup n₁ = some (.fin a₁) ∧ r.lookup n₂ = some (.fin a₂) ∧
    r'.lookup n₁ = some (.fin b₁) ∧ r'.lookup n₂ = some (.fin b₂) ∧ a₁ - a₂ = b₁ - b₂

/-! ## The loop, one chain at a time -/

theorem loop_cons_ok {f : Chain K → Res (Option (Flt K))} {e : String × Chain K} {es : List (String × Chain K)}
    {l : List (String × Flt K)} (h : criterionLoop f (e :: es) = .ok l) :
    ∃ v rest, f e.2 = .ok v ∧ criterionLoop f es = .ok rest ∧
      l = match v with
        | none => rest
        | some x => (e.1, x) :: rest := by
  simp only [criterionLoop] at h
  obtain ⟨v, hv, h⟩ := bind_ok_iff.1 h
  obtain ⟨rest, hr, h⟩ := bind_ok_iff.1 h
  exact ⟨v, rest, hv, hr, (pure_ok_iff.1 h).symm⟩

theorem loop_source {f : Chain K → Res (Option (Flt K))} {cs : List (String × Chain K)} {l : List (String × Flt K)}
    (h : criterionLoop f cs = .ok l) : ∀ x ∈ l, ∃ e ∈ cs, e.1 = x.1 ∧ f e.2 = .ok (some x.2) := by
  induction cs generalizing l with
  | nil => cases h; intro x hx; cases hx
  | cons e es ih =>
    obtain ⟨v, rest, hv, hr, rfl⟩ := loop_cons_ok h
    intro x hx
    cases v with
    | none =>
      obtain ⟨d, hd, h1, h2⟩ := ih hr x hx
      exact ⟨d, List.mem_cons_of_mem _ hd, h1, h2⟩
    | some y =>
      rcases List.mem_cons.1 hx with rfl | hx
      · exact ⟨e, List.mem_cons_self .., rfl, hv⟩
      · obtain ⟨d, hd, h1, h2⟩ := ih hr x hx
        exact ⟨d, List.mem_cons_of_mem _ hd, h1, h2⟩

theorem loop_lookup {f : Chain K → Res (Option (Flt K))} {cs : List (String × Chain K)} {l : List (String × Flt K)}
    (h : criterionLoop f cs = .ok l) (hnd : (cs.map Prod.fst).Nodup) {e : String × Chain K} (he : e ∈ cs) :
    f e.2 = .ok (l.lookup e.1) := by
  induction cs generalizing l with
  | nil => cases he
  | cons d ds ih =>
    obtain ⟨v, rest, hv, hr, rfl⟩ := loop_cons_ok h
    rw [List.map_cons, List.nodup_cons] at hnd
    have hnot : ∀ x ∈ rest, x.1 ≠ d.1 := by
      intro x hx hxd
      obtain ⟨d', hd', h1, -⟩ := loop_source hr x hx
      exact hnd.1 (List.mem_map.2 ⟨d', hd', h1.trans hxd⟩)
    rcases List.mem_cons.1 he with rfl | he
    · cases v with
      | none =>
        have : rest.lookup e.1 = none := by
          rw [List.lookup_eq_none_iff]
          intro x hx
          exact bne_iff_ne.2 (hnot x hx).symm
        dsimp only
        rw [this, hv]
      | some y =>
        dsimp only
        rw [List.lookup_cons_self, hv]
    · have hne : e.1 ≠ d.1 := by
        intro hed
        exact hnd.1 (List.mem_map.2 ⟨e, he, hed⟩)
      cases v with
      | none => exact ih hr hnd.2 he
      | some y =>
        dsimp only
        rw [List.lookup_cons, beq_eq_false_iff_ne.2 hne]
        exact ih hr hnd.2 he

/-- A report of finite values only is shifted by one number. -/
theorem loop_relative {f : Chain K → Res (Option (Flt K))} {cs : List (String × Chain K)} {l : List (String × Flt K)}
    (h : criterionLoop f cs = .ok l) (hnd : (cs.map Prod.fst).Nodup)
    (hfin : ∀ e ∈ cs, ∀ x, f e.2 = .ok (some x) → ∃ v, x = .fin v) :
    ∃ m : K, ∀ e ∈ cs, ∀ v, f e.2 = .ok (some (.fin v)) → (relativeToMin l).lookup e.1 = some (.fin (v - m)) := by
  have hl : ∃ u : List (String × K), l = u.map fun e => (e.1, Flt.fin e.2) := by
    have : ∀ x ∈ l, ∃ v, x.2 = Flt.fin v := by
      intro x hx
      obtain ⟨e, he, -, hf⟩ := loop_source h x hx
      exact hfin e he x.2 hf
    clear h
    induction l with
    | nil => exact ⟨[], rfl⟩
    | cons x xs ih =>
      obtain ⟨u, hu⟩ := ih fun y hy => this y (List.mem_cons_of_mem _ hy)
      obtain ⟨v, hv⟩ := this x (List.mem_cons_self ..)
      refine ⟨(x.1, v) :: u, ?_⟩
      rw [List.map_cons, hu, ← hv]
  obtain ⟨u, rfl⟩ := hl
  obtain ⟨m, hm, -, -⟩ := relative_fin u
  refine ⟨m, fun e he v hv => ?_⟩
  have hlk0 := loop_lookup h hnd he
  rw [hv] at hlk0
  rw [hm]
  have hlk : some (Flt.fin v) = List.lookup e.1 (u.map fun e => (e.1, Flt.fin e.2)) := by
    simpa using hlk0
  clear h hm hnd hfin hlk0 hv
  revert hlk
  generalize e.1 = n
  intro hlk
  induction u with
  | nil => cases hlk
  | cons x xs ih =>
    rw [List.map_cons, List.lookup_cons] at hlk ⊢
    cases hx : n == x.1 with
    | true =>
      rw [hx] at hlk
      simp only [Option.some.injEq, Flt.fin.injEq] at hlk
      dsimp only
      rw [hlk]
    | false =>
      rw [hx] at hlk
      exact ih hlk

theorem same_difference {f : Chain K → Res (Option (Flt K))} {cs cs' : List (String × Chain K)} {r r' : List (String × Flt K)}
    (h : (do return relativeToMin (← criterionLoop f cs)) = .ok r) (h' : (do return relativeToMin (← criterionLoop f cs')) = .ok r')
    (hnd : (cs.map Prod.fst).Nodup) (hnd' : (cs'.map Prod.fst).Nodup)
    (hfin : ∀ e ∈ cs, ∀ x, f e.2 = .ok (some x) → ∃ v, x = .fin v)
    (hfin' : ∀ e ∈ cs', ∀ x, f e.2 = .ok (some x) → ∃ v, x = .fin v)
    {e₁ e₂ : String × Chain K} (h₁ : e₁ ∈ cs) (h₁' : e₁ ∈ cs') (h₂ : e₂ ∈ cs) (h₂' : e₂ ∈ cs')
    (hs₁ : f e₁.2 ≠ .ok none) (hs₂ : f e₂.2 ≠ .ok none) : SameDifference r r' e₁.1 e₂.1 := by
  obtain ⟨l, hl, h⟩ := bind_ok_iff.1 h
  obtain rfl := pure_ok_iff.1 h
  obtain ⟨l', hl', h'⟩ := bind_ok_iff.1 h'
  obtain rfl := pure_ok_iff.1 h'
  obtain ⟨m, hm⟩ := loop_relative hl hnd hfin
  obtain ⟨m', hm'⟩ := loop_relative hl' hnd' hfin'
  have hval : ∀ e ∈ cs, f e.2 ≠ .ok none → ∃ v, f e.2 = .ok (some (.fin v)) := by
    intro e he hs
    have hlk := loop_lookup hl hnd he
    cases ho : l.lookup e.1 with
    | none => rw [ho] at hlk; exact absurd hlk hs
    | some x =>
      rw [ho] at hlk
      obtain ⟨v, rfl⟩ := hfin e he x hlk
      exact ⟨v, hlk⟩
  obtain ⟨v₁, hv₁⟩ := hval e₁ h₁ hs₁
  obtain ⟨v₂, hv₂⟩ := hval e₂ h₂ hs₂
  exact ⟨_, _, _, _, hm e₁ h₁ v₁ hv₁, hm e₂ h₂ v₂ hv₂, hm' e₁ h₁' v₁ hv₁, hm' e₂ h₂' v₂ hv₂, by ring⟩

/-! ## The claims -/

theorem aicValue_fin (c : Chain K) (x : Flt K) (h : c.aicValue = .ok (some x)) : ∃ v, x = .fin v := by
  unfold Chain.aicValue at h
  split at h
  · dsimp only at h
    split at h
    · cases h
    · obtain ⟨m, -, h⟩ := bind_ok_iff.1 h
      have := pure_ok_iff.1 h
      exact ⟨_, (Option.some.inj this).symm⟩
  · cases h

theorem aicValue_ne_none {c : Chain K} (hel : eligible c = true) : c.aicValue ≠ .ok none := by
  obtain ⟨p, N, k, hp, hN, hk⟩ := eligible_iff.1 hel
  intro h
  simp only [Chain.aicValue, hp, hN, hk] at h
  split at h
  · cases h
  · obtain ⟨m, -, h⟩ := bind_ok_iff.1 h
    cases pure_ok_iff.1 h

/-- **C127, partial** (AIC). The difference between the AIC of two eligible chains is the same in every registry for which `aic()`
returns. Missing: registries with a chain for which it raises (`C127_violated_aic`). -/
theorem C127_aic_partial (cs cs' : List (String × Chain K)) (r r' : List (String × Flt K)) (h : aic cs = .ok r)
    (h' : aic cs' = .ok r') (hnd : (cs.map Prod.fst).Nodup) (hnd' : (cs'.map Prod.fst).Nodup) (e₁ e₂ : String × Chain K)
    (h₁ : e₁ ∈ cs) (h₁' : e₁ ∈ cs') (h₂ : e₂ ∈ cs) (h₂' : e₂ ∈ cs') (hel₁ : eligible e₁.2 = true)
    (hel₂ : eligible e₂.2 = true) : SameDifference r r' e₁.1 e₂.1 :=
  same_difference h h' hnd hnd' (fun e _ => aicValue_fin e.2) (fun e _ => aicValue_fin e.2) h₁ h₁' h₂ h₂'
    (aicValue_ne_none hel₁) (aicValue_ne_none hel₂)

theorem dicValue_fin (tie : List (List K) → List K → Nat) (c : Chain K) (x : Flt K) (h : c.dicValue tie = .ok (some x)) :
    ∃ v, x = .fin v := by
  unfold Chain.dicValue at h
  split at h
  · cases h
  · obtain ⟨X, -, h⟩ := bind_ok_iff.1 h
    obtain ⟨w, -, h⟩ := bind_ok_iff.1 h
    obtain ⟨ms, -, h⟩ := bind_ok_iff.1 h
    obtain ⟨d, -, h⟩ := bind_ok_iff.1 h
    obtain ⟨m, -, h⟩ := bind_ok_iff.1 h
    have := pure_ok_iff.1 h
    exact ⟨_, (Option.some.inj this).symm⟩

theorem dicValue_ne_none (tie : List (List K) → List K → Nat) {c : Chain K} (hp : c.posteriorColumn ∈ c.samples.columns) :
    c.dicValue tie ≠ .ok none := by
  obtain ⟨p, hp⟩ := Option.isSome_iff_exists.1 (logPosterior_isSome.2 hp)
  intro h
  simp only [Chain.dicValue, hp] at h
  obtain ⟨X, -, h⟩ := bind_ok_iff.1 h
  obtain ⟨w, -, h⟩ := bind_ok_iff.1 h
  obtain ⟨ms, -, h⟩ := bind_ok_iff.1 h
  obtain ⟨d, -, h⟩ := bind_ok_iff.1 h
  obtain ⟨m, -, h⟩ := bind_ok_iff.1 h
  cases pure_ok_iff.1 h

/-- **C127, partial** (DIC). The difference between the DIC of two chains with a posterior is the same in every registry for which
`dic()` returns. Missing: registries with a chain whose weights add up to zero, for which it raises. -/
theorem C127_dic_partial (tie : List (List K) → List K → Nat) (cs cs' : List (String × Chain K)) (r r' : List (String × Flt K))
    (h : dic tie cs = .ok r) (h' : dic tie cs' = .ok r') (hnd : (cs.map Prod.fst).Nodup) (hnd' : (cs'.map Prod.fst).Nodup)
    (e₁ e₂ : String × Chain K) (h₁ : e₁ ∈ cs) (h₁' : e₁ ∈ cs') (h₂ : e₂ ∈ cs) (h₂' : e₂ ∈ cs')
    (hp₁ : e₁.2.posteriorColumn ∈ e₁.2.samples.columns) (hp₂ : e₂.2.posteriorColumn ∈ e₂.2.samples.columns) :
    SameDifference r r' e₁.1 e₂.1 :=
  same_difference h h' hnd hnd' (fun e _ => dicValue_fin tie e.2) (fun e _ => dicValue_fin tie e.2) h₁ h₁' h₂ h₂'
    (dicValue_ne_none tie hp₁) (dicValue_ne_none tie hp₂)

/-- **C127** (a worse chain). If the same chain is the best in two registries, each chain of both gets the same value: adding or
removing chains that are not better than the best one changes nothing. -/
theorem C127_best {r r' : List (String × Flt K)} {n n₀ : String} (h : SameDifference r r' n n₀)
    (h0 : r.lookup n₀ = some (.fin 0)) (h0' : r'.lookup n₀ = some (.fin 0)) : r.lookup n = r'.lookup n := by
  obtain ⟨a₁, a₂, b₁, b₂, h1, h2, h3, h4, hd⟩ := h
  rw [h0] at h2
  rw [h0'] at h4
  cases h2
  cases h4
  rw [h1, h3, sub_zero, sub_zero] at *
  rw [hd]

end

theorem bicValue_ne_none {c : Chain ℝ} (hel : eligible c = true) : c.bicValue ≠ .ok none := by
  obtain ⟨p, N, k, hp, hN, hk⟩ := eligible_iff.1 hel
  intro h
  simp only [Chain.bicValue, hp, hN, hk] at h
  obtain ⟨m, -, h⟩ := bind_ok_iff.1 h
  cases pure_ok_iff.1 h

theorem bicValue_fin (c : Chain ℝ) (hN : c.numEffDataPoints ≠ some 0) (x : Flt ℝ) (h : c.bicValue = .ok (some x)) :
    ∃ v, x = .fin v := by
  unfold Chain.bicValue at h
  split at h
  · rename_i p N k hp hN' hk
    obtain ⟨m, -, h⟩ := bind_ok_iff.1 h
    have := Option.some.inj (pure_ok_iff.1 h)
    have hne : N ≠ 0 := by rintro rfl; exact hN hN'
    rw [← this, npLog, if_neg hne]
    exact ⟨_, rfl⟩
  · cases h

/-- **C127, partial** (BIC). The difference between the BIC of two eligible chains is the same in every registry in which no chain
has zero data points. Missing: registries with such a chain (`C127_violated_bic`). -/
theorem C127_bic_partial (cs cs' : List (String × Chain ℝ)) (r r' : List (String × Flt ℝ)) (h : bic cs = .ok r)
    (h' : bic cs' = .ok r') (hnd : (cs.map Prod.fst).Nodup) (hnd' : (cs'.map Prod.fst).Nodup)
    (hN : ∀ e ∈ cs, e.2.numEffDataPoints ≠ some 0) (hN' : ∀ e ∈ cs', e.2.numEffDataPoints ≠ some 0)
    (e₁ e₂ : String × Chain ℝ) (h₁ : e₁ ∈ cs) (h₁' : e₁ ∈ cs') (h₂ : e₂ ∈ cs) (h₂' : e₂ ∈ cs')
    (hel₁ : eligible e₁.2 = true) (hel₂ : eligible e₂.2 = true) : SameDifference r r' e₁.1 e₂.1 :=
  same_difference h h' hnd hnd' (fun e he => bicValue_fin e.2 (hN e he)) (fun e he => bicValue_fin e.2 (hN' e he)) h₁ h₁' h₂ h₂'
    (bicValue_ne_none hel₁) (bicValue_ne_none hel₂)

/-- **C127** (violation, BIC). One eligible chain with `num_eff_data_points = 0`, which the constructor accepts, makes every value
of the report infinite or NaN: nothing is left of the comparison of the others. -/
theorem C127_violated_bic (cs : List (String × Chain ℝ)) (hcs : ∀ e ∈ cs, Accepted e.2) (e : String × Chain ℝ) (he : e ∈ cs)
    (hel : eligible e.2 = true) (hN : e.2.numEffDataPoints = some 0) :
    ∃ r, bic cs = .ok r ∧ r.map Prod.fst = (cs.filter fun d => eligible d.2).map Prod.fst ∧ ∀ x ∈ r, ∀ v, x.2 ≠ .fin v := by
  obtain ⟨r, hr, hnan⟩ := C17_bic_nan cs hcs e he hel hN
  refine ⟨r, hr, ?_, ?_⟩
  · obtain ⟨l, hl, h⟩ := bind_ok_iff.1 hr
    obtain rfl := pure_ok_iff.1 h
    have hmap : (relativeToMin l).map Prod.fst = l.map Prod.fst := by
      cases l with
      | nil => rfl
      | cons x xs =>
        simp only [relativeToMin, List.map_map]
        rfl
    rw [hmap]
    clear hnan he hcs hr h hmap
    induction cs generalizing l with
    | nil => cases hl; rfl
    | cons d ds ih =>
      obtain ⟨v, rest, hv, hrest, rfl⟩ := loop_cons_ok hl
      cases hd : eligible d.2 with
      | false =>
        rw [bicValue_none hd] at hv
        cases hv
        rw [List.filter_cons, if_neg (by simp [hd])]
        exact ih rest hrest
      | true =>
        rw [List.filter_cons, if_pos hd, List.map_cons]
        cases v with
        | none => exact absurd hv (bicValue_ne_none hd)
        | some y =>
          dsimp only
          rw [List.map_cons, ih rest hrest]
  · obtain ⟨l, hl, h⟩ := bind_ok_iff.1 hr
    obtain rfl := pure_ok_iff.1 h
    cases l with
    | nil => cases hnan
    | cons y ys =>
      simp only [relativeToMin] at hnan ⊢
      intro x hx v hxv
      obtain ⟨z, hzm, hz⟩ := List.mem_map.1 hnan
      obtain ⟨w, -, rfl⟩ := List.mem_map.1 hx
      have h1 := (Prod.mk.inj hz).2
      dsimp only at hxv
      have hlow : z.2 = .nan → ys.foldl (fun m e => Flt.minNan m e.2) y.2 = .nan ∨
          ys.foldl (fun m e => Flt.minNan m e.2) y.2 = .negInf := by
        intro hz2
        refine foldl_minNan_low ys y.2 ?_
        rcases List.mem_cons.1 hzm with rfl | hzm
        · exact Or.inl hz2
        · exact Or.inr (Or.inr ⟨z, hzm, Or.inl hz2⟩)
      revert h1 hxv hlow
      generalize ys.foldl (fun m e => Flt.minNan m e.2) y.2 = m
      intro hxv h1 hlow
      rcases z with ⟨n, z⟩
      rcases w with ⟨n', w⟩
      cases m with
      | fin t =>
        have hz2 : z = .nan := by
          cases z <;> first | rfl | cases h1
        rcases hlow hz2 with h | h <;> cases h
      | posInf => cases w <;> cases hxv
      | negInf => cases w <;> cases hxv
      | nan => cases w <;> cases hxv

/-- For all non-negative counts there is an accepted chain with a posterior and these counts. -/
theorem counted_exists (N : ℝ) (hN : 0 ≤ N) (k : Nat) (name : String) :
    ∃ c : Chain ℝ, AcceptedNoShift c ∧ eligible c = true ∧ c.numEffDataPoints = some N ∧ c.numFreeParams = some k ∧
      c.name = name := by
  let f : Frame ℝ := { index := [.int 0, .int 1],
                       cols := [("a", [1, 2]), ("weight", [1, 2]), ("log_posterior", [0, -1])] }
  have hf : f.WF := ⟨by simp [f], by simp [f]⟩
  obtain ⟨c, hc, hcs, hw, hp, -⟩ := plain_chain f hf (by simp [f]) (w := [1, 2]) rfl (by simp) name
  obtain ⟨col, raw, f0, f', h1, h2, h3, h4, h5, h6, h7, h8, -, h10, rfl⟩ := Chain.make_ok_iff.1 hc
  have hmk := (Chain.make_ok_iff (K := ℝ)
    (a := { samples := f.toRaw, name := name, numFreeParams := some (k : Int), numEffDataPoints := some (.fin N) })).2 ⟨col, raw, f0, f', h1, by
      rw [Bool.and_eq_true] at h2 ⊢
      refine ⟨h2.1, ?_⟩
      simp [Args.constraintsOk, Flt.geZero, hN], h3, h4, h5, h6, h7, h8, by simp [Flt.isFinite], h10, rfl⟩
  refine ⟨_, ⟨_, toRaw_WF.2 hf, rfl, hmk⟩, ?_, rfl, by simp, rfl⟩
  dsimp only at hcs
  simp [eligible, hcs, f, Frame.columns, Flt.toFin?]

/-- **C127** (violation, BIC, witness). Two accepted chains whose values are finite, and a third one that takes this away. -/
theorem C127_violated_bic_witness : ∃ c₁ c₂ c₃ : Chain ℝ, Accepted c₁ ∧ Accepted c₂ ∧ Accepted c₃ ∧
    (∃ r, bic [("one", c₁), ("two", c₂)] = .ok r ∧ ∃ v₁ v₂, r = [("one", .fin v₁), ("two", .fin v₂)]) ∧
    ∃ r', bic [("one", c₁), ("two", c₂), ("three", c₃)] = .ok r' ∧ ∃ x₁ x₂ x₃, r' = [("one", x₁), ("two", x₂), ("three", x₃)] ∧
      (∀ v, x₁ ≠ .fin v) ∧ (∀ v, x₂ ≠ .fin v) ∧ ∀ v, x₃ ≠ .fin v := by
  obtain ⟨c₁, b₁, e₁, n₁, -, -⟩ := counted_exists 10 (by norm_num) 1 "one"
  obtain ⟨c₂, b₂, e₂, n₂, -, -⟩ := counted_exists 20 (by norm_num) 2 "two"
  obtain ⟨c₃, b₃, e₃, n₃, -, -⟩ := counted_exists 0 le_rfl 2 "three"
  have a₁ := AcceptedNoShift.accepted b₁
  have a₂ := AcceptedNoShift.accepted b₂
  have a₃ := AcceptedNoShift.accepted b₃
  refine ⟨c₁, c₂, c₃, a₁, a₂, a₃, ?_, ?_⟩
  · obtain ⟨r, hr, vals, rfl, -, -, b, hF⟩ := C17_bic_partial [("one", c₁), ("two", c₂)]
      (by simp [a₁, a₂]) (by simp [n₁, n₂])
    refine ⟨_, hr, ?_⟩
    simp only [List.filter_cons, e₁, e₂, if_true, List.filter_nil] at hF
    rcases vals with _ | ⟨v₁, _ | ⟨v₂, _ | ⟨v₃, vs⟩⟩⟩
    · cases hF
    · rcases hF with _ | ⟨-, hF⟩; cases hF
    · rcases hF with _ | ⟨h1, hF⟩
      rcases hF with _ | ⟨h2, hF⟩
      exact ⟨v₁.2, v₂.2, by simp [h1.1, h2.1]⟩
    · rcases hF with _ | ⟨-, hF⟩
      rcases hF with _ | ⟨-, hF⟩
      cases hF
  · obtain ⟨r, hr, hnames, hall⟩ := C127_violated_bic [("one", c₁), ("two", c₂), ("three", c₃)]
      (by simp [a₁, a₂, a₃]) ("three", c₃) (by simp) e₃ n₃
    refine ⟨r, hr, ?_⟩
    simp only [List.filter_cons, e₁, e₂, e₃, if_true, List.filter_nil, List.map_cons, List.map_nil] at hnames
    rcases r with _ | ⟨⟨m₁, x₁⟩, _ | ⟨⟨m₂, x₂⟩, _ | ⟨⟨m₃, x₃⟩, _ | ⟨y, ys⟩⟩⟩⟩ <;>
      simp only [List.map_cons, List.map_nil, List.cons.injEq, reduceCtorEq, and_false, and_true] at hnames
    obtain ⟨rfl, rfl, rfl⟩ := hnames
    exact ⟨x₁, x₂, x₃, rfl, hall ("one", x₁) (by simp), hall ("two", x₂) (by simp), hall ("three", x₃) (by simp)⟩

/-- **C127** (violation, AIC). Two chains that compare well (0 and 6); with a third one, of 2 free parameters and 3 data points, there
is no comparison at all. -/
theorem C127_violated_aic :
    aicOf [aicDemo 0 "zero", aicDemo 1 "one"] = .ok [("zero", .fin 0), ("one", .fin 6)] ∧
      aicOf [aicDemo 0 "zero", aicDemo 1 "one", aicDemo 2 "two"] = .error .zeroDivision := by decide +kernel

/-- **C127** (violation, DIC). Two chains of the same DIC; with a third one, made with `shift_params` and without weights, there is no
comparison at all: the weights of that chain are zero (C08). -/
theorem C127_violated_dic :
    dicOf 0 [aicDemo 0 "zero", aicDemo 1 "one"] = .ok [("zero", .fin 0), ("one", .fin 0)] ∧
      dicOf 0 [aicDemo 0 "zero", aicDemo 1 "one", { aicDemo 2 "two" with config := [⟨.shiftParams, true⟩] }] =
        .error .zeroDivision := by decide +kernel

/-- `C127_aic_partial` at work: a better chain shifts both values by the same number. -/
example : aicOf [aicDemo 0 "zero", aicDemo 1 "one", aicDemo 3 "three"] =
    .ok [("zero", .fin 18), ("one", .fin 24), ("three", .fin 0)] := by decide +kernel

end CC
