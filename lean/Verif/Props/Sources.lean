import Verif.Model.Sources
import Verif.Props.Emcee
import Verif.Props.VarNames

/-! # C97: chains from covariance matrices, numpyro and arviz -/

namespace CC

namespace Spec

/-- The variables a selection keeps. -/
def Kept : Option (List String) → String → Prop
  | none, _ => True
  | some ns, v => ((∀ n ∈ ns, ∃ t, n = "~" ++ t) → "~" ++ v ∉ ns) ∧ ((∀ n ∈ ns, ∀ t, n ≠ "~" ++ t) → v ∈ ns)

/-- A variable of `C` groups with `D` values each. -/
def Shape2 {α : Type} (C D : Nat) (v : List (List α)) : Prop := v.length = C ∧ ∀ g ∈ v, g.length = D

/-- A chain has the columns named (and perhaps added weights). -/
def HasColumns {K : Type} (c : Chain K) (l : List String) : Prop :=
  c.samples.columns = l ∨ c.samples.columns = l ++ ["weight"]

end Spec

open Spec

theorem filterVarNames_kept {sel : Option (List String)} {vars keep : List String}
    (h : filterVarNames sel vars = .ok keep) :
    (∀ v ∈ vars, (v ∈ keep ↔ Kept sel v)) ∧ ∀ v ∈ keep, v ∈ vars := by
  obtain ⟨h1, h2, h3, h4⟩ := C16_variable_selection_partial vars
  cases sel with
  | none =>
    rw [h1] at h
    cases h
    exact ⟨fun v hv => by simp [Kept, hv], fun v hv => hv⟩
  | some ns =>
    by_cases hn : ns = []
    · subst hn
      rw [C16_violated_empty] at h
      cases h
    obtain ⟨n, hn'⟩ := List.exists_mem_of_ne_nil _ hn
    by_cases ha : ∀ n ∈ ns, ∀ t, n ≠ "~" ++ t
    · rw [h2 ns hn ha] at h
      cases h
      refine ⟨fun v hv => ?_, fun v hv => (List.mem_filter.1 hv).1⟩
      rw [List.mem_filter]
      constructor
      · rintro ⟨-, h⟩
        refine ⟨fun hb => ?_, fun _ => by simpa using h⟩
        obtain ⟨t, ht⟩ := hb n hn'
        exact absurd ht (ha n hn' t)
      · intro hk
        exact ⟨hv, by simpa using hk.2 ha⟩
    · by_cases hb : ∀ n ∈ ns, ∃ t, n = "~" ++ t
      · rw [h3 ns hn hb] at h
        cases h
        refine ⟨fun v hv => ?_, fun v hv => (List.mem_filter.1 hv).1⟩
        rw [List.mem_filter]
        constructor
        · rintro ⟨-, h⟩
          exact ⟨fun _ => by simpa using h, fun h' => absurd h' ha⟩
        · intro hk
          exact ⟨hv, by simpa using hk.1 hb⟩
      · exfalso
        push Not at ha hb
        rw [h4 ns (by obtain ⟨n, hn, t, ht⟩ := ha; exact ⟨n, hn, t, ht⟩)
          (by obtain ⟨n, hn, ht⟩ := hb; exact ⟨n, hn, ht⟩)] at h
        cases h

theorem covarianceSize_eq : covarianceSize = 1000000 := by
  unfold covarianceSize
  rfl

section
variable {K : Type} [Field K] [LinearOrder K] [IsStrictOrderedRing K]

omit [Field K] [LinearOrder K] [IsStrictOrderedRing K] in
theorem intIndex_length (n : Nat) : ((List.range n).map fun i => Label.int i).length = n := by
  simp [bind, pure]

/-- The chain of a table with named columns. -/
theorem make_named {args : Args K} {ix : List Label} {cols : List (String × List (Flt K))} {c : Chain K}
    (hd : (cols.map Prod.fst).Nodup) (hl : ∀ e ∈ cols, e.2.length = ix.length)
    (hshift : setting args .shiftParams = false)
    (h : Chain.make { args with samples := { index := ix, cols := cols.map fun e => (.str e.1, e.2) } } = .ok c) :
    HasColumns c (cols.map Prod.fst) ∧ c.samples.index = ix ∧ ix ≠ [] ∧
    ∀ e ∈ cols, ∃ x, c.samples.get e.1 = .ok x ∧ e.2 = x.map .fin := by
  have hfst : (cols.map fun e => (ColLabel.str e.1, e.2)).map Prod.fst = (cols.map Prod.fst).map ColLabel.str := by
    simp
  have hwf : RawFrame.WF ({ index := ix, cols := cols.map fun e => (.str e.1, e.2) } : RawFrame K) := by
    refine ⟨?_, ?_⟩
    · show ((cols.map fun e => (ColLabel.str e.1, e.2)).map Prod.fst).Nodup
      rw [hfst]
      exact hd.map fun a b h => ColLabel.str.inj h
    · intro e he
      obtain ⟨e', he', rfl⟩ := List.mem_map.1 he
      exact hl e' he'
  obtain ⟨g1, g2, g3, g4, -⟩ := C07_accepted_chain_guarantees
    { args with samples := { index := ix, cols := cols.map fun e => (.str e.1, e.2) } } c hwf hshift h
  have hstr : ∀ l : List String, c.samples.toRaw.cols.map Prod.fst = l.map .str → c.samples.columns = l := by
    intro l hl
    have : c.samples.toRaw.cols.map Prod.fst = c.samples.columns.map ColLabel.str := by
      simp [Frame.toRaw, Frame.columns]
    rw [this] at hl
    exact List.map_injective_iff.2 (fun a b h => ColLabel.str.inj h) hl
  refine ⟨?_, g2, by rw [← show c.samples.index = ix from g2]; exact g3, ?_⟩
  · rcases g4 with e1 | ⟨-, e1⟩
    · exact .inl (hstr _ (by rw [e1]; exact hfst))
    · refine .inr (hstr _ ?_)
      rw [e1, List.map_append, List.map_append]
      show (cols.map fun e => (ColLabel.str e.1, e.2)).map Prod.fst ++ _ = _
      rw [hfst]
      rfl
  · intro e he
    refine get_of_toRaw g1 ?_
    have : (ColLabel.str e.1, e.2) ∈ cols.map fun e => (ColLabel.str e.1, e.2) := List.mem_map.2 ⟨e, he, rfl⟩
    rcases g4 with e1 | ⟨-, e1⟩
    · rw [e1]; exact this
    · rw [e1]; exact List.mem_append_left _ this

theorem map_fst_zip_eq {α β : Type} {l : List α} {m : List β} (h : l.length = m.length) :
    (l.zip m).map Prod.fst = l := by
  rw [map_fst_zip_take, ← h, List.take_length]

/-- **C97** (covariance). The chain made from a mean and a covariance has a million rows, one column for each name given
(then the added weights), and column `k` holds coordinate `k` of the draws in their order; there must be one name for
each coordinate, otherwise the call is a ValueError. -/
theorem C97_covariance {ndim : Nat} {draws : Nat → List (List (Flt K))} {columns : List String} {args : Args K}
    (hsize : ∀ n, (draws n).length = n) (hdim : ∀ n, ∀ r ∈ draws n, r.length = ndim) :
    (columns.length ≠ ndim → fromCovariance ndim draws columns args = .error .value) ∧
    ∀ c, setting args .shiftParams = false → fromCovariance ndim draws columns args = .ok c →
      columns.length = ndim ∧ HasColumns c columns ∧ c.samples.index.length = 1000000 ∧
      ∀ (k : Nat) (p : String), columns[k]? = some p → ∃ x, c.samples.get p = .ok x ∧ x.length = 1000000 ∧
        ∀ i : Nat, (x[i]?).map Flt.fin = (draws 1000000)[i]?.bind fun r => r[k]? := by
  constructor
  · intro hne
    simp only [fromCovariance, covarianceFrame, ensure, decide_eq_true_eq, if_neg hne]
    rfl
  · intro c hshift h
    simp only [fromCovariance, covarianceFrame, bind_ok_iff, ensure_ok_iff, pure_ok_iff, decide_eq_true_eq] at h
    obtain ⟨f, ⟨-, hn, -, hd, rfl⟩, h⟩ := h
    have hzl : columns.length = (tableColumns ndim (draws covarianceSize)).length := by rw [tableColumns_length, hn]
    have hlen : (draws covarianceSize).length = 1000000 := by rw [hsize, covarianceSize_eq]
    obtain ⟨g1, g2, g3, g4⟩ := make_named (args := args) (c := c) (cols := List.zip columns (tableColumns ndim (draws covarianceSize)))
      (by rw [map_fst_zip_eq hzl]; exact hd)
      (by
        intro e he
        have := (List.of_mem_zip he).2
        simp only [tableColumns, List.mem_map] at this
        obtain ⟨k, -, e⟩ := this
        rw [← e]
        simp) hshift h
    rw [map_fst_zip_eq hzl] at g1
    refine ⟨hn, g1, by rw [g2, List.length_map, List.length_range, hlen], ?_⟩
    intro k p hp
    have hk : k < columns.length := (List.getElem?_eq_some_iff.1 hp).1
    obtain ⟨x, hx, e⟩ := g4 (p, (draws covarianceSize).map fun r => r.getD k .nan) (by
      obtain ⟨h1, h2⟩ := List.getElem?_eq_some_iff.1 hp
      rw [List.mem_iff_getElem]
      refine ⟨k, by simp [tableColumns]; omega, ?_⟩
      simp [tableColumns, h2])
    have hxl : x.length = 1000000 := by
      have := congrArg List.length e
      simp only [List.length_map] at this
      rw [← this, hlen]
    refine ⟨x, hx, hxl, ?_⟩
    intro i
    rw [← List.getElem?_map, ← show (draws covarianceSize).map (fun r => r.getD k .nan) = x.map .fin from e,
      List.getElem?_map]
    rw [← covarianceSize_eq]
    cases hi : (draws covarianceSize)[i]? with
    | none => rfl
    | some r =>
      have hr := hdim _ r (List.mem_of_getElem? hi)
      simp only [Option.map_some, Option.bind_some]
      rw [List.getD_eq_getElem?_getD, List.getElem?_eq_getElem (by omega)]
      rfl

omit [Field K] [LinearOrder K] [IsStrictOrderedRing K] in
theorem filter_kept_names {samples : List (String × List (List (Flt K)))} {keep : List String} {P : String → Bool}
    (h : ∀ v ∈ samples.map Prod.fst, (v ∈ keep ↔ P v = true)) :
    (samples.filter fun s => s.1 ∈ keep).map Prod.fst = (samples.map Prod.fst).filter P := by
  rw [List.filter_map]
  congr 1
  apply List.filter_congr
  intro s hs
  have := h s.1 (List.mem_map.2 ⟨s, hs, rfl⟩)
  rw [Bool.eq_iff_iff, decide_eq_true_eq]
  exact this

/-- **C97** (numpyro, what is proved). The chain made from numpyro samples has the variables selected, in the order of the
sampler (then the added weights); a variable whose draws have `k` components has `k` rows for each draw. For scalars
this is one row for each draw, in order. Missing, because the code violates it: one row for each draw of a vector. -/
theorem C97_numpyro_partial {sel : Option (List String)} {samples : List (String × List (List (Flt K)))} {args : Args K}
    {c : Chain K} (hd : (samples.map Prod.fst).Nodup) (hshift : setting args .shiftParams = false)
    (h : fromNumpyro sel samples args = .ok c) :
    HasColumns c ((samples.map Prod.fst).filter fun v => @decide (Kept sel v) (Classical.dec _)) ∧
    ∀ s ∈ samples, Kept sel s.1 → ∀ n k, Shape2 n k s.2 → c.samples.index.length = n * k ∧
      ∃ x, c.samples.get s.1 = .ok x ∧ x.length = n * k ∧
        ∀ i j : Nat, j < k → (x[i * k + j]?).map Flt.fin = s.2[i]?.bind fun g => g[j]? := by
  simp only [fromNumpyro, bind_ok_iff] at h
  obtain ⟨f, hf, h⟩ := h
  obtain ⟨keep, n, hk, hl, -, hi, hc⟩ := (C16_numpyro_table _ _ _).1 hf
  have hmap : (samples.map fun s => (s.1, s.2.flatten)).map Prod.fst = samples.map Prod.fst := by simp
  rw [hmap] at hk
  obtain ⟨hkeep, -⟩ := filterVarNames_kept hk
  obtain ⟨cols, hC⟩ : ∃ cols, cols = (samples.map fun s => (s.1, s.2.flatten)).filter fun s => s.1 ∈ keep := ⟨_, rfl⟩
  rw [← hC] at hc
  have hnames : cols.map Prod.fst = (samples.map Prod.fst).filter fun v => @decide (Kept sel v) (Classical.dec _) := by
    rw [← filter_kept_names (keep := keep) (P := fun v => @decide (Kept sel v) (Classical.dec _))
      (fun v hv => (hkeep v hv).trans (@decide_eq_true_iff _ (Classical.dec _)).symm), hC, List.filter_map, List.map_map]
    rfl
  obtain ⟨fi, fc⟩ := f
  simp only at hi hc
  subst hi hc
  obtain ⟨g1, g2, g3, g4⟩ := make_named (args := args) (c := c) (cols := cols)
    (by rw [hnames]; exact hd.filter _)
    (by
      intro e he
      rw [hC, List.mem_filter] at he
      rw [intIndex_length]
      exact hl e he.1 (by simpa using he.2)) hshift h
  rw [hnames] at g1
  refine ⟨g1, ?_⟩
  intro s hs hsk m k hr
  have hsm : s.1 ∈ keep := (hkeep s.1 (List.mem_map.2 ⟨s, hs, rfl⟩)).2 hsk
  have hmem : (s.1, s.2.flatten) ∈ samples.map fun s => (s.1, s.2.flatten) := List.mem_map.2 ⟨s, hs, rfl⟩
  have hfl : s.2.flatten.length = m * k := by rw [length_flatten_uniform hr.2, hr.1]
  obtain ⟨x, hx, e⟩ := g4 (s.1, s.2.flatten) (hC ▸ List.mem_filter.2 ⟨hmem, by simpa using hsm⟩)
  have hxl : x.length = m * k := by
    have := congrArg List.length e
    simp only [List.length_map] at this
    omega
  refine ⟨?_, x, hx, hxl, ?_⟩
  · rw [g2, intIndex_length, ← hl _ hmem hsm, hfl]
  · intro i j hj
    rw [← List.getElem?_map, ← show s.2.flatten = x.map .fin from e, getElem?_flatten_uniform hr.2 hj]

omit [Field K] [LinearOrder K] [IsStrictOrderedRing K] in
theorem stackedIndex_length {α : Type} {C D : Nat} {v : List (List α)} (h : Shape2 C D v) :
    (stackedIndex v).length = C * D := by
  obtain ⟨rfl, h2⟩ := h
  have : ∀ (l : List (List α)) (k : Nat), (∀ g ∈ l, g.length = D) →
      ((l.zipIdx k).flatMap fun c => (List.range c.1.length).map fun d =>
        Label.str (toString c.2 ++ "," ++ toString d)).length = l.length * D := by
    intro l
    induction l with
    | nil => intro k _; simp
    | cons g l ih =>
      intro k hg
      rw [List.zipIdx_cons, List.flatMap_cons, List.length_append, ih _ fun g' h' => hg g' (by simp [h'])]
      simp only [List.length_map, List.length_range, List.length_cons]
      rw [hg g (by simp), Nat.succ_mul]
      omega
  exact this v 0 h2

/-- **C97** (arviz). The chain made from arviz data of scalar variables has the variables selected, in the order of the
data (then the added weights), and one row for each draw: the draws of the first chain, then those of the second, and
so on. -/
theorem C97_arviz {sel : Option (List String)} {posterior : List (String × List (List (Flt K)))} {args : Args K}
    {c : Chain K} {C D : Nat} (hd : (posterior.map Prod.fst).Nodup) (hr : ∀ s ∈ posterior, Shape2 C D s.2)
    (hshift : setting args .shiftParams = false) (h : fromArviz sel posterior args = .ok c) :
    HasColumns c ((posterior.map Prod.fst).filter fun v => @decide (Kept sel v) (Classical.dec _)) ∧ c.samples.index.length = C * D ∧
    ∀ s ∈ posterior, Kept sel s.1 → ∃ x, c.samples.get s.1 = .ok x ∧ x.length = C * D ∧
      ∀ i j : Nat, j < D → (x[i * D + j]?).map Flt.fin = s.2[i]?.bind fun g => g[j]? := by
  simp only [fromArviz, arvizFrame, bind_ok_iff, pure_ok_iff] at h
  obtain ⟨f, ⟨keep, hk, rfl⟩, h⟩ := h
  obtain ⟨hkeep, -⟩ := filterVarNames_kept hk
  have hcols : ((posterior.filter fun c => c.1 ∈ keep).map fun c => (ColLabel.str c.1, c.2.flatten)) =
      ((posterior.filter fun c => c.1 ∈ keep).map fun c => (c.1, c.2.flatten)).map fun e => (ColLabel.str e.1, e.2) := by
    rw [List.map_map]; rfl
  obtain ⟨cols, hC⟩ : ∃ cols, cols = (posterior.filter fun c => c.1 ∈ keep).map fun c => (c.1, c.2.flatten) := ⟨_, rfl⟩
  rw [hcols, ← hC] at h
  have hnames : cols.map Prod.fst = (posterior.map Prod.fst).filter fun v => @decide (Kept sel v) (Classical.dec _) := by
    rw [← filter_kept_names (keep := keep) (P := fun v => @decide (Kept sel v) (Classical.dec _))
      (fun v hv => (hkeep v hv).trans (@decide_eq_true_iff _ (Classical.dec _)).symm), hC, List.map_map]
    rfl
  have hfl : ∀ s ∈ posterior, s.2.flatten.length = C * D := fun s hs => by
    rw [length_flatten_uniform (hr s hs).2, (hr s hs).1]
  have hix : posterior ≠ [] → (stackedIndex ((posterior.map Prod.snd).headD [])).length = C * D := by
    intro hne
    cases posterior with
    | nil => exact absurd rfl hne
    | cons s l => exact stackedIndex_length (hr s (by simp))
  obtain ⟨g1, g2, g3, g4⟩ := make_named (args := args) (c := c) (cols := cols)
    (by rw [hnames]; exact hd.filter _)
    (by
      intro e he
      rw [hC] at he
      obtain ⟨s, hs, rfl⟩ := List.mem_map.1 he
      rw [List.mem_filter] at hs
      rw [hix (List.ne_nil_of_mem hs.1)]
      exact hfl s hs.1) hshift h
  rw [hnames] at g1
  have hne : posterior ≠ [] := by
    rintro rfl
    exact g3 rfl
  refine ⟨g1, by rw [g2]; exact hix hne, ?_⟩
  intro s hs hsk
  have hsm : s.1 ∈ keep := (hkeep s.1 (List.mem_map.2 ⟨s, hs, rfl⟩)).2 hsk
  obtain ⟨x, hx, e⟩ := g4 (s.1, s.2.flatten)
    (hC ▸ List.mem_map.2 ⟨s, List.mem_filter.2 ⟨hs, by simpa using hsm⟩, rfl⟩)
  have hxl : x.length = C * D := by
    have := congrArg List.length e
    simp only [List.length_map] at this
    rw [← this, hfl s hs]
  refine ⟨x, hx, hxl, ?_⟩
  intro i j hj
  rw [← List.getElem?_map, ← show s.2.flatten = x.map .fin from e, getElem?_flatten_uniform (hr s hs).2 hj]

end

/-- Two draws of a vector with two components. -/
def numpyroDemo : List (String × List (List (Flt ℚ))) := [("v", [[.fin 1, .fin 10], [.fin 2, .fin 20]])]

/-- Arguments of the examples. -/
def sourceArgs : Args ℚ := { samples := ⟨[], []⟩, name := "source" }

theorem sourceMake_int : ∃ e, Chain.make { sourceArgs with
    samples := ⟨[.int 0, .int 1, .int 2, .int 3], [(.str "v", [.fin 1, .fin 10, .fin 2, .fin 20])]⟩ } = .ok e :=
  ⟨_, Chain.make_ok_iff.2 ⟨none, ⟨[.int 0, .int 1, .int 2, .int 3], [(.str "v", [.fin 1, .fin 10, .fin 2, .fin 20]),
        (.str "weight", [.fin 1, .fin 1, .fin 1, .fin 1])]⟩,
      { index := [.int 0, .int 1, .int 2, .int 3], cols := [("v", [1, 10, 2, 20]), ("weight", [1, 1, 1, 1])] },
      { index := [.int 0, .int 1, .int 2, .int 3], cols := [("v", [1, 10, 2, 20]), ("weight", [1, 1, 1, 1])] },
      by decide +kernel, by decide +kernel, rfl, by decide +kernel, by decide +kernel,
      by decide +kernel, by decide +kernel, by decide +kernel, by decide +kernel, by decide +kernel, rfl⟩⟩

theorem sourceMake_str : ∃ e, Chain.make { sourceArgs with
    samples := ⟨[.str "0,0", .str "0,1", .str "1,0", .str "1,1"], [(.str "v", [.fin 1, .fin 10, .fin 2, .fin 20])]⟩ } = .ok e :=
  ⟨_, Chain.make_ok_iff.2 ⟨none, ⟨[.str "0,0", .str "0,1", .str "1,0", .str "1,1"], [(.str "v", [.fin 1, .fin 10, .fin 2, .fin 20]),
        (.str "weight", [.fin 1, .fin 1, .fin 1, .fin 1])]⟩,
      { index := [.str "0,0", .str "0,1", .str "1,0", .str "1,1"], cols := [("v", [1, 10, 2, 20]), ("weight", [1, 1, 1, 1])] },
      { index := [.str "0,0", .str "0,1", .str "1,0", .str "1,1"], cols := [("v", [1, 10, 2, 20]), ("weight", [1, 1, 1, 1])] },
      by decide +kernel, by decide +kernel, rfl, by decide +kernel, by decide +kernel,
      by decide +kernel, by decide +kernel, by decide +kernel, by decide +kernel, by decide +kernel, rfl⟩⟩

theorem numpyroDemo_ok : ∃ c, fromNumpyro none numpyroDemo sourceArgs = .ok c :=
  sourceMake_int

/-- **C97** is violated: two draws of a vector become four rows of one parameter, the second row holding the second
component of the first draw. -/
theorem C97_violated : ∃ (c : Chain ℚ) (x : List ℚ), Shape2 2 2 (numpyroDemo.map Prod.snd).head! ∧
    fromNumpyro none numpyroDemo sourceArgs = .ok c ∧ c.samples.index.length = 4 ∧
    c.samples.get "v" = .ok x ∧ x[1]? = some 10 := by
  obtain ⟨c, hc⟩ := numpyroDemo_ok
  have hr : Shape2 2 2 (numpyroDemo.map Prod.snd).head! := by
    refine ⟨rfl, ?_⟩
    intro g hg
    simp only [numpyroDemo, List.map_cons, List.map_nil, List.head!_cons, List.mem_cons, List.not_mem_nil, or_false] at hg
    rcases hg with rfl | rfl <;> rfl
  obtain ⟨-, h⟩ := C97_numpyro_partial (c := c) (by decide) (by decide +kernel) hc
  obtain ⟨h1, x, h2, -, h3⟩ := h ("v", [[.fin 1, .fin 10], [.fin 2, .fin 20]]) (by simp [numpyroDemo]) trivial 2 2 hr
  refine ⟨c, x, hr, hc, h1, h2, ?_⟩
  have := h3 0 1 (by decide)
  simp only [Nat.zero_mul, Nat.zero_add, List.getElem?_cons_zero, Option.bind_some, List.getElem?_cons_succ,
    Option.map_eq_some_iff] at this
  obtain ⟨a, ha, e⟩ := this
  rw [ha, Flt.fin.inj e]

/-- Two chains of two draws of a scalar. -/
example : ∃ (c : Chain ℚ) (x : List ℚ), fromArviz none [("v", [[Flt.fin 1, .fin 10], [.fin 2, .fin 20]])] sourceArgs = .ok c ∧
    c.samples.get "v" = .ok x ∧ (x[2]?).map .fin = some (Flt.fin 2) := by
  obtain ⟨c, hc⟩ := sourceMake_str
  have hc' : fromArviz none [("v", [[Flt.fin 1, .fin 10], [.fin 2, .fin 20]])] sourceArgs = .ok c := hc
  obtain ⟨-, -, h⟩ := C97_arviz (C := 2) (D := 2) (by decide) (by intro s hs; rw [List.mem_singleton] at hs; subst hs;
                                                                   exact ⟨rfl, by simp⟩) (by decide +kernel) hc'
  obtain ⟨x, h1, -, h2⟩ := h _ (List.mem_singleton_self _) trivial
  exact ⟨c, x, hc', h1, h2 1 0 (by decide)⟩

/-- Two names for three coordinates are refused. -/
example (draws : Nat → List (List (Flt ℚ))) (h1 : ∀ n, (draws n).length = n) (h2 : ∀ n, ∀ r ∈ draws n, r.length = 3) :
    fromCovariance 3 draws ["a", "b"] sourceArgs = .error .value :=
  (C97_covariance h1 h2).1 (by decide)

/-- Tables of a constant are accepted. -/
theorem constant_covariance {N : Nat} (hN1 : N ≠ 0) :
    ∃ c, (covarianceFrame 1 (List.replicate N [Flt.fin (3 : ℚ)]) ["a"] >>= fun f =>
      Chain.make { sourceArgs with samples := f }) = .ok c := by
  have hf : covarianceFrame 1 (List.replicate N [Flt.fin (3 : ℚ)]) ["a"] = .ok
      { index := (List.range N).map fun (i : Nat) => Label.int i, cols := [(.str "a", List.replicate N (.fin 3))] } := by
    simp [covarianceFrame, ensure, tableColumns, bind, Except.bind, pure, Except.pure]
  simp only [hf, bind, Except.bind]
  refine (C07_constructor_accepts_iff { sourceArgs with samples :=
      { index := (List.range N).map fun (i : Nat) => Label.int i, cols := [(.str "a", List.replicate N (.fin (3 : ℚ)))] } }
    ⟨by simp, by simp⟩ (show setting sourceArgs .shiftParams = false by decide +kernel)).2 ?_
  exact {
    colour := trivial
    area := by
      change 0 ≤ setting sourceArgs .summaryArea ∧ setting sourceArgs .summaryArea ≤ 1
      decide +kernel
    markerSize := by
      change 1 ≤ setting sourceArgs .markerSize
      decide +kernel
    walkersPos := by
      change 1 ≤ sourceArgs.walkers
      decide
    freeParams := by intro n h; cases h
    effPoints := by intro n h; cases h
    height := by
      change sourceArgs.histogramRelativeHeight = _ ∨ ∃ v, sourceArgs.histogramRelativeHeight = _ ∧ _
      exact .inr ⟨_, rfl, by decide +kernel⟩
    hasRow := by
      have : ((List.range N).map fun (i : Nat) => Label.int i).length ≠ 0 := by simpa using hN1
      intro e
      exact this (by rw [show (List.range N).map (fun (i : Nat) => Label.int i) = [] from e]; rfl)
    hasColumn := by simp
    labels := by simp
    finite := by
      intro c hc x hx
      rw [List.mem_singleton] at hc
      subst hc
      exact ⟨3, (List.mem_replicate.1 hx).2⟩
    weights := by
      intro c hc hw
      rw [List.mem_singleton] at hc
      subst hc
      change ColLabel.str "a" = ColLabel.str "weight" at hw
      exact absurd hw (by decide)
    weightColumn := .inr rfl
    walkers := by
      change sourceArgs.walkers ∣ _
      exact one_dvd _
    colourColumn := by intro p h; cases h
    multimodal := fun _ => .inl rfl }

/-- A million draws of a constant. -/
example : ∃ c, fromCovariance 1 (fun n => List.replicate n [Flt.fin (3 : ℚ)]) ["a"] sourceArgs = .ok c ∧
    c.samples.index.length = 1000000 := by
  obtain ⟨c, hc⟩ := constant_covariance (N := covarianceSize) (by rw [covarianceSize_eq]; norm_num)
  have hc' : fromCovariance 1 (fun n => List.replicate n [Flt.fin (3 : ℚ)]) ["a"] sourceArgs = .ok c := by
    unfold fromCovariance
    exact hc
  obtain ⟨-, -, h, -⟩ := (C97_covariance (K := ℚ) (ndim := 1) (draws := fun n => List.replicate n [Flt.fin (3 : ℚ)])
    (by simp) (by intro n r hr; rw [(List.mem_replicate.1 hr).2]; rfl)).2 c (by decide +kernel) hc'
  exact ⟨c, hc', h⟩

end CC
