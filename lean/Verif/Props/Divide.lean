import Verif.Lemmas.Divide

/-! # C10, C11: `Chain.divide` -/

namespace CC
open Spec
variable {K : Type} [Field K] [LinearOrder K] [IsStrictOrderedRing K]

omit [LinearOrder K] [IsStrictOrderedRing K] in
theorem walker_setting (c : Chain K) (i : Nat) (f : Frame K) (k : Key) :
    setting (c.walkerArgs i f) k = if k = .color then Cfg.default K k else c.cfg k := by
  simp only [setting, Chain.walkerArgs, Chain.dumpConfig, apply_dump]
  by_cases h : k = .color
  · subst h; simp
  · have : k ∈ Key.all := by cases k <;> decide
    simp [h, this]

/-- The settings of an accepted chain satisfy the documented constraints. -/
theorem accepted_settings {a : Args K} {c : Chain K} (hwf : a.samples.WF)
    (hshift : setting a .shiftParams = false) (h : Chain.make a = .ok c) :
    c.cfg .shiftParams = false ∧ (0 ≤ c.cfg .summaryArea ∧ c.cfg .summaryArea ≤ 1) ∧
    1 ≤ c.cfg .markerSize ∧ (∀ x, c.numEffDataPoints = some x → 0 ≤ x) ∧
    (c.histogramRelativeHeight = .posInf ∨ ∃ v, c.histogramRelativeHeight = .fin v ∧ 0 ≤ v) := by
  have hA := (C07_constructor_accepts_iff a hwf hshift).1 ⟨c, h⟩
  obtain ⟨-, -, -, -, -, -, -, -, hk⟩ := C07_accepted_chain_guarantees a c hwf hshift h
  refine ⟨?_, ?_, ?_, ?_, ?_⟩
  · rw [hk _ (by simp) (by simp)]; exact hshift
  · rw [hk .summaryArea (by simp) (by simp)]; exact hA.area
  · rw [hk .markerSize (by simp) (by simp)]; exact hA.markerSize
  · obtain ⟨_, _, _, _, _, _, _, _, _, _, _, _, _, _, rfl⟩ := Chain.make_ok_iff.1 h
    intro x hx
    cases hn : a.numEffDataPoints with
    | none => simp [hn] at hx
    | some y =>
      obtain ⟨v, rfl, hv⟩ := hA.effPoints y hn
      simp only [hn, Option.bind_some, Flt.toFin?, Option.some.injEq] at hx
      rw [← hx]; exact hv
  · obtain ⟨_, _, _, _, _, _, _, _, _, _, _, _, _, _, rfl⟩ := Chain.make_ok_iff.1 h
    exact hA.height

/-- A nonempty block of rows of an accepted chain is accepted as a chain. -/
theorem block_accepted {a : Args K} {c : Chain K} (hwf : a.samples.WF)
    (hshift : setting a .shiftParams = false) (h : Chain.make a = .ok c) (i s n : Nat)
    (hne : ((c.samples.index.drop s).take n) ≠ []) :
    Acceptable (c.walkerArgs i (c.samples.rows s n)) := by
  obtain ⟨w1, w2, w3, w4, w5, w6⟩ := make_WF hwf h
  obtain ⟨-, -, -, -, ⟨w, hw, hwl, hpos⟩, -, ⟨st, hst1, hst2, -⟩, hcp, -⟩ :=
    C07_accepted_chain_guarantees a c hwf hshift h
  obtain ⟨e1, e2, e3, e4, e5⟩ := accepted_settings hwf hshift h
  have hrow := rows_WF w1 s n
  have hcols : ((c.samples.rows s n).toRaw.cols.map Prod.fst)
      = c.samples.columns.map ColLabel.str := by
    simp [Frame.toRaw, Frame.rows, Frame.columns, Function.comp_def]
  have hwm : ColLabel.str c.weightColumn ∈ (c.samples.rows s n).toRaw.cols.map Prod.fst := by
    rw [hcols]; exact List.mem_map.2 ⟨_, w4, rfl⟩
  refine ⟨?_, ?_, ?_, ?_, ?_, ?_, ?_, ?_, ?_, ?_, ?_, ?_, ?_, ?_, ?_, ?_⟩
  · rw [walker_setting]; simp [Cfg.default, ColourOk]
  · rw [walker_setting]; simpa using e2
  · rw [walker_setting]; simpa using e3
  · simp [Chain.walkerArgs]
  · intro m hm
    simp only [Chain.walkerArgs, Option.map_eq_some_iff] at hm
    obtain ⟨m', -, rfl⟩ := hm
    exact Int.natCast_nonneg _
  · intro x hx
    simp only [Chain.walkerArgs, Option.map_eq_some_iff] at hx
    obtain ⟨v, hv, rfl⟩ := hx
    exact ⟨v, rfl, e4 v hv⟩
  · exact e5
  · exact hne
  · intro h0
    have : (c.samples.rows s n).toRaw.cols = [] := h0
    rw [this] at hwm
    simp at hwm
  · intro d hd
    have hd' : d ∈ (c.samples.rows s n).toRaw.cols := hd
    simp only [Frame.toRaw, List.mem_map] at hd'
    obtain ⟨e, -, rfl⟩ := hd'
    exact ⟨_, rfl⟩
  · intro d hd x hx
    have hd' : d ∈ (c.samples.rows s n).toRaw.cols := hd
    simp only [Frame.toRaw, List.mem_map] at hd'
    obtain ⟨e, -, rfl⟩ := hd'
    obtain ⟨y, -, rfl⟩ := List.mem_map.1 hx
    exact ⟨y, rfl⟩
  · intro d hd hdn v hv
    have hd' : d ∈ (c.samples.rows s n).toRaw.cols := hd
    simp only [Frame.toRaw, Frame.rows, List.map_map, List.mem_map, Function.comp_apply] at hd'
    obtain ⟨e, he, rfl⟩ := hd'
    have hen : e.1 = c.weightColumn := by simpa [Chain.walkerArgs] using hdn
    simp only [List.mem_map, Flt.fin.injEq, exists_eq_right] at hv
    have hget : c.samples.get c.weightColumn = .ok e.2 := get_of_mem w1.1 (by rw [← hen]; exact he)
    rw [Chain.weights, hget] at hw
    cases hw
    exact hpos v (List.mem_of_mem_drop (List.mem_of_mem_take hv))
  · exact .inl hwm
  · simp [Chain.walkerArgs]
  · intro p hp
    rw [walker_setting] at hp
    have hp' : p ∈ c.samples.columns := hcp p (by simpa using hp)
    have hwm' : ColLabel.str (c.walkerArgs i (c.samples.rows s n)).weightColumn ∈
      (c.walkerArgs i (c.samples.rows s n)).samples.cols.map Prod.fst := hwm
    rw [finalLabels, if_pos hwm']
    change ColLabel.str p ∈ (c.samples.rows s n).toRaw.cols.map Prod.fst
    rw [hcols]; exact List.mem_map.2 ⟨_, hp', rfl⟩
  · intro hm
    rw [walker_setting] at hm ⊢
    have := hst2 (by simpa using hm)
    subst this
    right; simpa using hst1

/-- The settings a walker of a divided chain shares with its parent: everything except the colour,
which is unset, the name and the number of walkers. -/
structure Spec.WalkerOf (c d : Chain K) (i : Nat) : Prop where
  name : d.name = c.name ++ " Walker " ++ toString i
  walkers : d.walkers = 1
  colour : d.cfg .color = none
  settings : ∀ k, k ≠ .color → d.cfg k = c.cfg k
  weightColumn : d.weightColumn = c.weightColumn
  posteriorColumn : d.posteriorColumn = c.posteriorColumn
  grid : d.grid = c.grid
  numFreeParams : d.numFreeParams = c.numFreeParams
  numEffDataPoints : d.numEffDataPoints = c.numEffDataPoints
  power : d.power = c.power
  showLabelInLegend : d.showLabelInLegend = c.showLabelInLegend
  histogramRelativeHeight : d.histogramRelativeHeight = c.histogramRelativeHeight

theorem block_make {a : Args K} {c d : Chain K} (hwf : a.samples.WF)
    (hshift : setting a .shiftParams = false) (h : Chain.make a = .ok c) {i s n : Nat}
    (hd : Chain.make (c.walkerArgs i (c.samples.rows s n)) = .ok d) :
    d.samples = c.samples.rows s n ∧ WalkerOf c d i := by
  obtain ⟨w1, w2, w3, w4, w5, w6⟩ := make_WF hwf h
  obtain ⟨-, -, -, -, -, -, ⟨st, hst1, -, -⟩, -, -⟩ :=
    C07_accepted_chain_guarantees a c hwf hshift h
  obtain ⟨e1, -⟩ := accepted_settings hwf hshift h
  have hrow := rows_WF w1 s n
  have hs : setting (c.walkerArgs i (c.samples.rows s n)) .shiftParams = false := by
    rw [walker_setting]; simpa using e1
  refine ⟨(make_toRaw hrow rfl (by rw [rows_columns]; exact w4) hd).2 hs, ?_⟩
  obtain ⟨col, raw, f0, f1, h1, h2, h3, h4, h5, h6, h7, h8, h9, h10, rfl⟩ := Chain.make_ok_iff.1 hd
  have hcol : col = none := by
    change validateColor (setting (c.walkerArgs i (c.samples.rows s n)) .color) = _ at h1
    rw [walker_setting] at h1
    simp only [if_true, Cfg.default, validateColor] at h1
    cases h1; rfl
  have hset : ∀ k, k ≠ .color → ((Cfg.default K).apply (c.walkerArgs i (c.samples.rows s n)).config)
      k = c.cfg k := by
    intro k hk
    have := walker_setting c i (c.samples.rows s n) k
    rwa [if_neg hk] at this
  refine ⟨rfl, rfl, ?_, ?_, rfl, rfl, rfl, ?_, ?_, rfl, rfl, rfl⟩
  · simp [resolveStatistics_ne (k := .color), hcol, Cfg.set]
  · intro k hk
    by_cases hks : k = .statistics
    · subst hks
      simp only [resolveStatistics_statistics, set_color_ne hk]
      rw [hset _ hk, hst1]
    · simp only [resolveStatistics_ne hks, set_color_ne hk]
      exact hset k hk
  · simp only [Chain.walkerArgs, Option.map_map]
    cases c.numFreeParams <;> rfl
  · simp only [Chain.walkerArgs]
    cases c.numEffDataPoints <;> rfl

omit [IsStrictOrderedRing K] in
theorem divide_ok_iff {c : Chain K} {cs : List (Chain K)} :
    c.divide = .ok cs ↔ 1 < c.walkers ∧ c.grid = false ∧ c.walkers ∣ c.samples.index.length ∧
      List.Forall₂ (fun (i : Nat) d => Chain.make (c.walkerArgs i (c.samples.rows
          (i * (c.samples.index.length / c.walkers)) (c.samples.index.length / c.walkers)))
        = .ok d) (List.range c.walkers) cs := by
  simp only [Chain.divide, Frame.split, bind_ok_iff, ensure_ok_iff, pure_ok_iff, mapM_ok_iff,
    decide_eq_true_eq, Bool.not_eq_true', beq_iff_eq]
  have key : ∀ (F : Nat → Frame K) (n : Nat), ((List.range n).map F).zipIdx
      = (List.range n).map fun i => (F i, i) := by
    intro F n
    apply List.ext_getElem <;> simp
  constructor
  · rintro ⟨-, h1, -, h2, sp, ⟨-, h3, rfl⟩, h4⟩
    rw [key, List.forall₂_map_left_iff] at h4
    exact ⟨h1, h2, Nat.dvd_of_mod_eq_zero h3, h4⟩
  · rintro ⟨h1, h2, h3, h4⟩
    refine ⟨⟨⟩, h1, ⟨⟩, h2, _, ⟨⟨⟩, Nat.mod_eq_zero_of_dvd h3, rfl⟩, ?_⟩
    rw [key, List.forall₂_map_left_iff]
    exact h4

/-- **C10.** For an accepted chain with more than one walker, no grid and no `shift_params`,
`divide()` returns one chain per walker, each keeping every setting except the colour, each with an
equal share of the rows, and the tables put one after the other are the original table (row labels
and every column). -/
theorem C10_divide_lossless (a : Args K) (c : Chain K) (hwf : a.samples.WF)
    (hshift : setting a .shiftParams = false) (h : Chain.make a = .ok c)
    (hw : 1 < c.walkers) (hg : c.grid = false) :
    ∃ cs, c.divide = .ok cs ∧ cs.length = c.walkers ∧
      (∀ i (hi : i < cs.length), WalkerOf c cs[i] i ∧
        cs[i].samples.index.length * c.walkers = c.samples.index.length ∧
        cs[i].samples.columns = c.samples.columns) ∧
      (cs.map fun d => d.samples.index).flatten = c.samples.index ∧
      ∀ p x, c.samples.get p = .ok x →
        ∃ xs, cs.mapM (fun d => d.samples.get p) = .ok xs ∧ xs.flatten = x := by
  obtain ⟨w1, w2, w3, w4, w5, w6⟩ := make_WF hwf h
  generalize hn : c.samples.index.length / c.walkers = n
  have hlen : c.walkers * n = c.samples.index.length := by
    rw [← hn]; exact Nat.mul_div_cancel' w6
  have hnpos : 0 < n := by
    rcases Nat.eq_zero_or_pos n with h0 | h0
    · rw [h0, Nat.mul_zero] at hlen
      exact absurd (List.length_eq_zero_iff.1 hlen.symm) w3
    · exact h0
  have hblk : ∀ i, i < c.walkers → ((c.samples.index.drop (i * n)).take n).length = n := by
    intro i hi
    have h1 : i * n + n ≤ c.walkers * n := by
      have := Nat.mul_le_mul_right n (Nat.succ_le_of_lt hi)
      rwa [Nat.succ_mul] at this
    rw [List.length_take, List.length_drop]
    omega
  have hex : ∀ i, i < c.walkers →
      ∃ d, Chain.make (c.walkerArgs i (c.samples.rows (i * n) n)) = .ok d := by
    intro i hi
    have hs : setting (c.walkerArgs i (c.samples.rows (i * n) n)) .shiftParams = false := by
      rw [walker_setting]; simpa using (accepted_settings hwf hshift h).1
    refine (C07_constructor_accepts_iff _ (toRaw_WF.2 (rows_WF w1 _ _)) hs).2
      (block_accepted hwf hshift h i (i * n) n ?_)
    intro h0
    have := hblk i hi
    rw [h0] at this
    simp at this; omega
  have : Nonempty (Chain K) := ⟨c⟩
  choose! D hD using hex
  refine ⟨(List.range c.walkers).map D, ?_, by simp, ?_, ?_, ?_⟩
  · rw [divide_ok_iff, hn]
    refine ⟨hw, hg, w6, ?_⟩
    rw [List.forall₂_map_right_iff, List.forall₂_same]
    intro i hi
    exact hD i (List.mem_range.1 hi)
  · intro i hi
    have hi' : i < c.walkers := by simpa using hi
    obtain ⟨b1, b2⟩ := block_make hwf hshift h (hD i hi')
    simp only [List.getElem_map, List.getElem_range]
    refine ⟨b2, ?_, ?_⟩
    · rw [b1]
      change ((c.samples.index.drop (i * n)).take n).length * _ = _
      rw [hblk i hi', ← hlen, Nat.mul_comm]
    · rw [b1, rows_columns]
  · have : ((List.range c.walkers).map D).map (fun d => d.samples.index)
        = (List.range c.walkers).map fun i => (c.samples.index.drop (i * n)).take n := by
      rw [List.map_map]
      apply List.map_congr_left
      intro i hi
      have := (block_make hwf hshift h (hD i (List.mem_range.1 hi))).1
      simp only [Function.comp_apply, this]
      rfl
    rw [this, flatten_blocks, hlen, List.take_length]
  · intro p x hx
    have hxl : x.length = c.samples.index.length := w1.2 _ (get_mem hx)
    refine ⟨(List.range c.walkers).map fun i => (x.drop (i * n)).take n, ?_, ?_⟩
    · rw [mapM_ok_iff, List.forall₂_map_left_iff, List.forall₂_map_right_iff, List.forall₂_same]
      intro i hi
      rw [(block_make hwf hshift h (hD i (List.mem_range.1 hi))).1, rows_get, hx]
      rfl
    · rw [flatten_blocks, hlen, ← hxl, List.take_length]

/-- **C11, partial.** `divide()` succeeds on every accepted non-grid chain with more than one walker
that was constructed without `shift_params`. Missing: chains with `shift_params`, for which it is
false (`C11_shifted_chains_never_divide`). -/
theorem C11_divide_succeeds_partial (a : Args K) (c : Chain K) (hwf : a.samples.WF)
    (hshift : setting a .shiftParams = false) (h : Chain.make a = .ok c)
    (hw : 1 < c.walkers) (hg : c.grid = false) : ∃ cs, c.divide = .ok cs := by
  obtain ⟨cs, hcs, -⟩ := C10_divide_lossless a c hwf hshift h hw hg
  exact ⟨cs, hcs⟩

/-- **C11, violated** (for every input). No accepted chain with `shift_params` can be divided. -/
theorem C11_shifted_chains_never_divide (a : Args K) (c : Chain K) (hwf : a.samples.WF)
    (hshift : setting a .shiftParams = true) (h : Chain.make a = .ok c) :
    ∃ e, c.divide = .error e := by
  rcases exists_ok_or_error c.divide with ⟨cs, hcs⟩ | he
  swap
  · exact he
  exfalso
  obtain ⟨w1, w2, w3, w4, w5, w6⟩ := make_WF hwf h
  obtain ⟨w, hw, x, hx, hx0⟩ := C08_weights_destroyed a c hwf hshift h
  obtain ⟨-, -, -, hf⟩ := divide_ok_iff.1 hcs
  generalize hn : c.samples.index.length / c.walkers = n at hf
  have hlen : c.walkers * n = c.samples.index.length := by
    rw [← hn]; exact Nat.mul_div_cancel' w6
  have hwl : w.length = c.walkers * n := by rw [hlen]; exact w1.2 _ (get_mem hw)
  have hfl := flatten_blocks w c.walkers n
  rw [← hwl, List.take_length] at hfl
  rw [← hfl, List.mem_flatten] at hx
  obtain ⟨b, hb, hxb⟩ := hx
  obtain ⟨i, hi, rfl⟩ := List.mem_map.1 hb
  obtain ⟨d, -, hd⟩ := List.forall₂_iff_get.1 hf |>.2 |> fun hall =>
    (show ∃ d, d ∈ cs ∧ Chain.make (c.walkerArgs i (c.samples.rows (i * n) n)) = .ok d from by
      have hi' := List.mem_range.1 hi
      have hl := hf.length_eq
      rw [List.length_range] at hl
      have := hall i (by simpa using hi') (hl ▸ hi')
      exact ⟨cs[i]'(hl ▸ hi'), List.getElem_mem _, by simpa using this⟩)
  obtain ⟨⟨w', hw', hpos⟩, -⟩ := make_toRaw (rows_WF w1 (i * n) n) rfl
    (by rw [rows_columns]; exact w4) hd
  have hget : (c.samples.rows (i * n) n).get c.weightColumn = .ok ((w.drop (i * n)).take n) := by
    rw [rows_get]
    rw [Chain.weights] at hw
    rw [hw]; rfl
  change (c.samples.rows (i * n) n).get c.weightColumn = .ok w' at hw'
  rw [hget] at hw'
  cases hw'
  exact absurd (hpos x hxb) (not_lt.2 hx0)

/-- Four rows and two walkers, weights chosen so that the mean shift succeeds. -/
def divideWitness : Args ℚ := { shiftDemo with walkers := 2 }

/-- **C11, violated** (concrete). This chain is accepted, has two walkers, is not a grid, and cannot
be divided. -/
theorem C11_violated : ∃ c, Chain.make divideWitness = .ok c ∧ 1 < c.walkers ∧ c.grid = false ∧
    ∃ e, c.divide = .error e := by
  have hwf : divideWitness.samples.WF := ⟨by simp [divideWitness, shiftDemo],
    by simp [divideWitness, shiftDemo]⟩
  refine ⟨_, Chain.make_ok_iff.2 ⟨none,
      ⟨[.int 0, .int 1], [(.str "a", [.fin 0, .fin 1]), (.str "weight", [.fin 1, .fin 1])]⟩,
    { index := [.int 0, .int 1], cols := [("a", [0, 1]), ("weight", [1, 1])] },
    { index := [.int 0, .int 1], cols := [("a", [-1/2, 1/2]), ("weight", [0, 0])] },
    by decide +kernel, by decide +kernel, rfl, by decide +kernel, by decide +kernel,
    by decide +kernel, by decide +kernel, by decide +kernel, by decide +kernel, by decide +kernel,
    rfl⟩, by decide, rfl, ?_⟩
  exact C11_shifted_chains_never_divide divideWitness _ hwf (by decide +kernel)
    (Chain.make_ok_iff.2 ⟨none,
      ⟨[.int 0, .int 1], [(.str "a", [.fin 0, .fin 1]), (.str "weight", [.fin 1, .fin 1])]⟩,
    { index := [.int 0, .int 1], cols := [("a", [0, 1]), ("weight", [1, 1])] },
    { index := [.int 0, .int 1], cols := [("a", [-1/2, 1/2]), ("weight", [0, 0])] },
    by decide +kernel, by decide +kernel, rfl, by decide +kernel, by decide +kernel,
    by decide +kernel, by decide +kernel, by decide +kernel, by decide +kernel, by decide +kernel,
    rfl⟩)

/-- The hypotheses of `C10_divide_lossless` are met by a chain with two walkers. -/
example : demoArgs.samples.WF ∧ setting demoArgs .shiftParams = false ∧
    ∃ c, Chain.make demoArgs = .ok c ∧ 1 < c.walkers ∧ c.grid = false := by
  refine ⟨⟨by decide, by simp [demoArgs]⟩, by decide +kernel, _, Chain.make_ok_iff.2 ⟨some "#84cc16",
      ⟨[.int 0, .int 1], [(.str "a", [.fin 1, .fin 2]), (.str "b", [.fin 3, .fin 5]),
        (.str "weight", [.fin 1, .fin 1])]⟩,
    { index := [.int 0, .int 1], cols := [("a", [1, 2]), ("b", [3, 5]), ("weight", [1, 1])] },
    { index := [.int 0, .int 1], cols := [("a", [1, 2]), ("b", [3, 5]), ("weight", [1, 1])] },
    by decide +kernel, by decide +kernel, rfl, by decide +kernel, by decide +kernel,
    by decide +kernel, by decide +kernel, by decide +kernel, by decide +kernel, by decide +kernel,
    rfl⟩, by decide, rfl⟩

end CC
