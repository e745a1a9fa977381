import Verif.Model.Emcee
import Verif.Props.Divide
import Verif.Props.Thinning
import Verif.Lemmas.Demo

/-! # C67, C68: chains from emcee -/

namespace CC

namespace Spec

/-- A run of `ndim` parameters with `W` walkers. -/
def Shaped {α : Type} (ndim W : Nat) (steps : List (List (List α))) : Prop :=
  ∀ s ∈ steps, s.length = W ∧ ∀ r ∈ s, r.length = ndim

/-- The value of parameter `k` of walker `w` at step `i`. -/
def emceeValue {α : Type} (steps : List (List (List α))) (i w k : Nat) : Option α :=
  steps[i]?.bind fun s => s[w]?.bind fun r => r[k]?

/-- The step kept as the `i`-th one. -/
def keptStep (thin discard i : Nat) : Nat := discard + thin - 1 + i * thin

end Spec

open Spec

theorem dictMerge_nodup {α β : Type} [DecidableEq α] (d e : List (α × β)) (h : ((d ++ e).map Prod.fst).Nodup) :
    dictMerge d e = d ++ e := by
  induction e generalizing d with
  | nil => simp [dictMerge]
  | cons kv e ih =>
    have hk : kv.1 ∉ d.map Prod.fst := by
      rw [List.map_append, List.nodup_append] at h
      intro hd
      exact h.2.2 _ hd _ (by simp) rfl
    have : dictMerge d (kv :: e) = dictMerge (d ++ [kv]) e := by
      simp only [dictMerge, List.foldl_cons]
      rw [dictSet, if_neg hk]
    rw [this, ih _ (by simpa using h)]
    simp

theorem getElem?_flatten_uniform {α : Type} {W : Nat} {l : List (List α)} (h : ∀ s ∈ l, s.length = W) {i w : Nat}
    (hw : w < W) : l.flatten[i * W + w]? = l[i]?.bind fun s => s[w]? := by
  induction l generalizing i with
  | nil => simp
  | cons s l ih =>
    have hs := h s (by simp)
    rw [List.flatten_cons]
    cases i with
    | zero =>
      rw [Nat.zero_mul, Nat.zero_add, List.getElem?_append_left (by omega)]
      simp
    | succ i =>
      rw [List.getElem?_append_right (by rw [hs, Nat.succ_mul]; omega), hs,
        show (i + 1) * W + w - W = i * W + w by rw [Nat.succ_mul]; omega, ih fun s hs => h s (by simp [hs])]
      simp

theorem length_flatten_uniform {α : Type} {W : Nat} {l : List (List α)} (h : ∀ s ∈ l, s.length = W) :
    l.flatten.length = l.length * W := by
  induction l with
  | nil => simp
  | cons s l ih =>
    rw [List.flatten_cons, List.length_append, h s (by simp), ih fun s hs => h s (by simp [hs]), List.length_cons,
      Nat.succ_mul]
    omega

theorem map_fst_zip_take {α β : Type} (l : List α) (m : List β) : (l.zip m).map Prod.fst = l.take m.length := by
  induction l generalizing m with
  | nil => simp
  | cons a l ih => cases m <;> simp [ih]

/-- The table of a run: rows and their entries. -/
theorem emceeRows_spec {α : Type} {steps : List (List (List α))} {thin discard ndim W : Nat} {rows : List (List α)}
    (h : emceeRows steps thin discard = .ok rows) (hs : Shaped ndim W steps) :
    1 ≤ thin ∧ (∀ r ∈ rows, r.length = ndim) ∧ ∃ n, (∀ i, i < n ↔ keptStep thin discard i < steps.length) ∧
      rows.length = n * W ∧ ∀ i w, w < W → rows[i * W + w]? = steps[keptStep thin discard i]?.bind fun s => s[w]? := by
  simp only [emceeRows, bind_ok_iff, ensure_ok_iff, pure_ok_iff, decide_eq_true_eq] at h
  obtain ⟨-, ht, rfl⟩ := h
  have ht1 : 1 ≤ thin := by omega
  have hk := everyNth_spec ht1 (steps.drop (discard + thin - 1))
  have hk' : ∀ i, (everyNth thin (steps.drop (discard + thin - 1)))[i]? = steps[keptStep thin discard i]? := by
    intro i
    rw [hk i, List.getElem?_drop]
    rfl
  have hmem : ∀ s ∈ everyNth thin (steps.drop (discard + thin - 1)), s ∈ steps := by
    intro s hs'
    obtain ⟨i, hi⟩ := List.mem_iff_getElem?.1 hs'
    rw [hk' i] at hi
    exact List.mem_of_getElem? hi
  have hW : ∀ s ∈ everyNth thin (steps.drop (discard + thin - 1)), s.length = W := fun s h => (hs s (hmem s h)).1
  refine ⟨ht1, ?_, (everyNth thin (steps.drop (discard + thin - 1))).length, ?_, length_flatten_uniform hW, ?_⟩
  · intro r hr
    obtain ⟨s, hs', hr'⟩ := List.mem_flatten.1 hr
    exact (hs s (hmem s hs')).2 r hr'
  · intro i
    have := hk' i
    constructor
    · intro hi
      rw [List.getElem?_eq_getElem hi] at this
      exact (List.getElem?_eq_some_iff.1 this.symm).1
    · intro hi
      rw [List.getElem?_eq_getElem hi] at this
      exact (List.getElem?_eq_some_iff.1 this).1
  · intro i w hw
    rw [getElem?_flatten_uniform hW hw, hk' i]

section
variable {K : Type}

theorem tableColumns_length (ndim : Nat) (rows : List (List (Flt K))) : (tableColumns ndim rows).length = ndim := by
  simp [tableColumns]

/-- The frame of a table with distinct names. -/
theorem emceeFrame_cols {columns : List String} (hd : columns.Nodup) (ndim : Nat) (rows : List (List (Flt K))) :
    (emceeFrame columns (tableColumns ndim rows)).cols =
      (List.zip columns (tableColumns ndim rows)).map fun c => (ColLabel.str c.1, c.2) := by
  have : dictMerge [] (List.zip columns (tableColumns ndim rows)) = List.zip columns (tableColumns ndim rows) := by
    rw [dictMerge_nodup]
    · rfl
    · rw [List.nil_append]
      refine List.Nodup.sublist ?_ hd
      rw [map_fst_zip_take]
      exact List.take_sublist _ _
  simp only [emceeFrame, this]

theorem emceeFrame_WF {columns : List String} (hd : columns.Nodup) (ndim : Nat) (rows : List (List (Flt K))) :
    (emceeFrame columns (tableColumns ndim rows)).WF ∧
    ((columns.take ndim ≠ [] → (emceeFrame columns (tableColumns ndim rows)).index.length = rows.length)) := by
  have hc := emceeFrame_cols hd ndim rows
  have hlen : ∀ c ∈ List.zip columns (tableColumns ndim rows), c.2.length = rows.length := by
    intro c hc
    have := (List.of_mem_zip hc).2
    simp only [tableColumns, List.mem_map] at this
    obtain ⟨k, -, e⟩ := this
    rw [← e]
    simp
  have hnd : ((List.zip columns (tableColumns ndim rows)).map Prod.fst).Nodup := by
    refine List.Nodup.sublist ?_ hd
    rw [map_fst_zip_take]
    exact List.take_sublist _ _
  have hm : dictMerge [] (List.zip columns (tableColumns ndim rows)) = List.zip columns (tableColumns ndim rows) := by
    rw [dictMerge_nodup _ _ (by simpa using hnd)]; rfl
  have hidx : (emceeFrame columns (tableColumns ndim rows)).index.length =
      rowCount (List.zip columns (tableColumns ndim rows)) := by
    simp only [emceeFrame, hm]
    generalize List.zip columns (tableColumns ndim rows) = z
    cases z <;> simp [rowCount, bind, pure]
  refine ⟨⟨?_, ?_⟩, ?_⟩
  · rw [hc, List.map_map]
    have : ((List.zip columns (tableColumns ndim rows)).map (Prod.fst ∘ fun c => (ColLabel.str c.1, c.2))) =
        ((List.zip columns (tableColumns ndim rows)).map Prod.fst).map ColLabel.str := by
      rw [List.map_map]; rfl
    rw [this]
    exact hnd.map fun a b h => ColLabel.str.inj h
  · intro c hcm
    rw [hc] at hcm
    obtain ⟨d, hd', rfl⟩ := List.mem_map.1 hcm
    rw [hidx]
    cases hz : List.zip columns (tableColumns ndim rows) with
    | nil => rw [hz] at hd'; cases hd'
    | cons e l =>
      rw [hlen d hd']
      exact (hlen e (by rw [hz]; simp)).symm
  · intro hne
    rw [hidx]
    cases hz : List.zip columns (tableColumns ndim rows) with
    | nil =>
      exfalso
      apply hne
      have := congrArg (List.map Prod.fst) hz
      rw [map_fst_zip_take, tableColumns_length] at this
      simpa using this
    | cons e l => exact hlen e (by rw [hz]; simp)

end

section
variable {K : Type} [Field K] [LinearOrder K] [IsStrictOrderedRing K]

omit [Field K] [LinearOrder K] [IsStrictOrderedRing K] in
theorem get_of_toRaw {f : Frame K} (hf : f.WF) {p : String} {v : List (Flt K)} (h : (ColLabel.str p, v) ∈ f.toRaw.cols) :
    ∃ x, f.get p = .ok x ∧ v = x.map .fin := by
  simp only [Frame.toRaw, List.mem_map] at h
  obtain ⟨c, hc, e⟩ := h
  cases e
  obtain ⟨x, hx⟩ := get_ok_of_mem (f := f) (p := c.1) (List.mem_map.2 ⟨c, hc, rfl⟩)
  refine ⟨x, hx, ?_⟩
  have := lookup_eq_some_of_mem hf.1 (k := c.1) (v := c.2) hc
  simp only [Frame.get, this] at hx
  cases hx
  rfl

/-- **C67** (what is proved). With distinct names the chain of a run has the columns named, as far as the run has
parameters, in that order (then the added weights); column `k` holds the values of parameter `k` of the kept steps,
the walkers of each step next to each other. Missing, because the code violates it: repeated names, too few names and
too many names are not refused. -/
theorem C67_columns_partial {ndim W thin discard : Nat} {steps : List (List (List (Flt K)))} {columns : List String}
    {args : Args K} {c : Chain K} (hs : Shaped ndim W steps) (hd : columns.Nodup)
    (hshift : setting args .shiftParams = false) (h : fromEmcee ndim steps columns thin discard args = .ok c) :
    (c.samples.columns = columns.take ndim ∨ c.samples.columns = columns.take ndim ++ ["weight"]) ∧
    ∃ n, (∀ i, i < n ↔ keptStep thin discard i < steps.length) ∧ c.samples.index.length = n * W ∧
      ∀ k p, k < ndim → columns[k]? = some p → ∃ x, c.samples.get p = .ok x ∧ x.length = n * W ∧
        ∀ i w, w < W → (x[i * W + w]?).map .fin = emceeValue steps (keptStep thin discard i) w k := by
  simp only [fromEmcee, bind_ok_iff] at h
  obtain ⟨rows, hr, h⟩ := h
  obtain ⟨-, hdim, n, hn, hlen, hval⟩ := emceeRows_spec hr hs
  obtain ⟨hwf, hidx⟩ := emceeFrame_WF hd ndim rows
  obtain ⟨g1, g2, g3, g4, -⟩ := C07_accepted_chain_guarantees
    { args with samples := emceeFrame columns (tableColumns ndim rows) } c hwf hshift h
  have hcols := emceeFrame_cols hd ndim rows
  have hne : columns.take ndim ≠ [] := by
    intro e
    have hz : List.zip columns (tableColumns ndim rows) = [] := by
      have := map_fst_zip_take columns (tableColumns ndim rows)
      rw [tableColumns_length, e] at this
      exact List.map_eq_nil_iff.1 this
    have hm : dictMerge [] (List.zip columns (tableColumns ndim rows)) = [] := by rw [hz]; rfl
    apply g3
    rw [g2]
    simp [emceeFrame, hm]
  have hnames : ∀ f : RawFrame K, f.cols = (emceeFrame columns (tableColumns ndim rows)).cols →
      f.cols.map Prod.fst = (columns.take ndim).map .str := by
    intro f hf
    have := map_fst_zip_take columns (tableColumns ndim rows)
    rw [tableColumns_length] at this
    rw [hf, hcols, ← this, List.map_map, List.map_map]
    rfl
  have hstr : ∀ l : List String, c.samples.toRaw.cols.map Prod.fst = l.map .str → c.samples.columns = l := by
    intro l hl
    have : c.samples.toRaw.cols.map Prod.fst = c.samples.columns.map ColLabel.str := by
      simp [Frame.toRaw, Frame.columns]
    rw [this] at hl
    exact List.map_injective_iff.2 (fun a b h => ColLabel.str.inj h) hl
  have hsub : ∀ e ∈ (emceeFrame columns (tableColumns ndim rows)).cols, e ∈ c.samples.toRaw.cols := by
    intro e he
    rcases g4 with e1 | ⟨-, e1⟩
    · rw [e1]; exact he
    · rw [e1]; exact List.mem_append_left _ he
  have hil : c.samples.index.length = n * W := by
    rw [g2, ← hlen]; exact hidx hne
  refine ⟨?_, n, hn, hil, ?_⟩
  · rcases g4 with e1 | ⟨-, e1⟩
    · exact .inl (hstr _ (by rw [e1]; exact hnames _ rfl))
    · refine .inr (hstr _ ?_)
      rw [e1, List.map_append, List.map_append, hnames _ rfl]
      rfl
  · intro k p hk hp
    have hpk : (ColLabel.str p, rows.map fun r => r.getD k .nan) ∈ c.samples.toRaw.cols := by
      apply hsub
      rw [hcols, List.mem_map]
      refine ⟨(p, rows.map fun r => r.getD k .nan), ?_, rfl⟩
      obtain ⟨h1, h2⟩ := List.getElem?_eq_some_iff.1 hp
      rw [List.mem_iff_getElem]
      refine ⟨k, by simp [tableColumns]; omega, ?_⟩
      simp [tableColumns, h2]
    obtain ⟨x, hx, e⟩ := get_of_toRaw g1 hpk
    have hxl : x.length = rows.length := by
      have := congrArg List.length e
      simpa using this.symm
    refine ⟨x, hx, by rw [hxl, hlen], ?_⟩
    intro i w hw
    rw [← List.getElem?_map, ← e, List.getElem?_map, hval i w hw, emceeValue]
    cases hst : steps[keptStep thin discard i]? with
    | none => rfl
    | some s =>
      simp only [Option.bind_some]
      cases hsw : s[w]? with
      | none => rfl
      | some r =>
        have hrl := (hs s (List.mem_of_getElem? hst)).2 r (List.mem_of_getElem? hsw)
        simp only [Option.map_some, Option.bind_some]
        rw [List.getD_eq_getElem?_getD, List.getElem?_eq_getElem (by omega)]
        rfl

/-- **C68** (what is proved). Of a run with `W` walkers handed over with `walkers=W`, `divide()` makes `W` chains; the
`i`-th sample of the `j`-th one is the sample number `j * n + i` of the run, counted step by step, where `n` is the number
of kept steps. Missing, because the code violates it: that it belongs to walker `j`. -/
theorem C68_parts_partial {ndim W thin discard : Nat} {steps : List (List (List (Flt K)))} {columns : List String}
    {args : Args K} {c : Chain K} (hs : Shaped ndim W steps) (hd : columns.Nodup)
    (hshift : setting args .shiftParams = false) (h : fromEmcee ndim steps columns thin discard args = .ok c)
    (hw : args.walkers = W) (hW : 1 < W) (hg : args.grid = false) :
    ∃ n, (∀ i, i < n ↔ keptStep thin discard i < steps.length) ∧ ∃ cs, c.divide = .ok cs ∧ cs.length = W ∧
      ∀ j (hj : j < cs.length) k p, k < ndim → columns[k]? = some p → ∃ x, cs[j].samples.get p = .ok x ∧ x.length = n ∧
        ∀ i < n, (x[i]?).map .fin =
          emceeValue steps (keptStep thin discard ((j * n + i) / W)) ((j * n + i) % W) k := by
  obtain ⟨-, n, hn, hil, hcol⟩ := C67_columns_partial hs hd hshift h
  refine ⟨n, hn, ?_⟩
  simp only [fromEmcee, bind_ok_iff] at h
  obtain ⟨rows, hr, h⟩ := h
  obtain ⟨hwf, -⟩ := emceeFrame_WF hd ndim rows
  obtain ⟨-, -, -, -, -, ⟨-, hwk, -⟩, -⟩ := C07_accepted_chain_guarantees
    { args with samples := emceeFrame columns (tableColumns ndim rows) } c hwf hshift h
  have hcw : c.walkers = W := by
    have : (c.walkers : Int) = W := hwk.trans hw
    exact_mod_cast this
  have hcg : c.grid = false := by
    rw [← hg]
    obtain ⟨col, _, _, _, _, _, _, _, _, _, _, _, _, _, rfl⟩ := Chain.make_ok_iff.1 h
    rfl
  obtain ⟨cs, h1, h2, -⟩ := C10_divide_lossless
    { args with samples := emceeFrame columns (tableColumns ndim rows) } c hwf hshift h (by omega) hcg
  refine ⟨cs, h1, by omega, ?_⟩
  intro j hj k p hk hp
  obtain ⟨x, hx, hxl, hxv⟩ := hcol k p hk hp
  have hparts := (divide_ok_iff.1 h1).2.2.2
  have hj' : j < (List.range c.walkers).length := by rw [hparts.length_eq]; exact hj
  have hmk := (List.forall₂_iff_get.1 hparts).2 j hj' hj
  simp only [List.get_eq_getElem, List.getElem_range] at hmk
  have hn' : c.samples.index.length / c.walkers = n := by
    rw [hil, hcw, Nat.mul_div_cancel _ (by omega)]
  rw [hn'] at hmk
  have hsamp := (block_make (a := { args with samples := emceeFrame columns (tableColumns ndim rows) }) hwf hshift h hmk).1
  have hle : j * n + n ≤ n * W := by
    have : (j + 1) * n ≤ W * n := Nat.mul_le_mul_right n (by omega)
    rw [Nat.succ_mul, Nat.mul_comm W] at this
    exact this
  refine ⟨(x.drop (j * n)).take n, by rw [hsamp, rows_get, hx]; rfl, ?_, ?_⟩
  · rw [List.length_take, List.length_drop, hxl]
    omega
  · intro i hi
    rw [List.getElem?_take, if_pos hi, List.getElem?_drop, ← hxv _ _ (Nat.mod_lt _ (by omega)), Nat.div_add_mod']

end

/-- The first part of a run with more than one walker and step continues with another walker, not with the next step. -/
theorem C68_mixed {K : Type} [Field K] [LinearOrder K] [IsStrictOrderedRing K] {ndim W thin discard : Nat}
    {steps : List (List (List (Flt K)))} {columns : List String}
    {args : Args K} {c : Chain K} (hs : Shaped ndim W steps) (hd : columns.Nodup)
    (hshift : setting args .shiftParams = false) (h : fromEmcee ndim steps columns thin discard args = .ok c)
    (hw : args.walkers = W) (hW : 1 < W) (hg : args.grid = false) (hn : keptStep thin discard 1 < steps.length)
    {k : Nat} {p : String} (hk : k < ndim) (hp : columns[k]? = some p) :
    ∃ cs d x, c.divide = .ok cs ∧ cs[0]? = some d ∧ d.samples.get p = .ok x ∧
      (x[1]?).map .fin = emceeValue steps (keptStep thin discard 0) 1 k := by
  obtain ⟨n, hn', cs, h1, h2, h3⟩ := C68_parts_partial hs hd hshift h hw hW hg
  have h1n : 1 < n := (hn' 1).2 hn
  obtain ⟨x, hx, -, hv⟩ := h3 0 (by omega) k p hk hp
  have := hv 1 h1n
  rw [Nat.zero_mul, Nat.zero_add, Nat.div_eq_of_lt hW, Nat.mod_eq_of_lt hW] at this
  exact ⟨cs, _, x, h1, List.getElem?_eq_getElem (by omega), hx, this⟩

/-- Two steps of two walkers with one parameter. -/
def emceeDemo : List (List (List (Flt ℚ))) := [[[.fin 1], [.fin 2]], [[.fin 3], [.fin 4]]]

/-- Arguments for a chain with `n` walkers. -/
def emceeArgs (n : Nat) : Args ℚ := { samples := ⟨[], []⟩, name := "emcee", walkers := n }

theorem fromEmcee_of_rows {K : Type} [Field K] [LinearOrder K] {ndim thin discard : Nat} {steps : List (List (List (Flt K)))}
    {columns : List String} {args : Args K} {rows : List (List (Flt K))} (h : emceeRows steps thin discard = .ok rows) :
    fromEmcee ndim steps columns thin discard args =
      Chain.make { args with samples := emceeFrame columns (tableColumns ndim rows) } := by
  simp [fromEmcee, h, bind, Except.bind]

theorem emceeDemo_ok : ∃ c, fromEmcee 1 emceeDemo ["a"] 1 0 (emceeArgs 2) = .ok c := by
  have hr : emceeRows emceeDemo 1 0 = .ok [[.fin 1], [.fin 2], [.fin 3], [.fin 4]] := by
    simp [emceeRows, emceeDemo, everyNth, ensure, bind, Except.bind, pure, Except.pure]
  rw [fromEmcee_of_rows hr]
  refine ⟨_, Chain.make_ok_iff.2 ⟨none,
      ⟨[.int 0, .int 1, .int 2, .int 3], [(.str "a", [.fin 1, .fin 2, .fin 3, .fin 4]),
        (.str "weight", [.fin 1, .fin 1, .fin 1, .fin 1])]⟩,
    { index := [.int 0, .int 1, .int 2, .int 3], cols := [("a", [1, 2, 3, 4]), ("weight", [1, 1, 1, 1])] },
    { index := [.int 0, .int 1, .int 2, .int 3], cols := [("a", [1, 2, 3, 4]), ("weight", [1, 1, 1, 1])] },
    by decide +kernel, by decide +kernel, rfl, by decide +kernel, by decide +kernel,
    by decide +kernel, by decide +kernel, by decide +kernel, by decide +kernel, by decide +kernel,
    rfl⟩⟩

theorem emceeDemo_shaped : Shaped 1 2 emceeDemo := by
  intro s hs
  simp only [emceeDemo, List.mem_cons, List.not_mem_nil, or_false] at hs
  rcases hs with rfl | rfl <;> simp

/-- **C68** is violated: the first of two walkers went from 1 to 3, the first of the two parts goes from 1 to 2. -/
theorem C68_violated : ∃ (c : Chain ℚ) (cs : List (Chain ℚ)) (d : Chain ℚ) (x : List ℚ),
    Shaped 1 2 emceeDemo ∧ fromEmcee 1 emceeDemo ["a"] 1 0 (emceeArgs 2) = .ok c ∧ c.walkers = 2 ∧ c.divide = .ok cs ∧
    cs[0]? = some d ∧ d.samples.get "a" = .ok x ∧ (x[1]?).map .fin ≠ emceeValue emceeDemo (keptStep 1 0 1) 0 0 := by
  obtain ⟨c, hc⟩ := emceeDemo_ok
  obtain ⟨cs, d, x, h1, h2, h3, h4⟩ := C68_mixed emceeDemo_shaped (by decide) (by decide +kernel) hc rfl (by decide) rfl
    (by decide) (k := 0) (p := "a") (by decide) rfl
  refine ⟨c, cs, d, x, emceeDemo_shaped, hc, ?_, h1, h2, h3, ?_⟩
  · have := (divide_ok_iff.1 h1)
    simp only [fromEmcee, bind_ok_iff] at hc
    obtain ⟨rows, -, hc⟩ := hc
    obtain ⟨col, _, _, _, _, _, _, _, _, _, _, _, _, _, rfl⟩ := Chain.make_ok_iff.1 hc
    rfl
  · rw [h4]
    decide +kernel

/-- Two parameters, one step and one walker. -/
def emceePair : List (List (List (Flt ℚ))) := [[[.fin 1, .fin 2]]]

/-- **C67** is violated: a run of two parameters with one name is accepted, without the second parameter; and with
one name for both the first parameter's values are lost. -/
theorem C67_violated : Shaped 2 1 emceePair ∧
    (∃ c, fromEmcee 2 emceePair ["a"] 1 0 (emceeArgs 1) = .ok c ∧ c.samples.cols = [("a", [1]), ("weight", [1])]) ∧
    (∃ c, fromEmcee 2 emceePair ["a", "a"] 1 0 (emceeArgs 1) = .ok c ∧ c.samples.cols = [("a", [2]), ("weight", [1])]) ∧
    (∃ c, fromEmcee 2 emceePair ["a", "b", "c"] 1 0 (emceeArgs 1) = .ok c ∧
      c.samples.cols = [("a", [1]), ("b", [2]), ("weight", [1])]) := by
  have hr : emceeRows emceePair 1 0 = .ok [[.fin 1, .fin 2]] := by
    simp [emceeRows, emceePair, everyNth, ensure, bind, Except.bind, pure, Except.pure]
  refine ⟨?_, ?_, ?_, ?_⟩
  · intro s hs
    rw [emceePair, List.mem_singleton] at hs
    subst hs
    simp
  · rw [fromEmcee_of_rows hr]
    refine ⟨_, Chain.make_ok_iff.2 ⟨none, ⟨[.int 0], [(.str "a", [.fin 1]), (.str "weight", [.fin 1])]⟩,
      { index := [.int 0], cols := [("a", [1]), ("weight", [1])] },
      { index := [.int 0], cols := [("a", [1]), ("weight", [1])] },
      by decide +kernel, by decide +kernel, rfl, by decide +kernel, by decide +kernel,
      by decide +kernel, by decide +kernel, by decide +kernel, by decide +kernel, by decide +kernel, rfl⟩, rfl⟩
  · rw [fromEmcee_of_rows hr]
    refine ⟨_, Chain.make_ok_iff.2 ⟨none, ⟨[.int 0], [(.str "a", [.fin 2]), (.str "weight", [.fin 1])]⟩,
      { index := [.int 0], cols := [("a", [2]), ("weight", [1])] },
      { index := [.int 0], cols := [("a", [2]), ("weight", [1])] },
      by decide +kernel, by decide +kernel, rfl, by decide +kernel, by decide +kernel,
      by decide +kernel, by decide +kernel, by decide +kernel, by decide +kernel, by decide +kernel, rfl⟩, rfl⟩
  · rw [fromEmcee_of_rows hr]
    refine ⟨_, Chain.make_ok_iff.2 ⟨none, ⟨[.int 0], [(.str "a", [.fin 1]), (.str "b", [.fin 2]), (.str "weight", [.fin 1])]⟩,
      { index := [.int 0], cols := [("a", [1]), ("b", [2]), ("weight", [1])] },
      { index := [.int 0], cols := [("a", [1]), ("b", [2]), ("weight", [1])] },
      by decide +kernel, by decide +kernel, rfl, by decide +kernel, by decide +kernel,
      by decide +kernel, by decide +kernel, by decide +kernel, by decide +kernel, by decide +kernel, rfl⟩, rfl⟩

/-- The third value of the demonstration run belongs to the first walker's second step. -/
example : ∃ (c : Chain ℚ) (x : List ℚ), fromEmcee 1 emceeDemo ["a"] 1 0 (emceeArgs 2) = .ok c ∧ c.samples.get "a" = .ok x ∧
    (x[2]?).map Flt.fin = some (Flt.fin 3) := by
  obtain ⟨c, hc⟩ := emceeDemo_ok
  obtain ⟨-, n, -, -, h⟩ := C67_columns_partial emceeDemo_shaped (by decide) (by decide +kernel) hc
  obtain ⟨x, h1, -, h2⟩ := h 0 "a" (by decide) rfl
  exact ⟨c, x, hc, h1, h2 1 0 (by decide)⟩

end CC
