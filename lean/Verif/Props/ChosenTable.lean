import Verif.Props.OnlyParameters
import Verif.Props.Degenerate

/-! # C117: a table of chosen parameters needs and shows just these -/

namespace CC
open Spec

/-- The cell that a parameter table should have for a parameter of a chain: the text of its summary if the chain has the parameter,
else the text for missing values. -/
def Spec.DueCell (kde : KdeFn) (blank : String) (c : Chain ℝ) (q cell : String) : Prop :=
  (q ∈ c.samples.columns ∧ ∃ v, summaryEntry kde c q = .ok v ∧ parameterText (some v) true none = .ok cell) ∨
  (q ∉ c.samples.columns ∧ cell = blank)

/-- The parameters of a table: those asked for, or all that are plotted, without the blinded ones. -/
noncomputable def Spec.chosenCols (o : TableOpts) (plotted : List String) : List String :=
  (o.columns.getD plotted).filter fun q => ¬ Blinded o.blind q

/-- **C117, partial** (cells). A table of chosen parameters that are plotted for some of its chains has the cells due. Missing:
parameters that are not plotted, such as those that colour a cloud (`C117_violated_blank`). -/
theorem C117_cells_partial (kde : KdeFn) (hp : Heap ℝ) (s : Consumer ℝ) (req : ChainReq ℝ) (o : TableOpts)
    (p : TableParts) (h : latexTableParts kde hp s req o = .ok p) (hto : o.transpose = false) :
    ∃ final cs plotted owners, finalDict hp s = .ok final ∧ plotChains final req false = .ok cs ∧
      FirstOrder (cs.flatMap Chain.plottingColumns) plotted ∧ FirstOrder (cs.map (·.name)) (owners.map (·.name)) ∧
      (∀ c ∈ owners, LastNamed cs c) ∧
      ((∀ q ∈ chosenCols o plotted, q ∈ plotted) →
        List.Forall₂ (fun c row => ∃ cells, row = ("\t\t" ++ c.name) :: cells ∧
          List.Forall₂ (DueCell kde o.blankFill c) (chosenCols o plotted) cells) owners p.rows) := by
  obtain ⟨final, cs, plotted, cols, owners, h1, h2, h3, rfl, h5, h6, -, h7, -⟩ := C43_table kde hp s req o p h
  refine ⟨final, cs, plotted, owners, h1, h2, h3, h5, h6, fun hsub => ?_⟩
  refine (h7 hto).2.imp ?_
  rintro c row ⟨cells, rfl, hcells⟩
  refine ⟨cells, rfl, ?_⟩
  clear h7 h
  rw [← chosenCols] at hcells
  generalize chosenCols o plotted = cols at hcells hsub
  induction hcells with
  | nil => exact .nil
  | @cons q cell _ _ hq _ ih =>
    refine .cons ?_ (ih fun q hq => hsub q (List.mem_cons_of_mem _ hq))
    rcases hq with ⟨-, k2, k3⟩ | ⟨k1, k2⟩
    · exact .inl ⟨k2, k3⟩
    · exact .inr ⟨fun h => k1 ⟨hsub q (by simp), h⟩, k2⟩

/-- The results for a chain, if every parameter has one. -/
theorem chainSummary_exists {kde : KdeFn} {c : Chain ℝ} {cols : List String}
    (h : ∀ q ∈ cols, q ∈ c.samples.columns → ∃ v, summaryEntry kde c q = .ok v) (res : List (String × Summary ℝ)) :
    ∃ r, chainSummary kde c cols res = .ok r := by
  induction cols generalizing res with
  | nil => exact ⟨_, rfl⟩
  | cons q cols ih =>
    rw [chainSummary]
    split
    · exact ih (fun q hq => h q (List.mem_cons_of_mem _ hq)) _
    · obtain ⟨v, hv⟩ := h q (by simp) (by tauto)
      rw [hv]
      exact ih (fun q hq => h q (List.mem_cons_of_mem _ hq)) _

theorem summaryLoop_exists {kde : KdeFn} {cs : List (Chain ℝ)} {cols : List String}
    (h : ∀ c ∈ cs, ∀ q ∈ cols, q ∈ c.samples.columns → ∃ v, summaryEntry kde c q = .ok v)
    (res : List (String × List (String × Summary ℝ))) : ∃ r, summaryLoop kde cols cs res = .ok r := by
  induction cs generalizing res with
  | nil => exact ⟨_, rfl⟩
  | cons c cs ih =>
    obtain ⟨r, hr⟩ := chainSummary_exists (h c (by simp)) []
    rw [summaryLoop, hr]
    exact ih (fun d hd => h d (List.mem_cons_of_mem _ hd)) _

theorem mapM_exists {α β : Type} {f : α → Res β} {l : List α} (h : ∀ x ∈ l, ∃ y, f x = .ok y) : ∃ r, l.mapM f = .ok r := by
  induction l with
  | nil => exact ⟨[], rfl⟩
  | cons x l ih =>
    obtain ⟨y, hy⟩ := h x (by simp)
    obtain ⟨r, hr⟩ := ih fun z hz => h z (List.mem_cons_of_mem _ hz)
    refine ⟨y :: r, ?_⟩
    rw [List.mapM_cons, hy]
    simp only [hr, bind, Except.bind, pure, Except.pure]

/-- **C117, partial** (existence). If all parameters that are plotted for some chain of the table have summaries, and those chosen ones
with texts, there is a table of the chosen ones, in either orientation. Missing: that summaries of parameters not chosen are not
needed (`C117_violated`). -/
theorem C117_exists_partial (kde : KdeFn) (hp : Heap ℝ) (s : Consumer ℝ) (req : ChainReq ℝ) (o : TableOpts)
    {final : List (String × Chain ℝ)} (hfinal : finalDict hp s = .ok final) {cs : List (Chain ℝ)}
    (hcs : plotChains final req false = .ok cs)
    (hall : ∀ c ∈ cs, ∀ d ∈ cs, ∀ q ∈ d.plottingColumns, q ∈ c.samples.columns → ∃ v, summaryEntry kde c q = .ok v)
    (htext : ∀ c ∈ cs, ∀ q v, (∀ l, o.columns = some l → q ∈ l) → ¬ Blinded o.blind q → summaryEntry kde c q = .ok v →
      ∃ t, parameterText (some v) true none = .ok t) :
    ∃ p, latexTableParts kde hp s req o = .ok p := by
  obtain ⟨fit, hfit⟩ : ∃ fit, getSummary kde hp s (some cs) none = .ok fit := by
    simp only [getSummary, pure_bind]
    refine summaryLoop_exists (fun c hc q hq hqc => ?_) []
    obtain ⟨d, hd, hqd⟩ := List.mem_flatMap.1 (((C55_columns cs).1.mem q).1 hq)
    exact hall c hc d hd q hqd hqc
  obtain ⟨cs', plotted, e0, hplot, -, hent⟩ := C37_structure kde hp s (some cs) none fit hfit
  simp only at e0
  subst cs'
  have hcell : ∀ e ∈ fit, ∀ q, (∀ l, o.columns = some l → q ∈ l) → ¬ Blinded o.blind q → ∃ t, tableCell o.blankFill e.2 q = .ok t := by
    intro e he q hq hb
    obtain ⟨c, ⟨pre, post, e1, -⟩, -, hcov⟩ := hent e he
    unfold tableCell
    cases hl : e.2.lookup q with
    | none => exact ⟨_, rfl⟩
    | some v => exact htext c (by rw [e1]; simp) q v hq hb (hcov.values _ (lookup_mem hl))
  have hcols : ∀ q ∈ (sanitiseColumns o.columns cs).filter (fun c => c ∉ sanitiseBlinds o.blind (sanitiseColumns o.columns cs)),
      (∀ l, o.columns = some l → q ∈ l) ∧ ¬ Blinded o.blind q := by
    intro q hq
    rw [unblinded_eq] at hq
    obtain ⟨h1, h2⟩ := List.mem_filter.1 hq
    refine ⟨fun l hl => ?_, by simpa using h2⟩
    rw [hl] at h1
    exact h1
  simp only [latexTableParts, hfinal, hcs, hfit, bind, Except.bind]
  generalize (sanitiseColumns o.columns cs).filter (fun c => c ∉ sanitiseBlinds o.blind (sanitiseColumns o.columns cs)) = cols at hcols
  unfold tableParts
  split
  · obtain ⟨rows, hrows⟩ := mapM_exists (l := cols) (f := fun p => do
      let cells ← fit.mapM fun e => tableCell o.blankFill e.2 p
      return ("\t\t" ++ getLabel o.labels p) :: cells) (by
        intro q hq
        obtain ⟨cells, hc⟩ := mapM_exists (l := fit) (f := fun e => tableCell o.blankFill e.2 q)
          fun e he => hcell e he q (hcols q hq).1 (hcols q hq).2
        simp only [hc, bind, Except.bind]
        exact ⟨_, rfl⟩)
    rw [hrows]
    exact ⟨_, rfl⟩
  · obtain ⟨rows, hrows⟩ := mapM_exists (l := fit) (f := fun e => do
      let cells ← cols.mapM (tableCell o.blankFill e.2)
      return ("\t\t" ++ e.1) :: cells) (by
        intro e he
        obtain ⟨cells, hc⟩ := mapM_exists (l := cols) (f := tableCell o.blankFill e.2)
          fun q hq => hcell e he q (hcols q hq).1 (hcols q hq).2
        simp only [hc, bind, Except.bind]
        exact ⟨_, rfl⟩)
    rw [hrows]
    exact ⟨_, rfl⟩

theorem chainSummary_error {kde : KdeFn} {c : Chain ℝ} {e : Err} {q : String} (hc : q ∈ c.samples.columns)
    (he : summaryEntry kde c q = .error e) {pre : List String} (post : List String)
    (hpre : ∀ p ∈ pre, p ∈ c.samples.columns → ∃ b, summaryEntry kde c p = .ok b) (res : List (String × Summary ℝ)) :
    chainSummary kde c (pre ++ q :: post) res = .error e := by
  induction pre generalizing res with
  | nil => simp only [List.nil_append, chainSummary, hc, not_true_eq_false, if_false, he, bind, Except.bind]
  | cons p pre ih =>
    rw [List.cons_append, chainSummary]
    by_cases hp : p ∈ c.samples.columns
    · obtain ⟨b, hb⟩ := hpre p (by simp) hp
      simp only [hp, not_true_eq_false, if_false, hb, bind, Except.bind]
      exact ih (fun q hq => hpre q (by simp [hq])) _
    · rw [if_pos hp]
      exact ih (fun q hq => hpre q (by simp [hq])) _

theorem summaryLoop_error {kde : KdeFn} {cols : List String} {c : Chain ℝ} {e : Err} (he : chainSummary kde c cols [] = .error e)
    {pre : List (Chain ℝ)} (post : List (Chain ℝ)) (hpre : ∀ d ∈ pre, ∃ r, chainSummary kde d cols [] = .ok r)
    (res : List (String × List (String × Summary ℝ))) : summaryLoop kde cols (pre ++ c :: post) res = .error e := by
  induction pre generalizing res with
  | nil => simp only [List.nil_append, summaryLoop, he, bind, Except.bind]
  | cons d pre ih =>
    obtain ⟨r, hr⟩ := hpre d (by simp)
    simp only [List.cons_append, summaryLoop, hr, bind, Except.bind]
    exact ih (fun q hq => hpre q (by simp [hq])) _

/-- **C117** (violated). An exception in the summary of a plotted parameter is raised by every table, whatever parameters are asked for
or blinded. -/
theorem C117_violated (kde : KdeFn) (hp : Heap ℝ) (s : Consumer ℝ) (req : ChainReq ℝ) (o : TableOpts)
    {final : List (String × Chain ℝ)} (hfinal : finalDict hp s = .ok final) {pre post : List (Chain ℝ)} {c : Chain ℝ}
    (hcs : plotChains final req false = .ok (pre ++ c :: post)) {ps qs : List String} {q : String}
    (hcols : FirstOrder ((pre ++ c :: post).flatMap Chain.plottingColumns) (ps ++ q :: qs)) (hq : q ∈ c.samples.columns) {e : Err}
    (he : summaryEntry kde c q = .error e)
    (hps : ∀ p ∈ ps, p ∈ c.samples.columns → ∃ v, summaryEntry kde c p = .ok v)
    (hpre : ∀ d ∈ pre, ∀ p ∈ ps ++ q :: qs, p ∈ d.samples.columns → ∃ v, summaryEntry kde d p = .ok v) :
    latexTableParts kde hp s req o = .error e := by
  have h1 : sanitiseColumns none (pre ++ c :: post) = ps ++ q :: qs :=
    firstOrder_unique (C55_columns (pre ++ c :: post)).1 hcols
  have h2 : getSummary kde hp s (some (pre ++ c :: post)) none = .error e := by
    simp only [getSummary, pure_bind, h1]
    exact summaryLoop_error (chainSummary_error hq he qs hps []) post (fun d hd => chainSummary_exists (hpre d hd) []) []
  simp only [latexTableParts, hfinal, hcs, h2, bind, Except.bind]

/-- **C117** (violated). A table of a parameter that is plotted for none of its chains has only cells for missing values, although
chains may have the parameter, and a summary of it. -/
theorem C117_violated_blank (kde : KdeFn) (hp : Heap ℝ) (s : Consumer ℝ) (req : ChainReq ℝ) (o : TableOpts) (p : TableParts)
    (h : latexTableParts kde hp s req o = .ok p) (hto : o.transpose = false) {q : String} (hq : o.columns = some [q])
    (hb : ¬ Blinded o.blind q) {final : List (String × Chain ℝ)} (hfinal : finalDict hp s = .ok final) {cs : List (Chain ℝ)}
    (hcs : plotChains final req false = .ok cs) (hnot : ∀ c ∈ cs, q ∉ c.plottingColumns) :
    ∀ row ∈ p.rows, ∃ c ∈ cs, row = ["\t\t" ++ c.name, o.blankFill] := by
  obtain ⟨final', cs', plotted, cols, owners, h1, h2, h3, rfl, -, h6, -, h7, -⟩ := C43_table kde hp s req o p h
  cases h1.symm.trans hfinal
  cases h2.symm.trans hcs
  intro row hrow
  obtain ⟨c, hc, cells, rfl, hcells⟩ := forall₂_mem_right (h7 hto).2 hrow
  have e : (o.columns.getD plotted).filter (fun q => ¬ Blinded o.blind q) = [q] := by
    rw [hq, Option.getD_some, List.filter_cons_of_pos (by simpa using hb), List.filter_nil]
  rw [e] at hcells
  obtain ⟨cell, t, hcell, ht, rfl⟩ := List.forall₂_cons_left_iff.1 hcells
  cases ht
  obtain ⟨pre, post, e2, -⟩ := h6 c hc
  refine ⟨c, by rw [e2]; simp, ?_⟩
  rcases hcell with ⟨k1, -, -⟩ | ⟨-, rfl⟩
  · obtain ⟨d, hd, hqd⟩ := List.mem_flatMap.1 ((h3.mem q).1 k1)
    exact absurd hqd (hnot d hd)
  · rfl

/-! ### Witnesses -/

/-- A grid of two points with another column. -/
noncomputable def chosenFrame (b1 b2 : ℝ) : Frame ℝ := ⟨[.int 0, .int 1], [("a", [0, 1]), ("b", [b1, b2]), ("weight", [1, 2])]⟩

theorem chosenFrame_wf (b1 b2 : ℝ) : (chosenFrame b1 b2).WF := ⟨by simp [chosenFrame], by simp [chosenFrame]⟩

/-- Summarised by the HDI, and perhaps with a cloud coloured by `b`. -/
def chosenKw (cloud : Bool) : List (Kwarg ℝ) :=
  if cloud then [⟨.statistics, some .hdi⟩, ⟨.plotCloud, true⟩, ⟨.colorParam, some "b"⟩] else [⟨.statistics, some .hdi⟩]

/-- The chain of such a grid. -/
noncomputable def chosenArgs (cloud : Bool) (b1 b2 : ℝ) : Args ℝ :=
  { samples := (chosenFrame b1 b2).toRaw, name := "pair", grid := true, config := chosenKw cloud }

/-- What is used of it: the chain, as registered alone. -/
theorem chosen_exists (kde : KdeFn) (hk : KdeOk kde) (cloud : Bool) (b1 b2 : ℝ) : ∃ (c d : Chain ℝ) (v : Summary ℝ) (t : String),
    Chain.make (chosenArgs cloud b1 b2) = .ok c ∧ finalDict [c] { chains := [("pair", 0)] } = .ok [("pair", d)] ∧
    (∀ b, plotChains [("pair", d)] .all b = .ok [d]) ∧ d.name = "pair" ∧ d.samples = chosenFrame b1 b2 ∧ d.weightColumn = "weight" ∧
    d.plottingColumns = (if cloud then ["a"] else ["a", "b"]) ∧ d.dataColumns = ["a", "b"] ∧ d.grid = true ∧
    d.cfg .statistics = some .hdi ∧ summaryEntry kde d "a" = .ok v ∧ parameterText (some v) true none = .ok t ∧
    (b1 = 0 → b2 = 1 → summaryEntry kde d "b" = .ok v) := by
  obtain ⟨c, h1, h2, h3, h4, h5, h6, -, h8, h9⟩ := plain_chain_colour (K := ℝ) true (chosenKw cloud) (by cases cloud <;> rfl)
    (by cases cloud <;> (change (0 : ℝ) ≤ 6827 / 10000 ∧ (6827 / 10000 : ℝ) ≤ 1; constructor <;> norm_num))
    (by cases cloud <;> (change (1 : ℝ) ≤ 10; norm_num)) (by cases cloud <;> rfl)
    (by cases cloud <;> exact fun _ => .inr rfl) (chosenFrame b1 b2) (chosenFrame_wf b1 b2)
    (by simp [chosenFrame]) (w := [1, 2]) (by
      intro p hp
      cases cloud
      · cases hp
      · cases hp; exact List.mem_cons_of_mem _ List.mem_cons_self) rfl (by simp) "pair" 1 le_rfl (one_dvd _)
  obtain ⟨A, -, hA⟩ := twoPoint_exists false (u := 1) (v := 2) one_pos two_pos
  obtain ⟨m, hm, hv, hx, hy⟩ := hA.marginal one_pos two_pos hk true
  obtain ⟨l, x, u, hh, hl0, hlx, hu1, hxu⟩ := two_hdi hv hx hy
  have hAe : summaryEntry kde A "a" = .ok (.single ⟨some l, some x, some u⟩) := by
    simp only [summaryEntry, parameterSummary, hA.hdi, hm, hA.area, bind, Except.bind, hh, hA.modal]
    rfl
  obtain ⟨t, ht, -⟩ := single_text (l := l) (c := x) (u := u) (by rintro ⟨-, h0, h0'⟩; linarith) none
  set s : Consumer ℝ := { chains := [("pair", 0)] } with hs
  have hco : chainsOf [c] s = [c] := by simp [chainsOf, copyChains, hs]
  set n := numContourChains [c] s
  set g := Spec.resolved none c.userSet n c.cfg (Spec.autoColours.getD 0 "") with hg
  have hfd : finalDict [c] s = .ok [("pair", c.withCfg g)] := by
    rw [finalDict_eq _ _ (by rw [hco]; exact le_trans (List.length_filter_le _ _) (by simp)), hco]
    simp [resolvedChains, copyChains, hs, n, hg]
  have hgk : ∀ k, Spec.auto n c.cfg (Spec.autoColours.getD 0 "") k = none → g k = c.cfg k :=
    fun k hk => resolved_own _ _ _ _ _ hk
  have hkeys : ∀ k ∈ summaryKeys, A.cfg k = (c.withCfg g).cfg k := by
    intro k hk
    have e1 : (c.withCfg g).cfg k = c.cfg k := resolved_summaryKeys none _ _ _ _ (by intro o ho; cases ho) k hk
    rw [e1, hA.cfg, h9]
    simp only [summaryKeys, List.mem_cons, List.not_mem_nil, or_false] at hk
    rcases hk with rfl | rfl | rfl | rfl | rfl | rfl <;> cases cloud <;> rfl
  have hdata : (c.withCfg g).dataColumns = ["a", "b"] := by
    change c.dataColumns = _
    unfold Chain.dataColumns
    rw [h2, h3, h4]
    have hc : (chosenFrame b1 b2).columns = ["a", "b", "weight"] := rfl
    rw [hc]
    decide
  have hcl : (c.withCfg g).cfg .plotCloud = cloud := by
    rw [show (c.withCfg g).cfg .plotCloud = c.cfg .plotCloud from hgk _ rfl, h9]; cases cloud <;> rfl
  have hcp : (c.withCfg g).cfg .colorParam = if cloud then some "b" else none := by
    rw [show (c.withCfg g).cfg .colorParam = c.cfg .colorParam from hgk _ rfl, h9]; cases cloud <;> rfl
  have hskip : (c.withCfg g).skip = false := by
    have h1 : (c.withCfg g).cfg .plotContour = true := by
      rw [show (c.withCfg g).cfg .plotContour = c.cfg .plotContour from hgk _ rfl, h9]; cases cloud <;> rfl
    unfold Chain.skip
    rw [h1]
    have : (c.withCfg g).samples.empty = false := by
      change c.samples.empty = false
      rw [h2]
      rfl
    rw [this]
    rfl
  have hcol : ∀ q, c.samples.get q = .ok [0, 1] → summaryEntry kde (c.withCfg g) q = .ok (.single ⟨some l, some x, some u⟩) := by
    intro q hq
    rw [← hAe, ← summaryEntry_withCfg kde (c.withCfg g) A.cfg hkeys q]
    have hgr : ((c.withCfg g).withCfg A.cfg).grid = A.grid := h6.trans hA.grid.symm
    refine summaryEntry_data kde (c := A) (d := (c.withCfg g).withCfg A.cfg) rfl hgr (h5.trans hA.power.symm) ?_ ?_ ?_
    · refine getBins_rows rfl hgr ?_ (.inr ?_)
      · rw [hA.samples]
        change c.samples.index.length = _
        rw [h2]
        rfl
      · rw [hA.samples]
        change 2 < 36 ^ 4
        norm_num
    · rw [hA.weights]
      change c.samples.get c.weightColumn = _
      rw [h2, h3]
      rfl
    · rw [hA.data]
      exact hq
  refine ⟨c, c.withCfg g, .single ⟨some l, some x, some u⟩, t, h1, hfd, ?_, h8, h2, h3, ?_, hdata, h6, ?_, ?_, ht, ?_⟩
  · intro b
    simp [plotChains, hskip, bind, Except.bind, pure, Except.pure]
  · unfold Chain.plottingColumns
    rw [hdata, hcl, hcp]
    cases cloud <;> decide
  · rw [← hkeys .statistics (by simp [summaryKeys])]
    exact hA.hdi
  · exact hcol "a" (by rw [h2]; rfl)
  · rintro rfl rfl
    exact hcol "b" (by rw [h2]; rfl)

/-- **C117** (violated, as it stands). For a grid of two points with a constant parameter `b`, `get_summary` reports the parameter `a`
if asked for it, but the table of `a` raises IndexError, even if `b` is blinded. -/
theorem C117_violated_constant (kde : KdeFn) (hk : KdeOk kde) : ∃ c v, Chain.make (chosenArgs false 5 5) = .ok c ∧
    getSummary kde [c] { chains := [("pair", 0)] } none (some ["a"]) = .ok [("pair", [("a", v)])] ∧
    latexTableParts kde [c] { chains := [("pair", 0)] } .all { columns := some ["a"] } = .error .index ∧
    latexTableParts kde [c] { chains := [("pair", 0)] } .all { blind := .cols ["b"] } = .error .index := by
  obtain ⟨c, d, v, t, h1, h2, h3, h4, h5, h6, h7, h8, h9, h10, h11, h12, -⟩ := chosen_exists kde hk false 5 5
  have hcols : d.samples.columns = ["a", "b", "weight"] := by rw [h5]; rfl
  have hb : summaryEntry kde d "b" = .error .index := by
    have := C74_violated_grid kde h9 (col := "b") (data := [5, 5]) (w := [1, 2]) (by rw [h5]; rfl)
      (by rw [Chain.weights, h5, h6]; rfl) (v := 5) (by simp) (by rw [h10]; simp)
    simp only [summaryEntry, this, bind, Except.bind]
  refine ⟨c, v, h1, ?_, ?_, ?_⟩
  · simp [getSummary, h2, h3, sanitiseColumns, summaryLoop, chainSummary, hcols, h11, h4, dictSet, bind, Except.bind]
  all_goals
    refine C117_violated kde _ _ _ _ h2 (pre := []) (post := []) (h3 false) (ps := ["a"]) (qs := []) (q := "b") ?_
      (by rw [hcols]; decide) hb ?_ (by simp)
    · have := (C55_columns [d]).1
      have e : sanitiseColumns none [d] = ["a", "b"] := by
        simp only [sanitiseColumns, List.foldl_cons, List.foldl_nil, h7]
        decide
      rw [e] at this
      exact this
    · intro p hp _
      rw [List.mem_singleton.1 hp]
      exact ⟨v, h11⟩

/-- **C117** (violated, as it stands). For a chain with a cloud coloured by its parameter `b`, `get_summary` reports `b` if asked for it,
but the cell of the table of `b` is the one for missing parameters. -/
theorem C117_violated_cloud (kde : KdeFn) (hk : KdeOk kde) : ∃ c v p, Chain.make (chosenArgs true 0 1) = .ok c ∧
    getSummary kde [c] { chains := [("pair", 0)] } none (some ["b"]) = .ok [("pair", [("b", v)])] ∧
    latexTableParts kde [c] { chains := [("pair", 0)] } .all { columns := some ["b"] } = .ok p ∧
    p.header = ["Model", "b"] ∧ p.rows = [["\t\tpair", "--"]] := by
  obtain ⟨c, d, v, t, h1, h2, h3, h4, h5, h6, h7, h8, h9, h10, h11, h12, h13⟩ := chosen_exists kde hk true 0 1
  have hb := h13 rfl rfl
  have hcols : d.samples.columns = ["a", "b", "weight"] := by rw [h5]; rfl
  obtain ⟨p, hp⟩ := C117_exists_partial kde [c] { chains := [("pair", 0)] } .all { columns := some ["b"] } h2 (h3 false) (by
    intro c' hc' d' hd' q hq hqc
    rw [List.mem_singleton.1 hd', h7] at hq
    rw [List.mem_singleton.1 hc', List.mem_singleton.1 hq]
    exact ⟨v, h11⟩) (by
    intro c' hc' q w hq _ hw
    rw [List.mem_singleton.1 hc', List.mem_singleton.1 (hq _ rfl), hb] at hw
    cases hw
    exact ⟨t, h12⟩)
  refine ⟨c, v, p, h1, ?_, hp, ?_, ?_⟩
  · simp [getSummary, h2, h3, sanitiseColumns, summaryLoop, chainSummary, hcols, hb, h4, dictSet, bind, Except.bind]
  all_goals
    obtain ⟨final', cs', plotted, cols, owners, k1, k2, k3, rfl, k5, k6, -, k7, -⟩ := C43_table kde _ _ _ _ p hp
    cases k1.symm.trans h2
    cases k2.symm.trans (h3 false)
    obtain ⟨k8, k9⟩ := k7 rfl
  · rw [k8]
    rfl
  · have hlen : owners.map (·.name) = ["pair"] := by
      refine firstOrder_unique k5 ?_
      rw [List.map_cons, List.map_nil, h4]
      exact ⟨by simp, by simp, by simp⟩
    have hrows := C117_violated_blank kde _ _ _ _ p hp rfl rfl (fun h => by cases h) h2 (h3 false) (by
      intro c' hc'
      rw [List.mem_singleton.1 hc', h7]
      decide)
    have hl : p.rows.length = 1 := by rw [← k9.length_eq, ← List.length_map (f := fun c : Chain ℝ => c.name), hlen]; rfl
    obtain ⟨row, e⟩ := List.length_eq_one_iff.1 hl
    obtain ⟨c', hc', e2⟩ := hrows row (by rw [e]; simp)
    rw [e, e2, List.mem_singleton.1 hc', h4]
    rfl

/-- The hypotheses of `C117_exists_partial` and `C117_cells_partial` are met, by the table of `b` of the same grid without a cloud. -/
example (kde : KdeFn) (hk : KdeOk kde) : ∃ c t p, Chain.make (chosenArgs false 0 1) = .ok c ∧
    latexTableParts kde [c] { chains := [("pair", 0)] } .all { columns := some ["b"] } = .ok p ∧ p.rows = [["\t\tpair", t]] := by
  obtain ⟨c, d, v, t, h1, h2, h3, h4, h5, h6, h7, h8, h9, h10, h11, h12, h13⟩ := chosen_exists kde hk false 0 1
  have hb := h13 rfl rfl
  have hcols : d.samples.columns = ["a", "b", "weight"] := by rw [h5]; rfl
  obtain ⟨p, hp⟩ := C117_exists_partial kde [c] { chains := [("pair", 0)] } .all { columns := some ["b"] } h2 (h3 false) (by
    intro c' hc' d' hd' q hq hqc
    rw [List.mem_singleton.1 hd', h7] at hq
    rw [List.mem_singleton.1 hc']
    simp only [Bool.false_eq_true, if_false, List.mem_cons, List.not_mem_nil, or_false] at hq
    rcases hq with rfl | rfl
    · exact ⟨v, h11⟩
    · exact ⟨v, hb⟩) (by
    intro c' hc' q w hq _ hw
    rw [List.mem_singleton.1 hc', List.mem_singleton.1 (hq _ rfl), hb] at hw
    cases hw
    exact ⟨t, h12⟩)
  obtain ⟨final, cs, plotted, owners, k1, k2, k3, k4, k5, k6⟩ := C117_cells_partial kde _ _ _ _ p hp rfl
  cases k1.symm.trans h2
  cases k2.symm.trans (h3 false)
  have hch : chosenCols { columns := some ["b"] } plotted = ["b"] := by
    simp [chosenCols, Blinded]
  have k6 := k6 (by
    intro q hq
    rw [hch] at hq
    rw [List.mem_singleton.1 hq]
    refine (k3.mem "b").2 (List.mem_flatMap.2 ⟨d, by simp, ?_⟩)
    rw [h7]
    decide)
  rw [hch] at k6
  have hlen : owners.map (·.name) = ["pair"] := by
    refine firstOrder_unique k4 ?_
    rw [List.map_cons, List.map_nil, h4]
    exact ⟨by simp, by simp, by simp⟩
  obtain ⟨o, e⟩ := List.length_eq_one_iff.1 (show owners.length = 1 by rw [← List.length_map (f := fun c : Chain ℝ => c.name), hlen]; rfl)
  subst e
  obtain ⟨pre, post, e2, -⟩ := k5 o (by simp)
  have ho : o = d := List.mem_singleton.1 (by rw [e2]; simp)
  subst ho
  obtain ⟨row, rows, ⟨cells, rfl, hc⟩, hn, e3⟩ := List.forall₂_cons_left_iff.1 k6
  cases hn
  obtain ⟨cell, cells', hcell, hn, rfl⟩ := List.forall₂_cons_left_iff.1 hc
  cases hn
  rcases hcell with ⟨-, w, hw, ht⟩ | ⟨hno, -⟩
  · refine ⟨c, cell, p, h1, hp, ?_⟩
    rw [e3, h4]
    rfl
  · exact absurd (by rw [hcols]; decide) hno

end CC
