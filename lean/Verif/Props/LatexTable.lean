import Verif.Props.Captions
import Verif.Props.Request
import Verif.Props.Format
import Verif.Props.Covariance
import Verif.Props.Isolation

/-! # C43: the parameter table; C15: covariance and correlation tables -/

namespace CC
open Spec

/-- The cell for parameter `q` in the row or column of chain `c`: the formatted summary if the chain
has the parameter and it is plotted for some chain of the table, otherwise the fill text. -/
def Spec.CellFor (kde : KdeFn) (plotted : List String) (blank : String) (c : Chain ℝ) (q cell : String) :
    Prop :=
  (q ∈ plotted ∧ q ∈ c.samples.columns ∧
    ∃ v, summaryEntry kde c q = .ok v ∧ parameterText (some v) true none = .ok cell) ∨
  (¬ (q ∈ plotted ∧ q ∈ c.samples.columns) ∧ cell = blank)

/-- Is the parameter blinded? -/
def Spec.Blinded (b : Blind) (q : String) : Prop :=
  match b with
  | .none => False
  | .bool v => v = true
  | .cols l => q ∈ l

theorem tableCell_spec {kde : KdeFn} {c : Chain ℝ} {plotted : List String}
    {res : List (String × Summary ℝ)} (h : Covers kde c plotted res) {blank q cell : String}
    (hc : tableCell blank res q = .ok cell) : CellFor kde plotted blank c q cell := by
  unfold tableCell at hc
  cases hl : res.lookup q with
  | none =>
    rw [hl] at hc
    refine Or.inr ⟨?_, (Except.ok.inj hc).symm⟩
    rintro ⟨h1, h2⟩
    have : q ∈ res.map Prod.fst := (h.columns.mem q).2 (by simp [h1, h2])
    obtain ⟨e, he, rfl⟩ := List.mem_map.1 this
    have := List.lookup_eq_none_iff.1 hl e he
    simp at this
  | some v =>
    rw [hl] at hc
    have hm := lookup_mem hl
    have hq := (h.columns.mem q).1 (List.mem_map.2 ⟨_, hm, rfl⟩)
    rw [List.mem_filter] at hq
    exact Or.inl ⟨hq.1, by simpa using hq.2, v, h.values _ hm, hc⟩

instance (b : Blind) (q : String) : Decidable (Blinded b q) := by
  unfold Blinded
  cases b <;> infer_instance

theorem unblinded_eq (b : Blind) (all : List String) :
    (all.filter fun c => c ∉ sanitiseBlinds b all) = all.filter fun c => ¬ Blinded b c := by
  apply List.filter_congr
  intro q hq
  cases b with
  | none => simp [sanitiseBlinds, Blinded]
  | bool v => cases v <;> simp [sanitiseBlinds, Blinded, hq]
  | cols l => simp only [sanitiseBlinds, Blinded]; congr

theorem firstOrder_unique {α : Type} [DecidableEq α] {src l₁ l₂ : List α} (h1 : FirstOrder src l₁)
    (h2 : FirstOrder src l₂) : l₁ = l₂ :=
  ((List.perm_ext_iff_of_nodup h1.nodup h2.nodup).2 fun a => (h1.mem a).trans (h2.mem a).symm).eq_of_pairwise
    (fun _ _ _ _ p q => absurd (p.trans q) (lt_irrefl _)) h1.order h2.order

/-- The owners of the entries of a summary. -/
theorem summary_owners {kde : KdeFn} {cs : List (Chain ℝ)} {cols : List String}
    {fit : List (String × List (String × Summary ℝ))}
    (h : ∀ e ∈ fit, ∃ c, LastNamed cs c ∧ c.name = e.1 ∧ Covers kde c cols e.2) :
    ∃ owners : List (Chain ℝ), List.Forall₂ (fun c e => LastNamed cs c ∧ c.name = e.1 ∧
      Covers kde c cols e.2) owners fit := by
  induction fit with
  | nil => exact ⟨[], .nil⟩
  | cons e fit ih =>
    obtain ⟨c, hc⟩ := h e (by simp)
    obtain ⟨os, hos⟩ := ih fun x hx => h x (List.mem_cons_of_mem _ hx)
    exact ⟨c :: os, .cons hc hos⟩

theorem rows_plain {kde : KdeFn} {cs owners : List (Chain ℝ)} {plotted cols : List String}
    {fit : List (String × List (String × Summary ℝ))} {blank : String} {rows : List (List String)}
    (ho : List.Forall₂ (fun c e => LastNamed cs c ∧ c.name = e.1 ∧ Covers kde c plotted e.2) owners fit)
    (hr : (fit.mapM fun e => do
      let cells ← cols.mapM (tableCell blank e.2)
      return ("\t\t" ++ e.1) :: cells) = .ok rows) :
    List.Forall₂ (fun c row => ∃ cells, row = ("\t\t" ++ c.name) :: cells ∧
      List.Forall₂ (CellFor kde plotted blank c) cols cells) owners rows := by
  rw [mapM_ok_iff] at hr
  induction ho generalizing rows with
  | nil => cases hr; exact .nil
  | cons hc _ ih =>
    obtain ⟨row, rows', hrow, hrows, rfl⟩ := List.forall₂_cons_left_iff.1 hr
    refine .cons ?_ (ih hrows)
    obtain ⟨cells, hcells, hrow⟩ := (bind_ok_iff ..).1 hrow
    obtain rfl := Except.ok.inj hrow
    rw [mapM_ok_iff] at hcells
    exact ⟨cells, by rw [hc.2.1], hcells.imp fun q cell hq => tableCell_spec hc.2.2 hq⟩

theorem row_transposed {kde : KdeFn} {cs owners : List (Chain ℝ)} {plotted : List String}
    {fit : List (String × List (String × Summary ℝ))} {blank q : String} {cells : List String}
    (ho : List.Forall₂ (fun c e => LastNamed cs c ∧ c.name = e.1 ∧ Covers kde c plotted e.2) owners fit)
    (hr : (fit.mapM fun e => tableCell blank e.2 q) = .ok cells) :
    List.Forall₂ (fun c cell => CellFor kde plotted blank c q cell) owners cells := by
  rw [mapM_ok_iff] at hr
  induction ho generalizing cells with
  | nil => cases hr; exact .nil
  | cons hc _ ih =>
    obtain ⟨cell, cells', h4, h5, rfl⟩ := List.forall₂_cons_left_iff.1 hr
    exact .cons (tableCell_spec hc.2.2 h4) (ih h5)

/-- **C43**. The parameter table: the columns (rows when transposed) are the requested parameters that
are not blinded, in order; the rows (columns) are the chains of the request in order of first
appearance of their names; every cell holds the formatted summary of that parameter for that chain, or
the fill text. The column specification has as many columns as the header has cells. -/
theorem C43_table (kde : KdeFn) (hp : Heap ℝ) (s : Consumer ℝ) (req : ChainReq ℝ) (o : TableOpts)
    (p : TableParts) (h : latexTableParts kde hp s req o = .ok p) :
    ∃ final cs plotted cols owners, finalDict hp s = .ok final ∧ plotChains final req false = .ok cs ∧
      FirstOrder (cs.flatMap Chain.plottingColumns) plotted ∧
      cols = (o.columns.getD plotted).filter (fun q => ¬ Blinded o.blind q) ∧
      FirstOrder (cs.map (·.name)) (owners.map (·.name)) ∧ (∀ c ∈ owners, LastNamed cs c) ∧
      p.columnText.toList = List.replicate p.header.length 'c' ∧
      (o.transpose = false →
        p.header = "Model" :: cols.map (fun q => (o.labels.lookup q).getD q) ∧
        List.Forall₂ (fun c row => ∃ cells, row = ("\t\t" ++ c.name) :: cells ∧
          List.Forall₂ (CellFor kde plotted o.blankFill c) cols cells) owners p.rows) ∧
      (o.transpose = true →
        p.header = "Parameter" :: cs.map (·.name) ∧
        List.Forall₂ (fun q row => ∃ cells, row = ("\t\t" ++ (o.labels.lookup q).getD q) :: cells ∧
          List.Forall₂ (fun c cell => CellFor kde plotted o.blankFill c q cell) owners cells)
          cols p.rows) := by
  obtain ⟨final, h1, h⟩ := (bind_ok_iff ..).1 h
  obtain ⟨cs, h2, h⟩ := (bind_ok_iff ..).1 h
  obtain ⟨fit, h3, h⟩ := (bind_ok_iff ..).1 h
  obtain ⟨cs', plotted, hcs', hplot, hfo, hent⟩ := C37_structure kde hp s (some cs) none fit h3
  simp only at hcs' hplot
  have hcs'' := hcs'.symm
  subst hcs''
  have hpl : plotted = sanitiseColumns none cs := firstOrder_unique hplot (C55_columns cs).1
  have hcols : sanitiseColumns o.columns cs = o.columns.getD plotted := by
    cases hoc : o.columns with
    | none => rw [Option.getD_none, hpl]
    | some l => rfl
  rw [hcols, unblinded_eq] at h
  obtain ⟨owners, ho⟩ := summary_owners hent
  have hon : owners.map (·.name) = fit.map Prod.fst := by
    clear h hfo hent h3
    induction ho with
    | nil => rfl
    | cons h _ ih => rw [List.map_cons, List.map_cons, ih, h.2.1]
  have hol : ∀ c ∈ owners, LastNamed cs c := by
    clear h hfo hent h3 hon
    induction ho with
    | nil => intro c hc; cases hc
    | cons h _ ih =>
      intro c hc
      rcases List.mem_cons.1 hc with rfl | hc
      · exact h.1
      · exact ih c hc
  refine ⟨final, cs, plotted, _, owners, h1, h2, hplot, rfl, hon ▸ hfo, hol, ?_⟩
  generalize (o.columns.getD plotted).filter (fun q => ¬ Blinded o.blind q) = cols at h ⊢
  cases ht : o.transpose with
  | false =>
    simp only [tableParts, ht, Bool.false_eq_true, if_false] at h
    obtain ⟨rows, hr, h⟩ := (bind_ok_iff ..).1 h
    obtain rfl := Except.ok.inj h
    exact ⟨by simp [repeatChar], fun _ => ⟨rfl, rows_plain ho hr⟩, fun h => by cases h⟩
  | true =>
    simp only [tableParts, ht, if_true] at h
    obtain ⟨rows, hr, h⟩ := (bind_ok_iff ..).1 h
    obtain rfl := Except.ok.inj h
    refine ⟨by simp [repeatChar], fun h => (by cases h), fun _ => ⟨rfl, ?_⟩⟩
    rw [mapM_ok_iff] at hr
    refine hr.imp fun q row hrow => ?_
    obtain ⟨cells, hcells, hrow⟩ := (bind_ok_iff ..).1 hrow
    obtain rfl := Except.ok.inj hrow
    exact ⟨cells, rfl, row_transposed ho hcells⟩

theorem firstOrder_length {α : Type} [DecidableEq α] {src out : List α} (h : FirstOrder src out) :
    out.length ≤ src.length ∧ (out.length = src.length ↔ src.Nodup) := by
  have hsub : out.Subperm src := h.nodup.subperm fun a ha => (h.mem a).1 ha
  refine ⟨hsub.length_le, fun hl => ?_, fun hn => ?_⟩
  · exact (hsub.perm_of_length_le hl.ge).nodup_iff.1 h.nodup
  · exact ((List.perm_ext_iff_of_nodup h.nodup hn).2 h.mem).length_eq

/-- **C43** (rectangular). Every row has as many cells as the column specification has columns, unless
the table is transposed and a chain is requested twice. What is missing from the full property is that
case, see `C43_violated`. -/
theorem C43_rectangular_partial (kde : KdeFn) (hp : Heap ℝ) (s : Consumer ℝ) (req : ChainReq ℝ)
    (o : TableOpts) (p : TableParts) (h : latexTableParts kde hp s req o = .ok p)
    (hreq : o.transpose = true → ∀ final cs, finalDict hp s = .ok final →
      plotChains final req false = .ok cs → (cs.map (·.name)).Nodup) :
    p.header.length = p.columnText.length ∧ ∀ row ∈ p.rows, row.length = p.columnText.length := by
  obtain ⟨final, cs, plotted, cols, owners, h1, h2, -, -, hfo, -, hct, hf, ht⟩ :=
    C43_table kde hp s req o p h
  have hlen : p.header.length = p.columnText.length := by
    rw [← String.length_toList, hct, List.length_replicate]
  refine ⟨hlen, fun row hrow => ?_⟩
  rw [← hlen]
  cases hto : o.transpose with
  | false =>
    obtain ⟨hh, hr⟩ := hf hto
    obtain ⟨i, hi⟩ := List.mem_iff_getElem.1 hrow
    obtain ⟨hi, rfl⟩ := hi
    obtain ⟨cells, hc, hcells⟩ := hr.get (by rw [hr.length_eq]; exact hi) hi
    simp only [List.get_eq_getElem] at hc
    rw [hc, hh]
    simp [hcells.length_eq]
  | true =>
    obtain ⟨hh, hr⟩ := ht hto
    obtain ⟨i, hi⟩ := List.mem_iff_getElem.1 hrow
    obtain ⟨hi, rfl⟩ := hi
    obtain ⟨cells, hc, hcells⟩ := hr.get (by rw [hr.length_eq]; exact hi) hi
    simp only [List.get_eq_getElem] at hc
    have hn := (firstOrder_length hfo).2.2 (hreq hto final cs h1 h2)
    rw [List.length_map, List.length_map] at hn
    rw [hc, hh]
    simp [← hcells.length_eq, hn]

/-- **C43** (violation). If a chain is requested twice, every row of the transposed table is too
short. -/
theorem C43_violated (kde : KdeFn) (hp : Heap ℝ) (s : Consumer ℝ) (req : ChainReq ℝ) (o : TableOpts)
    (p : TableParts) (h : latexTableParts kde hp s req o = .ok p) (hto : o.transpose = true)
    (final : List (String × Chain ℝ)) (cs : List (Chain ℝ)) (h1 : finalDict hp s = .ok final)
    (h2 : plotChains final req false = .ok cs) (hnd : ¬ (cs.map (·.name)).Nodup) :
    ∀ row ∈ p.rows, row.length < p.columnText.length := by
  obtain ⟨final', cs', plotted, cols, owners, h1', h2', -, -, hfo, -, hct, -, ht⟩ :=
    C43_table kde hp s req o p h
  obtain rfl : final' = final := Except.ok.inj (h1'.symm.trans h1)
  obtain rfl : cs' = cs := Except.ok.inj (h2'.symm.trans h2)
  intro row hrow
  rw [← String.length_toList, hct, List.length_replicate]
  obtain ⟨hh, hr⟩ := ht hto
  obtain ⟨i, hi⟩ := List.mem_iff_getElem.1 hrow
  obtain ⟨hi, rfl⟩ := hi
  obtain ⟨cells, hc, hcells⟩ := hr.get (by rw [hr.length_eq]; exact hi) hi
  simp only [List.get_eq_getElem] at hc
  have hl := firstOrder_length hfo
  simp only [List.length_map] at hl
  have hlt : owners.length < cs'.length := lt_of_le_of_ne hl.1 fun e => hnd (hl.2.1 e)
  rw [hc, hh]
  simpa [← hcells.length_eq] using hlt


theorem resolved_own (n : Nat) (user : List Key) (c : Cfg ℝ) (col : String) (k : Key)
    (hk : Spec.auto n c col k = none) : Spec.resolved none user n c col k = c k := by
  unfold Spec.resolved
  simp only [hk, Option.getD_none, ite_self]

/-- A concrete table with one chain and one parameter, and the same table transposed for a request
that names the chain twice: its rows have two cells although three columns are declared. -/
example (kde : KdeFn) (hkde : KdeOk kde) : ∃ c cell, Chain.make (skewArgs .maxCentral) = .ok c ∧
    (∃ p, latexTableParts kde [c] { chains := [("skew", 0)] } .all {} = .ok p ∧
      p.columnText = "cc" ∧ p.header = ["Model", "x"] ∧ p.rows = [["\t\tskew", cell]]) ∧
    ∃ p, latexTableParts kde [c] { chains := [("skew", 0)] } (.list [.inl "skew", .inl "skew"])
        { transpose := true } = .ok p ∧
      p.columnText = "ccc" ∧ p.header = ["Parameter", "skew", "skew"] ∧ p.rows = [["\t\tx", cell]] := by
  obtain ⟨c, hc, l, x, u, hsum, hlt⟩ := C28_violated kde hkde
  obtain ⟨c', m, hc', hst, har, hmm, hsam, -, hname, hm, hv, -⟩ := skew_chain kde hkde .maxCentral
  obtain rfl : c = c' := Except.ok.inj (hc.symm.trans hc')
  have hfacts : c.weightColumn = "weight" ∧ c.posteriorColumn = "log_posterior" ∧
      c.cfg .plotContour = true ∧ c.cfg .plotCloud = false := by
    have hf : skewFrame.WF := ⟨by simp [skewFrame], by simp [skewFrame]⟩
    obtain ⟨c', hc', -, hw, hp, -, -, -, -, hcfg⟩ :=
      plain_chain_cfg true [⟨.statistics, some .maxCentral⟩] rfl
        (by change (0 : ℝ) ≤ 6827 / 10000 ∧ (6827 / 10000 : ℝ) ≤ 1; constructor <;> norm_num)
        (by change (1 : ℝ) ≤ 10; norm_num) rfl rfl (by intro h; cases h) skewFrame hf
        (by simp [skewFrame]) (w := [3, 1]) rfl (by simp) "skew" 1 le_rfl (one_dvd _)
    obtain rfl : c = c' := Except.ok.inj (hc.symm.trans hc')
    exact ⟨hw, hp, by rw [hcfg]; rfl, by rw [hcfg]; rfl⟩
  obtain ⟨hw, hpost, hcon, hcl⟩ := hfacts
  have he : summaryEntry kde c "x" = .ok (.single ⟨some l, some x, some u⟩) := by
    rw [C37_lists]
    exact ⟨_, hsum, Or.inl ⟨hmm, rfl⟩⟩
  obtain ⟨text, -, ht⟩ := (C42_formats_partial (⟨some l, some x, some u⟩ : Bound ℝ) true none (by
    intro h; cases h; exact lt_irrefl _ hlt)).2 l x u rfl
  simp only [if_true] at ht
  generalize "$" ++ ("" ++ text) ++ "$" = cell at ht
  refine ⟨c, cell, hc, ?_⟩
  set s : Consumer ℝ := { chains := [("skew", 0)] } with hs
  have hco : chainsOf [c] s = [c] := by simp [chainsOf, copyChains, hs]
  set n := numContourChains [c] s
  set g := Spec.resolved none c.userSet n c.cfg (Spec.autoColours.getD 0 "") with hg
  have hfd : finalDict [c] s = .ok [("skew", c.withCfg g)] := by
    rw [finalDict_eq _ _ (by rw [hco]; exact le_trans (List.length_filter_le _ _) (by simp)), hco]
    simp [resolvedChains, copyChains, hs, n, hg]
  have hcols : c.samples.columns = ["x", "weight"] := by rw [hsam]; rfl
  have hdata : c.dataColumns = ["x"] := by
    unfold Chain.dataColumns
    rw [hcols, hw, hpost]
    decide +kernel
  have hgk : ∀ k, Spec.auto n c.cfg (Spec.autoColours.getD 0 "") k = none → g k = c.cfg k :=
    fun k hk => resolved_own _ _ _ _ _ hk
  have hplot : (c.withCfg g).plottingColumns = ["x"] := by
    have h1 : (c.withCfg g).cfg .plotCloud = false := by rw [← hcl]; exact hgk _ rfl
    unfold Chain.plottingColumns
    rw [h1]
    exact hdata
  have hskip : (c.withCfg g).skip = false := by
    have h1 : (c.withCfg g).cfg .plotContour = true := by rw [← hcon]; exact hgk _ rfl
    unfold Chain.skip
    rw [h1]
    have : (c.withCfg g).samples.empty = false := by
      change c.samples.empty = false
      rw [hsam]
      rfl
    rw [this]
    rfl
  have hcs : chainSummary kde (c.withCfg g) ["x"] [] =
      .ok [("x", .single ⟨some l, some x, some u⟩)] := by
    rw [chainSummary_withCfg kde c g (resolved_summaryKeys none _ _ _ _ (by intro o ho; cases ho))]
    simp [chainSummary, hcols, he, bind, Except.bind, dictSet]
  have hn : (c.withCfg g).name = "skew" := hname
  refine ⟨?_, ?_⟩
  · simp [latexTableParts, hfd, plotChains, hskip, sanitiseColumns, hplot, sanitiseBlinds, getSummary,
      summaryLoop, hcs, bind, Except.bind, pure, Except.pure, tableParts, tableCell, List.mapM_cons, ht,
      dictSet, hn, repeatChar, getLabel]
  · simp [latexTableParts, hfd, plotChains, dictGet, reqName, hskip, sanitiseColumns, hplot, sanitiseBlinds,
      getSummary, summaryLoop, hcs, bind, Except.bind, pure, Except.pure, tableParts, tableCell,
      List.mapM_cons, ht, dictSet, hn, repeatChar, getLabel]

end CC
