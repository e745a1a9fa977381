import Verif.Props.LatexTable
import Verif.Props.Captions
import Verif.Props.CompTable
import Verif.Lemmas.Format

/-! # C110: the text of a table of parameters -/

namespace CC
open Spec

/-- The body of a table with the given header line and row lines, with or without rules. -/
def Spec.ruled (rules : Bool) (header : String) (rows : List String) : String :=
  match rules with
  | true => "\\hline\n\t\t" ++ header ++ "\t\t\\hline\n" ++ String.join rows ++ "\t\t\\hline\n"
  | false => header ++ String.join rows

/-! ### Ampersands -/

theorem not_amp_of_isDigit {c : Char} (h : c.isDigit = true) : c ≠ '&' := by
  rintro rfl
  exact absurd h (by decide)

theorem natText_amp (n : Nat) : '&' ∉ (toString n : String).toList := by
  intro h
  rw [Nat.toString_eq_repr, Nat.toList_repr] at h
  exact not_amp_of_isDigit (Nat.isDigit_of_mem_toDigits (by norm_num) le_rfl h) rfl

theorem intText_amp (k : Int) : '&' ∉ (toString k : String).toList := by
  rw [Int.toString_eq_repr, Int.repr_eq_if]
  split
  · simpa using natText_amp k.toNat
  · rw [String.toList_append, List.mem_append]
    rintro (h | h)
    · revert h; decide
    · exact natText_amp (-k).toNat (by simpa using h)

theorem signedText_amp (d : Nat) (s : Signed ℝ) : '&' ∉ (s.text d).toList := by
  simp only [Signed.text, unitsText, String.toList_ofList, List.mem_append, not_or]
  refine ⟨?_, fun h => not_amp_of_isDigit (decDigits_isDigit _ _ h) rfl, ?_⟩
  · split <;> decide
  · split
    · simp
    · simp only [List.mem_cons, not_or]
      exact ⟨by decide, fun h => not_amp_of_isDigit (lastDigits_isDigit _ _ _ h) rfl⟩

theorem append_amp {a b : String} (ha : '&' ∉ a.toList) (hb : '&' ∉ b.toList) : '&' ∉ (a ++ b).toList := by
  rw [String.toList_append, List.mem_append]
  exact fun h => h.elim ha hb

theorem numberText_amp (pm : Bool) (d : Nat) (c u l : Signed ℝ) : '&' ∉ (numberText pm d c u l).toList := by
  unfold numberText
  split
  · exact append_amp (append_amp (signedText_amp _ _) (by decide)) (signedText_amp _ _)
  · exact append_amp (append_amp (append_amp (append_amp (append_amp (signedText_amp _ _) (by decide))
      (signedText_amp _ _)) (by decide)) (signedText_amp _ _)) (by decide)

theorem formatLimits_amp {l c u : ℝ} {pm : Bool} {t : String} (h : formatLimits l c u pm = .ok t) : '&' ∉ t.toList := by
  unfold formatLimits at h
  split at h
  · cases h
  · simp only at h
    cases h
    rename_i res _
    generalize (if res = 2 then (0 : Int) else formatFactor res) = k
    split
    · exact append_amp (append_amp (append_amp (append_amp (by decide) (numberText_amp _ _ _ _ _)) (by decide)) (intText_amp _))
        (by decide)
    · exact numberText_amp _ _ _ _ _

theorem dollars_amp {t : String} (h : '&' ∉ t.toList) : '&' ∉ (dollars t).toList :=
  append_amp (append_amp (by decide) h) (by decide)

theorem singleText_amp {b : Bound ℝ} {t : String} (h : singleText b true none = .ok t) : '&' ∉ t.toList := by
  unfold singleText at h
  split at h
  · simp only [bind_ok_iff, pure_ok_iff] at h
    obtain ⟨s, hs, rfl⟩ := h
    simpa using dollars_amp (formatLimits_amp hs)
  · cases h
    decide

theorem modeLine_amp {b : Bound ℝ × Nat} {t : String} (h : modeLine true b = .ok t) : '&' ∉ t.toList := by
  simp only [modeLine, bind_ok_iff, pure_ok_iff, if_true] at h
  obtain ⟨s, hs, rfl⟩ := h
  refine append_amp (append_amp (append_amp (by decide) (natText_amp _)) (by decide)) (dollars_amp ?_)
  unfold formatBound at hs
  split at hs
  · exact formatLimits_amp hs
  · cases hs

theorem intercalate_amp {sep : String} (hs : '&' ∉ sep.toList) {l : List String} (h : ∀ t ∈ l, '&' ∉ t.toList) :
    '&' ∉ (String.intercalate sep l).toList := by
  induction l with
  | nil => simp
  | cons a l ih =>
    cases l with
    | nil => simpa using h a (by simp)
    | cons b l =>
      rw [String.intercalate_cons_cons]
      exact append_amp (append_amp (h a (by simp)) hs) (ih fun t ht => h t (List.mem_cons_of_mem _ ht))

/-- Cells with numbers contain no ampersands. -/
theorem parameterText_amp {s : Summary ℝ} {t : String} (h : parameterText (some s) true none = .ok t) :
    '&' ∉ t.toList := by
  match s, h with
  | .single b, h => exact singleText_amp h
  | .multi [], h => cases h
  | .multi [b], h => exact singleText_amp h
  | .multi (a :: b :: bs), h =>
    simp only [parameterText] at h
    split at h
    · cases h
      decide
    · simp only [bind_ok_iff, pure_ok_iff] at h
      obtain ⟨ls, hls, rfl⟩ := h
      refine intercalate_amp (by decide) fun t ht => ?_
      simp only [Option.getD_none, ne_eq, not_true_eq_false, if_false, List.nil_append] at ht
      rw [mapM_ok_iff] at hls
      obtain ⟨i, hi, rfl⟩ := List.mem_iff_getElem.1 ht
      exact modeLine_amp (hls.get (by rw [hls.length_eq]; exact hi) hi)

theorem cellFor_amp {kde : KdeFn} {plotted : List String} {blank q cell : String} {c : Chain ℝ}
    (hb : '&' ∉ blank.toList) (h : CellFor kde plotted blank c q cell) : '&' ∉ cell.toList := by
  rcases h with ⟨-, -, v, -, hv⟩ | ⟨-, rfl⟩
  · exact parameterText_amp hv
  · exact hb

/-! ### Lines -/

theorem intercalate_cells (a : String) (l : List String) :
    (String.intercalate " & " (a :: l)).toList = a.toList ++ l.flatMap fun c => ' ' :: '&' :: ' ' :: c.toList := by
  induction l generalizing a with
  | nil => simp
  | cons b l ih =>
    rw [String.intercalate_cons_cons, String.toList_append, ih, String.toList_append, List.flatMap_cons]
    have : (" & " : String).toList = [' ', '&', ' '] := by decide
    rw [this]
    simp

/-- A line shows its cells. -/
theorem tableLine_shows {a : String} {l : List String} (h : ∀ c ∈ a :: l, '&' ∉ c.toList) :
    List.Forall₂ Shows (a :: l) (cellTexts (tableLine (a :: l)).toList) := by
  have := shows_line [] a [] (l.map fun c => ⟨[' '], [' '], c, []⟩) [' ', '\\', '\\', ' ', '\n'] (by simp) (by simp)
    (h a (by simp)) (by simpa using fun c hc => h c (List.mem_cons_of_mem _ hc))
  have e1 : (l.map fun c => (⟨[' '], [' '], c, []⟩ : CellParts)).map (·.text) = l := by
    rw [List.map_map]; exact List.map_id l
  rw [e1] at this
  have e : (tableLine (a :: l)).toList = [] ++ a.toList ++ [] ++
      ((l.map fun c => (⟨[' '], [' '], c, []⟩ : CellParts)).flatMap fun e => e.sep ++ '&' :: (e.pre ++ e.text.toList ++ e.post)) ++
      [' ', '\\', '\\', ' ', '\n'] := by
    rw [tableLine, String.toList_append, intercalate_cells]
    have : (" \\\\ \n" : String).toList = [' ', '\\', '\\', ' ', '\n'] := by decide
    rw [this]
    simp [List.flatMap_map]
  rw [e]
  exact this

theorem cellTexts_length (l : List Char) : (cellTexts l).length = l.count '&' + 1 := by
  induction l with
  | nil => rfl
  | cons c cs ih =>
    rw [cellTexts]
    split_ifs with h
    · rw [List.length_cons, ih, h, List.count_cons_self]
    · cases hc : cellTexts cs with
      | nil => exact absurd hc (cellTexts_ne cs)
      | cons a b =>
        rw [hc] at ih
        rw [List.count_cons_of_ne h]
        simpa using ih

/-- How many cells a line has. -/
theorem tableLine_length (a : String) (l : List String) :
    (cellTexts (tableLine (a :: l)).toList).length = (a :: l).length + ((a :: l).map fun c => c.toList.count '&').sum := by
  rw [cellTexts_length, tableLine, String.toList_append, intercalate_cells]
  have : (" \\\\ \n" : String).toList = [' ', '\\', '\\', ' ', '\n'] := by decide
  rw [this]
  have key : (l.flatMap fun c => ' ' :: '&' :: ' ' :: c.toList).count '&' =
      l.length + (l.map fun c => c.toList.count '&').sum := by
    induction l with
    | nil => rfl
    | cons b l ih =>
      rw [List.flatMap_cons, List.count_append, ih]
      simp only [List.count_cons, List.length_cons, List.map_cons, List.sum_cons]
      simp
      omega
  simp only [List.count_append, key, List.length_cons, List.map_cons, List.sum_cons]
  simp
  omega

/-- The text of a table is made of the lines of its parts. -/
theorem latexTable_lines {kde : KdeFn} {hp : Heap ℝ} {s : Consumer ℝ} {req : ChainReq ℝ} {o : TableOpts} {text : String}
    (h : latexTable kde hp s req o = .ok text) (hc : '%' ∉ (o.caption.getD "").toList)
    (hl : '%' ∉ (o.label.getD "").toList) :
    ∃ p, latexTableParts kde hp s req o = .ok p ∧
      text = tableText (o.caption.getD "") (o.label.getD "") p.columnText
        (ruled o.hlines (tableLine p.header) (p.rows.map tableLine)) := by
  simp only [latexTable, bind_ok_iff] at h
  obtain ⟨p, h1, h2⟩ := h
  refine ⟨p, h1, ?_⟩
  rw [pyMod_frame _ _ _ _ hc hl] at h2
  rw [← Except.ok.inj h2]
  congr 1
  unfold tableCenter ruled
  cases o.hlines <;> simp

/-- **C110** for texts without ampersands: the text of a table consists of one line for the header and one for each row, and
each line, read as LaTeX reads it, shows the cells of the table; if no chain is requested twice in a transposed table, every
line has as many cells as the table has columns. -/
theorem C110_text_partial (kde : KdeFn) (hp : Heap ℝ) (s : Consumer ℝ) (req : ChainReq ℝ) (o : TableOpts) (text : String)
    (h : latexTable kde hp s req o = .ok text) (hc : '%' ∉ (o.caption.getD "").toList)
    (hl : '%' ∉ (o.label.getD "").toList) (hb : '&' ∉ o.blankFill.toList)
    (hnames : ∀ final cs, finalDict hp s = .ok final → plotChains final req false = .ok cs →
      (∀ c ∈ cs, '&' ∉ c.name.toList) ∧ (o.transpose = true → (cs.map (·.name)).Nodup) ∧
      ∀ q ∈ o.columns.getD (cs.flatMap Chain.plottingColumns), '&' ∉ ((o.labels.lookup q).getD q).toList) :
    ∃ p header rows, latexTableParts kde hp s req o = .ok p ∧
      text = tableText (o.caption.getD "") (o.label.getD "") p.columnText (ruled o.hlines header rows) ∧
      List.Forall₂ Shows p.header (cellTexts header.toList) ∧
      List.Forall₂ (fun row line => List.Forall₂ Shows row (cellTexts line.toList)) p.rows rows ∧
      ∀ line ∈ header :: rows, (cellTexts line.toList).length = p.columnText.length := by
  obtain ⟨p, h1, rfl⟩ := latexTable_lines h hc hl
  obtain ⟨r1, r2⟩ := C43_rectangular_partial kde hp s req o p h1 fun hto final cs hf hcs => (hnames final cs hf hcs).2.1 hto
  obtain ⟨final, cs, plotted, cols, owners, hf, hcs, hpl, rfl, hfo, hown, -, hF, hT⟩ := C43_table kde hp s req o p h1
  obtain ⟨hnm, -, hlab⟩ := hnames final cs hf hcs
  have hown' : ∀ c ∈ owners, '&' ∉ c.name.toList := by
    intro c hm
    have : c.name ∈ cs.map (·.name) := (hfo.mem _).1 (List.mem_map_of_mem hm)
    obtain ⟨c', hc', e⟩ := List.mem_map.1 this
    rw [← e]
    exact hnm c' hc'
  have hlab' : ∀ q ∈ (o.columns.getD plotted).filter (fun q => ¬ Blinded o.blind q),
      '&' ∉ ((o.labels.lookup q).getD q).toList := by
    intro q hq
    refine hlab q ?_
    have := (List.mem_filter.1 hq).1
    cases ho : o.columns with
    | none => rw [ho] at this; exact (hpl.mem q).1 this
    | some l => rw [ho] at this; exact this
  have hhead : ∃ a l, p.header = a :: l ∧ ∀ c ∈ a :: l, '&' ∉ c.toList := by
    cases hto : o.transpose with
    | false =>
      refine ⟨_, _, (hF hto).1, ?_⟩
      intro c hm
      rcases List.mem_cons.1 hm with rfl | hm
      · decide
      · obtain ⟨q, hq, rfl⟩ := List.mem_map.1 hm
        exact hlab' q hq
    | true =>
      refine ⟨_, _, (hT hto).1, ?_⟩
      intro c hm
      rcases List.mem_cons.1 hm with rfl | hm
      · decide
      · obtain ⟨q, hq, rfl⟩ := List.mem_map.1 hm
        exact hnm q hq
  have hrows : ∀ row ∈ p.rows, ∃ a l, row = a :: l ∧ ∀ c ∈ a :: l, '&' ∉ c.toList := by
    intro row hrow
    obtain ⟨i, hi, rfl⟩ := List.mem_iff_getElem.1 hrow
    cases hto : o.transpose with
    | false =>
      have hr := (hF hto).2
      obtain ⟨cells, hcell, hcells⟩ := hr.get (by rw [hr.length_eq]; exact hi) hi
      refine ⟨_, _, hcell, ?_⟩
      intro c hm
      rcases List.mem_cons.1 hm with rfl | hm
      · exact append_amp (by decide) (hown' _ (List.get_mem _ _))
      · obtain ⟨j, hj, rfl⟩ := List.mem_iff_getElem.1 hm
        exact cellFor_amp hb (hcells.get (by rw [hcells.length_eq]; exact hj) hj)
    | true =>
      have hr := (hT hto).2
      obtain ⟨cells, hcell, hcells⟩ := hr.get (by rw [hr.length_eq]; exact hi) hi
      refine ⟨_, _, hcell, ?_⟩
      intro c hm
      rcases List.mem_cons.1 hm with rfl | hm
      · exact append_amp (by decide) (hlab' _ (List.get_mem _ _))
      · obtain ⟨j, hj, rfl⟩ := List.mem_iff_getElem.1 hm
        exact cellFor_amp hb (hcells.get (by rw [hcells.length_eq]; exact hj) hj)
  have s1 : List.Forall₂ Shows p.header (cellTexts (tableLine p.header).toList) := by
    obtain ⟨a, l, e, ha⟩ := hhead
    rw [e]
    exact tableLine_shows ha
  have s2 : ∀ row ∈ p.rows, List.Forall₂ Shows row (cellTexts (tableLine row).toList) := by
    intro row hrow
    obtain ⟨a, l, rfl, ha⟩ := hrows row hrow
    exact tableLine_shows ha
  refine ⟨p, _, _, h1, rfl, s1, ?_, ?_⟩
  · rw [List.forall₂_map_right_iff, List.forall₂_same]
    exact s2
  · intro line hline
    rcases List.mem_cons.1 hline with rfl | hline
    · rw [← s1.length_eq, r1]
    · obtain ⟨row, hrow, rfl⟩ := List.mem_map.1 hline
      rw [← (s2 row hrow).length_eq, r2 row hrow]

/-- **C110** fails for names with an ampersand, which are not escaped: the line with such a name has more cells than the table
has columns. -/
theorem C110_violated (kde : KdeFn) (hp : Heap ℝ) (s : Consumer ℝ) (req : ChainReq ℝ) (o : TableOpts) (text : String)
    (h : latexTable kde hp s req o = .ok text) (hc : '%' ∉ (o.caption.getD "").toList)
    (hl : '%' ∉ (o.label.getD "").toList) (hto : o.transpose = false) (final : List (String × Chain ℝ)) (cs : List (Chain ℝ))
    (hf : finalDict hp s = .ok final) (hcs : plotChains final req false = .ok cs) (c : Chain ℝ) (hmem : c ∈ cs)
    (hamp : '&' ∈ c.name.toList) :
    ∃ columns header rows, text = tableText (o.caption.getD "") (o.label.getD "") columns (ruled o.hlines header rows) ∧
      ∃ line ∈ rows, columns.length < (cellTexts line.toList).length := by
  obtain ⟨p, h1, rfl⟩ := latexTable_lines h hc hl
  refine ⟨_, _, _, rfl, ?_⟩
  obtain ⟨-, r2⟩ := C43_rectangular_partial kde hp s req o p h1 (by simp [hto])
  obtain ⟨final', cs', plotted, cols, owners, hf', hcs', -, -, hfo, -, -, hF, -⟩ := C43_table kde hp s req o p h1
  obtain rfl : final' = final := Except.ok.inj (hf'.symm.trans hf)
  obtain rfl : cs' = cs := Except.ok.inj (hcs'.symm.trans hcs)
  have : c.name ∈ owners.map (·.name) := (hfo.mem _).2 (List.mem_map_of_mem hmem)
  obtain ⟨d, hd, hdn⟩ := List.mem_map.1 this
  obtain ⟨i, hi, rfl⟩ := List.mem_iff_getElem.1 hd
  have hr := (hF hto).2
  have hi' : i < p.rows.length := by rw [← hr.length_eq]; exact hi
  obtain ⟨cells, hcell, -⟩ := hr.get hi hi'
  simp only [List.get_eq_getElem] at hcell
  refine ⟨tableLine p.rows[i], List.mem_map_of_mem (List.getElem_mem hi'), ?_⟩
  rw [← r2 _ (List.getElem_mem hi'), hcell, tableLine_length]
  simp only [List.map_cons, List.sum_cons]
  have : 0 < (("\t\t" ++ owners[i].name : String).toList).count '&' := by
    rw [List.count_pos_iff, String.toList_append, List.mem_append]
    right
    rw [hdn]
    exact hamp
  omega

/-! ### An example -/

/-- Chains made alike but for their names are alike but for their names. -/
theorem make_rename {a : Args ℝ} {c : Chain ℝ} (h : Chain.make a = .ok c) (n : String) :
    Chain.make { a with name := n } = .ok { c with name := n } := by
  rw [Chain.make_ok_iff] at h ⊢
  obtain ⟨col, raw, f0, f, h1, h2, h3, h4, h5, h6, h7, h8, h9, h10, rfl⟩ := h
  exact ⟨col, raw, f0, f, h1, h2, h3, h4, h5, h6, h7, h8, h9, h10, rfl⟩

theorem named_table (kde : KdeFn) (hkde : KdeOk kde) (name : String) : ∃ c d text,
    Chain.make { skewArgs .maxCentral with name := name } = .ok c ∧
    finalDict [c] { chains := [(name, 0)] } = .ok [(name, d)] ∧ plotChains [(name, d)] .all false = .ok [d] ∧
    d.name = name ∧ d.plottingColumns = ["x"] ∧ latexTable kde [c] { chains := [(name, 0)] } .all {} = .ok text := by
  obtain ⟨c0, hc0, l, x, u, hsum, hlt⟩ := C28_violated kde hkde
  obtain ⟨c', m, hc', hst, har, hmm, hsam, -, -, hm, hv, -⟩ := skew_chain kde hkde .maxCentral
  obtain rfl : c0 = c' := Except.ok.inj (hc0.symm.trans hc')
  have hfacts : c0.weightColumn = "weight" ∧ c0.posteriorColumn = "log_posterior" ∧
      c0.cfg .plotContour = true ∧ c0.cfg .plotCloud = false := by
    have hf : skewFrame.WF := ⟨by simp [skewFrame], by simp [skewFrame]⟩
    obtain ⟨c', hc', -, hw, hp, -, -, -, -, hcfg⟩ :=
      plain_chain_cfg true [⟨.statistics, some .maxCentral⟩] rfl
        (by change (0 : ℝ) ≤ 6827 / 10000 ∧ (6827 / 10000 : ℝ) ≤ 1; constructor <;> norm_num)
        (by change (1 : ℝ) ≤ 10; norm_num) rfl rfl (by intro h; cases h) skewFrame hf
        (by simp [skewFrame]) (w := [3, 1]) rfl (by simp) "skew" 1 le_rfl (one_dvd _)
    obtain rfl : c0 = c' := Except.ok.inj (hc0.symm.trans hc')
    exact ⟨hw, hp, by rw [hcfg]; rfl, by rw [hcfg]; rfl⟩
  have he : summaryEntry kde c0 "x" = .ok (.single ⟨some l, some x, some u⟩) := by
    rw [C37_lists]
    exact ⟨_, hsum, Or.inl ⟨hmm, rfl⟩⟩
  have hc := make_rename hc0 name
  obtain ⟨c, hcd⟩ : ∃ c, c = { c0 with name := name } := ⟨_, rfl⟩
  rw [← hcd] at hc
  obtain ⟨hw, hpost, hcon, hcl⟩ : c.weightColumn = "weight" ∧ c.posteriorColumn = "log_posterior" ∧
      c.cfg .plotContour = true ∧ c.cfg .plotCloud = false := by rw [hcd]; exact hfacts
  replace he : summaryEntry kde c "x" = .ok (.single ⟨some l, some x, some u⟩) := by rw [hcd]; exact he
  replace hsam : c.samples = skewFrame := by rw [hcd]; exact hsam
  have hname : c.name = name := by rw [hcd]
  obtain ⟨text, -, ht⟩ := (C42_formats_partial (⟨some l, some x, some u⟩ : Bound ℝ) true none (by
    intro h; cases h; exact lt_irrefl _ hlt)).2 l x u rfl
  simp only [if_true] at ht
  generalize "$" ++ ("" ++ text) ++ "$" = cell at ht
  set s : Consumer ℝ := { chains := [(name, 0)] } with hs
  have hco : chainsOf [c] s = [c] := by simp [chainsOf, copyChains, hs]
  set n := numContourChains [c] s
  set g := Spec.resolved none c.userSet n c.cfg (Spec.autoColours.getD 0 "") with hg
  have hfd : finalDict [c] s = .ok [(name, c.withCfg g)] := by
    rw [finalDict_eq _ _ (by rw [hco]; exact le_trans (List.length_filter_le _ _) (by simp)), hco]
    simp [resolvedChains, copyChains, hs, n, hg]
  have hcols : c.samples.columns = ["x", "weight"] := by rw [hsam]; rfl
  have hdata : c.dataColumns = ["x"] := by
    unfold Chain.dataColumns
    rw [hcols, hw, hpost]
    decide +kernel
  have hgk : ∀ k, Spec.auto n c.cfg (Spec.autoColours.getD 0 "") k = none → g k = c.cfg k :=
    fun k hk => resolved_own _ _ _ _ _ hk
  have hplot : (c.withCfg g).plottingColumns = ["x"] := by
    have h1 : (c.withCfg g).cfg .plotCloud = false := by rw [← hcl]; exact hgk _ rfl
    unfold Chain.plottingColumns
    rw [h1]
    exact hdata
  have hskip : (c.withCfg g).skip = false := by
    have h1 : (c.withCfg g).cfg .plotContour = true := by rw [← hcon]; exact hgk _ rfl
    unfold Chain.skip
    rw [h1]
    have : (c.withCfg g).samples.empty = false := by
      change c.samples.empty = false
      rw [hsam]
      rfl
    rw [this]
    rfl
  have hcs : chainSummary kde (c.withCfg g) ["x"] [] = .ok [("x", .single ⟨some l, some x, some u⟩)] := by
    rw [chainSummary_withCfg kde c g (resolved_summaryKeys none _ _ _ _ (by intro o ho; cases ho))]
    simp [chainSummary, hcols, he, bind, Except.bind, dictSet]
  have hn : (c.withCfg g).name = name := hname
  have hparts : ∃ p, latexTableParts kde [c] s .all {} = .ok p := by
    simp [latexTableParts, hfd, plotChains, hskip, sanitiseColumns, hplot, sanitiseBlinds, getSummary, summaryLoop, hcs, bind,
      Except.bind, pure, Except.pure, tableParts, tableCell, List.mapM_cons, ht, dictSet]
  obtain ⟨p, hp⟩ := hparts
  refine ⟨c, c.withCfg g, tableText "" "tab:model_params" p.columnText (tableCenter true p), hc, hfd, ?_, hn, hplot, ?_⟩
  · simp [plotChains, hskip, bind, Except.bind, pure, Except.pure]
  · simp only [latexTable, hp, bind, Except.bind]
    exact pyMod_frame _ _ _ _ (by decide) (by decide)

/-- The table of a chain with an ordinary name reads as a table of two columns; the row of a chain called `SN & BAO` has three
cells or more. -/
example (kde : KdeFn) (hkde : KdeOk kde) :
    (∃ c text, Chain.make { skewArgs .maxCentral with name := "SN and BAO" } = .ok c ∧
      latexTable kde [c] { chains := [("SN and BAO", 0)] } .all {} = .ok text ∧
      ∃ columns header rows, text = tableText "" "tab:model_params" columns (ruled true header rows) ∧
        ∀ line ∈ header :: rows, (cellTexts line.toList).length = columns.length) ∧
    ∃ c text, Chain.make { skewArgs .maxCentral with name := "SN & BAO" } = .ok c ∧
      latexTable kde [c] { chains := [("SN & BAO", 0)] } .all {} = .ok text ∧
      ∃ columns header rows, text = tableText "" "tab:model_params" columns (ruled true header rows) ∧
        ∃ line ∈ rows, columns.length < (cellTexts line.toList).length := by
  constructor
  · obtain ⟨c, d, text, hc, hf, hcs, hn, hp, ht⟩ := named_table kde hkde "SN and BAO"
    refine ⟨c, text, hc, ht, ?_⟩
    obtain ⟨p, header, rows, -, h2, -, -, h5⟩ := C110_text_partial kde _ _ _ _ text ht (by decide) (by decide) (by decide) (by
      intro final cs h1 h2
      obtain rfl := Except.ok.inj (hf.symm.trans h1)
      obtain rfl := Except.ok.inj (hcs.symm.trans h2)
      refine ⟨?_, by simp, ?_⟩
      · intro c' hc'
        rw [List.mem_singleton.1 hc', hn]
        decide
      · intro q hq
        simp only [Option.getD_none, List.flatMap_cons, hp, List.flatMap_nil, List.append_nil, List.mem_singleton] at hq
        subst hq
        decide)
    exact ⟨p.columnText, header, rows, h2, h5⟩
  · obtain ⟨c, d, text, hc, hf, hcs, hn, hp, ht⟩ := named_table kde hkde "SN & BAO"
    refine ⟨c, text, hc, ht, ?_⟩
    obtain ⟨columns, header, rows, h1, h2⟩ := C110_violated kde _ _ _ _ text ht (by decide) (by decide) rfl _ _ hf hcs d
      (by simp) (by rw [hn]; decide)
    exact ⟨columns, header, rows, h1, h2⟩

end CC
