import Verif.Model.Request
import Verif.Lemmas.Dict
import Verif.Props.Config
import Verif.Props.Bands

/-! # C37, C55: which chains and columns are summarised and plotted -/

namespace CC
open Spec

/-! ### the registry as a dictionary of final chains -/

/-- The final dictionary: every registered name, in order, with its resolved chain; it exists unless
colours run out. -/
theorem finalDict_eq (h : Heap ℝ) (s : Consumer ℝ) (hu : uncoloured (chainsOf h s) ≤ 88) :
    finalDict h s = .ok (((copyChains h s).map Prod.fst).zip
      (resolvedChains (numContourChains h s) s.override (chainsOf h s) 0)) := by
  have hf := (finalChains_eq h s).1 hu
  simp only [finalDict, hf, bind, Except.bind, pure, Except.pure]
  congr 1
  set R := resolvedChains (numContourChains h s) s.override (chainsOf h s) 0 with hR
  have hlen : R.length = (copyChains h s).length := by
    rw [hR, resolvedChains_length, chainsOf, List.length_map]
  generalize copyChains h s = C at *
  have key : ∀ (C : List (String × Chain ℝ)) (pre R : List (Chain ℝ)), R.length = C.length →
      ((C.map Prod.fst).zip ((List.range C.length).map (pre.length + ·))).filterMap
        (fun e => ((pre ++ R)[e.2]?).map fun c => (e.1, c)) = (C.map Prod.fst).zip R := by
    intro C
    induction C with
    | nil => intro pre R h; simp
    | cons c C ih =>
      intro pre R hl
      cases R with
      | nil => simp at hl
      | cons r R =>
        have := ih (pre ++ [r]) R (by simpa using hl)
        simp only [List.length_cons, List.range_succ_eq_map, List.map_cons, List.map_map, List.zip_cons_cons,
          Nat.add_zero]
        rw [List.filterMap_cons]
        simp only [List.getElem?_append_right (le_refl _), Nat.sub_self, List.getElem?_cons_zero, Option.map_some]
        congr 1
        rw [← this]
        simp only [List.length_append, List.length_singleton, List.append_assoc, List.singleton_append]
        congr 2
        apply List.map_congr_left
        intro i _
        simp only [Function.comp]
        omega
  exact key C h R hlen

/-! ### C55 -/

/-- **C55** (columns). Without an explicit list, the columns are those of the shown chains, each once,
in the order of first appearance; an explicit list is used as is. -/
theorem C55_columns {K : Type} (chains : List (Chain K)) :
    FirstOrder (chains.flatMap Chain.plottingColumns) (sanitiseColumns none chains) ∧
      ∀ cols, sanitiseColumns (some cols) chains = cols := by
  refine ⟨?_, fun _ => rfl⟩
  have h := firstOrder_foldl (firstOrder_nil (α := String)) (chains.flatMap Chain.plottingColumns)
  rw [List.nil_append, List.foldl_flatMap] at h
  exact h

/-- **C55** (columns of a chain). The columns that a chain contributes are those of its table in table order, except for its
weights, its posteriors, columns with a reserved name in any case, and the column that colours its cloud. -/
theorem C55_chain_columns {K : Type} (c : Chain K) : c.plottingColumns.Sublist (c.samples.cols.map Prod.fst) ∧
    ∀ n, n ∈ c.plottingColumns ↔ n ∈ c.samples.cols.map Prod.fst ∧ n ≠ c.weightColumn ∧ n ≠ c.posteriorColumn ∧
      pyLower n ∉ ["weight", "weights", "posterior", "posteriors", "log_weights", "log_posterior", "log_posteriors"] ∧
      ¬(c.cfg .plotCloud = true ∧ c.cfg .colorParam = some n) := by
  unfold Chain.plottingColumns Chain.dataColumns Frame.columns Chain.reserved
  constructor
  · split_ifs
    · exact List.filter_sublist
    · exact List.filter_sublist.trans List.filter_sublist
  · intro n
    cases c.cfg .plotCloud with
    | false => simp; tauto
    | true =>
      simp
      intro _ _
      rw [eq_comm (a := some n)]
      constructor
      · rintro ⟨h1, ⟨h2, h3⟩, h4⟩
        exact ⟨h2, h3, h4, h1⟩
      · rintro ⟨h2, h3, h4, h1⟩
        exact ⟨h1, ⟨h2, h3⟩, h4⟩

/-- A chain with something to draw: a table that is not empty, and at least one of contours, cloud and point switched on. -/
def Spec.Drawn {K : Type} (c : Chain K) : Prop :=
  c.samples.index ≠ [] ∧ c.samples.cols ≠ [] ∧
    (c.cfg .plotContour = true ∨ c.cfg .plotCloud = true ∨ c.cfg .plotPoint = true)

theorem skip_iff {K : Type} (c : Chain K) : c.skip = false ↔ Spec.Drawn c := by
  unfold Chain.skip Spec.Drawn Frame.empty
  cases c.samples.index <;> cases c.samples.cols <;> cases c.cfg .plotContour <;> cases c.cfg .plotCloud <;>
    cases c.cfg .plotPoint <;> simp

open Classical in
/-- The chains left after those with nothing to draw are dropped, unless these are asked for. -/
noncomputable def Spec.visible {K : Type} (skipped : Bool) (l : List (Chain K)) : List (Chain K) :=
  l.filter fun c => decide (skipped = true ∨ Spec.Drawn c)

theorem visible_eq {K : Type} (skipped : Bool) (l : List (Chain K)) :
    (l.filter fun c => skipped || !c.skip) = Spec.visible skipped l := by
  unfold Spec.visible
  congr 1
  funext c
  rw [Bool.eq_iff_iff]
  simp [← skip_iff]

/-- **C55** (chains). The chains shown are those requested, in request order (all registered ones, in
registry order, if none are requested), without those that have nothing to draw unless these are
asked for; a chain object is looked up by its name; a request fails exactly if it contains a name that is not registered. -/
theorem C55_chains {K : Type} (final : List (String × Chain K)) (skipped : Bool) (cs : List (Chain K)) :
    (plotChains final .all skipped = .ok cs ↔ cs = Spec.visible skipped (final.map Prod.snd)) ∧
    (∀ l, plotChains final (.list l) skipped = .ok cs ↔
      ∃ all, List.Forall₂ (fun r c => (∀ n, r = .inl n → final.lookup n = some c) ∧
        ∀ d : Chain K, r = .inr d → final.lookup d.name = some c) l all ∧ cs = Spec.visible skipped all) ∧
    (∀ d, plotChains final (.dict d) skipped = .ok cs ↔
      ∃ all, List.Forall₂ (fun (r : String × Chain K) c => final.lookup r.2.name = some c) d all ∧
        cs = Spec.visible skipped all) := by
  simp only [← visible_eq]
  have hreq : ∀ (r : String ⊕ Chain K) c, final.lookup (reqName r) = some c ↔ (∀ n, r = .inl n → final.lookup n = some c) ∧
      ∀ d : Chain K, r = .inr d → final.lookup d.name = some c := by
    intro r c
    cases r <;> simp [reqName]
  simp only [← hreq]
  have hget : ∀ n (c : Chain K), dictGet final n = .ok c ↔ final.lookup n = some c := by
    intro n c
    unfold dictGet
    cases final.lookup n with
    | none => simp
    | some c' => simp
  refine ⟨?_, fun l => ?_, fun d => ?_⟩
  · simp only [plotChains, bind_ok_iff, pure_ok_iff]
    constructor
    · rintro ⟨a, rfl, rfl⟩; rfl
    · rintro rfl; exact ⟨_, rfl, rfl⟩
  · simp only [plotChains, bind_ok_iff, pure_ok_iff, mapM_ok_iff, hget]
    exact exists_congr fun a => and_congr_right fun _ => eq_comm
  · simp only [plotChains, bind_ok_iff, pure_ok_iff, mapM_ok_iff, hget]
    exact exists_congr fun a => and_congr_right fun _ => eq_comm

/-! ### C37 -/

theorem chainSummary_ok_iff (kde : KdeFn) (c : Chain ℝ) (ps : List String)
    (res r : List (String × Summary ℝ)) :
    chainSummary kde c ps res = .ok r ↔ ∃ kvs : List (String × Summary ℝ),
      List.Forall₂ (fun p kv => kv.1 = p ∧ summaryEntry kde c p = .ok kv.2)
        (ps.filter (· ∈ c.samples.columns)) kvs ∧ r = dictMerge res kvs := by
  induction ps generalizing res with
  | nil =>
    simp only [chainSummary, List.filter_nil, List.forall₂_nil_left_iff]
    constructor
    · intro h; exact ⟨[], rfl, (Except.ok.inj h).symm⟩
    · rintro ⟨kvs, rfl, rfl⟩; rfl
  | cons p ps ih =>
    by_cases hp : p ∈ c.samples.columns
    · rw [chainSummary, if_neg (not_not.2 hp), bind_ok_iff, List.filter_cons_of_pos (by simpa using hp)]
      simp only [ih, List.forall₂_cons_left_iff]
      constructor
      · rintro ⟨s, hs, kvs, h1, h2⟩
        exact ⟨(p, s) :: kvs, ⟨(p, s), kvs, ⟨rfl, hs⟩, h1, rfl⟩, h2⟩
      · rintro ⟨kvs, ⟨kv, kvs', ⟨rfl, h1⟩, h2, rfl⟩, h3⟩
        exact ⟨kv.2, h1, kvs', h2, h3⟩
    · rw [chainSummary, if_pos hp, List.filter_cons_of_neg (by simpa using hp)]
      exact ih res

theorem summaryLoop_ok_iff (kde : KdeFn) (cols : List String) (cs : List (Chain ℝ))
    (res r : List (String × List (String × Summary ℝ))) :
    summaryLoop kde cols cs res = .ok r ↔ ∃ kvs : List (String × List (String × Summary ℝ)),
      List.Forall₂ (fun (c : Chain ℝ) kv => kv.1 = c.name ∧ chainSummary kde c cols [] = .ok kv.2) cs kvs ∧
        r = dictMerge res kvs := by
  induction cs generalizing res with
  | nil =>
    simp only [summaryLoop, List.forall₂_nil_left_iff]
    constructor
    · intro h; exact ⟨[], rfl, (Except.ok.inj h).symm⟩
    · rintro ⟨kvs, rfl, rfl⟩; rfl
  | cons c cs ih =>
    rw [summaryLoop, bind_ok_iff]
    simp only [ih, List.forall₂_cons_left_iff]
    constructor
    · rintro ⟨s, hs, kvs, h1, h2⟩
      exact ⟨(c.name, s) :: kvs, ⟨(c.name, s), kvs, ⟨rfl, hs⟩, h1, rfl⟩, h2⟩
    · rintro ⟨kvs, ⟨kv, kvs', ⟨h0, h1⟩, h2, rfl⟩, h3⟩
      refine ⟨kv.2, h1, kvs', h2, ?_⟩
      rw [h3, ← h0]; rfl

/-- What `get_summary` reports about the columns `cols` of one chain. -/
structure Spec.Covers (kde : KdeFn) (c : Chain ℝ) (cols : List String)
    (r : List (String × Summary ℝ)) : Prop where
  columns : FirstOrder (cols.filter (· ∈ c.samples.columns)) (r.map Prod.fst)
  values : ∀ e ∈ r, summaryEntry kde c e.1 = .ok e.2

theorem chainSummary_covers {kde : KdeFn} {c : Chain ℝ} {cols : List String}
    {r : List (String × Summary ℝ)} (h : chainSummary kde c cols [] = .ok r) :
    Covers kde c cols r := by
  obtain ⟨kvs, h1, rfl⟩ := (chainSummary_ok_iff _ _ _ _ _).1 h
  obtain ⟨h2, h3⟩ := dictMerge_nil_spec kvs
  have hk : kvs.map Prod.fst = cols.filter (· ∈ c.samples.columns) := by
    have : List.Forall₂ (fun p (kv : String × Summary ℝ) => kv.1 = p)
        (cols.filter (· ∈ c.samples.columns)) kvs := h1.imp fun _ _ h => h.1
    generalize cols.filter (· ∈ c.samples.columns) = l at this ⊢
    clear h1 h2 h3 h
    induction this with
    | nil => rfl
    | cons h _ ih => rw [List.map_cons, ih, h]
  refine ⟨hk ▸ h2, fun e he => ?_⟩
  obtain ⟨pre, post, h4, -⟩ := h3 e he
  have hmem : (e.1, e.2) ∈ kvs := by rw [h4]; simp
  have : ∀ kv ∈ kvs, summaryEntry kde c kv.1 = .ok kv.2 := by
    clear h2 h3 h4 hmem hk h he
    generalize cols.filter (· ∈ c.samples.columns) = l at h1
    induction h1 with
    | nil => intro kv hkv; cases hkv
    | cons h _ ih =>
      intro kv hkv
      rcases List.mem_cons.1 hkv with rfl | hkv
      · rw [h.1]; exact h.2
      · exact ih kv hkv
  exact this _ hmem

/-- `c` is the last chain of the list with its name. -/
def Spec.LastNamed (cs : List (Chain ℝ)) (c : Chain ℝ) : Prop :=
  ∃ pre post, cs = pre ++ c :: post ∧ c.name ∉ post.map (·.name)

/-- **C37**. A summary has one entry per chain name, in the order of first appearance; an entry belongs
to the last chain of that name and has one value per requested column that the chain has, in request
order, and nothing else. The request is the given list, or all columns plotted for the chains. -/
theorem C37_structure (kde : KdeFn) (h : Heap ℝ) (s : Consumer ℝ) (chains : Option (List (Chain ℝ)))
    (columns : Option (List String)) (res : List (String × List (String × Summary ℝ)))
    (hres : getSummary kde h s chains columns = .ok res) :
    ∃ cs cols, (match chains with
        | some l => cs = l
        | none => ∃ d, finalDict h s = .ok d ∧ cs = d.map Prod.snd) ∧
      (match columns with
        | some l => cols = l
        | none => FirstOrder (cs.flatMap Chain.plottingColumns) cols) ∧
      FirstOrder (cs.map (·.name)) (res.map Prod.fst) ∧
      ∀ e ∈ res, ∃ c, LastNamed cs c ∧ c.name = e.1 ∧ Covers kde c cols e.2 := by
  obtain ⟨cs, hcs, hl⟩ : ∃ cs, (match chains with
        | some l => cs = l
        | none => ∃ d, finalDict h s = .ok d ∧ cs = d.map Prod.snd) ∧
      summaryLoop kde (sanitiseColumns columns cs) cs [] = .ok res := by
    cases chains with
    | some l => exact ⟨l, rfl, by simpa [getSummary] using hres⟩
    | none =>
      obtain ⟨cs, hcs, hl⟩ := (bind_ok_iff ..).1 hres
      obtain ⟨d, hd, hcs⟩ := (bind_ok_iff ..).1 hcs
      refine ⟨cs, ⟨d, hd, ?_⟩, hl⟩
      have := ((C55_chains d true cs).1).1 hcs
      rw [← visible_eq] at this
      simpa using this
  refine ⟨cs, sanitiseColumns columns cs, hcs, ?_, ?_⟩
  · cases columns with
    | some l => rfl
    | none => exact (C55_columns cs).1
  obtain ⟨kvs, h1, rfl⟩ := (summaryLoop_ok_iff _ _ _ _ _).1 hl
  obtain ⟨h2, h3⟩ := dictMerge_nil_spec kvs
  have hnames : kvs.map Prod.fst = cs.map (·.name) := by
    clear h2 h3 hl hcs hres
    generalize sanitiseColumns columns cs = cols at h1
    induction h1 with
    | nil => rfl
    | cons h _ ih => rw [List.map_cons, List.map_cons, ih, h.1]
  refine ⟨hnames ▸ h2, fun e he => ?_⟩
  obtain ⟨pre, post, h4, h5⟩ := h3 e he
  rw [h4] at h1
  generalize sanitiseColumns columns cs = cols at h1 ⊢
  obtain ⟨cpre, crest, h6, h7, h8⟩ : ∃ a b, List.Forall₂ (fun (c : Chain ℝ)
      (kv : String × List (String × Summary ℝ)) => kv.1 = c.name ∧ chainSummary kde c cols [] = .ok kv.2) a pre ∧
      List.Forall₂ (fun (c : Chain ℝ) (kv : String × List (String × Summary ℝ)) => kv.1 = c.name ∧
        chainSummary kde c cols [] = .ok kv.2) b ((e.1, e.2) :: post) ∧ cs = a ++ b := by
    exact ⟨_, _, List.forall₂_take_append _ _ _ h1, List.forall₂_drop_append _ _ _ h1,
      (List.take_append_drop _ _).symm⟩
  obtain ⟨c, cpost, h9, h10, rfl⟩ := List.forall₂_cons_right_iff.1 h7
  refine ⟨c, ⟨cpre, cpost, h8, ?_⟩, h9.1.symm, chainSummary_covers h9.2⟩
  have : cpost.map (·.name) = post.map Prod.fst := by
    clear h2 h3 h4 h5 h6 h7 h8 h9 hnames h1 hl hcs he hres
    induction h10 with
    | nil => rfl
    | cons h _ ih => rw [List.map_cons, List.map_cons, ih, h.1]
  rw [this, ← h9.1]
  exact h5

/-- **C37** (lists of bounds). A list of bounds is reported exactly for multimodal chains with at least
two bands; otherwise the chain's summary is reported. -/
theorem C37_lists (kde : KdeFn) (c : Chain ℝ) (col : String) (v : Summary ℝ) :
    summaryEntry kde c col = .ok v ↔
      ∃ b, parameterSummary kde c col = .ok b ∧
        ((c.cfg .multimodal = false ∧ v = .single b) ∨
          (c.cfg .multimodal = true ∧ ∃ m ivs, smoothedHistogram kde c col true none = .ok m ∧
            hdiIntervals m (c.cfg .summaryArea : ℝ) = .ok ivs ∧
            ((ivs.length < 2 ∧ v = .single b) ∨
              (2 ≤ ivs.length ∧ ∃ bs, multimodalBounds m ivs = .ok bs ∧ v = .multi bs)))) := by
  simp only [summaryEntry, bind_ok_iff]
  refine exists_congr fun b => and_congr_right fun _ => ?_
  cases hm : (c.cfg .multimodal : Bool) with
  | false => simp [pure, Except.pure, eq_comm]
  | true =>
    simp only [if_true, bind_ok_iff, Bool.true_eq_false, false_and, false_or, true_and]
    refine exists_congr fun m => ?_
    constructor
    · rintro ⟨h1, ivs, h2, h3⟩
      refine ⟨ivs, h1, h2, ?_⟩
      by_cases h4 : 2 ≤ ivs.length
      · rw [if_pos h4] at h3
        obtain ⟨bs, h5, h6⟩ := (bind_ok_iff ..).1 h3
        exact Or.inr ⟨h4, bs, h5, (Except.ok.inj h6).symm⟩
      · rw [if_neg h4] at h3
        exact Or.inl ⟨not_le.1 h4, (Except.ok.inj h3).symm⟩
    · rintro ⟨ivs, h1, h2, h3⟩
      refine ⟨h1, ivs, h2, ?_⟩
      rcases h3 with ⟨h4, rfl⟩ | ⟨h4, bs, h5, rfl⟩
      · rw [if_neg (not_le.2 h4)]; rfl
      · rw [if_pos h4, h5]; rfl

/-- A chain with one parameter, of which an unknown parameter is also requested. -/
example (kde : KdeFn) (hkde : KdeOk kde) (h : Heap ℝ) (s : Consumer ℝ) : ∃ c b,
    Chain.make (skewArgs .hdi) = .ok c ∧
    getSummary kde h s (some [c]) (some ["none", "x", "x"]) = .ok [("skew", [("x", .single b)])] ∧
    getSummary kde h s (some [c, c]) (some ["x"]) = .ok [("skew", [("x", .single b)])] := by
  obtain ⟨c, m, hc, hst, har, hmm, hsam, -, hname, hm, hv, -⟩ := skew_chain kde hkde .hdi
  obtain ⟨l, ce, u, hs, -⟩ := C31_hdi_mass hv (6827 / 10000 : ℝ) (by norm_num)
  have he : summaryEntry kde c "x" = .ok (.single ⟨some l, some ce, some u⟩) := by
    rw [C37_lists]
    refine ⟨_, ?_, Or.inl ⟨hmm, rfl⟩⟩
    simp only [parameterSummary, hst, har, hm, bind, Except.bind, hs]
  have hcols : c.samples.columns = ["x", "weight"] := by rw [hsam]; rfl
  have hcs : chainSummary kde c ["none", "x", "x"] [] = .ok [("x", .single ⟨some l, some ce, some u⟩)] := by
    simp [chainSummary, hcols, he, bind, Except.bind, dictSet]
  have hcs' : chainSummary kde c ["x"] [] = .ok [("x", .single ⟨some l, some ce, some u⟩)] := by
    simp [chainSummary, hcols, he, bind, Except.bind, dictSet]
  refine ⟨c, ⟨some l, some ce, some u⟩, hc, ?_, ?_⟩
  · simp [getSummary, sanitiseColumns, summaryLoop, hcs, bind, Except.bind, pure, Except.pure, dictSet, hname]
  · simp [getSummary, sanitiseColumns, summaryLoop, hcs', bind, Except.bind, pure, Except.pure, dictSet, hname]

end CC
