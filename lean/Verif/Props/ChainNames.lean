import Verif.Props.ChainOrder
import Verif.Props.Divide
import Std.Data.String.ToNat

/-! # C135: the names of chains carry no meaning -/

set_option linter.unusedSectionVars false

namespace CC
open Spec

/-- A chain under another name. -/
def Spec.named {K : Type} (f : String → String) (c : Chain K) : Chain K := { c with name := f c.name }

/-- The same objects under other names, ... -/
def Spec.namedHeap {K : Type} (f : String → String) (h : Heap K) : Heap K := h.map (named f)

/-- ... the registry that holds them, ... -/
def Spec.namedConsumer {K : Type} (f : String → String) (s : Consumer K) : Consumer K :=
  { s with chains := s.chains.map (Prod.map f id) }

/-- ... and a dictionary of chains. -/
def Spec.namedDict {K : Type} (f : String → String) (d : List (String × Chain K)) : List (String × Chain K) :=
  d.map (Prod.map f (named f))

section
variable {f : String → String} (hf : Function.Injective f)
include hf

theorem mem_keys {α β : Type} (g : α → β) (d : List (String × α)) (k : String) :
    f k ∈ (d.map (Prod.map f g)).map Prod.fst ↔ k ∈ d.map Prod.fst := by
  simp only [List.map_map, List.mem_map, Function.comp, Prod.map]
  constructor
  · rintro ⟨e, he, h⟩
    exact ⟨e, he, hf h⟩
  · rintro ⟨e, he, h⟩
    exact ⟨e, he, congrArg f h⟩

theorem dictSet_named {α β : Type} (g : α → β) (d : List (String × α)) (k : String) (v : α) :
    dictSet (d.map (Prod.map f g)) (f k) (g v) = (dictSet d k v).map (Prod.map f g) := by
  unfold dictSet
  by_cases h : k ∈ d.map Prod.fst
  · rw [if_pos h, if_pos ((mem_keys hf g d k).2 h), List.map_map, List.map_map]
    refine List.map_congr_left fun e _ => ?_
    by_cases he : e.1 = k
    · simp [Function.comp, he]
    · simp [Function.comp, he, hf.ne he]
  · rw [if_neg h, if_neg fun h' => h ((mem_keys hf g d k).1 h'), List.map_append]
    rfl

theorem dictPop_named {α β : Type} (g : α → β) (d : List (String × α)) (k : String) :
    dictPop (d.map (Prod.map f g)) (f k) = (dictPop d k).map (Prod.map f g) := by
  unfold dictPop
  rw [List.filter_map]
  congr 1
  refine List.filter_congr fun e _ => ?_
  simp [Function.comp, hf.eq_iff]

theorem lookup_named {α β : Type} (g : α → β) (d : List (String × α)) (k : String) :
    (d.map (Prod.map f g)).lookup (f k) = (d.lookup k).map g := by
  induction d with
  | nil => rfl
  | cons e d ih =>
    obtain ⟨n, v⟩ := e
    simp only [List.map_cons, Prod.map_apply, List.lookup_cons, ih]
    by_cases h : k = n
    · simp [h]
    · have h1 : (k == n) = false := by simpa using h
      have h2 : (f k == f n) = false := by simpa using hf.ne h
      rw [h1, h2]

end

section registry
variable {K : Type} {f : String → String} (hf : Function.Injective f)
include hf

/-- **C135** (adding). Whether a chain can be added, removed and found does not depend on what the chains are called, as long as
different names stay different. -/
theorem C135_registry (h : Heap K) (s : Consumer K) (r : Ref) (n : String) :
    (namedConsumer f s).addChain (namedHeap f h) r = (s.addChain h r).map (namedConsumer f) ∧
    (namedConsumer f s).removeName (f n) = (s.removeName n).map (namedConsumer f) ∧
    (namedConsumer f s).removeObj (namedHeap f h) r = (s.removeObj h r).map (namedConsumer f) ∧
    (namedConsumer f s).getChain (f n) = s.getChain n ∧
    (namedConsumer f s).getNames = s.getNames.map f := by
  have hrem : ∀ n, (namedConsumer f s).removeName (f n) = (s.removeName n).map (namedConsumer f) := by
    intro n
    unfold Consumer.removeName
    simp only [namedConsumer, mem_keys hf]
    split
    · simp only [Except.map, dictPop_named hf]
      rfl
    · rfl
  refine ⟨?_, hrem n, ?_, ?_, ?_⟩
  · unfold Consumer.addChain
    simp only [namedHeap, List.getElem?_map]
    cases h[r]? with
    | none => rfl
    | some c =>
      simp only [Option.map_some, named, namedConsumer, mem_keys hf]
      split
      · rfl
      · have := dictSet_named hf (id : Ref → Ref) s.chains c.name r
        simp only [id] at this
        simp only [Except.map, namedConsumer]
        rw [← this]
  · unfold Consumer.removeObj
    simp only [namedHeap, List.getElem?_map]
    cases h[r]? with
    | none => rfl
    | some c => exact hrem c.name
  · unfold Consumer.getChain
    simp only [namedConsumer, lookup_named hf]
    cases s.chains.lookup n <;> rfl
  · simp [Consumer.getNames, namedConsumer, Function.comp]

end registry

section final
variable {f : String → String}

theorem copyChains_named {K : Type} (h : Heap K) (s : Consumer K) :
    copyChains (namedHeap f h) (namedConsumer f s) = namedDict f (copyChains h s) := by
  unfold copyChains namedDict namedConsumer namedHeap
  dsimp only
  rw [List.filterMap_map, List.map_filterMap]
  refine List.filterMap_congr fun e _ => ?_
  simp only [Function.comp, Prod.map, id, List.getElem?_map]
  cases h[e.2]? <;> rfl

theorem numContour_named {K : Type} (h : Heap K) (s : Consumer K) :
    numContourChains (namedHeap f h) (namedConsumer f s) = numContourChains h s := by
  unfold numContourChains namedConsumer namedHeap
  dsimp only
  rw [List.filter_map, List.length_map]
  congr 1
  refine List.filter_congr fun e _ => ?_
  simp only [Function.comp, Prod.map, id, List.getElem?_map]
  cases h[e.2]? <;> rfl

theorem finaliseLoop_named (N : Nat) (o : Option (Config ℝ)) (rs : List Ref) (used : Nat) (h : Heap ℝ) :
    finaliseLoop N o rs used (namedHeap f h) = ((finaliseLoop N o rs used h).1, namedHeap f (finaliseLoop N o rs used h).2) := by
  induction rs generalizing used h with
  | nil => rfl
  | cons r rs ih =>
    unfold finaliseLoop
    have hget : (namedHeap f h)[r]? = (h[r]?).map (named f) := by rw [namedHeap, List.getElem?_map]
    rw [hget]
    cases hr : h[r]? with
    | none => rfl
    | some c =>
      have e : finaliseCfg N o (named f c) used = finaliseCfg N o c used := rfl
      simp only [Option.map_some, e]
      cases hc : finaliseCfg N o c used with
      | error x => rfl
      | ok p =>
        obtain ⟨cfg, used'⟩ := p
        dsimp only
        rw [← ih]
        congr 1
        simp only [namedHeap, List.map_set]
        rfl

/-- **C135** (settings). Under other names the chains have the same settings, automatic ones included. -/
theorem C135_settings (h : Heap ℝ) (s : Consumer ℝ) :
    finalDict (namedHeap f h) (namedConsumer f s) = (finalDict h s).map (namedDict f) := by
  have hfc : finalChains (namedHeap f h) (namedConsumer f s) =
      ((finalChains h s).1.map (List.map (Prod.map f id)), namedHeap f (finalChains h s).2) := by
    have hap : namedHeap f h ++ List.map Prod.snd (namedDict f (copyChains h s)) =
        namedHeap f (h ++ List.map Prod.snd (copyChains h s)) := by
      simp [namedHeap, namedDict, Function.comp]
    have hl1 : (namedHeap f h).length = h.length := by simp [namedHeap]
    have hl2 : (namedDict f (copyChains h s)).length = (copyChains h s).length := by simp [namedDict]
    have ho : (namedConsumer f s).override = s.override := rfl
    unfold finalChains
    simp only [copyChains_named, numContour_named, hap, hl1, hl2, ho, finaliseLoop_named]
    congr 1
    generalize (finaliseLoop _ _ _ _ _).1 = r
    cases r with
    | error e => rfl
    | ok u =>
      have e : ((copyChains h s).map (Prod.map f (named f))).map Prod.fst = ((copyChains h s).map Prod.fst).map f := by
        simp [Function.comp]
      simp only [Except.map, namedDict, Except.ok.injEq]
      rw [e, ← List.map_id (List.map (h.length + ·) _), List.zip_map, List.map_id]
  unfold finalDict
  rw [hfc]
  cases (finalChains h s).1 with
  | error e => rfl
  | ok d =>
    simp only [bind, Except.bind, Except.map, pure, Except.pure, Except.ok.injEq, namedDict]
    rw [List.filterMap_map, List.map_filterMap]
    refine List.filterMap_congr fun e _ => ?_
    simp only [Function.comp, Prod.map, id, namedHeap, List.getElem?_map]
    cases (finalChains h s).2[e.2]? <;> rfl

end final

section reports
variable {f : String → String} (hf : Function.Injective f)
include hf

theorem summaryLoop_named (kde : KdeFn) (columns : List String) (cs : List (Chain ℝ)) (res : List (String × List (String × Summary ℝ))) :
    summaryLoop kde columns (cs.map (named f)) (res.map (Prod.map f id)) =
      (summaryLoop kde columns cs res).map (List.map (Prod.map f id)) := by
  induction cs generalizing res with
  | nil => rfl
  | cons c cs ih =>
    have e : ∀ cols acc, chainSummary kde (named f c) cols acc = chainSummary kde c cols acc := by
      intro cols
      induction cols with
      | nil => intro acc; rfl
      | cons p ps ih =>
        intro acc
        have e1 : summaryEntry kde (named f c) p = summaryEntry kde c p := rfl
        have e2 : (named f c).samples = c.samples := rfl
        simp only [chainSummary, e1, e2, ih]
    simp only [List.map_cons, summaryLoop, e]
    cases chainSummary kde c columns [] with
    | error x => rfl
    | ok r =>
      simp only [bind, Except.bind]
      rw [← ih]
      congr 1
      exact dictSet_named hf (id : List (String × Summary ℝ) → _) res c.name r

/-- **C135** (`get_summary`). The same summaries are reported, under the new names. -/
theorem C135_summary (kde : KdeFn) (h : Heap ℝ) (s : Consumer ℝ) (chains : Option (List (Chain ℝ))) (columns : Option (List String)) :
    getSummary kde (namedHeap f h) (namedConsumer f s) (chains.map (List.map (named f))) columns =
      (getSummary kde h s chains columns).map (List.map (Prod.map f id)) := by
  have hcols : ∀ cs : List (Chain ℝ), sanitiseColumns columns (cs.map (named f)) = sanitiseColumns columns cs := by
    intro cs
    unfold sanitiseColumns
    cases columns with
    | some l => rfl
    | none =>
      dsimp only
      rw [List.foldl_map]
      rfl
  have key : ∀ cs : List (Chain ℝ), summaryLoop kde (sanitiseColumns columns (cs.map (named f))) (cs.map (named f)) [] =
      (summaryLoop kde (sanitiseColumns columns cs) cs []).map (List.map (Prod.map f id)) := by
    intro cs
    rw [hcols]
    exact summaryLoop_named hf kde _ cs []
  unfold getSummary
  cases chains with
  | some cs => exact key cs
  | none =>
    simp only [Option.map_none, C135_settings]
    cases finalDict h s with
    | error e => rfl
    | ok d =>
      have e1 : plotChains (namedDict f d) .all true = .ok ((d.map Prod.snd).map (named f)) := by
        simp [plotChains, namedDict, bind, Except.bind, pure, Except.pure, Function.comp]
      have e2 : plotChains d .all true = .ok (d.map Prod.snd) := by
        simp [plotChains, bind, Except.bind, pure, Except.pure]
      simp only [Except.map, bind, Except.bind, e1, e2]
      exact key _

omit hf in
theorem criterionLoop_named {K : Type} [Field K] [LinearOrder K] (g : Chain K → Res (Option (Flt K))) (hg : ∀ c, g (named f c) = g c)
    (cs : List (String × Chain K)) :
    criterionLoop g (namedDict f cs) = (criterionLoop g cs).map (List.map (Prod.map f id)) := by
  induction cs with
  | nil => rfl
  | cons e cs ih =>
    simp only [namedDict, List.map_cons, criterionLoop] at ih ⊢
    rw [ih]
    simp only [Prod.map, hg]
    cases g e.2 with
    | error x => rfl
    | ok v =>
      cases criterionLoop g cs with
      | error x => rfl
      | ok r => cases v <;> rfl

omit hf in
theorem relativeToMin_named {K : Type} [Field K] [LinearOrder K] (d : List (String × Flt K)) :
    relativeToMin (d.map (Prod.map f id)) = (relativeToMin d).map (Prod.map f id) := by
  cases d with
  | nil => rfl
  | cons e es =>
    simp only [relativeToMin, List.map_cons, List.foldl_map, List.map_map]
    rfl

omit hf in
/-- **C135** (criteria). The same information criteria are reported, under the new names. -/
theorem C135_criteria (tie : List (List ℝ) → List ℝ → Nat) (cs : List (String × Chain ℝ)) :
    aic (namedDict f cs) = (aic cs).map (List.map (Prod.map f id)) ∧ bic (namedDict f cs) = (bic cs).map (List.map (Prod.map f id)) ∧
      dic tie (namedDict f cs) = (dic tie cs).map (List.map (Prod.map f id)) := by
  have key : ∀ g : Chain ℝ → Res (Option (Flt ℝ)), (∀ c, g (named f c) = g c) →
      (do return relativeToMin (← criterionLoop g (namedDict f cs)) : Res _) =
        (do return relativeToMin (← criterionLoop g cs) : Res _).map (List.map (Prod.map f id)) := by
    intro g hg
    rw [criterionLoop_named g hg]
    cases criterionLoop g cs with
    | error x => rfl
    | ok r => simp only [Except.map, bind, Except.bind, pure, Except.pure, relativeToMin_named]
  exact ⟨key _ fun c => rfl, key _ fun c => rfl, key _ fun c => rfl⟩

/-! ### The table of comparisons -/

theorem unionKeys_named {α : Type} (ds : List (List (String × α))) :
    unionKeys (ds.map (List.map (Prod.map f id))) = (unionKeys ds).map f := by
  induction ds with
  | nil => rfl
  | cons d ds ih =>
    simp only [List.map_cons, unionKeys, ih, List.map_append, List.filter_map]
    congr 1
    · simp [Function.comp]
    · congr 1
      refine List.filter_congr fun n _ => ?_
      simp only [Function.comp, mem_keys hf]

theorem cellOf_named {K : Type} (d : List (String × Flt K)) (n : String) : cellOf (d.map (Prod.map f id)) (f n) = cellOf d n := by
  rw [cellOf, lookup_named hf, cellOf]
  cases d.lookup n <;> rfl

omit hf in
theorem insertKey_named {K : Type} [Field K] [LinearOrder K] {key key' : String → Flt K} (h : ∀ n, key' (f n) = key n) (n : String)
    (l : List String) : insertKey key' (f n) (l.map f) = (insertKey key n l).map f := by
  induction l with
  | nil => rfl
  | cons m ms ih =>
    simp only [List.map_cons, insertKey, h]
    split
    · rfl
    · rw [List.map_cons, ih]

omit hf in
theorem sortKey_named {K : Type} [Field K] [LinearOrder K] {key key' : String → Flt K} (h : ∀ n, key' (f n) = key n) (l : List String) :
    sortKey key' (l.map f) = (sortKey key l).map f := by
  unfold sortKey
  have : ∀ acc, List.foldl (fun acc n => insertKey key' n acc) (acc.map f) (l.map f) =
      (List.foldl (fun acc n => insertKey key n acc) acc l).map f := by
    induction l with
    | nil => intro acc; rfl
    | cons n l ih =>
      intro acc
      simp only [List.map_cons, List.foldl_cons]
      rw [insertKey_named h, ih]
  exact this []

omit hf in
theorem sortValues_named {K : Type} [Field K] [LinearOrder K] {key key' : String → Flt K} (h : ∀ n, key' (f n) = key n)
    (descending : Bool) (l : List String) : sortValues key' descending (l.map f) = (sortValues key descending l).map f := by
  obtain rfl : key = key' ∘ f := funext fun n => (h n).symm
  unfold sortValues
  simp only [List.filter_map, List.map_append, ← List.map_reverse, sortKey_named h]
  split <;> rfl

/-- **C135** (table of comparisons). The rows come in the same order and show the same values: each line is the new name followed by
what followed the old one. -/
theorem C135_table (tie : List (List ℝ) → List ℝ → Nat) (fmt : Flt ℝ → String) (o : CompOpts) (cs : List (String × Chain ℝ))
    {p : CompParts} (hp : compParts tie fmt o cs = .ok p) :
    ∃ p', compParts tie fmt o (namedDict f cs) = .ok p' ∧ p'.columnText = p.columnText ∧ p'.header = p.header ∧
      p'.names = p.names.map f ∧ ∃ cells : String → String, p.lines = p.names.map (fun n => "\t" ++ n ++ cells n) ∧
        p'.lines = p.names.map fun n => "\t" ++ f n ++ cells n := by
  obtain ⟨ha, hb, hd⟩ := C135_criteria (f := f) tie cs
  have honly : ∀ (b : Bool) (r : Res (List (String × Flt ℝ))), onlyIf b (r.map (List.map (Prod.map f id))) =
      (onlyIf b r).map (List.map (Prod.map f id)) := by
    intro b r
    cases b <;> rfl
  simp only [compParts, bind_ok_iff, pure_ok_iff, ensure_ok_iff] at hp
  obtain ⟨u, hs, a, ha', b, hb', d, hd', rfl⟩ := hp
  set key := cellOf (match o.sort with | .aic => a | .bic => b | .dic => d) with hkey
  set names := sortValues key o.descending (unionKeys [a, b, d]) with hnames
  have hk : cellOf (match o.sort with
      | .aic => a.map (Prod.map f id) | .bic => b.map (Prod.map f id) | .dic => d.map (Prod.map f id)) =
      cellOf ((match o.sort with | .aic => a | .bic => b | .dic => d).map (Prod.map f id)) := by
    cases o.sort <;> rfl
  have hn : sortValues (cellOf (match o.sort with
      | .aic => a.map (Prod.map f id) | .bic => b.map (Prod.map f id) | .dic => d.map (Prod.map f id))) o.descending
      (unionKeys [a.map (Prod.map f id), b.map (Prod.map f id), d.map (Prod.map f id)]) = names.map f := by
    rw [hk, show [a.map (Prod.map f id), b.map (Prod.map f id), d.map (Prod.map f id)] =
      [a, b, d].map (List.map (Prod.map f id)) from rfl, unionKeys_named hf]
    exact sortValues_named (fun n => cellOf_named hf _ n) _ _
  have run : compParts tie fmt o (namedDict f cs) = .ok
      { columnText := repeatChar 'c' (1 + (if o.aic then 1 else 0) + (if o.bic then 1 else 0) + 1)
        header := compHeader o
        names := names.map f
        lines := (names.map f).map (compLine o fmt (cellOf (a.map (Prod.map f id))) (cellOf (b.map (Prod.map f id)))
          (cellOf (d.map (Prod.map f id)))) } := by
    have ma : onlyIf o.aic (aic (namedDict f cs)) = .ok (a.map (Prod.map f id)) := by rw [ha, honly, ha']; rfl
    have mb : onlyIf o.bic (bic (namedDict f cs)) = .ok (b.map (Prod.map f id)) := by rw [hb, honly, hb']; rfl
    have md : onlyIf o.dic (dic tie (namedDict f cs)) = .ok (d.map (Prod.map f id)) := by rw [hd, honly, hd']; rfl
    simp only [compParts, ma, mb, md, ensure, hs, if_true, bind, Except.bind, pure, Except.pure, ← hn]
    cases o.sort <;> rfl
  refine ⟨_, run, rfl, rfl, rfl, fun n => (if o.aic then "  &  " ++ fmt (cellOf a n) ++ "  " else "") ++
    (if o.bic then "  &  " ++ fmt (cellOf b n) ++ "  " else "") ++ (if o.dic then "  &  " ++ fmt (cellOf d n) ++ "  " else "") ++
      " \\\\ \n", ?_, ?_⟩
  · refine List.map_congr_left fun n _ => ?_
    simp only [compLine, String.append_assoc]
  · dsimp only
    rw [List.map_map]
    refine List.map_congr_left fun n _ => ?_
    simp only [Function.comp, compLine, cellOf_named hf, String.append_assoc]

/-! ### Best points and diagnostics -/

omit hf in
/-- **C135** (best points). The same best points are reported, under the new names. -/
theorem C135_best_points {K : Type} [LT K] [DecidableLT K] (h : Heap K) (s : Consumer K) :
    getMaxPosteriors (namedHeap f h) (namedConsumer f s) .all = (getMaxPosteriors h s .all).map (List.map (Prod.map f id)) := by
  have h1 : postChains (namedHeap f h) (namedConsumer f s) .all = (postChains h s .all).map (namedDict f) := by
    unfold postChains namedConsumer
    dsimp only
    induction s.chains with
    | nil => rfl
    | cons e l ih =>
      have he : registered (namedHeap f h) (Prod.map f id e) = (registered h e).map (Prod.map f (named f)) := by
        unfold registered
        simp only [Prod.map, id, namedHeap, List.getElem?_map]
        cases h[e.2]? <;> rfl
      simp only [List.map_cons, List.mapM_cons, he, ih]
      cases registered h e with
      | error x => rfl
      | ok v => cases List.mapM (registered h) l <;> rfl
  have h2 : ∀ d : List (String × Chain K), postLoop (namedDict f d) = (postLoop d).map (List.map (Prod.map f id)) := by
    intro d
    induction d with
    | nil => rfl
    | cons e d ih =>
      have e1 : (named f e.2).maxPosteriorPoint = e.2.maxPosteriorPoint := rfl
      simp only [namedDict, List.map_cons, postLoop, Prod.map] at ih ⊢
      rw [e1, ih]
      cases e.2.maxPosteriorPoint with
      | error x => rfl
      | ok v =>
        cases postLoop d with
        | error x => rfl
        | ok r => cases v <;> rfl
  unfold getMaxPosteriors
  rw [h1]
  cases postChains h s .all with
  | error x => rfl
  | ok d => exact h2 d

/-- Verdicts under other names. -/
def Spec.namedResult (f : String → String) (r : TestResult) : TestResult := { r with results := r.results.map (Prod.map f id) }

theorem runDiagnostic_named (g : Chain ℝ → Res Bool) (hg : ∀ c, g (named f c) = g c) (cs : List (Chain ℝ)) :
    runDiagnostic g (cs.map (named f)) = (runDiagnostic g cs).map (namedResult f) := by
  have hone : ∀ c : Chain ℝ, (do let b ← g (named f c); return ({ passed := b, results := [((named f c).name, b)] } : TestResult) : Res _) =
      (do let b ← g c; return ({ passed := b, results := [(c.name, b)] } : TestResult) : Res _).map (namedResult f) := by
    intro c
    rw [hg]
    cases g c <;> rfl
  have hmany : ∀ l : List (Chain ℝ), (l.map (named f)).mapM (fun c => do
      let b ← g c; return ({ passed := b, results := [(c.name, b)] } : TestResult)) =
      (l.mapM (fun c => do let b ← g c; return ({ passed := b, results := [(c.name, b)] } : TestResult))).map
        (List.map (namedResult f)) := by
    intro l
    induction l with
    | nil => rfl
    | cons c l ih =>
      simp only [List.map_cons, List.mapM_cons, hone, ih]
      cases g c with
      | error x => rfl
      | ok b => cases (List.mapM (fun c => do let b ← g c; return ({ passed := b, results := [(c.name, b)] } : TestResult)) l : Res _) <;> rfl
  have hmerge : ∀ d e : List (String × Bool), dictMerge (d.map (Prod.map f id)) (e.map (Prod.map f id)) =
      (dictMerge d e).map (Prod.map f id) := by
    intro d e
    induction e generalizing d with
    | nil => rfl
    | cons x e ih =>
      unfold dictMerge at ih ⊢
      simp only [List.map_cons, List.foldl_cons]
      have := dictSet_named hf (id : Bool → Bool) d x.1 x.2
      simp only [id] at this
      rw [← ih, ← this]
      rfl
  have hfold : ∀ (l : List TestResult) (acc : List (String × Bool)),
      (l.map (namedResult f)).foldl (fun acc r => dictMerge acc r.results) (acc.map (Prod.map f id)) =
        (l.foldl (fun acc r => dictMerge acc r.results) acc).map (Prod.map f id) := by
    intro l
    induction l with
    | nil => intro acc; rfl
    | cons r l ih =>
      intro acc
      simp only [List.map_cons, List.foldl_cons]
      rw [← ih, ← hmerge]
      rfl
  match cs with
  | [] => rfl
  | [c] => exact hone c
  | c :: c' :: l =>
    have := hmany (c :: c' :: l)
    simp only [List.map_cons] at this
    simp only [List.map_cons, runDiagnostic, this]
    cases (List.mapM (fun c => do let b ← g c; return ({ passed := b, results := [(c.name, b)] } : TestResult)) (c :: c' :: l) : Res _) with
    | error x => rfl
    | ok r =>
      simp only [Except.map, bind, Except.bind, pure, Except.pure, namedResult, Except.ok.injEq, TestResult.mk.injEq]
      refine ⟨?_, hfold r []⟩
      rw [List.all_map]
      rfl

/-- **C135** (diagnostics). The verdicts are the same, under the new names. -/
theorem C135_diagnostics (spec : List ℝ → Flt ℝ) (normaltest : List (Flt ℝ) → Flt ℝ) (t first last t' : ℝ)
    (cs : List (String × Chain ℝ)) :
    gelmanRubin (namedDict f cs) .all t = (gelmanRubin cs .all t).map (namedResult f) ∧
    geweke spec normaltest (namedDict f cs) .all first last t' =
      (geweke spec normaltest cs .all first last t').map (namedResult f) := by
  have hs : sanitiseChains (namedDict f cs) .all = .ok ((cs.map Prod.snd).map (named f)) := by
    simp [sanitiseChains, namedDict, Function.comp]
  have hs' : sanitiseChains cs .all = .ok (cs.map Prod.snd) := rfl
  unfold gelmanRubin geweke
  rw [hs, hs']
  exact ⟨runDiagnostic_named hf _ (fun c => rfl) _, runDiagnostic_named hf _ (fun c => rfl) _⟩

end reports

section construction
variable {K : Type} [Field K] [LinearOrder K]

theorem map_bind' {α β γ : Type} (x : Res α) (k : α → Res β) (g : β → γ) : (x >>= k).map g = x >>= fun v => (k v).map g := by
  cases x <;> rfl

/-- **C135** (construction). A chain can be made under any name, and is the same chain but for the name. -/
theorem C135_made (a : Args K) (n : String) : Chain.make { a with name := n } = (Chain.make a).map fun c => { c with name := n } := by
  have hc : Args.constraintsOk { a with name := n } = a.constraintsOk := rfl
  simp only [Chain.make, hc, map_bind']
  rfl

/-- **C135** (walkers). Under another name a chain is divided into the same walkers, called after the new name. -/
theorem C135_divided (c : Chain K) (n : String) : Chain.divide { c with name := n } =
    c.divide.map fun cs => cs.zipIdx.map fun d => { d.1 with name := n ++ " Walker " ++ toString d.2 } := by
  have key : ∀ (l : List (Frame K)) (k : Nat), (l.zipIdx k).mapM (fun fi => Chain.make (Chain.walkerArgs { c with name := n } fi.2 fi.1)) =
      ((l.zipIdx k).mapM (fun fi => Chain.make (c.walkerArgs fi.2 fi.1))).map
        fun cs => (cs.zipIdx k).map fun d => ({ d.1 with name := n ++ " Walker " ++ toString d.2 } : Chain K) := by
    intro l
    induction l with
    | nil => intro k; rfl
    | cons x l ih =>
      intro k
      have e : Chain.make (Chain.walkerArgs { c with name := n } k x) =
          (Chain.make (c.walkerArgs k x)).map fun d => { d with name := n ++ " Walker " ++ toString k } :=
        C135_made (c.walkerArgs k x) _
      simp only [List.zipIdx_cons, List.mapM_cons, ih, e]
      cases Chain.make (c.walkerArgs k x) with
      | error x => rfl
      | ok d =>
        cases (List.mapM (fun fi => Chain.make (c.walkerArgs fi.2 fi.1)) (l.zipIdx (k + 1)) : Res _) with
        | error x => rfl
        | ok ds => rfl
  simp only [Chain.divide, map_bind']
  refine congrArg (bind _) (funext fun _ => congrArg (bind _) (funext fun _ => ?_))
  cases c.samples.split c.walkers with
  | error x => rfl
  | ok l => exact key l 0

omit [Field K] [LinearOrder K] in
theorem walker_name_inj {s : String} {i j : Nat} (h : s ++ " Walker " ++ toString i = s ++ " Walker " ++ toString j) : i = j := by
  have := congrArg String.toList h
  simp only [String.toList_append, List.append_assoc, List.append_cancel_left_eq] at this
  exact Nat.repr_injective (String.toList_inj.1 this)

theorem divide_names {c : Chain K} {cs : List (Chain K)} (h : c.divide = .ok cs) :
    cs.map (·.name) = (List.range c.walkers).map fun i => c.name ++ " Walker " ++ toString i := by
  obtain ⟨-, -, -, hall⟩ := divide_ok_iff.1 h
  clear h
  generalize List.range c.walkers = l at hall ⊢
  induction hall with
  | nil => rfl
  | cons hd _ ih =>
    obtain ⟨_, _, _, _, _, _, _, _, _, _, _, _, _, _, rfl⟩ := Chain.make_ok_iff.1 hd
    rw [List.map_cons, List.map_cons, ih]
    rfl

/-- **C135** (names of walkers). The walkers of a chain have names of their own, all different. -/
theorem C135_walker_names (c : Chain K) (cs : List (Chain K)) (h : c.divide = .ok cs) : (c.name :: cs.map (·.name)).Nodup := by
  rw [divide_names h, List.nodup_cons]
  constructor
  · intro hm
    obtain ⟨i, -, hi⟩ := List.mem_map.1 hm
    have := congrArg (fun s : String => s.toList.length) hi
    simp only [String.toList_append, List.length_append] at this
    have h8 : " Walker ".toList.length = 8 := by decide
    omega
  · exact List.nodup_range.map fun i j => walker_name_inj

/-- **C135** is violated by the names that `divide` makes up: next to a chain that happens to be called like the first walker the
walkers cannot be added, next to a chain of any other name they can. -/
theorem C135_violated_walkers (c d : Chain K) (ds : List (Chain K)) (h : c.divide = .ok (d :: ds)) (b : Chain K) (n : String) :
    Consumer.addChain [c, { b with name := n }, d] { chains := [(c.name, 0), (n, 1)] } 2 =
      if n = c.name ++ " Walker 0" then .error .assertion
      else .ok { chains := [(c.name, 0), (n, 1), (c.name ++ " Walker 0", 2)] } := by
  have hn := C135_walker_names c _ h
  have hd : d.name = c.name ++ " Walker 0" := by
    have := divide_names h
    obtain ⟨h1, -⟩ := divide_ok_iff.1 h
    obtain ⟨k, hk⟩ : ∃ k, c.walkers = k + 1 := ⟨c.walkers - 1, by omega⟩
    rw [hk, List.range_succ_eq_map] at this
    simp only [List.map_cons, List.cons.injEq] at this
    rw [this.1, String.append_assoc]
    rfl
  simp only [List.map_cons, List.nodup_cons, List.mem_cons, not_or] at hn
  have hne : d.name ≠ c.name := fun e => hn.1.1 e.symm
  rw [← hd]
  unfold Consumer.addChain dictSet
  simp only [List.getElem?_cons_succ, List.getElem?_cons_zero, List.map_cons, List.map_nil, List.mem_cons, List.not_mem_nil, or_false,
    hne, false_or]
  by_cases e : n = d.name
  · rw [if_pos e.symm, if_pos e]
  · have e' : ¬ d.name = n := fun h => e h.symm
    simp [e, e']

end construction

/-- **C135** is violated by the table of comparisons, which is LaTeX: if an `&` is appended to every name, every row (whose name had
none) has a cell more than the header. -/
theorem C135_violated_table (tie : List (List ℝ) → List ℝ → Nat) (fmt : Flt ℝ → String) (hfmt : ∀ x, '&' ∉ (fmt x).toList)
    (o : CompOpts) (cs : List (String × Chain ℝ)) {p : CompParts} (hp : compParts tie fmt o cs = .ok p) :
    Function.Injective (fun n : String => n ++ "&") ∧ ∃ p', compParts tie fmt o (namedDict (· ++ "&") cs) = .ok p' ∧
      p'.header = p.header ∧ ∀ (i : Nat) (n line : String), p.names[i]? = some n → '&' ∉ n.toList → p'.lines[i]? = some line →
        cells line = cells p'.header + 1 := by
  have hinj : Function.Injective (fun n : String => n ++ "&") := by
    intro m n h
    have := congrArg String.toList h
    simp only [String.toList_append, List.append_cancel_right_eq] at this
    exact String.toList_inj.1 this
  refine ⟨hinj, ?_⟩
  obtain ⟨p', hp', -, hh, -, w, h1, h2⟩ := C135_table hinj tie fmt o cs hp
  refine ⟨p', hp', hh, fun i n line hn hamp hline => ?_⟩
  have hl : p.lines[i]? = some ("\t" ++ n ++ w n) := by rw [h1, List.getElem?_map, hn]; rfl
  rw [h2, List.getElem?_map, hn] at hline
  cases hline
  have h3 := ((C20_rectangular_partial tie fmt hfmt o cs p hp).1 i n _ hn hl).2 hamp
  have hc : "&".toList.count '&' = 1 := by decide
  rw [hh, ← h3]
  simp only [cells, String.toList_append, List.count_append, hc]
  omega

/-- The hypotheses on walkers are met: a chain of four samples is divided into two walkers, and appending a letter to every name is a
change of names that keeps different names different. -/
example : (∃ (c d : Chain ℝ) (ds : List (Chain ℝ)), c.divide = .ok (d :: ds) ∧ c.name = "c" ∧ ds.length = 1) ∧
    Function.Injective (fun n : String => n ++ "x") := by
  constructor
  · let f : Frame ℝ := { index := [.int 0, .int 1, .int 2, .int 3], cols := [("a", [1, 2, 5, 7]), ("weight", [3, 3, 3, 3])] }
    have hf : f.WF := ⟨by simp [f], by simp [f]⟩
    obtain ⟨c, hc, -, -, -, -, hg, hk, hn⟩ :=
      plain_chain_walkers f hf (by simp [f]) (w := [3, 3, 3, 3]) rfl (by simp) "c" 2 (by simp) (by simp [f])
    obtain ⟨cs, hdiv⟩ := C11_divide_succeeds_partial _ _ (toRaw_WF.2 hf) rfl hc (by simp [hk]) hg
    have hl := congrArg List.length (divide_names hdiv)
    simp only [List.length_map, List.length_range, hk] at hl
    obtain ⟨d, e, rfl⟩ : ∃ d e, cs = [d, e] := List.length_eq_two.1 hl
    exact ⟨c, d, [e], hdiv, hn, rfl⟩
  · intro m n h
    have := congrArg String.toList h
    simp only [String.toList_append, List.append_cancel_right_eq] at this
    exact String.toList_inj.1 this

/-- The hypotheses on the table of comparisons are met by a chain, with every number printed as a dash: the table has a row for it. -/
example (tie : List (List ℝ) → List ℝ → Nat) : ∃ (cs : List (String × Chain ℝ)) (o : CompOpts) (p : CompParts),
    compParts tie (fun _ => "-") o cs = .ok p ∧ p.names = ["one"] ∧ '&' ∉ "one".toList ∧ ∀ x : Flt ℝ, '&' ∉ ((fun _ => "-") x : String).toList := by
  let f : Frame ℝ := { index := [.int 0], cols := [("a", [1]), ("weight", [1]), ("log_posterior", [0])] }
  have hf : f.WF := ⟨by simp [f], by simp [f]⟩
  obtain ⟨c, -, hc, -, hcp, -⟩ := plain_chain f hf (by simp [f]) (w := [1]) rfl (by simp) "one"
  let c' : Chain ℝ := { c with numEffDataPoints := some 7, numFreeParams := some 1 }
  have lc : c'.logPosterior = some [0] := by simp only [Chain.logPosterior, c', hc, hcp]; rfl
  have vc : c'.aicValue = .ok (some (.fin (14 / 5))) := by
    simp only [Chain.aicValue, lc]
    norm_num [c', npMax, bind, Except.bind, pure, Except.pure]
  have ha : aic [("one", c')] = .ok [("one", .fin 0)] := by
    simp only [aic, criterionLoop, vc, bind, Except.bind, pure, Except.pure, relativeToMin, List.foldl_nil,
      List.map_cons, List.map_nil, Flt.sub]
    norm_num [Flt.add, Flt.neg]
  have hp : ∃ p, compParts tie (fun _ => "-") { bic := false, dic := false, sort := .aic } [("one", c')] = .ok p := by
    simp only [compParts, bind_ok_iff, ensure_ok_iff]
    exact ⟨_, (), rfl, _, ha, [], rfl, [], rfl, rfl⟩
  obtain ⟨p, hp⟩ := hp
  obtain ⟨h1, -, -⟩ := C20_rows_listed_and_sorted tie _ _ _ (by simp) p hp
  have l1 : listed { bic := false, dic := false, sort := .aic } c' = true := by
    simp [listed, eligible, c', hc, hcp, f, Frame.columns]
  refine ⟨_, _, p, hp, ?_, by decide, fun _ => (by decide : '&' ∉ "-".toList)⟩
  simpa [l1] using h1

end CC
