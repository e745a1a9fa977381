import Verif.Model.Messages
import Verif.Props.Comparison
import Verif.Props.Given
import Verif.Props.Diagnostic
import Verif.Props.MaxSummary

/-! # C113: messages name what is missing -/

set_option linter.unusedSectionVars false
set_option linter.unusedSimpArgs false

namespace CC
open Spec

/-! ### specification -/

/-- What a chain lacks for AIC and BIC, in the words of the messages. -/
def Spec.lacking {K : Type} (c : Chain K) : List String :=
  (if c.posteriorColumn ∈ c.samples.columns then [] else ["posterior"]) ++
  (if c.numEffDataPoints = none then ["num_eff_data_points"] else []) ++
  (if c.numFreeParams = none then ["num_free_params"] else [])

/-- The message of a criterion about a chain. -/
def Spec.needed (what chain criterion : String) : String :=
  "You need to set " ++ what ++ " for chain " ++ chain ++ " to get the " ++ criterion

/-- The warning about few samples. -/
def Spec.fewSamples (n : Nat) (col chain : String) : String :=
  "Only " ++ toString n ++ " samples available to compute an HDI for column '" ++ col ++ "' in chain '" ++
    chain ++ "'. Results may be unreliable; consider enabling KDE or providing more samples."

/-- The warning about a parameter without limits. -/
def Spec.unconstrained (col chain : String) : String :=
  "Parameter " ++ col ++ " in chain " ++ chain ++ " is not constrained"

/-- The warnings about one parameter of one chain: few samples behind an HDI, or no limits around a maximum. -/
noncomputable def Spec.notice (kde : KdeFn) (c : Chain ℝ) (col : String) : List String :=
  open Classical in
  if c.cfg .statistics = some .hdi ∧ c.samples.index.length ≤ 512 then [fewSamples c.samples.index.length col c.name]
  else if c.cfg .statistics = some .max ∧ ∃ b, parameterSummary kde c col = .ok b ∧ b.lower = none then
    [unconstrained col c.name]
  else []

/-! ### information criteria -/

theorem needed_text (a b c d : String) (h : d = " to get the " ++ c) :
    "You need to set " ++ a ++ " for chain " ++ b ++ d = needed a b c := by
  unfold needed
  rw [h, ← String.append_assoc]

section
variable {K : Type} [Field K] [LinearOrder K]

theorem logPosterior_isNone (c : Chain K) : c.logPosterior.isNone = true ↔ c.posteriorColumn ∉ c.samples.columns := by
  simp only [Chain.logPosterior, Frame.columns, Option.isNone_iff_eq_none, List.lookup_eq_none_iff, List.mem_map, not_exists,
    not_and, bne_iff_ne, ne_eq]
  constructor
  · intro h e he h'; exact h e he h'.symm
  · intro h e he h'; exact h e he h'.symm

theorem missingText_eq (c : Chain K) : missingText c = ", ".intercalate (lacking c) := by
  have h := logPosterior_isNone c
  unfold missingText lacking
  by_cases h1 : c.posteriorColumn ∈ c.samples.columns
  · have h1' : c.logPosterior.isNone = false := by
      cases e : c.logPosterior.isNone with
      | false => rfl
      | true => exact absurd h1 (h.1 e)
    rw [h1', if_pos h1]
    cases h2 : c.numEffDataPoints <;> cases h3 : c.numFreeParams <;>
      simp only [Option.isNone, reduceCtorEq, if_false, if_true, Bool.false_eq_true] <;> decide
  · rw [h.2 h1, if_neg h1]
    cases h2 : c.numEffDataPoints <;> cases h3 : c.numFreeParams <;>
      simp only [Option.isNone, reduceCtorEq, if_false, if_true, Bool.false_eq_true] <;> decide

theorem lacking_nil (c : Chain K) : lacking c = [] ↔ ∃ p N k, c.logPosterior = some p ∧ c.numEffDataPoints = some N ∧
    c.numFreeParams = some k := by
  have h := logPosterior_isNone c
  unfold lacking
  cases h1 : c.logPosterior with
  | none =>
    rw [h1] at h
    rw [if_neg (h.1 rfl)]
    simp
  | some p =>
    rw [h1] at h
    have : c.posteriorColumn ∈ c.samples.columns := by
      by_contra hn
      exact absurd (h.2 hn) (by simp)
    rw [if_pos this]
    cases h2 : c.numEffDataPoints <;> cases h3 : c.numFreeParams <;> simp

theorem aicValue_ok_none {c : Chain K} : c.aicValue = .ok none ↔ lacking c ≠ [] := by
  rw [Ne, lacking_nil]
  unfold Chain.aicValue
  cases c.logPosterior <;> cases c.numEffDataPoints <;> cases c.numFreeParams <;> simp
  split_ifs
  · simp
  · rename_i p N k h
    cases npMax p <;> simp [bind, Except.bind, pure, Except.pure]

/-- The messages and entries of a criterion: one or the other for every chain. -/
theorem criterion_messages (value : Chain K → Res (Option (Flt K))) (text : String × Chain K → String) (P : Chain K → Prop)
    [DecidablePred P] (hP : ∀ c, value c = .ok none ↔ P c) (cs : List (String × Chain K)) :
    criterionMessages value text cs =
      ((cs.takeWhile fun e => match value e.2 with | .ok _ => true | .error _ => false).filter fun e => P e.2).map text ∧
    ∀ l, criterionLoop value cs = .ok l → criterionMessages value text cs = (cs.filter fun e => P e.2).map text ∧
      l.map Prod.fst = (cs.filter fun e => ¬ P e.2).map Prod.fst := by
  induction cs with
  | nil => exact ⟨rfl, fun l hl => by cases hl; exact ⟨rfl, rfl⟩⟩
  | cons e es ih =>
    have hp := hP e.2
    simp only [criterionMessages, criterionLoop, List.takeWhile_cons]
    cases hv : value e.2 with
    | error x => exact ⟨rfl, fun l hl => by cases hl⟩
    | ok v =>
      rw [hv] at hp
      cases v with
      | none =>
        have hpe : P e.2 := hp.1 rfl
        refine ⟨?_, ?_⟩
        · simp only [ih.1, List.filter_cons, hpe, if_true, decide_true, List.map_cons]
        · intro l hl
          cases hr : criterionLoop value es with
          | error x => rw [hr] at hl; cases hl
          | ok l' =>
            rw [hr] at hl
            cases hl
            obtain ⟨i1, i2⟩ := ih.2 l' hr
            simp [List.filter_cons, hpe, i1, i2]
      | some x =>
        have hpe : ¬ P e.2 := fun h => by cases hp.2 h
        refine ⟨?_, ?_⟩
        · simp only [ih.1, List.filter_cons, hpe, if_true, decide_false, Bool.false_eq_true, if_false]
        · intro l hl
          cases hr : criterionLoop value es with
          | error x => rw [hr] at hl; cases hl
          | ok l' =>
            rw [hr] at hl
            cases hl
            obtain ⟨i1, i2⟩ := ih.2 l' hr
            simp [List.filter_cons, hpe, i1, i2]

theorem relativeToMin_fst (d : List (String × Flt K)) : (relativeToMin d).map Prod.fst = d.map Prod.fst := by
  cases d with
  | nil => rfl
  | cons e es => simp [relativeToMin]

/-- **C113** (AIC). If `aic()` returns, every chain has either an entry or a message, and the message names what the chain lacks. -/
theorem C113_aic (cs : List (String × Chain K)) (d : List (String × Flt K)) (hd : aic cs = .ok d) :
    aicMessages cs = (cs.filter fun e => lacking e.2 ≠ []).map (fun e => needed (", ".intercalate (lacking e.2)) e.2.name "AIC") ∧
    d.map Prod.fst = (cs.filter fun e => lacking e.2 = []).map Prod.fst := by
  obtain ⟨l, hl, rfl⟩ : ∃ l, criterionLoop Chain.aicValue cs = .ok l ∧ relativeToMin l = d := by
    simp only [aic, bind_ok_iff, pure_ok_iff] at hd
    exact hd
  have h := (criterion_messages Chain.aicValue (fun e => needed (", ".intercalate (lacking e.2)) e.2.name "AIC")
    (fun c => lacking c ≠ []) (fun c => aicValue_ok_none) cs).2 l hl
  rw [relativeToMin_fst, h.2, ← h.1]
  refine ⟨?_, by simp⟩
  unfold aicMessages
  congr 1
  funext e
  rw [missingText_eq]
  exact needed_text _ _ _ _ (by decide)

theorem dicValue_ok_none {tie : List (List K) → List K → Nat} {c : Chain K} :
    c.dicValue tie = .ok none ↔ c.posteriorColumn ∉ c.samples.columns := by
  rw [← logPosterior_isNone]
  unfold Chain.dicValue
  cases c.logPosterior with
  | none => simp
  | some p =>
    simp only [Option.isNone_some, Bool.false_eq_true, iff_false]
    intro h
    simp only [bind_ok_iff, pure_ok_iff] at h
    obtain ⟨_, _, _, _, _, _, _, _, _, _, h⟩ := h
    cases h

/-- **C113** (DIC). -/
theorem C113_dic (tie : List (List K) → List K → Nat) (cs : List (String × Chain K)) (d : List (String × Flt K))
    (hd : dic tie cs = .ok d) :
    dicMessages tie cs =
      (cs.filter fun e => e.2.posteriorColumn ∉ e.2.samples.columns).map (fun e => needed "the posterior" e.2.name "DIC") ∧
    d.map Prod.fst = (cs.filter fun e => e.2.posteriorColumn ∈ e.2.samples.columns).map Prod.fst := by
  obtain ⟨l, hl, rfl⟩ : ∃ l, criterionLoop (Chain.dicValue tie) cs = .ok l ∧ relativeToMin l = d := by
    simp only [dic, bind_ok_iff, pure_ok_iff] at hd
    exact hd
  have h := (criterion_messages (Chain.dicValue tie) (fun e => needed "the posterior" e.2.name "DIC")
    (fun c => c.posteriorColumn ∉ c.samples.columns) (fun c => dicValue_ok_none) cs).2 l hl
  rw [relativeToMin_fst, h.2, ← h.1]
  refine ⟨?_, by simp⟩
  unfold dicMessages
  congr 1
  funext e
  rw [← needed_text "the posterior" e.2.name "DIC" " to get the DIC" (by decide)]
  rw [show "You need to set the posterior for chain " = "You need to set " ++ "the posterior" ++ " for chain " by decide]

/-- **C113** (raising). If `aic()` raises, as it does for a chain with `num_free_params + 1` data points (C17), the messages are
those of the chains before. -/
theorem C113_aic_raising (cs : List (String × Chain K)) (es : List (String × Chain K)) (e : String × Chain K) (x : Err)
    (hcs : ∀ f ∈ cs, ∃ v, f.2.aicValue = .ok v) (he : e.2.aicValue = .error x) :
    aicMessages (cs ++ e :: es) =
      (cs.filter fun e => lacking e.2 ≠ []).map (fun e => needed (", ".intercalate (lacking e.2)) e.2.name "AIC") := by
  have h := (criterion_messages Chain.aicValue (fun e => needed (", ".intercalate (lacking e.2)) e.2.name "AIC")
    (fun c => lacking c ≠ []) (fun c => aicValue_ok_none) (cs ++ e :: es)).1
  have h2 : (cs ++ e :: es).takeWhile (fun e => match e.2.aicValue with | .ok _ => true | .error _ => false) = cs := by
    rw [List.takeWhile_append_of_pos, List.takeWhile_cons, he]
    · simp
    · intro f hf
      obtain ⟨v, hv⟩ := hcs f hf
      rw [hv]
  rw [h2] at h
  rw [← h]
  unfold aicMessages
  congr 1
  funext e
  rw [missingText_eq]
  exact needed_text _ _ _ _ (by decide)

/-- **C113** (`max_posterior_row`). The message is issued exactly if there is no point of greatest posterior. -/
theorem C113_row (c : Chain K) (d : Option (Chain.MaxPosterior K)) (hd : c.maxPosteriorPoint = .ok d) :
    rowMessages c = if d.isNone then ["No posterior column found, cannot find max posterior"] else [] := by
  have h := logPosterior_isNone c
  unfold rowMessages
  unfold Chain.maxPosteriorPoint at hd
  cases h1 : c.logPosterior with
  | none =>
    rw [h1] at hd h
    cases hd
    rw [if_pos (h.1 rfl)]
    rfl
  | some p =>
    rw [h1] at hd h
    rw [if_neg (fun hn => absurd (h.2 hn) (by simp))]
    simp only at hd
    split at hd
    · cases hd
    · split at hd
      · cases hd
      · split at hd
        · cases hd
        · cases hd; rfl
      · cases hd

end

theorem bicValue_ok_none {c : Chain ℝ} : c.bicValue = .ok none ↔ lacking c ≠ [] := by
  rw [Ne, lacking_nil]
  unfold Chain.bicValue
  cases c.logPosterior <;> cases c.numEffDataPoints <;> cases c.numFreeParams <;> simp
  rename_i p N k
  cases npMax p <;> simp [bind, Except.bind, pure, Except.pure]

/-- **C113** (BIC). The chain is named by its key in the registry. -/
theorem C113_bic (cs : List (String × Chain ℝ)) (d : List (String × Flt ℝ)) (hd : bic cs = .ok d) :
    bicMessages cs = (cs.filter fun e => lacking e.2 ≠ []).map (fun e => needed (", ".intercalate (lacking e.2)) e.1 "BIC") ∧
    d.map Prod.fst = (cs.filter fun e => lacking e.2 = []).map Prod.fst := by
  obtain ⟨l, hl, rfl⟩ : ∃ l, criterionLoop Chain.bicValue cs = .ok l ∧ relativeToMin l = d := by
    simp only [bic, bind_ok_iff, pure_ok_iff] at hd
    exact hd
  have h := (criterion_messages Chain.bicValue (fun e => needed (", ".intercalate (lacking e.2)) e.1 "BIC")
    (fun c => lacking c ≠ []) (fun c => bicValue_ok_none) cs).2 l hl
  rw [relativeToMin_fst, h.2, ← h.1]
  refine ⟨?_, by simp⟩
  unfold bicMessages
  congr 1
  funext e
  rw [missingText_eq]
  exact needed_text _ _ _ _ (by decide)

/-! ### summaries -/

theorem maxWarning_ok_iff {kde : KdeFn} {c : Chain ℝ} {col : String} (hst : c.cfg .statistics = some .max) {b : Bound ℝ}
    (hb : parameterSummary kde c col = .ok b) :
    maxWarning kde c col = .ok (if b.lower = none then [unconstrained col c.name] else []) := by
  unfold parameterSummary at hb
  simp only [hst, bind_ok_iff] at hb
  obtain ⟨m, hm, hb⟩ := hb
  unfold summaryMax at hb
  simp only [bind_ok_iff, ensure_ok_iff] at hb
  obtain ⟨p, hp, total, htot, u, hu, start, hs, top, ht, xc, hx, i, hi, hb⟩ := hb
  unfold maxWarning
  simp only [bind_ok_iff, ensure_ok_iff]
  refine ⟨m, hm, p, hp, total, htot, u, hu, start, hs, top, ht, i, hi, ?_⟩
  cases i with
  | none =>
    cases hb
    rfl
  | some i =>
    simp only [bind_ok_iff, pure_ok_iff] at hb
    obtain ⟨x1, -, x2, -, rfl⟩ := hb
    rfl

/-- The warnings about one parameter. -/
theorem parameterMessages_eq (kde : KdeFn) {c : Chain ℝ} (hwf : c.samples.WF) {col : String} (hcol : col ∈ c.samples.columns)
    {e : Summary ℝ} (he : summaryEntry kde c col = .ok e) : parameterMessages kde c col = notice kde c col := by
  obtain ⟨b, hb, -⟩ : ∃ b, parameterSummary kde c col = .ok b ∧ True := by
    unfold summaryEntry at he
    rw [bind_ok_iff] at he
    obtain ⟨b, hb, -⟩ := he
    exact ⟨b, hb, trivial⟩
  unfold parameterMessages notice
  cases hst : c.cfg .statistics with
  | none => simp
  | some st =>
    cases st with
    | hdi =>
      obtain ⟨x, hx⟩ := get_ok_of_mem hcol
      have hlen : x.length = c.samples.index.length := hwf.2 _ (get_mem hx)
      simp only [hdiWarning, hx, hlen]
      by_cases hn : c.samples.index.length ≤ 512
      · rw [if_pos hn, if_pos ⟨trivial, hn⟩]
        rfl
      · rw [if_neg hn, if_neg (fun h => hn h.2), if_neg (by simp)]
    | max =>
      simp only [maxWarning_ok_iff hst hb]
      by_cases hl : b.lower = none
      · rw [if_pos hl, if_neg (by simp), if_pos ⟨rfl, b, hb, hl⟩]
      · rw [if_neg hl, if_neg (by simp), if_neg]
        rintro ⟨-, b', hb', hl'⟩
        rw [hb] at hb'
        cases hb'
        exact hl hl'
    | mean => simp
    | cumulative => simp
    | maxCentral => simp

theorem chainMessages_eq (kde : KdeFn) {c : Chain ℝ} (hwf : c.samples.WF) :
    ∀ (ps : List String) (res d : List (String × Summary ℝ)), chainSummary kde c ps res = .ok d →
      chainMessages kde c ps = ((ps.filter (· ∈ c.samples.columns)).flatMap (notice kde c), false)
  | [], _, _, _ => rfl
  | p :: ps, res, d, h => by
    unfold chainSummary at h
    unfold chainMessages
    by_cases hp : p ∈ c.samples.columns
    · rw [if_neg (by simpa using hp)] at h ⊢
      rw [bind_ok_iff] at h
      obtain ⟨e, he, h⟩ := h
      simp only [he, chainMessages_eq kde hwf ps _ _ h, List.filter_cons, hp, decide_true, if_true, List.flatMap_cons,
        parameterMessages_eq kde hwf hp he]
    · rw [if_pos hp] at h ⊢
      rw [chainMessages_eq kde hwf ps _ _ h]
      simp [List.filter_cons, hp]

theorem loopMessages_eq (kde : KdeFn) (cols : List String) :
    ∀ (cs : List (Chain ℝ)) (res d : List (String × List (String × Summary ℝ))), (∀ c ∈ cs, c.samples.WF) →
      summaryLoop kde cols cs res = .ok d →
      loopMessages kde cols cs = cs.flatMap fun c => (cols.filter (· ∈ c.samples.columns)).flatMap (notice kde c)
  | [], _, _, _, _ => rfl
  | c :: cs, res, d, hwf, h => by
    unfold summaryLoop at h
    rw [bind_ok_iff] at h
    obtain ⟨r, hr, h⟩ := h
    unfold loopMessages
    simp only [chainMessages_eq kde (hwf c (List.mem_cons_self ..)) cols _ _ hr, Bool.false_eq_true, if_false, List.flatMap_cons,
      loopMessages_eq kde cols cs _ _ (fun c hc => hwf c (List.mem_cons_of_mem _ hc)) h]

/-- **C113** (summaries). If `get_summary` of given chains returns, its warnings are those of `Spec.notice`, chain by chain and
parameter by parameter: one for each HDI of at most 512 samples, and one for each maximum without limits. -/
theorem C113_summary (kde : KdeFn) (h : Heap ℝ) (s : Consumer ℝ) (cs : List (Chain ℝ)) (cols : Option (List String))
    (hwf : ∀ c ∈ cs, c.samples.WF) (d : List (String × List (String × Summary ℝ)))
    (hd : getSummary kde h s (some cs) cols = .ok d) :
    summaryMessages kde h s (some cs) cols =
      cs.flatMap fun c => ((sanitiseColumns cols cs).filter (· ∈ c.samples.columns)).flatMap (notice kde c) :=
  loopMessages_eq kde _ cs [] d hwf hd

/-- The chains that the consumer resolves are warned about in the same way, in the order of the registry. -/
theorem C113_registered (kde : KdeFn) (h : Heap ℝ) (s : Consumer ℝ) (cols : Option (List String))
    (hu : uncoloured (chainsOf h s) ≤ 88) :
    ∃ cs : List (Chain ℝ), getSummary kde h s none cols = getSummary kde h s (some cs) cols ∧
      summaryMessages kde h s none cols = summaryMessages kde h s (some cs) cols ∧
      cs.map (·.name) = (chainsOf h s).map (·.name) ∧ cs.map (·.samples) = (chainsOf h s).map (·.samples) := by
  have hl : (resolvedChains (numContourChains h s) s.override (chainsOf h s) 0).length ≤
      ((copyChains h s).map Prod.fst).length := by
    rw [resolvedChains_length, chainsOf, List.length_map, List.length_map]
  have hp : (finalDict h s >>= fun d => plotChains d .all true) =
      .ok (resolvedChains (numContourChains h s) s.override (chainsOf h s) 0) := by
    simp only [finalDict_eq h s hu, plotChains, bind, Except.bind, pure, Except.pure, List.map_snd_zip hl, Bool.true_or,
      List.filter_true]
  refine ⟨resolvedChains (numContourChains h s) s.override (chainsOf h s) 0, ?_, ?_, ?_, ?_⟩
  · simp only [getSummary, hp]; rfl
  · simp only [summaryMessages, hp]; rfl
  all_goals
    generalize (0 : Nat) = u
    induction chainsOf h s generalizing u with
    | nil => rfl
    | cons c cs ih => simp only [resolvedChains, List.map_cons, ih, Chain.withCfg]

/-- **C113** (limits). For a chain with the statistic `max` that is not multimodal, the warning is there exactly if the reported
bound has no lower limit, and then it has no upper limit either. -/
theorem C113_limits (kde : KdeFn) (c : Chain ℝ) (hst : c.cfg .statistics = some .max) (hmm : c.cfg .multimodal = false)
    (col : String) (b : Bound ℝ) (he : summaryEntry kde c col = .ok (.single b)) :
    (notice kde c col = [unconstrained col c.name] ∧ b.lower = none ∧ b.upper = none ∧ b.center ≠ none) ∨
    (notice kde c col = [] ∧ b.lower ≠ none ∧ b.upper ≠ none ∧ b.center ≠ none) := by
  have hb : parameterSummary kde c col = .ok b := by
    unfold summaryEntry at he
    rw [bind_ok_iff] at he
    obtain ⟨b', hb, he⟩ := he
    rw [if_neg (by rw [hmm]; simp)] at he
    cases he
    exact hb
  have hcase : (b.lower = none ∧ b.upper = none ∧ b.center ≠ none) ∨
      (b.lower ≠ none ∧ b.upper ≠ none ∧ b.center ≠ none) := by
    have hb' := hb
    unfold parameterSummary at hb'
    simp only [hst, bind_ok_iff] at hb'
    obtain ⟨m, -, hb'⟩ := hb'
    unfold summaryMax at hb'
    simp only [bind_ok_iff, ensure_ok_iff] at hb'
    obtain ⟨p, -, total, -, u, -, start, -, top, -, xc, -, i, -, hb'⟩ := hb'
    cases i with
    | none => cases hb'; exact Or.inl ⟨rfl, rfl, by simp⟩
    | some i =>
      simp only [bind_ok_iff, pure_ok_iff] at hb'
      obtain ⟨x1, -, x2, -, rfl⟩ := hb'
      exact Or.inr ⟨by simp, by simp, by simp⟩
  unfold notice
  rw [if_neg (by rw [hst]; simp)]
  rcases hcase with hl | hl
  · rw [if_pos ⟨hst, b, hb, hl.1⟩]
    exact Or.inl ⟨rfl, hl⟩
  · rw [if_neg]
    · exact Or.inr ⟨rfl, hl⟩
    · rintro ⟨-, b', hb', hn⟩
      rw [hb] at hb'
      cases hb'
      exact hl.1 hn

/-! ### Gelman-Rubin -/

/-- A line about one parameter: its name, its statistic and the verdict. -/
noncomputable def Spec.verdictLine (e : String × Flt ℝ × Bool) : String :=
  e.1 ++ ": " ++ fixedWidth 7 5 e.2.1 ++ " (" ++ (if e.2.2 then "Passed" else "Failed") ++ ")"

/-- The block about one chain. -/
noncomputable def Spec.block (chain : String) (rows : List (String × Flt ℝ × Bool)) : List String :=
  ("Gelman-Rubin Statistic values for chain " ++ chain) :: rows.map verdictLine

theorem gelmanMessages_block (threshold : ℝ) {c : Chain ℝ} {v : Bool} (hv : gelmanOne threshold c = .ok v) :
    ∃ rows : List (String × Flt ℝ × Bool), gelmanMessages threshold c = block c.name rows ∧ rows.map Prod.fst = c.dataColumns ∧
      (∀ e ∈ rows, ∃ x, c.samples.get e.1 = .ok x ∧ e.2.1 = gelmanR c.walkers x ∧
        (e.2.2 = true ↔ ∃ r, e.2.1 = .fin r ∧ |r - 1| < threshold)) ∧
      (v = true ↔ ∀ e ∈ rows, e.2.2 = true) := by
  simp only [gelmanOne, bind_ok_iff, ensure_ok_iff, pure_ok_iff] at hv
  obtain ⟨X, hX, -, hmod, -, hw, rfl⟩ := hv
  have hF : List.Forall₂ (fun p x => c.samples.get p = .ok x) c.dataColumns X := by
    clear hmod hw
    generalize c.dataColumns = ps at hX
    induction ps generalizing X with
    | nil => cases hX; exact .nil
    | cons p ps ih =>
      simp only [Frame.getMany, bind_ok_iff, pure_ok_iff] at hX
      obtain ⟨x, hx, X', hX', rfl⟩ := hX
      exact .cons hx (ih _ hX')
  have hz : ∀ e ∈ c.dataColumns.zip X, c.samples.get e.1 = .ok e.2 := by
    intro e he
    exact List.forall₂_zip hF he
  have hlen := hF.length_eq
  have hwalk : ¬ c.walkers ≤ 1 := by simpa using hw
  refine ⟨(c.dataColumns.zip X).map fun e => (e.1, gelmanR c.walkers e.2,
    (fltAbs ((gelmanR c.walkers e.2).sub (.fin 1))).lt (.fin threshold)), ?_, ?_, ?_, ?_⟩
  · simp only [gelmanMessages, hX]
    rw [if_neg (by simpa using hmod), if_neg hwalk, block, List.map_map]
    rfl
  · rw [List.map_map]
    exact List.map_fst_zip hlen.le
  · intro e he
    obtain ⟨e', he', rfl⟩ := List.mem_map.1 he
    refine ⟨e'.2, hz e' he', rfl, ?_⟩
    simp only
    cases gelmanR c.walkers e'.2 with
    | fin r => simp [Flt.sub, Flt.neg, Flt.add, fltAbs, Flt.lt, sub_eq_add_neg]
    | posInf => simp [Flt.sub, Flt.neg, Flt.add, fltAbs, Flt.lt]
    | negInf => simp [Flt.sub, Flt.neg, Flt.add, fltAbs, Flt.lt]
    | nan => simp [Flt.sub, Flt.neg, Flt.add, fltAbs, Flt.lt]
  · rw [List.all_eq_true]
    constructor
    · intro h e he
      obtain ⟨e', he', rfl⟩ := List.mem_map.1 he
      exact h _ (List.of_mem_zip he').2
    · intro h x hx
      have hx' : x ∈ (c.dataColumns.zip X).map Prod.snd := by
        rw [List.map_snd_zip hlen.ge]; exact hx
      obtain ⟨e', he', rfl⟩ := List.mem_map.1 hx'
      exact h _ (List.mem_map.2 ⟨e', he', rfl⟩)

theorem runDiagnostic_passed {f : Chain ℝ → Res Bool} {cs : List (Chain ℝ)} {r : TestResult} (h : runDiagnostic f cs = .ok r) :
    ∃ bs : List Bool, List.Forall₂ (fun c b => f c = .ok b) cs bs ∧ r.passed = bs.all id := by
  match cs, h with
  | [], h => cases h
  | [c], h =>
    simp only [runDiagnostic, bind_ok_iff, pure_ok_iff] at h
    obtain ⟨b, hb, rfl⟩ := h
    exact ⟨[b], .cons hb .nil, by simp⟩
  | c :: c' :: cs, h =>
    simp only [runDiagnostic] at h
    rw [bind_ok_iff] at h
    obtain ⟨rs, hrs, h⟩ := h
    rw [pure_ok_iff] at h
    subst h
    rw [mapM_ok_iff] at hrs
    refine ⟨rs.map (·.passed), ?_, by simp [List.all_map, Function.comp_def]⟩
    generalize c :: c' :: cs = l at hrs
    clear * - hrs
    induction hrs with
    | nil => exact .nil
    | cons hd _ ih =>
      rw [bind_ok_iff] at hd
      obtain ⟨b, hb, hd⟩ := hd
      rw [pure_ok_iff] at hd
      subst hd
      exact .cons hb ih

/-- **C113** (Gelman-Rubin). If the test returns, there is a block for every chain, in order, with a line for every parameter;
the chain passes exactly if all its lines say so, and a line says so exactly if the statistic is within the threshold of one. -/
theorem C113_gelman (threshold : ℝ) (cs : List (Chain ℝ)) (r : TestResult)
    (hr : runDiagnostic (gelmanOne threshold) cs = .ok r) :
    ∃ bs : List (List (String × Flt ℝ × Bool)),
      gelmanLog threshold cs = (List.zipWith (fun c b => block c.name b) cs bs).flatten ∧
      List.Forall₂ (fun c rows => rows.map Prod.fst = c.dataColumns ∧
        ∀ e ∈ rows, ∃ x, c.samples.get e.1 = .ok x ∧ e.2.1 = gelmanR c.walkers x ∧
          (e.2.2 = true ↔ ∃ r, e.2.1 = .fin r ∧ |r - 1| < threshold)) cs bs ∧
      (r.passed = true ↔ ∀ rows ∈ bs, ∀ e ∈ rows, e.2.2 = true) := by
  obtain ⟨vs, hF, hp⟩ := runDiagnostic_passed hr
  rw [hp]
  clear hr hp
  induction hF with
  | nil => exact ⟨[], rfl, .nil, by simp⟩
  | @cons c v cs vs hd _ ih =>
    obtain ⟨bs, h1, h2, h3⟩ := ih
    obtain ⟨rows, g1, g2, g3, g4⟩ := gelmanMessages_block threshold hd
    refine ⟨rows :: bs, ?_, .cons ⟨g2, g3⟩ h2, ?_⟩
    · simp only [gelmanLog, hd, g1, h1, List.zipWith_cons_cons, List.flatten_cons]
    · rw [List.all_cons, Bool.and_eq_true, h3, List.forall_mem_cons]
      exact and_congr g4 Iff.rfl

/-! ### the hypotheses are met -/

/-- Outcome and messages of `aic()` for chains given by their constructor arguments. -/
def aicMessagesOf (as : List (Args ℚ)) : Res (List String × List (String × Flt ℚ)) := do
  let cs ← as.mapM fun a => do
    let c ← Chain.make a
    return (c.name, c)
  return (aicMessages cs, ← aic cs)

/-- One chain with all that is needed, one without numbers, one without anything. -/
example : aicMessagesOf [aicDemo 1 "one", { aicDemo 1 "two" with numFreeParams := none, numEffDataPoints := none },
      { samples := { index := [.int 0], cols := [(.str "a", [.fin 1])] }, name := "three" }] =
    .ok (["You need to set num_eff_data_points, num_free_params for chain two to get the AIC",
      "You need to set posterior, num_eff_data_points, num_free_params for chain three to get the AIC"],
      [("one", .fin 0)]) := by decide +kernel

/-- An HDI of two samples, for `C113_summary`. -/
example (kde : KdeFn) (hkde : KdeOk kde) (h : Heap ℝ) (s : Consumer ℝ) : ∃ c b, Chain.make (skewArgs .hdi) = .ok c ∧
    c.samples.WF ∧ getSummary kde h s (some [c]) (some ["x"]) = .ok [("skew", [("x", .single b)])] ∧
    summaryMessages kde h s (some [c]) (some ["x"]) =
      ["Only 2 samples available to compute an HDI for column 'x' in chain 'skew'. Results may be unreliable; " ++
        "consider enabling KDE or providing more samples."] := by
  obtain ⟨c, m, hc, hst, har, hmm, hsam, -, hname, hm, hv, -⟩ := skew_chain kde hkde .hdi
  obtain ⟨l, ce, u, hs, -⟩ := C31_hdi_mass hv (6827 / 10000 : ℝ) (by norm_num)
  have he : summaryEntry kde c "x" = .ok (.single ⟨some l, some ce, some u⟩) := by
    rw [C37_lists]
    refine ⟨_, ?_, Or.inl ⟨hmm, rfl⟩⟩
    simp only [parameterSummary, hst, har, hm, bind, Except.bind, hs]
  have hcols : c.samples.columns = ["x", "weight"] := by rw [hsam]; rfl
  have hcs : chainSummary kde c ["x"] [] = .ok [("x", .single ⟨some l, some ce, some u⟩)] := by
    simp [chainSummary, hcols, he, bind, Except.bind, dictSet]
  have hwf : c.samples.WF := by rw [hsam]; exact ⟨by simp [skewFrame], by simp [skewFrame]⟩
  have hg : getSummary kde h s (some [c]) (some ["x"]) = .ok [("skew", [("x", .single ⟨some l, some ce, some u⟩)])] := by
    simp only [getSummary, summaryLoop, pure, Except.pure, bind, Except.bind, sanitiseColumns, hcs, hname]
    rfl
  refine ⟨c, _, hc, hwf, hg, ?_⟩
  rw [C113_summary kde h s [c] (some ["x"]) (by simpa using hwf) _ hg]
  have hlen : c.samples.index.length = 2 := by rw [hsam]; rfl
  have hn : notice kde c "x" = [fewSamples 2 "x" "skew"] := by
    unfold notice
    rw [if_pos ⟨hst, by omega⟩, hlen, hname]
  simp only [sanitiseColumns, List.flatMap_cons, List.flatMap_nil, List.append_nil, hcols]
  rw [show List.filter (fun x => decide (x ∈ ["x", "weight"])) ["x"] = ["x"] by decide]
  simp only [List.flatMap_cons, List.flatMap_nil, List.append_nil, hn]
  decide +kernel

/-- A maximum, for `C113_limits`. -/
example (kde : KdeFn) (hkde : KdeOk kde) : ∃ c b, Chain.make (skewArgs .max) = .ok c ∧ c.cfg .statistics = some .max ∧
    c.cfg .multimodal = false ∧ summaryEntry kde c "x" = .ok (.single b) := by
  obtain ⟨c, m, hc, hst, har, hmm, hsam, -, hname, hm, hv, -⟩ := skew_chain kde hkde .max
  have key : ∀ b, summaryMax m (6827 / 10000 : ℝ) = .ok b → summaryEntry kde c "x" = .ok (.single b) := by
    intro b hs
    rw [C37_lists]
    refine ⟨_, ?_, Or.inl ⟨hmm, rfl⟩⟩
    simp only [parameterSummary, hst, har, hm, bind, Except.bind]
    exact hs
  obtain ⟨s, x, k, -, -, -, -, -, -, ⟨l, u, i1, i2, t, hs, -⟩ | ⟨lo, hi, hs, -⟩⟩ := summaryMax_spec m hv (6827 / 10000 : ℝ)
  · exact ⟨c, _, hc, hst, hmm, key _ hs⟩
  · exact ⟨c, _, hc, hst, hmm, key _ hs⟩

/-- Two walkers of three steps, for `C113_gelman`. -/
example : ∃ c r, Chain.make { samples := Frame.toRaw ⟨[.int 0, .int 1, .int 2, .int 3, .int 4, .int 5],
        [("a", [1, 2, 3, 2, 3, 4]), ("weight", [(1 : ℝ), 1, 1, 1, 1, 1])]⟩, name := "demo", walkers := 2 } = .ok c ∧
    runDiagnostic (gelmanOne (1 / 20)) [c] = .ok r ∧ c.dataColumns = ["a"] := by
  let f : Frame ℝ := { index := [.int 0, .int 1, .int 2, .int 3, .int 4, .int 5],
                       cols := [("a", [1, 2, 3, 2, 3, 4]), ("weight", [1, 1, 1, 1, 1, 1])] }
  have hf : f.WF := ⟨by simp [f], by simp [f]⟩
  obtain ⟨c, hc, hcs, h1, h2, -, -, hw, -⟩ := plain_chain_walkers f hf (by simp [f])
    (w := [1, 1, 1, 1, 1, 1]) rfl (by simp) "demo" 2 (by simp) (by simp [f])
  have hdc : c.dataColumns = ["a"] := by
    simp only [Chain.dataColumns, hcs, h1, h2, f, Frame.columns]
    decide +kernel
  have hg : c.samples.getMany ["a"] = .ok [[1, 2, 3, 2, 3, 4]] := by rw [hcs]; rfl
  have hi : c.samples.index.length = 6 := by rw [hcs]; rfl
  have hr : ∃ r, runDiagnostic (gelmanOne (1 / 20)) [c] = .ok r := by
    simp only [runDiagnostic, gelmanOne, hdc, hg, hi, hw, ensure, bind, Except.bind, pure, Except.pure]
    exact ⟨_, rfl⟩
  obtain ⟨r, hr⟩ := hr
  exact ⟨c, r, hc, hr, hdc⟩

end CC
