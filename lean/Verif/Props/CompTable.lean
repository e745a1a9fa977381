import Verif.Model.CompTable
import Verif.Props.Comparison
import Mathlib.Data.List.Perm.Subperm

/-! # C20: the comparison table -/

set_option linter.unusedSectionVars false

namespace CC
open Spec

section
variable {K : Type} [Field K] [LinearOrder K]

theorem Flt.lt_trans {x y z : Flt K} (h1 : x.lt y = true) (h2 : y.lt z = true) :
    x.lt z = true := by
  cases x <;> cases y <;> cases z <;> simp_all [Flt.lt]
  exact _root_.lt_trans h1 h2

theorem Flt.lt_irrefl (x : Flt K) : x.lt x = false := by
  cases x <;> simp [Flt.lt]

theorem insertKey_perm (key : String → Flt K) (n : String) (l : List String) :
    (insertKey key n l).Perm (n :: l) := by
  induction l with
  | nil => rfl
  | cons m ms ih =>
    simp only [insertKey]
    split
    · rfl
    · exact (ih.cons m).trans (List.Perm.swap n m ms)

theorem insertKey_sorted (key : String → Flt K) (n : String) {l : List String}
    (h : l.Pairwise fun a b => (key b).lt (key a) = false) :
    (insertKey key n l).Pairwise fun a b => (key b).lt (key a) = false := by
  induction l with
  | nil => simp [insertKey]
  | cons m ms ih =>
    obtain ⟨h1, h2⟩ := List.pairwise_cons.1 h
    simp only [insertKey]
    split
    · rename_i hlt
      refine List.pairwise_cons.2 ⟨fun z hz => ?_, h⟩
      rcases List.mem_cons.1 hz with rfl | hz
      · rw [Bool.eq_false_iff]
        intro h'
        have := Flt.lt_trans h' hlt
        rw [Flt.lt_irrefl] at this
        cases this
      · rw [Bool.eq_false_iff]
        intro h'
        have := Flt.lt_trans h' hlt
        rw [h1 z hz] at this
        cases this
    · rename_i hlt
      refine List.pairwise_cons.2 ⟨fun z hz => ?_, ih h2⟩
      rcases List.mem_cons.1 ((insertKey_perm key n ms).mem_iff.1 hz) with rfl | hz
      · simpa using hlt
      · exact h1 z hz

theorem sortKey_spec (key : String → Flt K) (l : List String) :
    (sortKey key l).Perm l ∧ (sortKey key l).Pairwise fun a b => (key b).lt (key a) = false := by
  have h : ∀ (l acc : List String), acc.Pairwise (fun a b => (key b).lt (key a) = false) →
      (l.foldl (fun acc n => insertKey key n acc) acc).Perm (l ++ acc) ∧
      (l.foldl (fun acc n => insertKey key n acc) acc).Pairwise
        fun a b => (key b).lt (key a) = false := by
    intro l
    induction l with
    | nil => intro acc h; exact ⟨List.Perm.refl _, h⟩
    | cons n ns ih =>
      intro acc h
      obtain ⟨h1, h2⟩ := ih _ (insertKey_sorted key n h)
      refine ⟨h1.trans ?_, h2⟩
      exact ((insertKey_perm key n acc).append_left ns).trans List.perm_middle
  have := h l [] List.Pairwise.nil
  rwa [List.append_nil] at this

/-- The order of the rows: unknown values last, known values in the requested direction. -/
def RowOrder (key : String → Flt K) (descending : Bool) (a b : String) : Prop :=
  (key a = .nan → key b = .nan) ∧
  ∀ x y, key a = .fin x → key b = .fin y → if descending then y ≤ x else x ≤ y

theorem sortValues_spec (key : String → Flt K) (desc : Bool) (l : List String) :
    (sortValues key desc l).Perm l ∧ (sortValues key desc l).Pairwise (RowOrder key desc) := by
  have hnan : ∀ n, (match key n with | .nan => true | _ => false) = true ↔ key n = .nan := by
    intro n; cases key n <;> simp
  simp only [sortValues]
  set isNan : String → Bool := fun n => match key n with | .nan => true | _ => false with hisNan
  set fins := l.filter fun n => !isNan n
  set nans := l.filter isNan with hnans
  have hfins : ∀ a ∈ fins, key a ≠ .nan := by
    intro a ha h
    have := (List.mem_filter.1 ha).2
    have h2 : isNan a = true := (hnan a).2 h
    rw [h2] at this
    cases this
  have hnans' : ∀ a ∈ nans, key a = .nan := fun a ha => (hnan a).1 (List.mem_filter.1 ha).2
  have hperm : (fins ++ nans).Perm l := by
    have := List.filter_append_perm isNan l
    exact List.perm_append_comm.trans this
  have hcombine : ∀ s : List String, s.Perm fins →
      s.Pairwise (fun a b => ∀ x y, key a = .fin x → key b = .fin y →
        if desc = true then y ≤ x else x ≤ y) →
      (s ++ nans).Perm l ∧ (s ++ nans).Pairwise (RowOrder key desc) := by
    intro s hs hp
    refine ⟨(hs.append_right nans).trans hperm, ?_⟩
    refine List.pairwise_append.2 ⟨?_, ?_, ?_⟩
    · exact hp.imp_of_mem fun {a b} ha hb h => ⟨fun hn => absurd hn (hfins a (hs.mem_iff.1 ha)), h⟩
    · rw [List.pairwise_iff_getElem]
      intro i j hi hj _
      have h1 := hnans' _ (List.getElem_mem hi)
      have h2 := hnans' _ (List.getElem_mem hj)
      refine ⟨fun _ => h2, fun x y hx => ?_⟩
      rw [h1] at hx; cases hx
    · intro a ha b hb
      refine ⟨fun hn => absurd hn (hfins a (hs.mem_iff.1 ha)), fun x y _ hy => ?_⟩
      rw [hnans' b hb] at hy; cases hy
  cases desc with
  | false =>
    obtain ⟨h1, h2⟩ := sortKey_spec key fins
    refine hcombine _ h1 (h2.imp fun {a b} h x y hx hy => ?_)
    rw [hx, hy] at h
    simpa [Flt.lt] using h
  | true =>
    obtain ⟨h1, h2⟩ := sortKey_spec key fins.reverse
    refine hcombine _ ((List.reverse_perm _).trans (h1.trans (List.reverse_perm _))) ?_
    simp only [if_true]
    rw [List.pairwise_reverse]
    refine h2.imp fun {a b} h x y hx hy => ?_
    rw [hx, hy] at h
    simpa [Flt.lt] using h

theorem unionKeys_mem {α : Type} (ds : List (List (String × α))) (n : String) :
    n ∈ unionKeys ds ↔ ∃ d ∈ ds, n ∈ d.map Prod.fst := by
  induction ds with
  | nil => simp [unionKeys]
  | cons d ds ih =>
    simp only [unionKeys, List.mem_append, List.mem_filter, ih, List.mem_cons, decide_not,
      Bool.not_eq_true', decide_eq_false_iff_not]
    constructor
    · rintro (h | ⟨⟨d', hd', h⟩, -⟩)
      · exact ⟨d, Or.inl rfl, h⟩
      · exact ⟨d', Or.inr hd', h⟩
    · rintro ⟨d', rfl | hd', h⟩
      · exact Or.inl h
      · by_cases hn : n ∈ d.map Prod.fst
        · exact Or.inl hn
        · exact Or.inr ⟨⟨d', hd', h⟩, hn⟩

theorem unionKeys_nodup {α : Type} {ds : List (List (String × α))}
    (h : ∀ d ∈ ds, (d.map Prod.fst).Nodup) : (unionKeys ds).Nodup := by
  induction ds with
  | nil => simp [unionKeys]
  | cons d ds ih =>
    simp only [unionKeys]
    refine List.nodup_append.2 ⟨h d (List.mem_cons_self ..),
      (ih fun d hd => h d (List.mem_cons_of_mem _ hd)).filter _, ?_⟩
    rintro a ha b hb rfl
    have := (List.mem_filter.1 hb).2
    simp only [decide_not, Bool.not_eq_true', decide_eq_false_iff_not] at this
    exact this ha

theorem relativeToMin_keys (d : List (String × Flt K)) :
    (relativeToMin d).map Prod.fst = d.map Prod.fst := by
  cases d with
  | nil => rfl
  | cons e es => simp [relativeToMin]

theorem loop_keys {f : Chain K → Res (Option (Flt K))} {elig : Chain K → Bool}
    {cs : List (String × Chain K)}
    (h : ∀ e ∈ cs, ∀ o, f e.2 = .ok o → o.isSome = elig e.2) {l : List (String × Flt K)}
    (hl : criterionLoop f cs = .ok l) :
    l.map Prod.fst = (cs.filter fun e => elig e.2).map Prod.fst := by
  induction cs generalizing l with
  | nil => simp only [criterionLoop] at hl; cases hl; rfl
  | cons e es ih =>
    simp only [criterionLoop] at hl
    cases hf : f e.2 with
    | error _ => rw [hf] at hl; cases hl
    | ok o =>
      cases hr : criterionLoop f es with
      | error _ => rw [hf, hr] at hl; cases hl
      | ok rest =>
        have hi := ih (fun e he => h e (List.mem_cons_of_mem _ he)) hr
        have ho := h e (List.mem_cons_self ..) o hf
        rw [hf, hr] at hl
        cases o with
        | none =>
          cases hl
          rw [List.filter_cons, if_neg (by rw [← ho]; simp)]
          exact hi
        | some v =>
          cases hl
          rw [List.filter_cons, if_pos (by rw [← ho]; rfl), List.map_cons, List.map_cons, hi]

theorem aic_keys {cs : List (String × Chain K)} {r : List (String × Flt K)} (h : aic cs = .ok r) :
    r.map Prod.fst = (cs.filter fun e => eligible e.2).map Prod.fst := by
  obtain ⟨l, hl, hr⟩ := bind_ok_iff.1 h
  cases hr
  rw [relativeToMin_keys]
  refine loop_keys (fun e _ o ho => ?_) hl
  cases hel : eligible e.2 with
  | false =>
    have hnone : e.2.aicValue = .ok none := by
      unfold Chain.aicValue
      rcases not_eligible hel with h | h | h <;> rw [h] <;>
        cases e.2.logPosterior <;> cases e.2.numEffDataPoints <;> rfl
    rw [hnone] at ho; cases ho; rfl
  | true =>
    obtain ⟨p, N, k, hp, hN', hk⟩ := eligible_iff.1 hel
    simp only [Chain.aicValue, hp, hN', hk] at ho
    split at ho
    · cases ho
    · obtain ⟨m, -, hm⟩ := bind_ok_iff.1 ho
      cases hm; rfl

theorem dic_keys {tie : List (List K) → List K → Nat} {cs : List (String × Chain K)}
    {r : List (String × Flt K)} (h : dic tie cs = .ok r) :
    r.map Prod.fst = (cs.filter fun e =>
      decide (e.2.posteriorColumn ∈ e.2.samples.columns)).map Prod.fst := by
  obtain ⟨l, hl, hr⟩ := bind_ok_iff.1 h
  cases hr
  rw [relativeToMin_keys]
  refine loop_keys (elig := fun c => decide (c.posteriorColumn ∈ c.samples.columns))
    (fun e _ o ho => ?_) hl
  have hs := logPosterior_isSome (c := e.2)
  cases hp : e.2.logPosterior with
  | none =>
    simp only [Chain.dicValue, hp] at ho
    cases ho
    rw [hp] at hs
    simpa using hs
  | some p =>
    simp only [Chain.dicValue, hp] at ho
    simp only [bind_ok_iff] at ho
    obtain ⟨_, -, _, -, _, -, _, -, _, -, ho⟩ := ho
    cases ho
    rw [hp] at hs
    simpa using hs

end

theorem bic_keys {cs : List (String × Chain ℝ)} {r : List (String × Flt ℝ)} (h : bic cs = .ok r) :
    r.map Prod.fst = (cs.filter fun e => eligible e.2).map Prod.fst := by
  obtain ⟨l, hl, hr⟩ := bind_ok_iff.1 h
  cases hr
  rw [relativeToMin_keys]
  refine loop_keys (fun e _ o ho => ?_) hl
  cases hel : eligible e.2 with
  | false => rw [bicValue_none hel] at ho; cases ho; rfl
  | true =>
    obtain ⟨p, N, k, hp, hN', hk⟩ := eligible_iff.1 hel
    simp only [Chain.bicValue, hp, hN', hk] at ho
    obtain ⟨m, -, hm⟩ := bind_ok_iff.1 ho
    cases hm; rfl

theorem onlyIf_ok {α : Type} {b : Bool} {r : Res (List α)} {l : List α} (h : onlyIf b r = .ok l) :
    (b = true ∧ r = .ok l) ∨ (b = false ∧ l = []) := by
  unfold onlyIf at h
  cases b with
  | true => exact Or.inl ⟨rfl, h⟩
  | false => cases h; exact Or.inr ⟨rfl, rfl⟩

/-- The chains a table can list: with the DIC column all chains with a posterior, without it those
that also have both counts. -/
def Spec.listed (o : CompOpts) (c : Chain ℝ) : Bool :=
  if o.dic then decide (c.posteriorColumn ∈ c.samples.columns) else eligible c

/-- The dictionary behind a column. -/
noncomputable def critDict (tie : List (List ℝ) → List ℝ → Nat) (cs : List (String × Chain ℝ)) :
    Crit → Res (List (String × Flt ℝ))
  | .aic => aic cs
  | .bic => bic cs
  | .dic => dic tie cs

/-- **C20** (rows). The table lists every chain with a posterior exactly once when the DIC column is
on (without it: every chain that also has both counts), sorted by the requested criterion in the
requested direction, chains lacking it last. -/
theorem C20_rows_listed_and_sorted (tie : List (List ℝ) → List ℝ → Nat) (fmt : Flt ℝ → String)
    (o : CompOpts) (cs : List (String × Chain ℝ)) (hnd : (cs.map Prod.fst).Nodup) (p : CompParts)
    (h : compParts tie fmt o cs = .ok p) :
    p.names.Perm ((cs.filter fun e => listed o e.2).map Prod.fst) ∧ p.names.Nodup ∧
    ∃ r, critDict tie cs o.sort = .ok r ∧
      p.names.Pairwise fun m n =>
        (r.lookup m = none → ∀ y, r.lookup n ≠ some (.fin y)) ∧
        ∀ x y, r.lookup m = some (.fin x) → r.lookup n = some (.fin y) →
          if o.descending then y ≤ x else x ≤ y := by
  simp only [compParts, bind_ok_iff, ensure_ok_iff] at h
  obtain ⟨_, hon, a, ha, b, hb, d, hd, hp⟩ := h
  cases hp
  have hak := onlyIf_ok ha
  have hbk := onlyIf_ok hb
  have hdk := onlyIf_ok hd
  have hnda : (a.map Prod.fst).Nodup := by
    rcases hak with ⟨-, h⟩ | ⟨-, rfl⟩
    · rw [aic_keys h]; exact hnd.sublist (List.filter_sublist.map _)
    · simp
  have hndb : (b.map Prod.fst).Nodup := by
    rcases hbk with ⟨-, h⟩ | ⟨-, rfl⟩
    · rw [bic_keys h]; exact hnd.sublist (List.filter_sublist.map _)
    · simp
  have hndd : (d.map Prod.fst).Nodup := by
    rcases hdk with ⟨-, h⟩ | ⟨-, rfl⟩
    · rw [dic_keys h]; exact hnd.sublist (List.filter_sublist.map _)
    · simp
  have hndu : (unionKeys [a, b, d]).Nodup := by
    apply unionKeys_nodup
    simp only [List.mem_cons, List.not_mem_nil, or_false]
    rintro _ (rfl | rfl | rfl)
    exacts [hnda, hndb, hndd]
  obtain ⟨hs1, hs2⟩ := sortValues_spec
    (cellOf (match o.sort with | .aic => a | .bic => b | .dic => d)) o.descending
    (unionKeys [a, b, d])
  have hmem : ∀ n, n ∈ unionKeys [a, b, d] ↔
      n ∈ (cs.filter fun e => listed o e.2).map Prod.fst := by
    intro n
    have hsub : ∀ e : String × Chain ℝ, eligible e.2 = true →
        decide (e.2.posteriorColumn ∈ e.2.samples.columns) = true := by
      intro e he
      simp only [eligible, Bool.and_eq_true] at he
      exact he.1.1
    have hsubn : n ∈ (cs.filter fun e => eligible e.2).map Prod.fst →
        n ∈ (cs.filter fun e =>
          decide (e.2.posteriorColumn ∈ e.2.samples.columns)).map Prod.fst := by
      simp only [List.mem_map, List.mem_filter]
      rintro ⟨e, ⟨he, hel⟩, rfl⟩
      exact ⟨e, ⟨he, hsub e hel⟩, rfl⟩
    rw [unionKeys_mem]
    simp only [List.mem_cons, List.not_mem_nil, or_false, exists_eq_or_imp, exists_eq_left]
    simp only [listed]
    rcases hdk with ⟨hdic, hd'⟩ | ⟨hdic, rfl⟩
    · simp only [hdic, if_true]
      rw [dic_keys hd']
      constructor
      · rintro (h | h | h)
        · rcases hak with ⟨-, ha'⟩ | ⟨-, rfl⟩
          · rw [aic_keys ha'] at h; exact hsubn h
          · simp at h
        · rcases hbk with ⟨-, hb'⟩ | ⟨-, rfl⟩
          · rw [bic_keys hb'] at h; exact hsubn h
          · simp at h
        · exact h
      · exact fun h => Or.inr (Or.inr h)
    · simp only [hdic, Bool.false_eq_true, if_false]
      have hone : o.aic = true ∨ o.bic = true := by
        revert hon
        cases hsort : o.sort <;> simp [CompOpts.on, hdic]
        · exact Or.inl
        · exact Or.inr
      constructor
      · rintro (h | h | h)
        · rcases hak with ⟨-, ha'⟩ | ⟨-, rfl⟩
          · rw [aic_keys ha'] at h; exact h
          · simp at h
        · rcases hbk with ⟨-, hb'⟩ | ⟨-, rfl⟩
          · rw [bic_keys hb'] at h; exact h
          · simp at h
        · simp at h
      · intro h
        rcases hak with ⟨-, ha'⟩ | ⟨h1, rfl⟩
        · left; rw [aic_keys ha']; exact h
        · rcases hbk with ⟨-, hb'⟩ | ⟨h2, rfl⟩
          · right; left; rw [bic_keys hb']; exact h
          · rw [h1, h2] at hone; simp at hone
  have hndl : ((cs.filter fun e => listed o e.2).map Prod.fst).Nodup :=
    hnd.sublist (List.filter_sublist.map _)
  refine ⟨hs1.trans ((List.perm_ext_iff_of_nodup hndu hndl).2 hmem), hs1.nodup_iff.2 hndu, ?_⟩
  refine ⟨(match o.sort with | .aic => a | .bic => b | .dic => d), ?_, ?_⟩
  · revert hon
    cases hsort : o.sort <;> simp only [CompOpts.on, critDict] <;> intro hon
    · rcases hak with ⟨-, h⟩ | ⟨h, -⟩
      · exact h
      · rw [hon] at h; cases h
    · rcases hbk with ⟨-, h⟩ | ⟨h, -⟩
      · exact h
      · rw [hon] at h; cases h
    · rcases hdk with ⟨-, h⟩ | ⟨h, -⟩
      · exact h
      · rw [hon] at h; cases h
  · refine hs2.imp fun {m n} h => ⟨fun hm y hy => ?_, fun x y hx hy => ?_⟩
    · have := h.1 (by rw [cellOf, hm]; rfl)
      rw [cellOf, hy] at this
      cases this
    · exact h.2 x y (by rw [cellOf, hx]; rfl) (by rw [cellOf, hy]; rfl)

/-- Number of cells of a LaTeX table line. -/
def Spec.cells (line : String) : Nat := line.toList.count '&' + 1

/-- **C20** (rectangular). If numbers and chain names contain no `&`, every row has as many cells as
the header. The header agrees with the column specification when the DIC column is on. What is
missing is the case without it, see `C20_violated`. -/
theorem C20_rectangular_partial (tie : List (List ℝ) → List ℝ → Nat) (fmt : Flt ℝ → String)
    (hfmt : ∀ x, '&' ∉ (fmt x).toList) (o : CompOpts) (cs : List (String × Chain ℝ))
    (p : CompParts) (h : compParts tie fmt o cs = .ok p) :
    (∀ (i : Nat) (n line : String), p.names[i]? = some n → p.lines[i]? = some line →
      ("\t" ++ n).toList <+: line.toList ∧
      ('&' ∉ n.toList → cells line = cells p.header)) ∧
    p.lines.length = p.names.length ∧
    (o.dic = true → cells p.header = p.columnText.length) := by
  simp only [compParts, bind_ok_iff, ensure_ok_iff] at h
  obtain ⟨_, hon, a, ha, b, hb, d, hd, hp⟩ := h
  cases hp
  refine ⟨?_, by simp, ?_⟩
  · intro i n line hn hline
    simp only [] at hn
    simp only [List.getElem?_map, hn, Option.map_some, Option.some.injEq] at hline
    subst hline
    refine ⟨?_, fun hamp => ?_⟩
    · simp only [compLine, String.toList_append, List.append_assoc]
      rw [← List.append_assoc]
      exact List.prefix_append _ _
    have hf : ∀ x, (fmt x).toList.count '&' = 0 := fun x => List.count_eq_zero.2 (hfmt x)
    have hn0 : n.toList.count '&' = 0 := List.count_eq_zero.2 hamp
    simp only [cells, compLine, compHeader, String.toList_append, List.count_append, hn0]
    cases o.aic <;> cases o.bic <;> cases o.dic <;>
      simp [String.toList_append, List.count_append, hf]
  · intro hdic
    simp only [cells, compHeader, repeatChar, hdic]
    cases o.aic <;> cases o.bic <;> simp <;> rfl

/-- The cells of a table line: the texts between the `&`. -/
def Spec.cellTexts : List Char → List (List Char)
  | [] => [[]]
  | c :: cs => if c = '&' then [] :: cellTexts cs else
      match cellTexts cs with
      | [] => [[c]]
      | h :: t => (c :: h) :: t

/-- A cell shows a text: around it there are only blanks and the line end. -/
def Spec.Shows (text : String) (cell : List Char) : Prop :=
  ∃ a b, cell = a ++ text.toList ++ b ∧ ∀ ch ∈ a ++ b, ch ∈ [' ', '\t', '\\', '\n']

/-- The names of the criteria. -/
def Spec.critName : Crit → String
  | .aic => "AIC"
  | .bic => "BIC"
  | .dic => "DIC"

theorem cellTexts_ne (l : List Char) : cellTexts l ≠ [] := by
  cases l with
  | nil => simp [cellTexts]
  | cons c cs =>
    unfold cellTexts
    split_ifs
    · simp
    · cases cellTexts cs <;> simp

theorem cellTexts_plain {l : List Char} (h : '&' ∉ l) : cellTexts l = [l] := by
  induction l with
  | nil => rfl
  | cons c cs ih =>
    simp only [List.mem_cons, not_or] at h
    rw [cellTexts, if_neg (fun e => h.1 e.symm), ih h.2]

theorem cellTexts_append {a : List Char} (h : '&' ∉ a) (b : List Char) : cellTexts (a ++ '&' :: b) = a :: cellTexts b := by
  induction a with
  | nil => simp [cellTexts]
  | cons c cs ih =>
    simp only [List.mem_cons, not_or] at h
    rw [List.cons_append, cellTexts, if_neg (fun e => h.1 e.symm), ih h.2]

/-- A cell with the blanks before the `&`, after it, and after its text. -/
structure CellParts where
  sep : List Char
  pre : List Char
  text : String
  post : List Char

/-- The line of a table with the given first text, cells and line end. -/
theorem shows_line (pre : List Char) (first : String) (post : List Char) (cs : List CellParts) (fin : List Char)
    (hb : ∀ ch ∈ pre ++ post ++ fin, ch ∈ [' ', '\t', '\\', '\n'])
    (hc : ∀ e ∈ cs, ∀ ch ∈ e.sep ++ e.pre ++ e.post, ch ∈ [' ', '\t', '\\', '\n'])
    (h0 : '&' ∉ first.toList) (ht : ∀ e ∈ cs, '&' ∉ e.text.toList) :
    List.Forall₂ Shows (first :: cs.map (·.text))
      (cellTexts (pre ++ first.toList ++ post ++ (cs.flatMap fun e => e.sep ++ '&' :: (e.pre ++ e.text.toList ++ e.post)) ++ fin)) := by
  have hamp : ∀ l : List Char, (∀ ch ∈ l, ch ∈ [' ', '\t', '\\', '\n']) → '&' ∉ l := by
    intro l hl hm
    have := hl _ hm
    simp at this
  induction cs generalizing pre first post with
  | nil =>
    have e : pre ++ first.toList ++ post ++ [] ++ fin = pre ++ first.toList ++ (post ++ fin) := by simp
    rw [List.flatMap_nil, e, cellTexts_plain]
    · exact .cons ⟨pre, post ++ fin, rfl, by simpa using hb⟩ .nil
    · have := hamp _ hb
      simp only [List.mem_append, not_or] at this ⊢
      tauto
  | cons c cs ih =>
    have e : pre ++ first.toList ++ post ++ ((c :: cs).flatMap fun e => e.sep ++ '&' :: (e.pre ++ e.text.toList ++ e.post)) ++ fin =
        (pre ++ first.toList ++ (post ++ c.sep)) ++ '&' :: (c.pre ++ c.text.toList ++ c.post ++
          (cs.flatMap fun e => e.sep ++ '&' :: (e.pre ++ e.text.toList ++ e.post)) ++ fin) := by simp
    have hs := hc c (by simp)
    rw [e, cellTexts_append]
    · refine .cons ⟨pre, post ++ c.sep, rfl, fun ch hch => ?_⟩ (ih c.pre c.text c.post ?_ ?_ ?_ ?_)
      · simp only [List.mem_append] at hch
        rcases hch with h | h | h
        · exact hb ch (by simp [h])
        · exact hb ch (by simp [h])
        · exact hs ch (by simp [h])
      · intro ch hch
        simp only [List.mem_append] at hch
        rcases hch with (h | h) | h
        · exact hs ch (by simp [h])
        · exact hs ch (by simp [h])
        · exact hb ch (by simp [h])
      · exact fun e he => hc e (by simp [he])
      · exact ht c (by simp)
      · exact fun e he => ht e (by simp [he])
    · have h1 := hamp _ hb
      have h2 := hamp _ hs
      simp only [List.mem_append, not_or] at h1 h2 ⊢
      tauto

/-- **C20** (cells). The columns after the first belong to the criteria that are on, each once: the cell in the header shows the
criterion's name and the cell in the row of a chain shows the chain's value of that criterion (NaN if it has none). -/
theorem C20_cells (tie : List (List ℝ) → List ℝ → Nat) (fmt : Flt ℝ → String)
    (hfmt : ∀ x, '&' ∉ (fmt x).toList) (o : CompOpts) (cs : List (String × Chain ℝ))
    (p : CompParts) (h : compParts tie fmt o cs = .ok p) : ∃ ks : List Crit, ks.Nodup ∧ (∀ k, k ∈ ks ↔ o.on k = true) ∧
      List.Forall₂ Shows ("Model" :: ks.map critName) (cellTexts p.header.toList) ∧
      ∃ r : Crit → List (String × Flt ℝ), (∀ k ∈ ks, critDict tie cs k = .ok (r k)) ∧
        ∀ (i : Nat) (n line : String), p.names[i]? = some n → p.lines[i]? = some line → '&' ∉ n.toList →
          List.Forall₂ Shows (n :: ks.map fun k => fmt (((r k).lookup n).getD .nan)) (cellTexts line.toList) := by
  simp only [compParts, bind_ok_iff, ensure_ok_iff] at h
  obtain ⟨_, hon, a, ha, b, hb, d, hd, hp⟩ := h
  cases hp
  have hak := onlyIf_ok ha
  have hbk := onlyIf_ok hb
  have hdk := onlyIf_ok hd
  refine ⟨(if o.aic then [.aic] else []) ++ (if o.bic then [.bic] else []) ++ (if o.dic then [.dic] else []), ?_, ?_, ?_,
    fun k => match k with | .aic => a | .bic => b | .dic => d, ?_, ?_⟩
  · cases o.aic <;> cases o.bic <;> cases o.dic <;> decide
  · intro k
    cases k <;> simp only [CompOpts.on] <;> cases o.aic <;> cases o.bic <;> cases o.dic <;> decide
  · have := shows_line ['\t'] "Model" [] ((if o.aic then [⟨[' '], [' '], "AIC", []⟩] else []) ++
      (if o.bic then [⟨[' '], [' '], "BIC", [' ']⟩] else []) ++ (if o.dic then [⟨[' '], [' '], "DIC", [' ']⟩] else []))
      [' ', '\\', '\\', ' ', '\n'] (by simp) ?_ (by decide) ?_
    · revert this
      simp only [compHeader]
      cases o.aic <;> cases o.bic <;> cases o.dic <;> exact id
    · cases o.aic <;> cases o.bic <;> cases o.dic <;> simp
    · cases o.aic <;> cases o.bic <;> cases o.dic <;> simp
  · intro k hk
    simp only [List.mem_append] at hk
    rcases hk with (hk | hk) | hk
    · rcases hak with ⟨_, h1⟩ | ⟨h1, _⟩
      · split_ifs at hk; simp_all [critDict]
      · rw [h1] at hk; simp at hk
    · rcases hbk with ⟨_, h1⟩ | ⟨h1, _⟩
      · split_ifs at hk; simp_all [critDict]
      · rw [h1] at hk; simp at hk
    · rcases hdk with ⟨_, h1⟩ | ⟨h1, _⟩
      · split_ifs at hk; simp_all [critDict]
      · rw [h1] at hk; simp at hk
  · intro i n line hn hline hamp
    simp only [] at hn
    simp only [List.getElem?_map, hn, Option.map_some, Option.some.injEq] at hline
    subst hline
    have := shows_line ['\t'] n [] ((if o.aic then [⟨[' ', ' '], [' ', ' '], fmt (cellOf a n), [' ', ' ']⟩] else []) ++
      (if o.bic then [⟨[' ', ' '], [' ', ' '], fmt (cellOf b n), [' ', ' ']⟩] else []) ++
      (if o.dic then [⟨[' ', ' '], [' ', ' '], fmt (cellOf d n), [' ', ' ']⟩] else []))
      [' ', '\\', '\\', ' ', '\n'] (by simp) ?_ hamp ?_
    · have h1 : "  &  ".toList = [' ', ' ', '&', ' ', ' '] := rfl
      have h2 : "  ".toList = [' ', ' '] := rfl
      have h3 : "\t".toList = ['\t'] := rfl
      have h4 : " \\\\ \n".toList = [' ', '\\', '\\', ' ', '\n'] := rfl
      revert this
      simp only [compLine, cellOf]
      cases o.aic <;> cases o.bic <;> cases o.dic <;> simp [String.toList_append, h1, h2, h3, h4]
    · cases o.aic <;> cases o.bic <;> cases o.dic <;> simp
    · cases o.aic <;> cases o.bic <;> cases o.dic <;> simp [hfmt]

/-- **C20** (violation). Without the DIC column the column specification has one column too many,
for every registry and option set. -/
theorem C20_violated (tie : List (List ℝ) → List ℝ → Nat) (fmt : Flt ℝ → String)
    (o : CompOpts) (cs : List (String × Chain ℝ)) (p : CompParts) (hdic : o.dic = false)
    (h : compParts tie fmt o cs = .ok p) : p.columnText.length = cells p.header + 1 := by
  simp only [compParts, bind_ok_iff, ensure_ok_iff] at h
  obtain ⟨_, hon, a, ha, b, hb, d, hd, hp⟩ := h
  cases hp
  simp only [cells, compHeader, repeatChar, hdic]
  cases o.aic <;> cases o.bic <;> simp <;> rfl

/-- The table exists for all registries of accepted chains, unless AIC is on and an eligible chain
has exactly `num_free_params + 1` data points. -/
theorem C20_succeeds (tie : List (List ℝ) → List ℝ → Nat) (fmt : Flt ℝ → String)
    (o : CompOpts) (cs : List (String × Chain ℝ)) (hcs : ∀ e ∈ cs, AcceptedNoShift e.2)
    (hcols : ∀ e ∈ cs, e.2.dataColumns ≠ []) (hsort : o.on o.sort = true)
    (hN : ∀ e ∈ cs, ∀ N k, e.2.numEffDataPoints = some N → e.2.numFreeParams = some k →
      N ≠ k + 1) : ∃ p, compParts tie fmt o cs = .ok p := by
  obtain ⟨a, ha, -⟩ := C17_aic_partial cs (fun e he => (AcceptedNoShift.accepted (hcs e he))) hN
  obtain ⟨d, hd, -⟩ := C17_dic tie cs hcs hcols
  have hb : ∃ b, bic cs = .ok b := by
    by_cases h : ∃ e ∈ cs, eligible e.2 = true ∧ e.2.numEffDataPoints = some 0
    · obtain ⟨e, he, hel, hN⟩ := h
      obtain ⟨r, hr, -⟩ := C17_bic_nan cs (fun e he => (AcceptedNoShift.accepted (hcs e he))) e he hel hN
      exact ⟨r, hr⟩
    · push Not at h
      obtain ⟨l, hl, -⟩ := relative_criterion (f := Chain.bicValue) (elig := eligible) (crit := BIC)
        (fun e he hel => bicValue_spec (AcceptedNoShift.accepted (hcs e he)) hel (h e he hel))
        (fun e _ hel => bicValue_none hel)
      exact ⟨relativeToMin l, by simp only [bic, hl, bind, Except.bind, pure, Except.pure]⟩
  obtain ⟨b, hb⟩ := hb
  have hif : ∀ {x : Bool} {r : Res (List (String × Flt ℝ))} {l}, r = .ok l →
      ∃ l', onlyIf x r = .ok l' := by
    intro x r l h
    unfold onlyIf
    split
    · exact ⟨l, h⟩
    · exact ⟨[], rfl⟩
  obtain ⟨a', ha'⟩ := hif (x := o.aic) ha
  obtain ⟨b', hb'⟩ := hif (x := o.bic) hb
  obtain ⟨d', hd'⟩ := hif (x := o.dic) hd
  simp only [compParts, hsort, ensure, if_true, ha', hb', hd', bind, Except.bind, pure, Except.pure]
  exact ⟨_, rfl⟩

/-- A registry with a chain over the reals for which a table is produced. -/
example (tie : List (List ℝ) → List ℝ → Nat) (fmt : Flt ℝ → String) :
    ∃ (cs : List (String × Chain ℝ)) (p : CompParts), (cs.map Prod.fst).Nodup ∧
      compParts tie fmt {} cs = .ok p ∧ p.names = ["demo"] := by
  let f : Frame ℝ := { index := [.int 0, .int 1],
                       cols := [("a", [1, 2]), ("weight", [1, 2]), ("log_posterior", [0, -1])] }
  have hf : f.WF := ⟨by simp [f], by simp [f]⟩
  obtain ⟨c, hc, hcs, hw, hp, -⟩ := plain_chain f hf (by simp [f]) (w := [1, 2]) rfl (by simp) "demo"
  have hN : c.numEffDataPoints = none := by
    obtain ⟨_, _, _, _, _, _, _, _, _, _, _, _, _, _, rfl⟩ := Chain.make_ok_iff.1 hc
    rfl
  have hcol : c.dataColumns ≠ [] := by
    have : "a" ∈ c.dataColumns := by
      simp only [Chain.dataColumns, hcs, hw, hp, f, Frame.columns]
      decide +kernel
    exact List.ne_nil_of_mem this
  have hpost : c.posteriorColumn ∈ c.samples.columns := by
    rw [hcs, hp]; simp [f, Frame.columns]
  obtain ⟨p, hok⟩ := C20_succeeds tie fmt {} [("demo", c)]
    (by simpa using ⟨_, toRaw_WF.2 hf, rfl, hc⟩) (by simpa using hcol) rfl (by simp [hN])
  refine ⟨_, p, by simp, hok, ?_⟩
  have := (C20_rows_listed_and_sorted tie fmt {} [("demo", c)] (by simp) p hok).1
  rw [List.filter_cons, if_pos (by simp [listed, hpost])] at this
  simpa using this

end CC
